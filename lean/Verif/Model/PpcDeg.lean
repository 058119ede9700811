import Verif.Model.X86Zip

/-!
# Byte permutations of the POWER back end (egg/platform_ppc.py)

Degree 2, 3 and 4 loads and stores, zip, unzip and reverse of VMX and VSX.  Registers hold 16
bytes; the code is written with the shuffle expressions `Sh` of `Verif.Model.X86Shuffle`, one
constructor application per intrinsic.  Byte and element numbers are those of the array the
register is loaded from, which is how the compilers number them for the intrinsics used here on
both byte orders.  On VMX the 64-bit types are structs `{ v0, v1 }` (egg/platform_ppc.py:189-190);
they are seen as registers of two lanes.
-/

namespace Nsimd.Ppc
open Nsimd.X86 (Sh Pick Bytes ETy Deg Half)

/-! ### Intrinsics -/

/-- `vec_perm(a, b, mask)`: byte `mask[i] % 32` of the 32 bytes of `a` and `b`.
Power intrinsics semantics, not code of the repo. -/
def vecPerm (a b : Sh) (mask : List Nat) : Sh :=
  .sel (fun i =>
    let m := mask.getD i 0 % 32
    if m < 16 then .fst m else .snd (m - 16)) a b

/-- `vec_mergeh(a, b)` with lanes of `w` bytes: interleaves the first halves.
Power intrinsics semantics, not code of the repo. -/
def vecMergeh (w : Nat) (a b : Sh) : Sh :=
  .sel (fun i =>
    let e := i / w
    let j := e / 2 * w + i % w
    if e % 2 = 0 then .fst j else .snd j) a b

/-- `vec_mergel(a, b)` with lanes of `w` bytes: interleaves the last halves.
Power intrinsics semantics, not code of the repo. -/
def vecMergel (w : Nat) (a b : Sh) : Sh :=
  .sel (fun i =>
    let e := i / w
    let j := 8 + e / 2 * w + i % w
    if e % 2 = 0 then .fst j else .snd j) a b

/-- `vec_splats(x)` where `x` is element `e` of the registers' worth of memory `r`: all lanes of
`w` bytes hold it. Power intrinsics semantics, not code of the repo. -/
def vecSplats (w e : Nat) (r : Sh) : Sh := .sel (fun i => .fst (w * e + i % w)) r r

/-- `vec_insert(x, v, l)` where `x` is element `e` of `r`: lane `l` of `v` becomes `x`.
Power intrinsics semantics, not code of the repo. -/
def vecInsert (w e : Nat) (r v : Sh) (l : Nat) : Sh :=
  .sel (fun i => if i / w = l then .fst (w * e + i % w) else .snd i) r v

/-- `NSIMD_PERMUTE_MASK_32`, `_16` and `_8` (`w` = 4, 2, 1): the bytes of the listed elements,
egg/platform_ppc.py:281-309. -/
def permuteMask (w : Nat) (es : List Nat) : List Nat :=
  es.flatMap fun e => (List.range w).map fun j => w * e + j

/-! ### zip, unzip, reverse -/

/-- `ziplo`/`ziphi`: `vec_mergeh`/`vec_mergel`, egg/platform_ppc.py:1518-1525. -/
def zipHalf (w : Nat) (f : Half) (a b : Sh) : Sh :=
  match f with
  | .lo => vecMergeh w a b
  | .hi => vecMergel w a b

/-- The table `perm` of `unziplo`/`unziphi`: `2 * sz * i + (0 or sz) + j` for each lane `i` and
byte `j`, egg/platform_ppc.py:1489-1496. -/
def unzipPerm (w : Nat) (f : Half) : List Nat :=
  (List.range (16 / w)).flatMap fun i => (List.range w).map fun j =>
    2 * w * i + (match f with | .lo => 0 | .hi => w) + j

/-- `unziplo`/`unziphi` of 8, 16 and 32-bit types: egg/platform_ppc.py:1488-1500.  The 64-bit
types take element 0 or 1 of each argument, egg/platform_ppc.py:1475-1487. -/
def unzipHalf (t : ETy) (f : Half) (a b : Sh) : Sh :=
  match t with
  | .i64 | .f64 =>
    let i := match f with | .lo => 0 | .hi => 1
    vecInsert 8 i b (vecSplats 8 i a) 1
  | t => vecPerm a b (unzipPerm t.bytes f)

/-- `ziplo`/`ziphi` of f16 vectors, pairs `{v0, v1}` of f32 registers: the `vec_splats` and
`vec_insert` statements of egg/platform_ppc.py:1504-1517, in order. -/
def zipHalfF16 (f : Half) (a b : Sh × Sh) : Sh × Sh :=
  let ai := match f with | .lo => a.1 | .hi => a.2
  let bi := match f with | .lo => b.1 | .hi => b.2
  let v0 := vecSplats 4 0 ai
  let v0 := vecInsert 4 1 ai v0 2
  let v1 := vecSplats 4 2 ai
  let v1 := vecInsert 4 3 ai v1 2
  let v0 := vecInsert 4 0 bi v0 1
  let v0 := vecInsert 4 1 bi v0 3
  let v1 := vecInsert 4 2 bi v1 1
  let v1 := vecInsert 4 3 bi v1 3
  (v0, v1)

/-- `unziplo`/`unziphi` of f16 vectors: `unzip{lo,hi}` on the f32 members of each argument,
egg/platform_ppc.py:1470-1474. -/
def unzipHalfF16 (f : Half) (a b : Sh × Sh) : Sh × Sh :=
  (unzipHalf .f32 f a.1 a.2, unzipHalf .f32 f b.1 b.2)

/-- `reverse` of the non-emulated types: `vec_perm` with a constant table,
egg/platform_ppc.py:1285-1304. -/
def reverse1 (t : ETy) (a : Sh) : Sh :=
  match t with
  | .i8 => vecPerm a a [15, 14, 13, 12, 11, 10, 9, 8, 7, 6, 5, 4, 3, 2, 1, 0]
  | .i16 => vecPerm a a [14, 15, 12, 13, 10, 11, 8, 9, 6, 7, 4, 5, 2, 3, 0, 1]
  | .i32 | .f32 => vecPerm a a [12, 13, 14, 15, 8, 9, 10, 11, 4, 5, 6, 7, 0, 1, 2, 3]
  | .i64 | .f64 => vecPerm a a [8, 9, 10, 11, 12, 13, 14, 15, 0, 1, 2, 3, 4, 5, 6, 7]

/-! ### Loads: `.inp k` is the `k`-th register's worth of memory -/

/-- Loads of 64-bit types, any degree: `vec_splats(a0[i])`, `vec_insert(a0[i + deg], ., 1)`,
egg/platform_ppc.py:398-420.  Element `e` of memory is element `e % 2` of register `e / 2`. -/
def load64 (deg : Nat) : List Sh :=
  (List.range deg).map fun i =>
    vecInsert 8 ((i + deg) % 2) (.inp ((i + deg) / 2)) (vecSplats 8 (i % 2) (.inp (i / 2))) 1

/-- `load2`: `nsimd_unzip(in0, in1)`, egg/platform_ppc.py:473-476, 1529-1534. -/
def load2 (t : ETy) : List Sh :=
  [unzipHalf t .lo (.inp 0) (.inp 1), unzipHalf t .hi (.inp 0) (.inp 1)]

/-- `load3` of i32, u32, f32: egg/platform_ppc.py:478-500. -/
def load3_32 : List Sh :=
  let perm1 := permuteMask 4 [0, 3, 6, 0]
  let tmp0 := vecPerm (.inp 0) (.inp 1) perm1
  let tmp1 := vecPerm (.inp 1) (.inp 2) perm1
  let tmp2 := vecPerm (.inp 2) (.inp 0) perm1
  let perm2 := permuteMask 4 [0, 1, 2, 5]
  let perm3 := permuteMask 4 [5, 0, 1, 2]
  let perm4 := permuteMask 4 [2, 5, 0, 1]
  [vecPerm tmp0 (.inp 2) perm2, vecPerm tmp1 (.inp 0) perm3, vecPerm tmp2 (.inp 1) perm4]

/-- `load3` of i16, u16: egg/platform_ppc.py:501-529. -/
def load3_16 : List Sh :=
  let permRAB := permuteMask 2 [0, 3, 6, 9, 12, 15, 0, 0]
  let permRDC := permuteMask 2 [0, 1, 2, 3, 4, 5, 10, 13]
  let tmp0 := vecPerm (.inp 0) (.inp 1) permRAB
  let permGAB := permuteMask 2 [1, 4, 7, 10, 13, 0, 0, 0]
  let permGEC := permuteMask 2 [0, 1, 2, 3, 4, 8, 11, 14]
  let tmp1 := vecPerm (.inp 0) (.inp 1) permGAB
  let permBAB := permuteMask 2 [2, 5, 8, 11, 14, 0, 0, 0]
  let permBFC := permuteMask 2 [0, 1, 2, 3, 4, 9, 12, 15]
  let tmp2 := vecPerm (.inp 0) (.inp 1) permBAB
  [vecPerm tmp0 (.inp 2) permRDC, vecPerm tmp1 (.inp 2) permGEC, vecPerm tmp2 (.inp 2) permBFC]

/-- `load3` of i8, u8: egg/platform_ppc.py:530-558. -/
def load3_8 : List Sh :=
  let permRAB := permuteMask 1 [0, 3, 6, 9, 12, 15, 18, 21, 24, 27, 30, 0, 0, 0, 0, 0]
  let permRDC := permuteMask 1 [0, 1, 2, 3, 4, 5, 6, 7, 8, 9, 10, 17, 20, 23, 26, 29]
  let tmp0 := vecPerm (.inp 0) (.inp 1) permRAB
  let permGAB := permuteMask 1 [1, 4, 7, 10, 13, 16, 19, 22, 25, 28, 31, 0, 0, 0, 0, 0]
  let permGEC := permuteMask 1 [0, 1, 2, 3, 4, 5, 6, 7, 8, 9, 10, 18, 21, 24, 27, 30]
  let tmp1 := vecPerm (.inp 0) (.inp 1) permGAB
  let permBAB := permuteMask 1 [2, 5, 8, 11, 14, 17, 20, 23, 26, 29, 0, 0, 0, 0, 0, 0]
  let permBFC := permuteMask 1 [0, 1, 2, 3, 4, 5, 6, 7, 8, 9, 16, 19, 22, 25, 28, 31]
  let tmp2 := vecPerm (.inp 0) (.inp 1) permBAB
  [vecPerm tmp0 (.inp 2) permRDC, vecPerm tmp1 (.inp 2) permGEC, vecPerm tmp2 (.inp 2) permBFC]

/-- One block of four merges `(x0, x2), (x1, x3)`: the statements repeated in
egg/platform_ppc.py:562-574, 577-594, 597-619 and 760-798. -/
def mergeStage (w : Nat) (x0 x1 x2 x3 : Sh) : Sh × Sh × Sh × Sh :=
  (vecMergeh w x0 x2, vecMergel w x0 x2, vecMergeh w x1 x3, vecMergel w x1 x3)

/-- `load4` of i32, u32, f32: two blocks, egg/platform_ppc.py:560-574. -/
def load4_32 : List Sh :=
  let (tmp0, tmp1, tmp2, tmp3) := mergeStage 4 (.inp 0) (.inp 1) (.inp 2) (.inp 3)
  let (v0, v1, v2, v3) := mergeStage 4 tmp0 tmp1 tmp2 tmp3
  [v0, v1, v2, v3]

/-- `load4` of i16, u16: three blocks, egg/platform_ppc.py:575-594. -/
def load4_16 : List Sh :=
  let (r0, r1, r2, r3) := mergeStage 2 (.inp 0) (.inp 1) (.inp 2) (.inp 3)
  let (tmp0, tmp1, tmp2, tmp3) := mergeStage 2 r0 r1 r2 r3
  let (v0, v1, v2, v3) := mergeStage 2 tmp0 tmp1 tmp2 tmp3
  [v0, v1, v2, v3]

/-- `load4` of i8, u8: four blocks, egg/platform_ppc.py:595-619. -/
def load4_8 : List Sh :=
  let (tmp0, tmp1, tmp2, tmp3) := mergeStage 1 (.inp 0) (.inp 1) (.inp 2) (.inp 3)
  let (r0, r1, r2, r3) := mergeStage 1 tmp0 tmp1 tmp2 tmp3
  let (tmp0, tmp1, tmp2, tmp3) := mergeStage 1 r0 r1 r2 r3
  let (v0, v1, v2, v3) := mergeStage 1 tmp0 tmp1 tmp2 tmp3
  [v0, v1, v2, v3]

/-- `load1234` for degrees 2, 3, 4: the dispatch of egg/platform_ppc.py:385-619. -/
def loadDeg : Deg → ETy → List Sh
  | d, .i64 => load64 d.num
  | d, .f64 => load64 d.num
  | .two, t => load2 t
  | .three, .i8 => load3_8
  | .three, .i16 => load3_16
  | .three, .i32 => load3_32
  | .three, .f32 => load3_32
  | .four, .i8 => load4_8
  | .four, .i16 => load4_16
  | .four, .i32 => load4_32
  | .four, .f32 => load4_32

/-! ### Stores: `.inp k` is argument register `k + 1`, the list holds `ret0`, `ret1`, ... -/

/-- Stores of 64-bit types: `a0[i] = vec_extract(arg, 0); a0[i + deg] = vec_extract(arg, 1);`,
egg/platform_ppc.py:627-642.  Seen as registers: element `e` of memory is element `e / deg` of
argument `e % deg`. -/
def store64 (deg : Nat) : List Sh :=
  (List.range deg).map fun r =>
    let e0 := 2 * r
    let e1 := 2 * r + 1
    vecInsert 8 (e1 / deg) (.inp (e1 % deg)) (vecSplats 8 (e0 / deg) (.inp (e0 % deg))) 1

/-- `store2`: egg/platform_ppc.py:680-685. -/
def store2 (w : Nat) : List Sh := [vecMergeh w (.inp 0) (.inp 1), vecMergel w (.inp 0) (.inp 1)]

/-- `store3` of i32, u32, f32: egg/platform_ppc.py:687-704. -/
def store3_32 : List Sh :=
  let perm1 := permuteMask 4 [0, 2, 4, 6]
  let perm2 := permuteMask 4 [0, 2, 5, 7]
  let perm3 := permuteMask 4 [1, 3, 5, 7]
  let tmp0 := vecPerm (.inp 0) (.inp 1) perm1
  let tmp1 := vecPerm (.inp 2) (.inp 0) perm2
  let tmp2 := vecPerm (.inp 1) (.inp 2) perm3
  [vecPerm tmp0 tmp1 perm1, vecPerm tmp2 tmp0 perm2, vecPerm tmp1 tmp2 perm3]

/-- `store3` of i16, u16: egg/platform_ppc.py:705-731. -/
def store3_16 : List Sh :=
  let permARG := permuteMask 2 [0, 8, 0, 1, 9, 0, 2, 10]
  let permAXB := permuteMask 2 [0, 1, 8, 3, 4, 9, 6, 7]
  let tmp0 := vecPerm (.inp 0) (.inp 1) permARG
  let permBRG := permuteMask 2 [0, 3, 11, 0, 4, 12, 0, 5]
  let permBYB := permuteMask 2 [10, 1, 2, 11, 4, 5, 12, 7]
  let tmp1 := vecPerm (.inp 0) (.inp 1) permBRG
  let permCRG := permuteMask 2 [13, 0, 6, 14, 0, 7, 15, 0]
  let permCZB := permuteMask 2 [0, 13, 2, 3, 14, 5, 6, 15]
  let tmp2 := vecPerm (.inp 0) (.inp 1) permCRG
  [vecPerm tmp0 (.inp 2) permAXB, vecPerm tmp1 (.inp 2) permBYB, vecPerm tmp2 (.inp 2) permCZB]

/-- `store3` of i8, u8: egg/platform_ppc.py:732-758. -/
def store3_8 : List Sh :=
  let mARG := permuteMask 1 [0, 16, 0, 1, 17, 0, 2, 18, 0, 3, 19, 0, 4, 20, 0, 5]
  let mAXB := permuteMask 1 [0, 1, 16, 3, 4, 17, 6, 7, 18, 9, 10, 19, 12, 13, 20, 15]
  let tmp0 := vecPerm (.inp 0) (.inp 1) mARG
  let mBRG := permuteMask 1 [21, 0, 6, 22, 0, 7, 23, 0, 8, 24, 0, 9, 25, 0, 10, 26]
  let mBYB := permuteMask 1 [0, 21, 2, 3, 22, 5, 6, 23, 8, 9, 24, 11, 12, 25, 14, 15]
  let tmp1 := vecPerm (.inp 0) (.inp 1) mBRG
  let mCRG := permuteMask 1 [0, 11, 27, 0, 12, 28, 0, 13, 29, 0, 14, 30, 0, 15, 31, 0]
  let mCZB := permuteMask 1 [26, 1, 2, 27, 4, 5, 28, 7, 8, 29, 10, 11, 30, 13, 14, 31]
  let tmp2 := vecPerm (.inp 0) (.inp 1) mCRG
  [vecPerm tmp0 (.inp 2) mAXB, vecPerm tmp1 (.inp 2) mBYB, vecPerm tmp2 (.inp 2) mCZB]

/-- `store4` of 8, 16 and 32-bit types: two blocks of merges, egg/platform_ppc.py:760-798. -/
def store4 (w : Nat) : List Sh :=
  let (tmp0, tmp1, tmp2, tmp3) := mergeStage w (.inp 0) (.inp 1) (.inp 2) (.inp 3)
  let (r0, r1, r2, r3) := mergeStage w tmp0 tmp1 tmp2 tmp3
  [r0, r1, r2, r3]

/-- `store1234` for degrees 2, 3, 4: the dispatch of egg/platform_ppc.py:626-798. -/
def storeDeg : Deg → ETy → List Sh
  | d, .i64 => store64 d.num
  | d, .f64 => store64 d.num
  | .two, t => store2 t.bytes
  | .three, .i8 => store3_8
  | .three, .i16 => store3_16
  | .three, .i32 => store3_32
  | .three, .f32 => store3_32
  | .four, t => store4 t.bytes

/-- `nsimd_load{deg}{a,u}_{vmx,vsx}`: register `r` of the result when the bytes at `a0` are `m`:
`vec_ld(16 * i, a0)` or `*((T *)a0 + i)`, egg/platform_ppc.py:459-472.  Simplified: the bytes are
mapped (and aligned for the aligned form). -/
def loadRun (d : Deg) (t : ETy) (m : Bytes) (r : Nat) : Bytes :=
  ((loadDeg d t).getD r (.inp 0)).eval (fun k j => m (k * 16 + j)) (fun _ => 0)

/-- `nsimd_store{deg}{a,u}_{vmx,vsx}`: the memory at `a0` afterwards, given its contents `m`
before: `vec_st(ret{i}, 16 * i, a0)`, egg/platform_ppc.py:671-682. -/
def storeRun (d : Deg) (t : ETy) (v : Nat → Bytes) (m : Bytes) : Bytes := fun x =>
  if x < d.num * 16 then
    ((storeDeg d t).getD (x / 16) (.inp 0)).eval v (fun _ => 0) (x % 16)
  else m x

/-- Loads of f16 vectors: member `k` of register `i` holds at lane `j` the conversion of
`ptr[i + k * 4 * deg + j * deg]`, egg/platform_ppc.py:421-451. -/
def loadF16 {α : Type} (deg : Nat) (ptr : Nat → α) (i k j : Nat) : α :=
  ptr (i + k * 4 * deg + j * deg)

/-- Offset written by store statement `(i, k, j)` of f16 vectors:
`ptr[i + k * 4 * deg + j * deg]`, egg/platform_ppc.py:656-664. -/
def storeF16Off (deg i k j : Nat) : Nat := i + k * 4 * deg + j * deg

/-- Stores of f16 vectors: the statements in order, `for i, for k, for j`,
egg/platform_ppc.py:656-664. -/
def storeF16 {α : Type} (deg : Nat) (v : Nat → Nat → Nat → α) (m : Nat → α) : Nat → α :=
  ((List.range deg).flatMap fun i => (List.range 2).flatMap fun k =>
    (List.range 4).map fun j => (i, k, j)).foldl
    (fun m s => fun x => if x = storeF16Off deg s.1 s.2.1 s.2.2 then v s.1 s.2.1 s.2.2 else m x) m

end Nsimd.Ppc
