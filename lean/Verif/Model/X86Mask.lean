import Verif.Model.X86Int
import Verif.Model.Popcnt
import Verif.Model.Cpu

/-!
# Logical registers of the x86 back end (egg/platform_x86.py)

Before AVX-512 a logical is a register whose lanes are all ones or zero; on AVX-512 it is
a bit mask `__mmask{n}` with one bit per lane (`BitVec n`).  An `f16` logical is a pair of
`f32` logicals.
-/

namespace Nsimd.X86

variable {n w : Nat}

/-! ### Instructions (Intel semantics) -/

/-- `_mm_movemask_ps/pd` (and the 256-bit forms) followed by the cast to `u32`: bit `i` is
the sign bit of lane `i`. Intel semantics, not code of the repo. -/
def movemask (r : Reg n w) : BitVec 32 :=
  BitVec.ofFnLE fun i : Fin 32 => if h : i.val < n then (r ⟨i, h⟩).msb else false

/-- `_mm_movemask_epi8` / `_mm256_movemask_epi8` of a register with `n` lanes of `k` bytes:
bit `j` is the top bit of byte `j`. Intel semantics, not code of the repo. -/
def movemaskEpi8 (k : Nat) (r : Reg n w) : BitVec 32 :=
  BitVec.ofFnLE fun j : Fin 32 =>
    if h : j.val / k < n then (r ⟨j / k, h⟩).getLsbD (8 * (j % k) + 7) else false

/-! ### all, any (egg/platform_x86.py:2111-2151) -/

/-- `all` of integers on SSE: `(u32)_mm_movemask_epi8(in0) == 0xFFFF`,
egg/platform_x86.py:2118-2122. -/
def allSse (k : Nat) (r : Reg n w) : Bool := movemaskEpi8 k r == 0xFFFF#32
/-- `any` of integers on SSE: `(u32)_mm_movemask_epi8(in0) != 0u`,
egg/platform_x86.py:2118-2122. -/
def anySse (k : Nat) (r : Reg n w) : Bool := movemaskEpi8 k r != 0#32
/-- `all` of integers on AVX2: `_mm256_movemask_epi8(in0) == -1`,
egg/platform_x86.py:2130-2133. -/
def allAvx2 (k : Nat) (r : Reg n w) : Bool := movemaskEpi8 k r == -1#32
/-- `any` of integers on AVX2: `_mm256_movemask_epi8(in0) != 0`,
egg/platform_x86.py:2130-2133. -/
def anyAvx2 (k : Nat) (r : Reg n w) : Bool := movemaskEpi8 k r != 0#32
/-- Low 128 bits of a 256-bit register: `extract(..., LO, ...)`, egg/platform_x86.py:354-389. -/
def lo {m : Nat} (r : Reg (m + m) w) : Reg m w := fun i => r ⟨i, by omega⟩
/-- High 128 bits of a 256-bit register: `extract(..., HI, ...)`, egg/platform_x86.py:354-389. -/
def hi {m : Nat} (r : Reg (m + m) w) : Reg m w := fun i => r ⟨m + i, by omega⟩
/-- `all` of integers on AVX: both halves, egg/platform_x86.py:2134-2143. -/
def allAvx {m : Nat} (k : Nat) (r : Reg (m + m) w) : Bool := allSse k (lo r) && allSse k (hi r)
/-- `any` of integers on AVX: either half, egg/platform_x86.py:2134-2143. -/
def anyAvx {m : Nat} (k : Nat) (r : Reg (m + m) w) : Bool := anySse k (lo r) || anySse k (hi r)
/-- The constant of the float tests: `0xF`/`0x3` on SSE, `0xFF`/`0xF` on AVX, by lane
count, egg/platform_x86.py:2124, 2145. -/
def allConst (n : Nat) : BitVec 32 :=
  if n = 8 then 0xFF#32 else if n = 4 then 0xF#32 else 0x3#32
/-- `all` of floats before AVX-512, egg/platform_x86.py:2123-2127, 2144-2148. -/
def allF (r : Reg n w) : Bool := movemask r == allConst n
/-- `any` of floats before AVX-512, egg/platform_x86.py:2123-2127, 2144-2148. -/
def anyF (r : Reg n w) : Bool := movemask r != 0#32
/-- `all` on AVX-512: `in0 == 0xF...F` with `n / 4` digits, egg/platform_x86.py:2149-2152. -/
def all512 (k : BitVec n) : Bool := k == BitVec.ofNat n (16 ^ (n / 4) - 1)
/-- `any` on AVX-512: `in0 != 0`, egg/platform_x86.py:2149-2152. -/
def any512 (k : BitVec n) : Bool := k != 0#n
/-- `all` of an `f16` logical: `all(v0) && all(v1)`, egg/platform_x86.py:2112-2117. -/
def allF16 {L : Type} (all : L → Bool) (v : L × L) : Bool := all v.1 && all v.2
/-- `any` of an `f16` logical: `any(v0) || any(v1)`, egg/platform_x86.py:2112-2117. -/
def anyF16 {L : Type} (any : L → Bool) (v : L × L) : Bool := any v.1 || any v.2

/-! ### nbtrue (egg/platform_x86.py:2447-2482) -/

/-- `nbtrue` of 8-bit lanes on SSE and AVX2, egg/platform_x86.py:2452-2454. -/
def nbtrue8 (r : Reg n 8) : Nat := Popcnt.loop (movemaskEpi8 1 r)
/-- `nbtrue` of 16-bit lanes on SSE and AVX2: the count of bytes shifted right by one,
egg/platform_x86.py:2455-2457. -/
def nbtrue16 (r : Reg n 16) : Nat := Popcnt.loop (movemaskEpi8 2 r) >>> 1
/-- `nbtrue` of 32- and 64-bit lanes on SSE and AVX, egg/platform_x86.py:2458-2465. -/
def nbtrue32 (r : Reg n w) : Nat := Popcnt.loop (movemask r)
/-- `nbtrue` of 8-bit lanes on AVX, egg/platform_x86.py:2474-2480. -/
def nbtrue8Avx {m : Nat} (r : Reg (m + m) 8) : Nat := nbtrue8 (lo r) + nbtrue8 (hi r)
/-- `nbtrue` of 16-bit lanes on AVX, egg/platform_x86.py:2474-2480. -/
def nbtrue16Avx {m : Nat} (r : Reg (m + m) 16) : Nat := nbtrue16 (lo r) + nbtrue16 (hi r)
/-- `nbtrue` on AVX-512: `nsimd_popcnt64_((u64)in0)`, egg/platform_x86.py:2481-2482. -/
def nbtrue512 (k : BitVec n) : Nat := Popcnt.loop (k.setWidth 64)
/-- `nbtrue` of an `f16` logical: the sum of both halves, egg/platform_x86.py:2448-2451. -/
def nbtrueF16 {L : Type} (nb : L → Nat) (v : L × L) : Nat := nb v.1 + nb v.2

/-! ### AVX-512 masks -/

/-- `andl` on AVX-512, egg/platform_x86.py:1176-1215 (`_kand_mask` is the same function). -/
def andl512 (a b : BitVec n) : BitVec n := a &&& b
/-- `orl` on AVX-512, egg/platform_x86.py:1176-1215. -/
def orl512 (a b : BitVec n) : BitVec n := a ||| b
/-- `xorl` on AVX-512, egg/platform_x86.py:1176-1215. -/
def xorl512 (a b : BitVec n) : BitVec n := a ^^^ b
/-- `andnotl` on AVX-512: `(__mmask)(in0 & (~in1))`, egg/platform_x86.py:1252-1260. -/
def andnotl512 (a b : BitVec n) : BitVec n := a &&& ~~~b
/-- `notl` on AVX-512: `(__mmask)(~in0)`, egg/platform_x86.py:1287-1295. -/
def notl512 (a : BitVec n) : BitVec n := ~~~a
/-- `set1l` on AVX-512: `(__mmask)(~(__mmask)0)` or 0, egg/platform_x86.py:1551-1556. -/
def set1l512 (n : Nat) (b : Int) : BitVec n := if b ≠ 0 then ~~~0#n else 0#n

/-- `_mm512_movm_epi{w}` / `_mm512_mask_mov(zero, in0, -1)` and the loop over `buf`: lane
`i` is all ones if bit `i` is set. `to_mask1`, egg/platform_x86.py:3258-3287. -/
def toMask512 (w : Nat) (k : BitVec n) : Reg n w :=
  fun i => if k.getLsbD i then BitVec.allOnes w else 0#w

/-- `if_else1` on AVX-512: `_mm512_mask_blend(in0, in2, in1)` and the loop over buffers,
egg/platform_x86.py:1784-1803. -/
def ifElse512 {α : Type} (k : BitVec n) (a b : Fin n → α) : Fin n → α :=
  fun i => if k.getLsbD i then a i else b i

/-- `loadl` on AVX-512: `for (i...) if (in0[i] != 0) ret |= (__mmask)1 << i;`,
egg/platform_x86.py:1872-1881. `isZero` is the comparison of an element with 0. -/
def loadl512 {M α : Type} (e : Cpu.Elem M α) (n : Nat) (m : Cpu.Mem M) (p : Int) :
    Option (BitVec n) :=
  (List.range n).foldlM (fun ret (i : Nat) => (m (p + (i : Nat))).bind fun x => (e.dec x).map fun v =>
    if e.isZero v then ret else ret ||| (1#n <<< i)) 0#n

/-- `loadl` of `f16` on AVX-512: the `u16` version followed by a split of the mask,
egg/platform_x86.py:1861-1871. -/
def loadlF16 (m : Cpu.Mem (BitVec 16)) (p : Int) : Option (BitVec 16 × BitVec 16) :=
  (loadl512 (Cpu.intElem .u16) 32 m p).map fun tmp =>
    ((tmp &&& 0xFFFF#32).setWidth 16, ((tmp >>> 16) &&& 0xFFFF#32).setWidth 16)

/-- `storel` on AVX-512: `in0[i] = (typ)(((in1 >> i) & 1) ? 1 : 0);`,
egg/platform_x86.py:1908-1912. -/
def storel512 {M α : Type} (e : Cpu.Elem M α) (m : Cpu.Mem M) (p : Int) (k : BitVec n) :
    Option (Cpu.Mem M) :=
  Cpu.stores (List.range n) (fun i => some (p + (i : Nat),
    e.enc (if (k >>> i) &&& 1#n ≠ 0#n then e.one else e.zero))) m

/-! ### Masks from halves on KNL (`split_cmp2`, egg/platform_x86.py:660-709) -/

/-- The 8-bit merge: `(__mmask64)(u32)movemask_epi8(v00) |
((__mmask64)(u32)movemask_epi8(v01) << 32)`, egg/platform_x86.py:664-669. -/
def merge8 (v00 v01 : Reg 32 8) : BitVec 64 :=
  (movemaskEpi8 1 v00).setWidth 64 ||| ((movemaskEpi8 1 v01).setWidth 64 <<< 32)

/-- `_mm256_permute4x64_epi64(v, 216)` on 16-bit lanes: quad word `q` of the result is quad
word `(216 >> 2q) & 3` of `v`. Intel semantics, not code of the repo. -/
def permute4x64Lanes (imm : Nat) (v : Reg 16 16) : Reg 16 16 :=
  fun i => v ⟨4 * ((imm >>> (2 * (i.val / 4))) % 4) + i.val % 4, by omega⟩

/-- `_mm256_unpacklo_epi16(v, v)` seen as 32-bit lanes: in each 128-bit half, the lanes
0-3 of the half, each twice. Intel semantics, not code of the repo. -/
def unpackloSelf (v : Reg 16 16) : Reg 8 32 :=
  fun i => v ⟨8 * (i.val / 4) + i.val % 4, by omega⟩ ++ v ⟨8 * (i.val / 4) + i.val % 4, by omega⟩

/-- `_mm256_unpackhi_epi16(v, v)` seen as 32-bit lanes: in each 128-bit half, the lanes
4-7 of the half, each twice. Intel semantics, not code of the repo. -/
def unpackhiSelf (v : Reg 16 16) : Reg 8 32 :=
  fun i => v ⟨8 * (i.val / 4) + 4 + i.val % 4, by omega⟩ ++
    v ⟨8 * (i.val / 4) + 4 + i.val % 4, by omega⟩

/-- The 16-bit merge, egg/platform_x86.py:679-694. -/
def merge16 (v00 v01 : Reg 16 16) : BitVec 32 :=
  let v00 := permute4x64Lanes 216 v00
  let lo1 := unpackloSelf v00
  let hi1 := unpackhiSelf v00
  let v01 := permute4x64Lanes 216 v01
  let lo2 := unpackloSelf v01
  let hi2 := unpackhiSelf v01
  movemask lo1 ||| movemask hi1 <<< 8 ||| movemask lo2 <<< 16 ||| movemask hi2 <<< 24

/-- `split_cmp2` on KNL for 8-bit lanes: compare both halves with the AVX2 operator `op`,
then merge, egg/platform_x86.py:697-709. -/
def splitCmp8 (op : BitVec 8 → BitVec 8 → BitVec 8) (a b : Reg 64 8) : BitVec 64 :=
  merge8 (fun i => op (lo (m := 32) a i) (lo (m := 32) b i))
    (fun i => op (hi (m := 32) a i) (hi (m := 32) b i))

/-- `split_cmp2` on KNL for 16-bit lanes, egg/platform_x86.py:697-709. -/
def splitCmp16 (op : BitVec 16 → BitVec 16 → BitVec 16) (a b : Reg 32 16) : BitVec 32 :=
  merge16 (fun i => op (lo (m := 16) a i) (lo (m := 16) b i))
    (fun i => op (hi (m := 16) a i) (hi (m := 16) b i))

/-! ### mask_for_loop_tail (egg/platform_x86.py:3612-3631) -/

/-- `mask_for_loop_tail` of the integer types: lanes as truth values. `in1 - in0` is
computed in `int` (undefined on overflow); otherwise the lane values of
`lt(iota(), set1((typ)(in1 - in0)))`. egg/platform_x86.py:3612-3631. -/
def maskForLoopTail (t : ITy) (n : Nat) (in0 in1 : Int) : Option (Fin n → Bool) :=
  if in0 ≥ in1 then some fun _ => false
  else (ITy.i32.prom (in1 - in0)).bind fun d =>
    if d < n then some fun i => t.val (t.cast ((i : Nat) : Int)) < t.val (t.cast d)
    else some fun _ => true

end Nsimd.X86
