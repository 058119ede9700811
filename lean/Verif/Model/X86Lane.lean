import Verif.Model.X86Int
import Verif.Model.Cpu
import Verif.Model.ScalarInt

/-!
# Lane insertion and extraction, and the emulation built on them (egg/platform_x86.py)

Here a register is its `N` bits; the `w`-bit lane `i` starts at bit `w * i`.  The generator
emits `set_lane` and `get_lane` with a literal lane number, which is the argument `i`.
-/

namespace Nsimd.X86

variable {N w : Nat}

/-! ### Instructions (Intel semantics) -/

/-- Lane `i` of `w` bits of a register. Machine representation, not code of the repo. -/
def lane (w : Nat) (r : BitVec N) (i : Nat) : BitVec w := r.extractLsb' (w * i) w

/-- `_mm_insert_epi{w}` / `_mm256_insert_epi{w}`: lane `i` replaced by `x`.
Intel semantics, not code of the repo. -/
def insertEpi (r : BitVec N) (x : BitVec w) (i : Nat) : BitVec N :=
  BitVec.ofFnLE fun k : Fin N => if k.val / w = i then x.getLsbD (k.val % w) else r.getLsbD k

/-- `_mm_insert_epi16(r, x, i)`: the low 16 bits of the `int` `x`.
Intel semantics, not code of the repo. -/
def insertEpi16 (r : BitVec 128) (x : BitVec 32) (i : Nat) : BitVec 128 :=
  insertEpi r (x.setWidth 16) i

/-- `_mm_extract_epi8/epi16` and the 256-bit forms: the lane zero extended to `int`.
Intel semantics, not code of the repo. -/
def extractEpi (w : Nat) (r : BitVec N) (i : Nat) : BitVec 32 := (lane w r i).setWidth 32

/-- `_mm_unpackhi_epi64(a, b)`. Intel semantics, not code of the repo. -/
def unpackhi64 (a b : BitVec 128) : BitVec 128 := lane 64 b 1 ++ lane 64 a 1
/-- `_mm_unpacklo_epi64(a, b)`. Intel semantics, not code of the repo. -/
def unpacklo64 (a b : BitVec 128) : BitVec 128 := lane 64 b 0 ++ lane 64 a 0
/-- `_mm512_inserti64x4(r, h, b)` and `_mm256_insertf128_si256(r, h, b)`: one half replaced, chosen
by the lowest bit of `b`. Intel semantics, not code of the repo. -/
def insertHalf (r : BitVec (N + N)) (h : BitVec N) (b : Nat) : BitVec (N + N) :=
  if b % 2 = 0 then r.extractLsb' N N ++ h else h ++ r.extractLsb' 0 N

/-! ### set_lane -/

/-- `set_lane` of 8-bit types on SSE2, egg/platform_x86.py:449-458: read the 16-bit lane, replace
one byte, write it back. The scalar is zero extended to `int`, egg/platform_x86.py:424-433. -/
def setSse2_8 (v : BitVec 128) (s : BitVec 8) (i : Nat) : BitVec 128 :=
  if i % 2 = 0 then
    insertEpi16 v ((extractEpi 16 v (i / 2) &&& 65280#32) ||| s.setWidth 32) (i / 2)
  else
    insertEpi16 v ((extractEpi 16 v (i / 2) &&& 255#32) ||| (s.setWidth 32 <<< 8)) (i / 2)

/-- `set_lane` of 16-bit types on SSE2, egg/platform_x86.py:459-460. -/
def setSse2_16 (v : BitVec 128) (s : BitVec 16) (i : Nat) : BitVec 128 :=
  insertEpi16 v (s.setWidth 32) i

/-- `set_lane` of 32-bit types on SSE2, egg/platform_x86.py:461-465: two 16-bit insertions, the
second of `(int)nsimd_scalar_reinterpret_u32_i32(s) >> 16`, an arithmetic shift of an `int`. -/
def setSse2_32 (v : BitVec 128) (s : BitVec 32) (i : Nat) : BitVec 128 :=
  insertEpi16 (insertEpi16 v (s &&& 65535#32) (i * 2)) (s.sshiftRight 16) (i * 2 + 1)

/-- `set_lane` of 64-bit types on SSE2, egg/platform_x86.py:466-473. -/
def setSse2_64 (v : BitVec 128) (s : BitVec 64) (i : Nat) : BitVec 128 :=
  if i = 0 then unpackhi64 (s.setWidth 128 <<< 64) v
  else unpacklo64 v (s.setWidth 128)

/-- `set_lane` on SSE4.2, AVX and AVX2, egg/platform_x86.py:474-476. -/
def setNative (v : BitVec N) (s : BitVec w) (i : Nat) : BitVec N := insertEpi v s i

/-- `set_lane` on AVX-512 (`N = 256`), egg/platform_x86.py:477-486. -/
def setAvx512 (v : BitVec (N + N)) (s : BitVec w) (i : Nat) : BitVec (N + N) :=
  let half := (N + N) / 2 / w
  if i < half then insertHalf v (insertEpi (v.extractLsb' 0 N) s i) 0
  else insertHalf v (insertEpi (v.extractLsb' N N) s (i - half)) 1

/-! ### get_lane -/

/-- `get_lane` of 8-bit types on SSE2, egg/platform_x86.py:512-514. -/
def getSse2_8 (v : BitVec 128) (i : Nat) : BitVec 8 :=
  ((v >>> (8 * i)).setWidth 32 &&& 255#32).setWidth 8
/-- `get_lane` of 16-bit types on SSE2, egg/platform_x86.py:515-516. -/
def getSse2_16 (v : BitVec 128) (i : Nat) : BitVec 16 := (extractEpi 16 v i).setWidth 16
/-- `get_lane` of 32- and 64-bit types on SSE2: a byte shift by `i * w / 8`,
egg/platform_x86.py:517-519. -/
def getSse2_32_64 (w : Nat) (v : BitVec 128) (i : Nat) : BitVec w :=
  (v >>> (8 * (i * w / 8))).setWidth w
/-- `get_lane` of 8- and 16-bit types on SSE4.2 and AVX2: the `int` is cast to the lane type,
egg/platform_x86.py:520-522, 541-546. -/
def getNativeSmall (w : Nat) (v : BitVec N) (i : Nat) : BitVec w := (extractEpi w v i).setWidth w
/-- `get_lane` of 32- and 64-bit types on SSE4.2, AVX and AVX2, egg/platform_x86.py:520-526. -/
def getNative (w : Nat) (v : BitVec N) (i : Nat) : BitVec w := lane w v i
/-- `get_lane` of 8- and 16-bit types on AVX (`N = 128`) and AVX-512 (`N = 256`), through the
halves, egg/platform_x86.py:527-538. -/
def getHalfSmall (w : Nat) (v : BitVec (N + N)) (i : Nat) : BitVec w :=
  let half := (N + N) / 2 / w
  if i < half then (extractEpi w (v.extractLsb' 0 N) i).setWidth w
  else (extractEpi w (v.extractLsb' N N) (i - half)).setWidth w
/-- `get_lane` of 32- and 64-bit types on AVX-512 (`N = 256`), through the halves,
egg/platform_x86.py:527-538. -/
def getHalf (w : Nat) (v : BitVec (N + N)) (i : Nat) : BitVec w :=
  let half := (N + N) / 2 / w
  if i < half then lane w (v.extractLsb' 0 N) i else lane w (v.extractLsb' N N) (i - half)

/-! ### The lane operators by extension -/

/-- The x86 extensions, egg/platform_x86.py:33-39 (KNL and Skylake share these two functions). -/
inductive Ext | sse2 | sse42 | avx | avx2 | avx512
  deriving DecidableEq

/-- Register size, egg/platform_x86.py:320-326. -/
abbrev Ext.bits : Ext → Nat
  | .sse2 | .sse42 => 128
  | .avx | .avx2 => 256
  | .avx512 => 512

/-- `set_lane(simd_ext, typ, v, s, i)`, egg/platform_x86.py:415-494. Only the width of the type
matters for the bits; `f32` and `f64` are cast to and from `i32` and `i64` bits (lines 436-445,
491-494), so they are `u32` and `u64` here. There is no code for f16 (lines 417-418). -/
def setLane (x : Ext) (t : ITy) (v : BitVec x.bits) (s : BitVec t.w) (i : Nat) : BitVec x.bits :=
  match x, t with
  | .sse2, .i8 | .sse2, .u8 => setSse2_8 v s i
  | .sse2, .i16 | .sse2, .u16 => setSse2_16 v s i
  | .sse2, .i32 | .sse2, .u32 => setSse2_32 v s i
  | .sse2, .i64 | .sse2, .u64 => setSse2_64 v s i
  | .sse42, _ => setNative v s i
  | .avx, _ => setNative v s i
  | .avx2, _ => setNative v s i
  | .avx512, _ => setAvx512 (N := 256) v s i

/-- `get_lane(simd_ext, typ, v, i)`, egg/platform_x86.py:496-552; floats as in `setLane`. -/
def getLane (x : Ext) (t : ITy) (v : BitVec x.bits) (i : Nat) : BitVec t.w :=
  match x, t with
  | .sse2, .i8 | .sse2, .u8 => getSse2_8 v i
  | .sse2, .i16 | .sse2, .u16 => getSse2_16 v i
  | .sse2, .i32 | .sse2, .u32 => getSse2_32_64 32 v i
  | .sse2, .i64 | .sse2, .u64 => getSse2_32_64 64 v i
  | .sse42, .i8 | .sse42, .u8 | .sse42, .i16 | .sse42, .u16 => getNativeSmall _ v i
  | .avx2, .i8 | .avx2, .u8 | .avx2, .i16 | .avx2, .u16 => getNativeSmall _ v i
  | .sse42, .i32 | .sse42, .u32 | .sse42, .i64 | .sse42, .u64 => getNative _ v i
  | .avx2, .i32 | .avx2, .u32 | .avx2, .i64 | .avx2, .u64 => getNative _ v i
  | .avx, .i32 | .avx, .u32 | .avx, .i64 | .avx, .u64 => getNative _ v i
  | .avx, .i8 | .avx, .u8 | .avx, .i16 | .avx, .u16 => getHalfSmall (N := 128) _ v i
  | .avx512, .i8 | .avx512, .u8 | .avx512, .i16 | .avx512, .u16 => getHalfSmall (N := 256) _ v i
  | .avx512, .i32 | .avx512, .u32 | .avx512, .i64 | .avx512, .u64 => getHalf (N := 256) _ v i

/-! ### Emulation of an operator by its scalar version -/

/-- The number of lanes, egg/platform_x86.py:3997. -/
def Ext.le (x : Ext) (t : ITy) : Nat := x.bits / t.w

/-- The `trick` of `get_emulation_code`, egg/platform_x86.py:566-587: from an undefined register
`ret`, for `i = 0 … le-1` extract lane `i` of the vector arguments, apply the scalar operator
(which may be undefined), insert the result in lane `i`.  `f` is the scalar operator as a
function of the extracted lanes of the vector arguments `args`. -/
def emulTrick (x : Ext) (t : ITy) (undef : BitVec x.bits)
    (f : List (BitVec t.w) → Option (BitVec t.w)) (args : List (BitVec x.bits)) :
    Option (BitVec x.bits) :=
  (List.range (x.le t)).foldlM (fun ret i =>
    (f (args.map fun a => getLane x t a i)).map fun s => setLane x t ret s i) undef

/-- The `emulation` of `get_emulation_code` for 32-bit builds, egg/platform_x86.py:589-612: the
arguments are written to the arrays `buf0`, `buf1` with the *aligned* store intrinsic
(`{pre}store{sufsi}`, line 596), undefined when an array is not aligned on the register size in
bytes; then `ret[i] = f(buf0[i], buf1[i])` and an unaligned load.  `addrs` are the addresses the
compiler gives to the arrays; a local array of the element type has no other alignment than that
of its elements. -/
def emulBuf (x : Ext) (t : ITy) (addrs : List Nat) (f : List (BitVec t.w) → Option (BitVec t.w))
    (args : List (BitVec x.bits)) : Option (Cpu.Vec (x.le t) (BitVec t.w)) :=
  if ∀ a ∈ addrs, a % (x.bits / 8) = 0 then
    Cpu.body fun i : Fin (x.le t) => f (args.map fun a => lane t.w a i)
  else none

/-- The scalar call with two vector arguments, signature `['v', 'v']`,
egg/platform_x86.py:573-575. -/
def call2 {α : Type} (g : α → α → Option α) : List α → Option α
  | [a, b] => g a b
  | _ => none
/-- The scalar call with one vector argument (signatures `['v']`, `['v', 's']`),
egg/platform_x86.py:573-575. -/
def call1 {α : Type} (g : α → Option α) : List α → Option α
  | [a] => g a
  | _ => none

/-- Integer `div`, egg/platform_x86.py:1320-1323. -/
def divEmul (x : Ext) (t : ITy) (undef a b : BitVec x.bits) : Option (BitVec x.bits) :=
  emulTrick x t undef (call2 (Scalar.div t)) [a, b]

/-- Integer `mul` of 64-bit lanes on SSE, AVX and KNL and of 32-bit lanes on SSE2,
egg/platform_x86.py:1336-1340, 1347-1350, 1361-1365. -/
def mulEmul (x : Ext) (t : ITy) (undef a b : BitVec x.bits) : Option (BitVec x.bits) :=
  emulTrick x t undef (call2 (Scalar.mul t)) [a, b]

/-- `shra` of i64 on SSE and AVX, egg/platform_x86.py:1484, 1486-1497. -/
def shraEmul (x : Ext) (t : ITy) (undef a : BitVec x.bits) (s : Int) : Option (BitVec x.bits) :=
  emulTrick x t undef (call1 fun a => Scalar.shra t a s) [a]

end Nsimd.X86
