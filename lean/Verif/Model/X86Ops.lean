import Verif.Model.X86Rev
import Verif.Model.X86Lane
import Verif.Model.X86Mask

/-!
# The integer operators of the x86 back end, extension by extension

Where `Model/X86Int` gives what a trick does to one lane, this file gives the functions of
egg/platform_x86.py themselves: for each extension and each integer type which code is generated,
and what it does to whole registers.  A register is its bits; casts between vector types are
omitted.  A logical is a register before AVX-512 and a bit mask on AVX-512.
-/

namespace Nsimd.X86Ops
open Nsimd.X86

variable {N : Nat}

/-! ### Registers -/

/-- KNL and Skylake share `set_lane` and `get_lane`, egg/platform_x86.py:33-39. -/
abbrev ext : Simd → Ext
  | .sse2 => .sse2
  | .sse42 => .sse42
  | .avx => .avx
  | .avx2 => .avx2
  | .knl => .avx512
  | .skylake => .avx512

/-- `nbits(simd_ext)`, egg/platform_x86.py:320-326. -/
abbrev bits (x : Simd) : Nat := (ext x).bits

/-- The number of lanes `le`, egg/platform_x86.py:3997. -/
abbrev le (x : Simd) (t : ITy) : Nat := bits x / t.w

/-- Size of a logical: that of a register before AVX-512, one bit per lane on AVX-512:
`get_logical_type`, egg/platform_x86.py:94-104. -/
abbrev lbits (x : Simd) (t : ITy) : Nat :=
  match x with
  | .knl | .skylake => 512 / t.w
  | _ => bits x

/-- An instruction that applies `f` to each lane of `w` bits.
Intel semantics, not code of the repo. -/
def vmap1 (w : Nat) (f : BitVec w → BitVec w) (a : BitVec N) : BitVec N :=
  BitVec.ofFnLE fun k : Fin N => (f (lane w a (k.val / w))).getLsbD (k.val % w)

/-- An instruction that applies `f` to the lanes of `w` bits of two registers.
Intel semantics, not code of the repo. -/
def vmap2 (w : Nat) (f : BitVec w → BitVec w → BitVec w) (a b : BitVec N) : BitVec N :=
  BitVec.ofFnLE fun k : Fin N =>
    (f (lane w a (k.val / w)) (lane w b (k.val / w))).getLsbD (k.val % w)

/-- An instruction that applies `f` to the lanes of `w` bits of three registers.
Intel semantics, not code of the repo. -/
def vmap3 (w : Nat) (f : BitVec w → BitVec w → BitVec w → BitVec w) (a b c : BitVec N) :
    BitVec N :=
  BitVec.ofFnLE fun k : Fin N =>
    (f (lane w a (k.val / w)) (lane w b (k.val / w)) (lane w c (k.val / w))).getLsbD (k.val % w)

/-- `_mm512_cmp_ep{i,u}{w}_mask`: one bit per lane.
Intel semantics, not code of the repo. -/
def cmpMask (w : Nat) (p : BitVec w → BitVec w → Bool) (a b : BitVec 512) : BitVec (512 / w) :=
  BitVec.ofFnLE fun i : Fin (512 / w) => p (lane w a i) (lane w b i)

/-- `_mm512_mask_blend{suf}(k, a, b)`: lane of `b` where the bit of `k` is set.
Intel semantics, not code of the repo. -/
def maskBlend (w : Nat) (k : BitVec (512 / w)) (a b : BitVec 512) : BitVec 512 :=
  BitVec.ofFnLE fun j : Fin 512 =>
    if k.getLsbD (j.val / w) then b.getLsbD j else a.getLsbD j

/-- `set1`: the scalar in every lane, egg/platform_x86.py:1512-1530. (For unsigned types the code
goes through a union with the signed type of the same bits.) -/
def set1 (x : Simd) (t : ITy) (s : BitVec t.w) : BitVec (bits x) :=
  BitVec.ofFnLE fun k : Fin (bits x) => s.getLsbD (k.val % t.w)

/-- The lower half of a register, `extract(..., LO, ...)`, egg/platform_x86.py:354-389. -/
def lower (a : BitVec (N + N)) : BitVec N := a.extractLsb' 0 N
/-- The upper half of a register, `extract(..., HI, ...)`, egg/platform_x86.py:354-389. -/
def upper (a : BitVec (N + N)) : BitVec N := a.extractLsb' N N
/-- `setr`: a register from its halves, egg/platform_x86.py:391-413. -/
def merge (l h : BitVec N) : BitVec (N + N) := h ++ l

/-- `split_opn(func, simd_ext, typ, 1)`: `f y` is `nsimd_{func}_{y}_{typ}`; AVX goes to SSE4.2 and
AVX-512 to AVX2, egg/platform_x86.py:629-648. (Never generated on SSE.) -/
def split1 (x : Simd) (f : (y : Simd) → BitVec (bits y) → BitVec (bits y)) :
    BitVec (bits x) → BitVec (bits x) :=
  match x with
  | .sse2 => f .sse2
  | .sse42 => f .sse42
  | .avx => fun a => merge (N := 128) (f .sse42 (lower a)) (f .sse42 (upper a))
  | .avx2 => fun a => merge (N := 128) (f .sse42 (lower a)) (f .sse42 (upper a))
  | .knl => fun a => merge (N := 256) (f .avx2 (lower a)) (f .avx2 (upper a))
  | .skylake => fun a => merge (N := 256) (f .avx2 (lower a)) (f .avx2 (upper a))

/-- `split_opn(func, simd_ext, typ, 2)`, egg/platform_x86.py:629-651. -/
def split2 (x : Simd) (f : (y : Simd) → BitVec (bits y) → BitVec (bits y) → BitVec (bits y)) :
    BitVec (bits x) → BitVec (bits x) → BitVec (bits x) :=
  match x with
  | .sse2 => f .sse2
  | .sse42 => f .sse42
  | .avx => fun a b =>
      merge (N := 128) (f .sse42 (lower a) (lower b)) (f .sse42 (upper a) (upper b))
  | .avx2 => fun a b =>
      merge (N := 128) (f .sse42 (lower a) (lower b)) (f .sse42 (upper a) (upper b))
  | .knl => fun a b =>
      merge (N := 256) (f .avx2 (lower a) (lower b)) (f .avx2 (upper a) (upper b))
  | .skylake => fun a b =>
      merge (N := 256) (f .avx2 (lower a) (lower b)) (f .avx2 (upper a) (upper b))

/-- `split_opn(func, simd_ext, typ, 3)` of an operator that may be undefined,
egg/platform_x86.py:629-648. -/
def split3M (x : Simd) (f : (y : Simd) → BitVec (bits y) → BitVec (bits y) → BitVec (bits y) →
    Option (BitVec (bits y))) :
    BitVec (bits x) → BitVec (bits x) → BitVec (bits x) → Option (BitVec (bits x)) :=
  match x with
  | .sse2 => f .sse2
  | .sse42 => f .sse42
  | .avx => fun a b c => do
      let l ← f .sse42 (lower a) (lower b) (lower c)
      let h ← f .sse42 (upper a) (upper b) (upper c)
      return merge (N := 128) l h
  | .avx2 => fun a b c => do
      let l ← f .sse42 (lower a) (lower b) (lower c)
      let h ← f .sse42 (upper a) (upper b) (upper c)
      return merge (N := 128) l h
  | .knl => fun a b c => do
      let l ← f .avx2 (lower a) (lower b) (lower c)
      let h ← f .avx2 (upper a) (upper b) (upper c)
      return merge (N := 256) l h
  | .skylake => fun a b c => do
      let l ← f .avx2 (lower a) (lower b) (lower c)
      let h ← f .avx2 (upper a) (upper b) (upper c)
      return merge (N := 256) l h

/-! ### Bitwise operators -/

/-- `andb`, egg/platform_x86.py:1141-1171 (the same bits on every extension and type). -/
def andb (x : Simd) (a b : BitVec (bits x)) : BitVec (bits x) := a &&& b
/-- `orb`, egg/platform_x86.py:1141-1171. -/
def orb (x : Simd) (a b : BitVec (bits x)) : BitVec (bits x) := a ||| b
/-- `xorb`, egg/platform_x86.py:1141-1171. -/
def xorb (x : Simd) (a b : BitVec (bits x)) : BitVec (bits x) := a ^^^ b
/-- `andnotb`: `_mm_andnot(in1, in0)`, egg/platform_x86.py:1220-1246. -/
def andnotb (x : Simd) (a b : BitVec (bits x)) : BitVec (bits x) := andnot b a
/-- `notb`: `andnotb(set1_epi8(-1), in0)`, egg/platform_x86.py:1266-1282. -/
def notb (x : Simd) (a : BitVec (bits x)) : BitVec (bits x) :=
  andnotb x (set1 x .i8 (-1#8)) a

/-! ### Addition, subtraction, multiplication, negation -/

/-- Where `addsub` uses the instruction: `not split`, egg/platform_x86.py:1301-1309. -/
def addsubNative (x : Simd) (t : ITy) : Bool :=
  match x with
  | .sse2 | .sse42 => true
  | .knl => 32 ≤ t.w
  | .avx2 => true
  | .skylake => true
  | .avx => false

/-- `add` of integers, egg/platform_x86.py:1301-1309. -/
def add (x : Simd) (t : ITy) (a b : BitVec (bits x)) : BitVec (bits x) :=
  if addsubNative x t then vmap2 t.w (· + ·) a b
  else split2 x (fun _ => vmap2 t.w (· + ·)) a b

/-- `sub` of integers, egg/platform_x86.py:1301-1309. -/
def sub (x : Simd) (t : ITy) (a b : BitVec (bits x)) : BitVec (bits x) :=
  if addsubNative x t then vmap2 t.w (· - ·) a b
  else split2 x (fun _ => vmap2 t.w (· - ·)) a b

/-- `neg` of integers: `sub(setzero, in0)`, egg/platform_x86.py:2439-2441. -/
def neg (x : Simd) (t : ITy) (a : BitVec (bits x)) : BitVec (bits x) := sub x t 0 a

/-- `mul` where it is neither split nor emulated: `mullo` for 16, 32 and 64 bits,
egg/platform_x86.py:1335-1365, and `with_epi16` for 8 bits, lines 1367-1382. -/
def mulDirect (t : ITy) (a b : BitVec N) : BitVec N :=
  match t with
  | .i8 | .u8 => vmap2 16 (mul8 (w := 8)) a b
  | t => vmap2 t.w (· * ·) a b

/-- How `mul2` generates integer `mul`, egg/platform_x86.py:1328-1385. -/
inductive MulCode | direct | split | emulate

/-- The choice made by `mul2`, egg/platform_x86.py:1328-1385. -/
def mulCode : Simd → ITy → MulCode
  | .sse2, .i16 | .sse2, .u16 | .sse42, .i16 | .sse42, .u16 => .direct
  | .sse42, .i32 | .sse42, .u32 => .direct
  | .sse2, .i32 | .sse2, .u32 => .emulate
  | .avx2, .i16 | .avx2, .u16 | .avx2, .i32 | .avx2, .u32 => .direct
  | .avx, .i16 | .avx, .u16 | .avx, .i32 | .avx, .u32 => .split
  | .sse2, .i64 | .sse2, .u64 | .sse42, .i64 | .sse42, .u64 => .emulate
  | .avx, .i64 | .avx, .u64 | .avx2, .i64 | .avx2, .u64 => .emulate
  | .skylake, .i16 | .skylake, .u16 => .direct
  | .knl, .i16 | .knl, .u16 => .split
  | .knl, .i32 | .knl, .u32 | .skylake, .i32 | .skylake, .u32 => .direct
  | .skylake, .i64 | .skylake, .u64 => .direct
  | .knl, .i64 | .knl, .u64 => .emulate
  | .sse2, .i8 | .sse2, .u8 | .sse42, .i8 | .sse42, .u8 => .direct
  | .avx2, .i8 | .avx2, .u8 | .skylake, .i8 | .skylake, .u8 => .direct
  | .avx, .i8 | .avx, .u8 | .knl, .i8 | .knl, .u8 => .split

/-- `mul` of integers, egg/platform_x86.py:1328-1385; `undef` is the undefined register the
emulation starts from. The split types are `direct` on SSE4.2 and AVX2. -/
def mul (x : Simd) (t : ITy) (undef a b : BitVec (bits x)) : Option (BitVec (bits x)) :=
  match mulCode x t with
  | .direct => some (mulDirect t a b)
  | .split => some (split2 x (fun _ => mulDirect t) a b)
  | .emulate => mulEmul (ext x) t undef a b

/-- The four fused operators of egg/platform_x86.py:1999-2037. -/
inductive Fma | fma | fms | fnma | fnms
  deriving DecidableEq

/-- `op = 'add' if func in ['fma', 'fnma'] else 'sub'`, egg/platform_x86.py:2000. -/
def Fma.adds : Fma → Bool
  | .fma | .fnma => true
  | _ => false
/-- `neg = 'n' if func in ['fnma', 'fnms'] else ''`, egg/platform_x86.py:2001. -/
def Fma.negs : Fma → Bool
  | .fnma | .fnms => true
  | _ => false

/-- The code `emulate` of `fma_fms`, egg/platform_x86.py:2008-2016. -/
def fmaEmulate (f : Fma) (x : Simd) (t : ITy) (undef a b c : BitVec (bits x)) :
    Option (BitVec (bits x)) := do
  let m ← mul x t undef (if f.negs then neg x t a else a) b
  return if f.adds then add x t m c else sub x t m c

/-- Integer `fma`, `fms`, `fnma`, `fnms`, egg/platform_x86.py:1999-2037: emulated, after a split
on AVX and KNL. -/
def fma (f : Fma) (x : Simd) (t : ITy) (undef : (y : Simd) → BitVec (bits y))
    (a b c : BitVec (bits x)) : Option (BitVec (bits x)) :=
  match x with
  | .avx => split3M .avx (fun y => fmaEmulate f y t (undef y)) a b c
  | .avx2 => fmaEmulate f .avx2 t (undef .avx2) a b c
  | .skylake => fmaEmulate f .skylake t (undef .skylake) a b c
  | .knl => split3M .knl (fun y => fmaEmulate f y t (undef y)) a b c
  | .sse2 => fmaEmulate f .sse2 t (undef .sse2) a b c
  | .sse42 => fmaEmulate f .sse42 t (undef .sse42) a b c

/-! ### Shifts (the count is a non-negative `int`) -/

/-- `shl` on SSE, AVX2 and Skylake: `with_2n_for_n` for 8 bits, else the instruction, which gives
zero for counts beyond the width as `<<<` does, egg/platform_x86.py:1402-1419, 1436-1453. -/
def shlDirect (t : ITy) (a : BitVec N) (s : Nat) : BitVec N :=
  match t with
  | .i8 | .u8 => vmap1 16 (fun v => shl2n (w := 8) v s) a
  | t => vmap1 t.w (· <<< s) a

/-- `shr` on SSE, AVX2 and Skylake, egg/platform_x86.py:1402-1419, 1436-1453. -/
def shrDirect (t : ITy) (a : BitVec N) (s : Nat) : BitVec N :=
  match t with
  | .i8 | .u8 => vmap1 16 (fun v => shr2n (w := 8) v s) a
  | t => vmap1 t.w (· >>> s) a

/-- `shl`, egg/platform_x86.py:1387-1453. -/
def shl (x : Simd) (t : ITy) (a : BitVec (bits x)) (s : Nat) : BitVec (bits x) :=
  match x, t with
  | .avx, t => split1 .avx (fun _ v => shlDirect t v s) a
  | .knl, .i8 | .knl, .u8 => vmap1 32 (fun v => shl32for8 v s) a
  | .knl, .i16 | .knl, .u16 => vmap1 32 (fun v => shl2n (w := 16) v s) a
  | _, t => shlDirect t a s

/-- `shr`, egg/platform_x86.py:1387-1453. -/
def shr (x : Simd) (t : ITy) (a : BitVec (bits x)) (s : Nat) : BitVec (bits x) :=
  match x, t with
  | .avx, t => split1 .avx (fun _ v => shrDirect t v s) a
  | .knl, .i8 | .knl, .u8 => vmap1 32 (fun v => shr32for8 v s) a
  | .knl, .i16 | .knl, .u16 => vmap1 32 (fun v => shr2n (w := 16) v s) a
  | _, t => shrDirect t a s

/-- `shra` of signed types where it is neither split nor emulated: `trick_for_i8`, else the
instruction, which fills with the sign, egg/platform_x86.py:1461-1482. -/
def shraDirect (t : ITy) (a : BitVec N) (s : Nat) : BitVec N :=
  match t with
  | .i8 => vmap1 16 (fun v => shraI8 (w := 8) v s) a
  | t => vmap1 t.w (·.sshiftRight s) a

/-- `shra`, egg/platform_x86.py:1455-1508. -/
def shra (x : Simd) (t : ITy) (undef a : BitVec (bits x)) (s : Nat) : Option (BitVec (bits x)) :=
  if t.sgn = false then some (shr x t a s)
  else match x, t with
    | .sse2, .i64 | .sse42, .i64 | .avx2, .i64 | .avx, .i64 => shraEmul _ .i64 undef a s
    | .avx, t => some (split1 .avx (fun _ v => shraDirect t v s) a)
    | .knl, .i8 => some (split1 .knl (fun _ v => shraDirect .i8 v s) a)
    | .knl, .i16 => some (split1 .knl (fun _ v => shraDirect .i16 v s) a)
    | _, t => some (shraDirect t a s)

/-! ### Logicals -/

/-- `set1l`: `_mm_cmpeq_pd` of zeros, all ones, or zero, egg/platform_x86.py:1535-1559. -/
def set1l (x : Simd) (t : ITy) (c : Int) : BitVec (lbits x t) :=
  if c ≠ 0 then ~~~(0 : BitVec (lbits x t)) else 0

/-- `andl`, egg/platform_x86.py:1176-1215: the bitwise operator on registers, `kand` or `&` on
masks. -/
def andl (x : Simd) (t : ITy) (a b : BitVec (lbits x t)) : BitVec (lbits x t) := a &&& b
/-- `orl`, egg/platform_x86.py:1176-1215. -/
def orl (x : Simd) (t : ITy) (a b : BitVec (lbits x t)) : BitVec (lbits x t) := a ||| b
/-- `xorl`, egg/platform_x86.py:1176-1215. -/
def xorl (x : Simd) (t : ITy) (a b : BitVec (lbits x t)) : BitVec (lbits x t) := a ^^^ b
/-- `andnotl`: `in0 & ~in1`, egg/platform_x86.py:1252-1261. -/
def andnotl (x : Simd) (t : ITy) (a b : BitVec (lbits x t)) : BitVec (lbits x t) := a &&& ~~~b
/-- `notl`: `andnotb(set1_epi8(-1), in0)` on registers, `~in0` on masks,
egg/platform_x86.py:1287-1296. -/
def notl (x : Simd) (t : ITy) (a : BitVec (lbits x t)) : BitVec (lbits x t) :=
  match x with
  | .knl | .skylake => ~~~a
  | .sse2 => notb .sse2 a
  | .sse42 => notb .sse42 a
  | .avx => notb .avx a
  | .avx2 => notb .avx2 a

/-! ### Comparisons -/

/-- `eq` on one lane where it is not split: `cmpeq`, or two 32-bit comparisons for 64-bit lanes
on SSE2, egg/platform_x86.py:1564-1588. -/
def eqLane (x : Simd) (t : ITy) : BitVec t.w → BitVec t.w → BitVec t.w :=
  match x, t with
  | .sse2, .i64 | .sse2, .u64 => eq64Sse2 (w := 32)
  | _, _ => cmpeq

/-- `gt` of a signed type on one lane where it is not split: `cmpgt`, or through memory for i64
on SSE2, egg/platform_x86.py:1634-1653, 1656-1661. -/
def gtLaneS (x : Simd) (w : Nat) : BitVec w → BitVec w → BitVec w :=
  if h : x = .sse2 ∧ w = 64 then h.2 ▸ gt64Sse2 else cmpgt

/-- `gt` on one lane where it is not split; unsigned types through `cmp2_with_add`, which adds
the sign bit and calls the signed operator, egg/platform_x86.py:717-726, 1654, 1662-1664. -/
def gtLane (x : Simd) (t : ITy) (a b : BitVec t.w) : BitVec t.w :=
  if t.sgn then gtLaneS x t.w a b
  else
    let cte := BitVec.ofNat t.w (2 ^ (t.w - 1))
    gtLaneS x t.w (a + cte) (b + cte)

/-- `split_cmp2` on AVX: compare the halves with the SSE4.2 operator and join,
egg/platform_x86.py:695-709. -/
def splitCmpAvx (w : Nat) (op : BitVec w → BitVec w → BitVec w) (a b : BitVec 256) :
    BitVec 256 :=
  merge (N := 128) (vmap2 w op (lower a) (lower b)) (vmap2 w op (upper a) (upper b))

/-- `<` of the lane type, as computed by `_mm512_cmp_ep{i,u}{w}_mask`.
Intel semantics, not code of the repo. -/
def ltT (t : ITy) (a b : BitVec t.w) : Bool := if t.sgn then a.slt b else a.ult b

/-- `<=` of the lane type, as computed by `_mm512_cmp_ep{i,u}{w}_mask`.
Intel semantics, not code of the repo. -/
def leT (t : ITy) (a b : BitVec t.w) : Bool := if t.sgn then a.sle b else a.ule b

/-- `eq` of integers, egg/platform_x86.py:1564-1602. -/
def eq (x : Simd) (t : ITy) (a b : BitVec (bits x)) : BitVec (lbits x t) :=
  match x with
  | .sse2 => vmap2 t.w (eqLane .sse2 t) a b
  | .sse42 => vmap2 t.w (eqLane .sse42 t) a b
  | .avx => splitCmpAvx t.w (eqLane .sse42 t) a b
  | .avx2 => vmap2 t.w (eqLane .avx2 t) a b
  | .knl =>
    match t with
    | .i8 => splitCmp8 (eqLane .avx2 .i8) (fun i => lane 8 a i) (fun i => lane 8 b i)
    | .u8 => splitCmp8 (eqLane .avx2 .u8) (fun i => lane 8 a i) (fun i => lane 8 b i)
    | .i16 => splitCmp16 (eqLane .avx2 .i16) (fun i => lane 16 a i) (fun i => lane 16 b i)
    | .u16 => splitCmp16 (eqLane .avx2 .u16) (fun i => lane 16 a i) (fun i => lane 16 b i)
    | t => cmpMask t.w (· == ·) a b
  | .skylake => cmpMask t.w (· == ·) a b

/-- `gt` of integers, egg/platform_x86.py:1634-1682; `_MM_CMPINT_NLE` on AVX-512. -/
def gt (x : Simd) (t : ITy) (a b : BitVec (bits x)) : BitVec (lbits x t) :=
  match x with
  | .sse2 => vmap2 t.w (gtLane .sse2 t) a b
  | .sse42 => vmap2 t.w (gtLane .sse42 t) a b
  | .avx => splitCmpAvx t.w (gtLane .sse42 t) a b
  | .avx2 => vmap2 t.w (gtLane .avx2 t) a b
  | .knl =>
    match t with
    | .i8 => splitCmp8 (gtLane .avx2 .i8) (fun i => lane 8 a i) (fun i => lane 8 b i)
    | .u8 => splitCmp8 (gtLane .avx2 .u8) (fun i => lane 8 a i) (fun i => lane 8 b i)
    | .i16 => splitCmp16 (gtLane .avx2 .i16) (fun i => lane 16 a i) (fun i => lane 16 b i)
    | .u16 => splitCmp16 (gtLane .avx2 .u16) (fun i => lane 16 a i) (fun i => lane 16 b i)
    | t => cmpMask t.w (fun a b => !leT t a b) a b
  | .skylake => cmpMask t.w (fun a b => !leT t a b) a b

/-- `lt`: `gt` with the arguments exchanged, egg/platform_x86.py:1687-1689. -/
def lt (x : Simd) (t : ITy) (a b : BitVec (bits x)) : BitVec (lbits x t) := gt x t b a

/-- `ne` of integers: `notl(eq)`, or `_MM_CMPINT_NE` on AVX-512, egg/platform_x86.py:1607-1630. -/
def ne (x : Simd) (t : ITy) (a b : BitVec (bits x)) : BitVec (lbits x t) :=
  match x with
  | .skylake => cmpMask t.w (· != ·) a b
  | .knl => if 32 ≤ t.w then cmpMask t.w (· != ·) a b else notl .knl t (eq .knl t a b)
  | .sse2 => notl .sse2 t (eq .sse2 t a b)
  | .sse42 => notl .sse42 t (eq .sse42 t a b)
  | .avx => notl .avx t (eq .avx t a b)
  | .avx2 => notl .avx2 t (eq .avx2 t a b)

/-- `ge` of integers: `notl(lt)`, or `_MM_CMPINT_NLT` on AVX-512, egg/platform_x86.py:1694-1721. -/
def ge (x : Simd) (t : ITy) (a b : BitVec (bits x)) : BitVec (lbits x t) :=
  match x with
  | .skylake => cmpMask t.w (fun a b => !ltT t a b) a b
  | .knl =>
    if 32 ≤ t.w then cmpMask t.w (fun a b => !ltT t a b) a b else notl .knl t (lt .knl t a b)
  | .sse2 => notl .sse2 t (lt .sse2 t a b)
  | .sse42 => notl .sse42 t (lt .sse42 t a b)
  | .avx => notl .avx t (lt .avx t a b)
  | .avx2 => notl .avx2 t (lt .avx2 t a b)

/-- `le` of integers (`leq2`): `notl(gt)`, or `_MM_CMPINT_LE` on AVX-512,
egg/platform_x86.py:1726-1752. -/
def leq (x : Simd) (t : ITy) (a b : BitVec (bits x)) : BitVec (lbits x t) :=
  match x with
  | .skylake => cmpMask t.w (leT t) a b
  | .knl => if 32 ≤ t.w then cmpMask t.w (leT t) a b else notl .knl t (gt .knl t a b)
  | .sse2 => notl .sse2 t (gt .sse2 t a b)
  | .sse42 => notl .sse42 t (gt .sse42 t a b)
  | .avx => notl .avx t (gt .avx t a b)
  | .avx2 => notl .avx2 t (gt .avx2 t a b)

/-! ### Selection, conversions of logicals -/

/-- The code `manual` of `if_else1`, egg/platform_x86.py:1764-1767. -/
def manual (x : Simd) (l a b : BitVec (bits x)) : BitVec (bits x) :=
  orb x (andb x a l) (andnotb x b l)

/-- `if_else1` of 8- and 16-bit types on KNL: a loop over two buffers,
egg/platform_x86.py:1791-1803. Buffers are registers here, one lane per iteration. -/
def loopBlend (w : Nat) (k : BitVec (512 / w)) (a b : BitVec 512) : BitVec 512 :=
  BitVec.ofFnLE fun j : Fin 512 =>
    if (k >>> (j.val / w)) &&& 1#(512 / w) = 0#(512 / w) then b.getLsbD j else a.getLsbD j

/-- `if_else1` of integers, egg/platform_x86.py:1756-1803. -/
def ifElse (x : Simd) (t : ITy) (l : BitVec (lbits x t)) (a b : BitVec (bits x)) :
    BitVec (bits x) :=
  match x with
  | .sse2 => manual .sse2 l a b
  | .sse42 => vmap3 t.w (fun m a b => blendvEpi8 b a m) l a b
  | .avx => manual .avx l a b
  | .avx2 => vmap3 t.w (fun m a b => blendvEpi8 b a m) l a b
  | .knl => if 32 ≤ t.w then maskBlend t.w l b a else loopBlend t.w l a b
  | .skylake => maskBlend t.w l b a

/-- `to_mask` of integers: the identity before AVX-512, `movm` on Skylake, a masked move of
`set1_epi32(-1)` or a loop on KNL, egg/platform_x86.py:3251-3288. -/
def toMask (x : Simd) (t : ITy) (l : BitVec (lbits x t)) : BitVec (bits x) :=
  match x with
  | .sse2 => l
  | .sse42 => l
  | .avx => l
  | .avx2 => l
  | .skylake => maskBlend t.w l 0 (~~~0)
  | .knl => if 32 ≤ t.w then maskBlend t.w l 0 (set1 .knl .i32 (-1#32))
            else loopBlend t.w l (~~~0) 0

/-- `to_logical` of integers: `ne(in0, setzero)`, egg/platform_x86.py:3293-3296. -/
def toLogical (x : Simd) (t : ITy) (a : BitVec (bits x)) : BitVec (lbits x t) := ne x t a 0

/-- `loadl` after the load: `notl(eq(v, set1(0)))`, before AVX-512 only,
egg/platform_x86.py:1882-1889. -/
def loadlReg (x : Simd) (t : ITy) (v : BitVec (bits x)) : BitVec (lbits x t) :=
  notl x t (eq x t v (set1 x t 0))

/-- `storel` before the store: `if_else1(l, set1(1), set1(0))`, before AVX-512 only,
egg/platform_x86.py:1913-1923. -/
def storelReg (x : Simd) (t : ITy) (l : BitVec (lbits x t)) : BitVec (bits x) :=
  ifElse x t l (set1 x t 1) (set1 x t 0)

/-! ### min, max, abs -/

/-- `_mm_max_ep{i,u}{w}` on one lane. Intel semantics, not code of the repo. -/
def maxT (t : ITy) (a b : BitVec t.w) : BitVec t.w := if ltT t b a then a else b
/-- `_mm_min_ep{i,u}{w}` on one lane. Intel semantics, not code of the repo. -/
def minT (t : ITy) (a b : BitVec t.w) : BitVec t.w := if ltT t a b then a else b

/-- How `minmax` and `abs1` generate code, egg/platform_x86.py:1808-1843, 1929-1994. -/
inductive Code | native | split | other

/-- The choice made by `minmax`, egg/platform_x86.py:1818-1843 (`other` is `with_if_else`). -/
def minmaxCode (x : Simd) (t : ITy) : Code :=
  match x, t with
  | .sse2, .u8 | .sse2, .i16 => .native
  | .sse42, .u8 | .sse42, .i16 => .native
  | .sse42, .i8 | .sse42, .u16 | .sse42, .i32 | .sse42, .u32 => .native
  | .avx2, .i64 | .avx2, .u64 | .avx, .i64 | .avx, .u64 => .other
  | .avx2, _ => .native
  | .avx, _ => .split
  | .skylake, _ => .native
  | .knl, .i32 | .knl, .u32 | .knl, .i64 | .knl, .u64 => .native
  | .knl, _ => .split
  | _, _ => .other

/-- `max` of integers, egg/platform_x86.py:1808-1843. -/
def max (x : Simd) (t : ITy) (a b : BitVec (bits x)) : BitVec (bits x) :=
  match minmaxCode x t with
  | .native => vmap2 t.w (maxT t) a b
  | .split => split2 x (fun _ => vmap2 t.w (maxT t)) a b
  | .other => ifElse x t (gt x t a b) a b

/-- `min` of integers, egg/platform_x86.py:1808-1843. -/
def min (x : Simd) (t : ITy) (a b : BitVec (bits x)) : BitVec (bits x) :=
  match minmaxCode x t with
  | .native => vmap2 t.w (minT t) a b
  | .split => split2 x (fun _ => vmap2 t.w (minT t)) a b
  | .other => ifElse x t (gt x t b a) a b

/-- `_mm_abs_epi{w}` on one lane: the smallest value is left as it is.
Intel semantics, not code of the repo. -/
def absInstr {w : Nat} (a : BitVec w) : BitVec w := if a.msb then -a else a

/-- `bit_twiddling_no_arith_shift`, egg/platform_x86.py:1954-1959, for SSE. -/
def absNoShift (x : Simd) (t : ITy) (a : BitVec (bits x)) : BitVec (bits x) :=
  let mask := vmap2 t.w (· - ·) 0 (shr x t a (t.w - 1))
  vmap2 t.w (· + ·) a mask ^^^ mask

/-- `abs` of integers, egg/platform_x86.py:1929-1994. -/
def abs (x : Simd) (t : ITy) (a : BitVec (bits x)) : BitVec (bits x) :=
  if t.sgn = false then a
  else match x, t with
    | .sse2, .i16 => vmap1 16 absArith a
    | .sse2, .i32 => vmap1 32 absArith a
    | .sse2, t => absNoShift .sse2 t a
    | .sse42, .i64 => absNoShift .sse42 .i64 a
    | .sse42, t => vmap1 t.w absInstr a
    | .avx2, .i64 => vmap1 64 absBlend a
    | .avx2, t => vmap1 t.w absInstr a
    | .avx, .i64 => split1 .avx (fun y => absNoShift y .i64) a
    | .avx, t => split1 .avx (fun _ => vmap1 t.w absInstr) a
    | .knl, .i8 => split1 .knl (fun _ => vmap1 8 absInstr) a
    | .knl, .i16 => split1 .knl (fun _ => vmap1 16 absInstr) a
    | .knl, t => vmap1 t.w absInstr a
    | .skylake, t => vmap1 t.w absInstr a

/-! ### Saturated addition and subtraction -/

/-- `_mm_adds_ep{i,u}{8,16}` on one lane. Intel semantics, not code of the repo. -/
def addsInstr (t : ITy) (a b : BitVec t.w) : BitVec t.w :=
  t.cast (Max.max t.minv (Min.min t.maxv (t.val a + t.val b)))
/-- `_mm_subs_ep{i,u}{8,16}` on one lane. Intel semantics, not code of the repo. -/
def subsInstr (t : ITy) (a b : BitVec t.w) : BitVec t.w :=
  t.cast (Max.max t.minv (Min.min t.maxv (t.val a - t.val b)))

/-- `adds` of u32 and u64, egg/platform_x86.py:3095-3109. -/
def addsUns (x : Simd) (t : ITy) (a b : BitVec (bits x)) : BitVec (bits x) :=
  let ures := add x t a b
  let typeMax := set1 x t (t.cast t.maxv)
  ifElse x t (lt x t ures a) typeMax ures

/-- Steps 1 to 4 of `adds` of i32 and i64 (`t`), with `u` the unsigned type: `ures`, `i_max_min`,
`mask`. egg/platform_x86.py:3127-3180. -/
def addsSteps (x : Simd) (t u : ITy) (a b : BitVec (bits x)) :
    BitVec (bits x) × BitVec (bits x) × BitVec (bits x) :=
  let ures := add x u a b
  let xor_ux_uy := xorb x a b
  let xor_uy_res := xorb x b ures
  let ux_uy_orb := orb x a b
  let u_zeros_ones := shr x u ux_uy_orb (t.w - 1)
  let u_max := set1 x u (u.cast t.maxv)
  let u_max_min := add x u u_max u_zeros_ones
  let not_xor_uy_res := notb x xor_uy_res
  let mask := orb x xor_ux_uy not_xor_uy_res
  (ures, u_max_min, mask)

/-- `adds` of i32 and i64, egg/platform_x86.py:3111-3190, with the extension dependent end of
lines 3050-3080: `to_logical(mask >> (w - 1))` and `if_else1` when the name of the extension
contains `avx512` or `sse2`, `blendv_ps/pd` otherwise. -/
def addsSgn (x : Simd) (t u : ITy) (a b : BitVec (bits x)) : BitVec (bits x) :=
  let (ures, i_max_min, mask) := addsSteps x t u a b
  match x with
  | .sse2 => ifElse .sse2 t (toLogical .sse2 t (shr .sse2 u mask (t.w - 1))) ures i_max_min
  | .knl => ifElse .knl t (toLogical .knl t (shr .knl u mask (t.w - 1))) ures i_max_min
  | .skylake =>
      ifElse .skylake t (toLogical .skylake t (shr .skylake u mask (t.w - 1))) ures i_max_min
  | .sse42 => vmap3 t.w blendv i_max_min ures mask
  | .avx => vmap3 t.w blendv i_max_min ures mask
  | .avx2 => vmap3 t.w blendv i_max_min ures mask

/-- Where 8- and 16-bit `adds` and `subs` are split,
`adds_subs_intrinsic_instructions_i8_i16_u8_u16`, egg/platform_x86.py:3029-3048. -/
def satSplit : Simd → Bool
  | .avx | .knl => true
  | _ => false

/-- `adds`, egg/platform_x86.py:3084-3190. -/
def adds (x : Simd) (t : ITy) (a b : BitVec (bits x)) : BitVec (bits x) :=
  match t with
  | .i8 | .i16 | .u8 | .u16 =>
      if satSplit x then split2 x (fun _ => vmap2 t.w (addsInstr t)) a b
      else vmap2 t.w (addsInstr t) a b
  | .u32 => addsUns x .u32 a b
  | .u64 => addsUns x .u64 a b
  | .i32 => addsSgn x .i32 .u32 a b
  | .i64 => addsSgn x .i64 .u64 a b

/-- `subs` of u32 and u64, egg/platform_x86.py:3230-3246. -/
def subsUns (x : Simd) (t : ITy) (a b : BitVec (bits x)) : BitVec (bits x) :=
  let ures := sub x t a b
  let isUnderflow := gt x t b a
  ifElse x t isUnderflow (set1 x t (t.cast t.minv)) ures

/-- `subs`, egg/platform_x86.py:3216-3246. -/
def subs (x : Simd) (t : ITy) (a b : BitVec (bits x)) : BitVec (bits x) :=
  match t with
  | .i8 | .i16 | .u8 | .u16 =>
      if satSplit x then split2 x (fun _ => vmap2 t.w (subsInstr t)) a b
      else vmap2 t.w (subsInstr t) a b
  | .i32 => adds x .i32 a (neg x .i32 b)
  | .i64 => adds x .i64 a (neg x .i64 b)
  | .u32 => subsUns x .u32 a b
  | .u64 => subsUns x .u64 a b

/-! ### Reductions of logicals -/

/-- The lanes of a register. Machine representation, not code of the repo. -/
def reg (n w : Nat) (a : BitVec N) : Reg n w := fun i => lane w a i

/-- `all` of integers, egg/platform_x86.py:2111-2152. -/
def all (x : Simd) (t : ITy) (l : BitVec (lbits x t)) : Bool :=
  match x with
  | .sse2 => allSse (t.w / 8) (reg (128 / t.w) t.w l)
  | .sse42 => allSse (t.w / 8) (reg (128 / t.w) t.w l)
  | .avx => allSse (t.w / 8) (reg (128 / t.w) t.w (lower (N := 128) l)) &&
      allSse (t.w / 8) (reg (128 / t.w) t.w (upper (N := 128) l))
  | .avx2 => allAvx2 (t.w / 8) (reg (256 / t.w) t.w l)
  | .knl => all512 l
  | .skylake => all512 l

/-- `any` of integers, egg/platform_x86.py:2111-2152. -/
def any (x : Simd) (t : ITy) (l : BitVec (lbits x t)) : Bool :=
  match x with
  | .sse2 => anySse (t.w / 8) (reg (128 / t.w) t.w l)
  | .sse42 => anySse (t.w / 8) (reg (128 / t.w) t.w l)
  | .avx => anySse (t.w / 8) (reg (128 / t.w) t.w (lower (N := 128) l)) ||
      anySse (t.w / 8) (reg (128 / t.w) t.w (upper (N := 128) l))
  | .avx2 => anyAvx2 (t.w / 8) (reg (256 / t.w) t.w l)
  | .knl => any512 l
  | .skylake => any512 l

/-- The code of `nbtrue1` before AVX-512 on registers of `N` bits: `popcnt32` of `movemask_epi8`,
halved for 16 bits, or of `movemask_ps/pd`, egg/platform_x86.py:2452-2465. -/
def nbtrueReg (N : Nat) (t : ITy) (l : BitVec N) : Nat :=
  match t with
  | .i8 | .u8 => nbtrue8 (reg (N / 8) 8 l)
  | .i16 | .u16 => nbtrue16 (reg (N / 16) 16 l)
  | t => nbtrue32 (reg (N / t.w) t.w l)

/-- `nbtrue` of integers, egg/platform_x86.py:2447-2482. -/
def nbtrue (x : Simd) (t : ITy) (l : BitVec (lbits x t)) : Nat :=
  match x with
  | .sse2 => nbtrueReg 128 t l
  | .sse42 => nbtrueReg 128 t l
  | .avx => if 32 ≤ t.w then nbtrueReg 256 t l
      else nbtrueReg 128 t (lower (N := 128) l) + nbtrueReg 128 t (upper (N := 128) l)
  | .avx2 => nbtrueReg 256 t l
  | .knl => nbtrue512 l
  | .skylake => nbtrue512 l

end Nsimd.X86Ops
