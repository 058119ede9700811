import Verif.Model.FloatLane
import Verif.Model.X86Ops

/-!
# x86 back end: floating point operators

Registers as in `X86Ops`, lanes of f32 and f64 as in `FloatLane`.  f16 is a pair of f32 registers.
-/

namespace Nsimd.X86Float
open Nsimd.X86 Nsimd.X86Ops Nsimd.FloatLane

/-- The rounded instructions: those of `Arith` and the other three fused ones, which IEEE-754 does not define on
the sign of a NaN, and the approximations `rcp`, `rsqrt` (`rcp14`, `rsqrt14` on AVX-512).
Parameters of the model, not code of the repo. -/
structure Instr (t : FTy) extends Arith t where
  fmsub : BitVec t.w → BitVec t.w → BitVec t.w → BitVec t.w
  fnmadd : BitVec t.w → BitVec t.w → BitVec t.w → BitVec t.w
  fnmsub : BitVec t.w → BitVec t.w → BitVec t.w → BitVec t.w
  rcp : BitVec t.w → BitVec t.w
  rsqrt : BitVec t.w → BitVec t.w

variable {t : FTy} (I : Instr t) (C : Integral t) (x : Simd)

/-! ### Arithmetic -/

/-- `add` of floats: egg/platform_x86.py:1301-1304 and 619-628. -/
def add (a b : BitVec (bits x)) : BitVec (bits x) := vmap2 t.w I.add a b
/-- `sub` of floats: egg/platform_x86.py:1301-1304 and 619-628. -/
def sub (a b : BitVec (bits x)) : BitVec (bits x) := vmap2 t.w I.sub a b
/-- `mul` of floats: egg/platform_x86.py:1331-1333 and 619-628. -/
def mul (a b : BitVec (bits x)) : BitVec (bits x) := vmap2 t.w I.mul a b
/-- `div` of floats: egg/platform_x86.py:1320-1322 and 619-628. -/
def div (a b : BitVec (bits x)) : BitVec (bits x) := vmap2 t.w I.div a b
/-- `sqrt`: egg/platform_x86.py:1848-1854. -/
def sqrt (a : BitVec (bits x)) : BitVec (bits x) := vmap1 t.w I.sqrt a

/-- `rec`: egg/platform_x86.py:2411-2420. -/
def rec1 (a : BitVec (bits x)) : BitVec (bits x) := div I x (set1 x t.u (one t)) a

/-- `rec11`: egg/platform_x86.py:2382-2406. -/
def rec11 (a : BitVec (bits x)) : BitVec (bits x) :=
  if t = .f64 ∧ x ≠ .knl ∧ x ≠ .skylake then div I x (set1 x t.u (one t)) a else vmap1 t.w I.rcp a

/-- `rsqrt11`: egg/platform_x86.py:2382-2406. -/
def rsqrt11 (a : BitVec (bits x)) : BitVec (bits x) :=
  if t = .f64 ∧ x ≠ .knl ∧ x ≠ .skylake then div I x (set1 x t.u (one t)) (sqrt I x a) else vmap1 t.w I.rsqrt a

variable (t) in
/-- `neg`: exclusive or with `set1(0x80...0)`, egg/platform_x86.py:2425-2439. -/
def neg (a : BitVec (bits x)) : BitVec (bits x) := xorb x (set1 x t.u (BitVec.twoPow t.w (t.w - 1))) a

variable (t) in
/-- `abs`: and with `set1(0x7F...F)`, egg/platform_x86.py:1930-1947. -/
def abs (a : BitVec (bits x)) : BitVec (bits x) :=
  andb x a (set1 x t.u (BitVec.ofNat t.w (2 ^ (t.w - 1) - 1)))

/-- Whether the fused instruction is used: `NSIMD_FMA` is defined, or AVX-512, egg/platform_x86.py:2022-2032. -/
def fused (hasFma : Bool) : Bool :=
  match x with
  | .knl | .skylake => true
  | _ => hasFma

/-- `fma`, `fms`, `fnma`, `fnms` of floats: egg/platform_x86.py:1999-2032. -/
def fma (f : Fma) (hasFma : Bool) (a b c : BitVec (bits x)) : BitVec (bits x) :=
  if fused x hasFma then
    vmap3 t.w (match f with
      | .fma => I.fma
      | .fms => I.fmsub
      | .fnma => I.fnmadd
      | .fnms => I.fnmsub) a b c
  else
    let p := mul I x (if f.negs then neg t x a else a) b
    if f.adds then add I x p c else sub I x p c

/-! ### Comparisons and selection -/

/-- A comparison instruction on lanes: all ones or zeros. Intel semantics (`cmpps`), not code of the repo. -/
def cmpReg (p : BitVec t.w → BitVec t.w → Bool) (a b : BitVec N) : BitVec N :=
  vmap2 t.w (fun u v => if p u v then BitVec.allOnes t.w else 0) a b

/-- A comparison: `_mm_cmp..` on SSE, `_mm256_cmp` on AVX, `_mm512_cmp.._mask` on AVX-512:
egg/platform_x86.py:1564-1744, the branches of f32 and f64. -/
def cmp (p : BitVec t.w → BitVec t.w → Bool) (a b : BitVec (bits x)) : BitVec (lbits x t.u) :=
  match x with
  | .sse2 => cmpReg p a b
  | .sse42 => cmpReg p a b
  | .avx => cmpReg p a b
  | .avx2 => cmpReg p a b
  | .knl => cmpMask t.w p a b
  | .skylake => cmpMask t.w p a b

variable (t)
/-- `eq`, ordered: egg/platform_x86.py:1564-1593. -/
def eq (a b : BitVec (bits x)) : BitVec (lbits x t.u) := cmp x (fun u v => feq t u v) a b
/-- `ne`, unordered (`_CMP_NEQ_UQ`, `cmpneq`): egg/platform_x86.py:1607-1617. -/
def ne (a b : BitVec (bits x)) : BitVec (lbits x t.u) := cmp x (fun u v => !feq t u v) a b
/-- `gt`, ordered: egg/platform_x86.py:1634-1672. -/
def gt (a b : BitVec (bits x)) : BitVec (lbits x t.u) := cmp x (fun u v => flt t v u) a b
/-- `lt`: `gt` with the operands exchanged, egg/platform_x86.py:1687-1689. -/
def lt (a b : BitVec (bits x)) : BitVec (lbits x t.u) := gt t x b a
/-- `ge`, ordered: egg/platform_x86.py:1694-1714. -/
def ge (a b : BitVec (bits x)) : BitVec (lbits x t.u) := cmp x (fun u v => fle t v u) a b
/-- `le`, ordered: egg/platform_x86.py:1726-1744. -/
def leq (a b : BitVec (bits x)) : BitVec (lbits x t.u) := cmp x (fun u v => fle t u v) a b

/-- `_mm_blendv_ps(b, a, m)`, `_pd`, one lane: `a` if the sign bit of `m` is set.
Intel semantics, not code of the repo. -/
def blendv (m a b : BitVec t.w) : BitVec t.w := if m.msb then a else b

/-- `if_else1` of floats: egg/platform_x86.py:1756-1787. -/
def ifElse (l : BitVec (lbits x t.u)) (a b : BitVec (bits x)) : BitVec (bits x) :=
  match x with
  | .sse2 => manual .sse2 l a b
  | .sse42 => vmap3 t.w (blendv t) l a b
  | .avx => vmap3 t.w (blendv t) l a b
  | .avx2 => vmap3 t.w (blendv t) l a b
  | .knl => maskBlend t.w l b a
  | .skylake => maskBlend t.w l b a

/-- `min`: `_mm_min_ps`, `_pd`, which return the second operand unless the first is less:
egg/platform_x86.py:1808-1810 and Intel semantics. -/
def min (a b : BitVec (bits x)) : BitVec (bits x) := vmap2 t.w (fun u v => if flt t u v then u else v) a b
/-- `max`: `_mm_max_ps`, `_pd`, which return the second operand unless the first is greater:
egg/platform_x86.py:1808-1810 and Intel semantics. -/
def max (a b : BitVec (bits x)) : BitVec (bits x) := vmap2 t.w (fun u v => if flt t v u then u else v) a b
variable {t}

/-! ### Rounding to an integral value -/

/-- `emulate_op1`: a scalar operator on each lane, egg/platform_x86.py:657-658. -/
def emulate1 (undef : BitVec (bits x)) (f : BitVec t.w → BitVec t.w) (a : BitVec (bits x)) :
    Option (BitVec (bits x)) :=
  emulTrick (ext x) t.u undef (call1 fun v => some (f v)) [a]

/-- `floor`: emulated on SSE 2, egg/platform_x86.py:2042-2056. `C` is the C library, `V` the instructions. -/
def floor (V : Integral t) (undef a : BitVec (bits x)) : Option (BitVec (bits x)) :=
  if x = .sse2 then emulate1 x undef (sFloor C) a else some (vmap1 t.w V.floor a)
/-- `ceil`: emulated on SSE 2, egg/platform_x86.py:2042-2056. -/
def ceil (V : Integral t) (undef a : BitVec (bits x)) : Option (BitVec (bits x)) :=
  if x = .sse2 then emulate1 x undef (sCeil C) a else some (vmap1 t.w V.ceil a)

/-- `trunc`: emulated on SSE 2, an instruction up to AVX 2, `if_else1(x > 0, floor, ceil)` on AVX-512:
egg/platform_x86.py:2061-2084. -/
def trunc (c99 : Bool) (V : Integral t) (undef a : BitVec (bits x)) : Option (BitVec (bits x)) :=
  match x with
  | .sse2 => emulate1 .sse2 undef (sTrunc C c99) a
  | .sse42 => some (vmap1 t.w V.trunc a)
  | .avx => some (vmap1 t.w V.trunc a)
  | .avx2 => some (vmap1 t.w V.trunc a)
  | .knl => some (ifElse t .knl (gt t .knl a 0) (vmap1 t.w V.floor a) (vmap1 t.w V.ceil a))
  | .skylake => some (ifElse t .skylake (gt t .skylake a 0) (vmap1 t.w V.floor a) (vmap1 t.w V.ceil a))

/-- `round_to_even`: emulated on SSE 2, `round` or `roundscale` otherwise: egg/platform_x86.py:2089-2106. -/
def roundToEven (A : Arith t) (V : Integral t) (undef a : BitVec (bits x)) : Option (BitVec (bits x)) :=
  if x = .sse2 then emulate1 x undef (sRound A C) a else some (vmap1 t.w V.near a)

/-! ### f16 -/

/-- A vector of f16: two registers of f32, the first half of the lanes in `v0`,
egg/platform_x86.py:83-91. -/
structure F16 (x : Simd) where
  v0 : BitVec (bits x)
  v1 : BitVec (bits x)

variable {x}
/-- Unary operators of f16 apply the f32 code to both halves: egg/platform_x86.py:1848-1853, 1932-1939,
2042-2047, 2411-2419, 2431-2436. -/
def f16op1 (f : BitVec (bits x) → BitVec (bits x)) (a : F16 x) : F16 x := ⟨f a.v0, f a.v1⟩
/-- Binary operators of f16: egg/platform_x86.py:619-624. -/
def f16op2 (f : BitVec (bits x) → BitVec (bits x) → BitVec (bits x)) (a b : F16 x) : F16 x :=
  ⟨f a.v0 b.v0, f a.v1 b.v1⟩
/-- Fused operators of f16: egg/platform_x86.py:2002-2007. -/
def f16op3 (f : BitVec (bits x) → BitVec (bits x) → BitVec (bits x) → BitVec (bits x)) (a b c : F16 x) : F16 x :=
  ⟨f a.v0 b.v0 c.v0, f a.v1 b.v1 c.v1⟩

end Nsimd.X86Float
