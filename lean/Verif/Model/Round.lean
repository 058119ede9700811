import Mathlib.Data.Rat.Floor

/-!
# Rounding to an integral value

Floating point values are rationals, two infinities and NaN; the sign of zero is not modelled. The
rounding of each arithmetic operation is a parameter `rnd`.
-/

namespace Nsimd.Round

/-- Floating point data. IEEE-754 rule, not code of the repo. -/
inductive Fl
  | nan
  | inf (neg : Bool)
  | fin (q : ℚ)

namespace Fl

/-- `a - b`. IEEE-754 rule; no overflow (in the code the result is at most 1). -/
def sub (rnd : ℚ → ℚ) : Fl → Fl → Fl
  | .fin a, .fin b => .fin (rnd (a - b))
  | .nan, _ => .nan
  | _, .nan => .nan
  | .inf s, .inf t => if s = t then .nan else .inf s
  | .inf s, .fin _ => .inf s
  | .fin _, .inf t => .inf (!t)

/-- `a * 0.5`. IEEE-754 rule. -/
def half (rnd : ℚ → ℚ) : Fl → Fl
  | .fin a => .fin (rnd (a * (1 / 2)))
  | .nan => .nan
  | .inf s => .inf s

/-- `a < b`. IEEE-754 rule. -/
def lt : Fl → Fl → Bool
  | .fin a, .fin b => decide (a < b)
  | .inf true, .fin _ => true
  | .inf true, .inf false => true
  | .fin _, .inf false => true
  | _, _ => false

/-- `a >= 0`. IEEE-754 rule. -/
def ge0 : Fl → Bool
  | .fin a => decide (0 ≤ a)
  | .inf s => !s
  | .nan => false

/-- `a == b`. IEEE-754 rule. -/
def eq : Fl → Fl → Bool
  | .fin a, .fin b => decide (a = b)
  | .inf s, .inf t => s == t
  | _, _ => false

/-- `floor`, `floorf` of libm. C library rule, not code of the repo. -/
def floor : Fl → Fl
  | .fin a => .fin (⌊a⌋ : ℤ)
  | x => x

/-- `ceil`, `ceilf` of libm. C library rule, not code of the repo. -/
def ceil : Fl → Fl
  | .fin a => .fin (⌈a⌉ : ℤ)
  | x => x

end Fl

/-- `nsimd_scalar_round_to_even_f32`, `_f64`: egg/scalar.py:176-195; for f16 (egg/scalar.py:196-213) the
same on the converted argument. -/
def roundToEven (rnd : ℚ → ℚ) (x : Fl) : Fl :=
  let fl := x.floor
  let ce := x.ceil
  let df := x.sub rnd fl
  let dc := ce.sub rnd x
  if df.lt dc then fl
  else if dc.lt df then ce
  else
    let fld2 := fl.half rnd
    if fld2.eq fld2.floor then fl else ce

/-- `nsimd_scalar_trunc_f32`, `_f64`, C89 code: egg/scalar.py:366-370; for f16 (egg/scalar.py:358-364)
the same on the converted argument. -/
def trunc (x : Fl) : Fl := if x.ge0 then x.floor else x.ceil

/-- `nsimd_trunc_avx512_*_f32`, `_f64`, one lane: egg/platform_x86.py:2076-2083. -/
def truncAvx512 (x : Fl) : Fl := if (Fl.fin 0).lt x then x.floor else x.ceil

end Nsimd.Round
