import Verif.Model.Exp

/-!
# `sin_u35` and `cos_u35` of the vendored SLEEF, f64, arguments below 15

The operators `sin_u35` and `cos_u35` (egg/operators.py) call `xsin` and `xcos`. Modelled is the branch for `|d| < TRIGRANGEMAX2`, which the
SIMD code takes if all lanes satisfy this. Not modelled: the reductions of larger arguments, `xsinf` and `xcosf`, the deterministic versions
of the SIMD code, and the sign of zero.
-/

namespace Nsimd.Sleef
open Nsimd.DoubleDouble Nsimd.Round Nsimd.Hypot

/-- The polynomial of `xsin` and `xcos`: src/sleefdp.c:827-837, 934-944; src/sleefsimddp.c:486-496, 757-767. -/
def sinPoly64 {α : Type} (A : Alg α) (s : α) : α :=
  let s2 := A.mul s s
  let s4 := A.mul s2 s2
  let u := A.poly8 s s2 s4
    (-7.97255955009037868891952e-18) (2.81009972710863200091251e-15) (-7.64712219118158833288484e-13) (1.60590430605664501629054e-10)
    (-2.50521083763502045810755e-08) (2.75573192239198747630416e-06) (-0.000198412698412696162806809) (0.00833333333333332974823815)
  A.mla u s (A.lit (-0.166666666666666657414808))

/-- `PI_A2`: src/misc.h:86. -/
def PI_A2 : ℚ := 3.141592653589793116

/-- `PI_B2`: src/misc.h:87. -/
def PI_B2 : ℚ := 1.2246467991473532072e-16

/-- `M_1_PI`: src/misc.h:25. -/
def M_1_PI : ℚ := 0.318309886183790671537767526745028724

/-- `TRIGRANGEMAX2`: src/misc.h:88. -/
def TRIGRANGEMAX2 : ℚ := 15

variable (rnd : ℚ → ℚ) (fused : Bool) (m : Mode)

/-- What follows the reduction, `neg` tells whether the sign of `d` is changed: src/sleefdp.c:823-839, 930-946; src/sleefsimddp.c:482-498,
753-769. The last product and sum are not fused in the SIMD code. -/
def sinFinish (d : ℚ) (neg : Bool) : ℚ :=
  let s := mul rnd d d
  let d := if neg then -d else d
  let u := sinPoly64 (flAlg rnd rnd fused) s
  add rnd (mul rnd s (mul rnd u d)) d

/-- `mla(ql, -b, mla(ql, -a, d))`: src/sleefdp.c:799-800, 905-906; src/sleefsimddp.c:453-454, 719-720. -/
def sinReduce (a b : ℚ) (q : ℤ) (d : ℚ) : ℚ :=
  let A := flAlg rnd rnd fused
  A.mla q (-b) (A.mla q (-a) d)

/-- `xsin` for `|d| < TRIGRANGEMAX2`, `none` for other arguments: src/sleefdp.c:793-844; src/sleefsimddp.c:439-502. -/
def xsinSmall (d : ℚ) : Option ℚ :=
  let f := fused && m.isSimd
  if |d| < TRIGRANGEMAX2 then
    (rintk rnd m (mul rnd d (rnd M_1_PI))).map fun q =>
      sinFinish rnd f (sinReduce rnd f (rnd PI_A2) (rnd PI_B2) q d) (decide (q % 2 = 1))
  else none

/-- `xcos` for `|d| < TRIGRANGEMAX2`, `none` for other arguments: src/sleefdp.c:899-949; src/sleefsimddp.c:709-771. `(ql & 2) == 0`
is a condition on the rest modulo 4. The integer `2 * n + 1` is exact in the SIMD code, where it is computed with floating-point numbers. -/
def xcosSmall (d : ℚ) : Option ℚ :=
  let f := fused && m.isSimd
  let A := flAlg rnd rnd f
  if |d| < TRIGRANGEMAX2 then
    (rintk rnd m (A.mla d (rnd M_1_PI) (-(1 / 2)))).map fun n =>
      let q := 2 * n + 1
      sinFinish rnd f (sinReduce rnd f (rnd (rnd PI_A2 * (1 / 2))) (rnd (rnd PI_B2 * (1 / 2))) q d) (decide (q % 4 < 2))
  else none

end Nsimd.Sleef
