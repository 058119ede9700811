import Verif.Model.Exp

/-!
# `cosh_u35` of the vendored SLEEF

The operator `cosh_u35` (egg/operators.py:1518-1525) calls `xcosh_u35` and `xcoshf_u35`.
-/

namespace Nsimd.Sleef
open Nsimd.DoubleDouble Nsimd.Round Nsimd.Hypot

variable (rnd : ℚ → ℚ) (fused : Bool) (m : Mode)

/-- `0.5 / e + 0.5 * e`: src/sleefdp.c:1748; `mla(0.5, e, 0.5 / e)`: src/sleefsimddp.c:2547, src/sleefsimdsp.c:2383;
`0.5f * e + 0.5f / e`: src/sleefsp.c:1455. The scalar versions are `mla` without fusion, up to the order of the summands.
The last rounding is left out. -/
def coshSum (e : ℚ) : ℚ :=
  let q := rnd (rnd (1 / 2) / e)
  if fused then rnd (1 / 2) * e + q else mul rnd (rnd (1 / 2)) e + q

/-- The sum with its rounding; an infinite exponential gives an infinite sum. -/
def coshOf (emax : ℤ) : Fl → Fl
  | .fin e => roundFl rnd emax (coshSum rnd fused e)
  | .inf _ => .inf false
  | .nan => .nan

/-- The tests of `xcosh_u35` and `xcoshf_u35`: src/sleefdp.c:1750-1752; src/sleefsp.c:1457-1459;
src/sleefsimddp.c:2549-2550; src/sleefsimdsp.c:2385-2387. A NaN sum is replaced by infinity unless the argument is one. -/
def coshTests (emax : ℤ) (limit : ℚ) (expf : Fl → Option Fl) (x : Fl) : Option Fl :=
  (expf (fabs x)).map fun e =>
    match x with
    | .nan => .nan
    | .inf _ => .inf false
    | .fin q =>
      if limit < |q| then .inf false
      else match coshOf rnd (fused && m.isSimd) emax e with
        | .nan => .inf false
        | y => y

/-- `xcosh_u35`, scalar and one lane of the SIMD version: src/sleefdp.c:1746-1755; src/sleefsimddp.c:2545-2553. -/
def xcosh35 : Fl → Option Fl := coshTests rnd fused m 1024 709 (xexp rnd fused m)

/-- `xcoshf_u35`, scalar and one lane of the SIMD version: src/sleefsp.c:1453-1462; src/sleefsimdsp.c:2381-2390. -/
def xcoshf35 (rndd : ℚ → ℚ) : Fl → Option Fl := coshTests rnd fused m 128 88 (xexpf rnd fused m rndd)

end Nsimd.Sleef
