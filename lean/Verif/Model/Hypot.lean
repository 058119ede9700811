import Verif.Model.DoubleDouble
import Verif.Model.Round

/-!
# `hypot` of the vendored SLEEF

The operators `hypot_u05` and `hypot_u35` (egg/operators.py:1670-1689) call `xhypot_u05`, `xhypot_u35`,
`xhypotf_u05` and `xhypotf_u35`.  A finite number is a rational, every floating-point operation is the exact operation
followed by `rnd`; the sign of zero is not modelled.  Of the intermediate results only the last product can overflow.
-/

namespace Nsimd.Hypot
open Nsimd.DoubleDouble Nsimd.Round

deriving instance DecidableEq for Fl

variable (rnd sq : ℚ → ℚ)

/-- `fabsk`, `fabsfk`, `vabs_vd_vd`, `vabs_vf_vf`: src/sleefdp.c:55-57; src/sleefsp.c:55-57. The sign of a NaN is not
modelled. -/
def fabs : Fl → Fl
  | .nan => .nan
  | .inf _ => .inf false
  | .fin q => .fin |q|

/-- A product that is rounded and infinite if it is too large. IEEE-754 rule, not code of the repo. -/
def roundFl (emax : ℤ) (z : ℚ) : Fl := if |rnd z| < 2 ^ emax then .fin (rnd z) else .inf (decide (z < 0))

/-- The tests of both versions after the computation, in this order: src/sleefdp.c:2331-2333; src/sleefsp.c:2003-2005;
src/sleefsimddp.c:3358-3359; src/sleefsimdsp.c:2982-2983. `ret` is the result for finite operands; what the code computes
from infinities and NaNs before these tests is not modelled because the tests replace it. -/
def special (x y : Fl) (ret : ℚ → ℚ → Fl) : Fl :=
  let r := match x, y with
    | .fin a, .fin b => ret a b
    | _, _ => .nan
  let r := if x = .nan ∨ y = .nan then .nan else r
  if x = .inf false ∨ y = .inf false then .inf false else r

/-- `1 + t*t`, with a fused multiply-add in the SIMD versions that have one: src/sleefdp.c:2329; src/sleefsp.c:2001;
src/sleefsimddp.c:3356; src/sleefsimdsp.c:2980. -/
def onePlusSquare (fused : Bool) (t : ℚ) : ℚ := if fused then fma rnd t t 1 else add rnd (mul rnd t t) 1

/-- `xhypot_u35`, `xhypotf_u35`, scalar and one lane of the SIMD versions: src/sleefdp.c:2322-2334;
src/sleefsp.c:1994-2006; src/sleefsimddp.c:3349-3362; src/sleefsimdsp.c:2973-2986. -/
def hypot35 (fused : Bool) (emax : ℤ) (x y : Fl) : Fl :=
  special (fabs x) (fabs y) fun x y =>
    let min := if x < y then x else y
    let max := if x > y then x else y
    let t := rnd (min / max)
    let ret := roundFl rnd emax (max * sq (onePlusSquare rnd fused t))
    if min = 0 then .fin max else ret

end Nsimd.Hypot
