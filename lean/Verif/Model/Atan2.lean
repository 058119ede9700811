import Verif.Model.Atan

/-!
# `atan2_u35` of the vendored SLEEF

The operator `atan2_u35` (egg/operators.py) calls `xatan2` and `xatan2f`. Its special cases depend on the signs of zeros, so the numbers here
carry a sign bit.
-/

namespace Nsimd.Sleef
open Nsimd.DoubleDouble Nsimd.Round Nsimd.Hypot

/-- A floating-point number with its sign bit; `a` is the absolute value of a finite number. -/
inductive SF where
  | nan
  | inf (neg : Bool)
  | fin (neg : Bool) (a : ℚ)

namespace SF

/-- `xisinf`: src/sleefdp.c:76; src/sleefsp.c:76; `visinf_vo_vd`. -/
def isInf : SF → Bool
  | .inf _ => true
  | _ => false

/-- `x == 0`, which holds for both zeros. -/
def isZero : SF → Bool
  | .fin _ a => decide (a = 0)
  | _ => false

/-- The sign bit, `sign(x) == -1` and `vsignbit_vo_vd`: src/sleefdp.c:67; src/sleefsp.c:67. -/
def sgn : SF → Bool
  | .nan => false
  | .inf n => n
  | .fin n _ => n

end SF

/-- The value with a sign. -/
def signQ (neg : Bool) (a : ℚ) : ℚ := if neg then -a else a

variable (rnd : ℚ → ℚ)

/-- `atan2k` and `atan2kf` for `0 ≤ y`: src/sleefdp.c:468-504; src/sleefsp.c:963-988; src/sleefsimddp.c:1848-1890;
src/sleefsimdsp.c:1658-1689. `q` is an `int` in the code. -/
def atan2k (fused : Bool) (poly : {α : Type} → Alg α → α → α) (halfPi y x : ℚ) : ℚ :=
  let A := flAlg rnd rnd fused
  let q : ℚ := if x < 0 then -2 else 0
  let x := |x|
  let q := if x < y then q + 1 else q
  let s := rnd ((if x < y then -x else y) / max x y)
  A.mla q halfPi (atanKernel A poly s)

/-- `xatan2` and `xatan2f`: src/sleefdp.c:506-515; src/sleefsp.c:990-999; src/sleefsimddp.c:1947-1957; src/sleefsimdsp.c:1696-1707. `halfPi0` is
the minuend `M_PI / 2` of the special cases. The result of `atan2k` is overwritten if an argument is not finite. A zero that `atan2k` returns
is positive. -/
def atan2With (fused : Bool) (poly : {α : Type} → Alg α → α → α) (halfPi halfPi0 quarterPi pi : ℚ) (y x : SF) : SF :=
  let r := match y, x with
    | .fin _ b, .fin n a => signQ n (atan2k rnd fused poly halfPi b (signQ n a))
    | _, _ => 0
  let r := if x.isInf || x.isZero then sub rnd halfPi0 (if x.isInf then signQ x.sgn halfPi else 0) else r
  let r := if y.isInf then sub rnd halfPi0 (if x.isInf then signQ x.sgn quarterPi else 0) else r
  let r := if y.isZero then (if x.sgn then pi else 0) else r
  match y, x with
  | .nan, _ => .nan
  | _, .nan => .nan
  | y, _ => .fin (decide (r < 0) ^^ y.sgn) |r|

/-- `xatan2`: src/sleefdp.c:506-515; src/sleefsimddp.c:1947-1957. -/
def xatan2 (simd fused : Bool) : SF → SF → SF :=
  atan2With rnd (simd && fused) atanPoly64 (rnd (rnd M_PI / 2)) (rnd (rnd M_PI / 2)) (rnd (rnd M_PI / 4)) (rnd M_PI)

/-- `xatan2f`; `M_PIf` is `(float)M_PI`: src/sleefsp.c:990-999; src/sleefsimdsp.c:1696-1707; src/misc.h:131. -/
def xatan2f (simd fused : Bool) (rndd : ℚ → ℚ) : SF → SF → SF :=
  atan2With rnd (simd && fused) atanPoly32 (rnd (rndd (rndd M_PI / 2)))
    (if simd then rnd (rndd (rndd M_PI / 2)) else rnd (rnd (rndd M_PI) / 2)) (rnd (rndd (rndd M_PI / 4))) (rnd (rndd M_PI))

end Nsimd.Sleef
