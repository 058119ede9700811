import Verif.Model.Atan

/-!
# `asin_u35` and `acos_u35` of the vendored SLEEF

The operators `asin_u35` and `acos_u35` (egg/operators.py) call `xasin`, `xasinf`, `xacos` and `xacosf`. The sign of zero is not modelled.
-/

namespace Nsimd.Sleef
open Nsimd.DoubleDouble Nsimd.Round Nsimd.Hypot

section kernels
variable {α : Type} (A : Alg α)

/-- The polynomial of `xasin` and `xacos`: src/sleefdp.c:521-534, 550-563; src/sleefsimddp.c:1981-1994, 2039-2052. -/
def asinPoly64 (x2 : α) : α :=
  let x4 := A.mul x2 x2
  let x8 := A.mul x4 x4
  let x16 := A.mul x8 x8
  A.poly12 x2 x4 x8 x16
    (0.3161587650653934628e-1) (-0.1581918243329996643e-1) (0.1929045477267910674e-1) (0.6606077476277170610e-2)
    (0.1215360525577377331e-1) (0.1388715184501609218e-1) (0.1735956991223614604e-1) (0.2237176181932048341e-1)
    (0.3038195928038132237e-1) (0.4464285681377102438e-1) (0.7500000000378581611e-1) (0.1666666666666497543e+0)

/-- The polynomial of `xasinf` and `xacosf`: src/sleefsp.c:1005-1009, 1024-1028; src/sleefsimdsp.c:1714-1718, 1732-1736. -/
def asinPoly32 (x2 : α) : α :=
  let u := A.lit (0.4197454825e-1)
  let u := A.mla u x2 (A.lit (0.2424046025e-1))
  let u := A.mla u x2 (A.lit (0.4547423869e-1))
  let u := A.mla u x2 (A.lit (0.7495029271e-1))
  A.mla u x2 (A.lit (0.1666677296e+0))

end kernels

variable (rnd lt sq : ℚ → ℚ)

/-- `x2`: src/sleefdp.c:519, 546; src/sleefsp.c:1003, 1020; src/sleefsimddp.c:1978, 2034-2035; src/sleefsimdsp.c:1711, 1727-1728. -/
def asinX2 (d : ℚ) : ℚ := if |d| < 1 / 2 then mul rnd d d else mul rnd (sub rnd 1 |d|) (1 / 2)

/-- `x`: src/sleefdp.c:519, 547; src/sleefsp.c:1003, 1021; src/sleefsimddp.c:1979, 2036; src/sleefsimdsp.c:1712, 1729. -/
def asinX (d : ℚ) : ℚ := if |d| < 1 / 2 then |d| else sq (asinX2 rnd d)

/-- `mulsign`: src/sleefdp.c:59; src/sleefsp.c:59; `vmulsign_vd_vd_vd`: src/sleefsimddp.c:259; src/sleefsimdsp.c:339. -/
def mulsignQ (x d : ℚ) : ℚ := if d < 0 then -x else x

/-- `xasin` and `xasinf`: src/sleefdp.c:517-542; src/sleefsp.c:1001-1016; src/sleefsimddp.c:1976-2000; src/sleefsimdsp.c:1709-1723. The
square root of a negative number is NaN and every later operation keeps it; the argument of the root is minus infinity if `d` is infinite. -/
def asinWith (simd fused : Bool) (poly : {α : Type} → Alg α → α → α) (halfPi : ℚ) : Fl → Fl
  | .nan => .nan
  | .inf _ => .nan
  | .fin d =>
    let A := flAlg rnd lt fused
    let x2 := asinX2 rnd d
    if x2 < 0 then .nan else
    let x := asinX rnd sq d
    let u := A.mla (poly A x2) (A.mul x x2) x
    let r := if |d| < 1 / 2 then u else if simd then A.mla u (-2) halfPi else sub rnd halfPi (mul rnd 2 u)
    .fin (mulsignQ r d)

/-- `xacos` and `xacosf`: src/sleefdp.c:544-573; src/sleefsp.c:1018-1038; src/sleefsimddp.c:2032-2062; src/sleefsimdsp.c:1725-1745. The sum
`x.x + y` is the first part of the result of `ddadd_d2_d2_d`: src/sleefdp.c:252-268; src/dd.h:109-112. -/
def acosWith (fused : Bool) (poly : {α : Type} → Alg α → α → α) (halfPi pi : ℚ) : Fl → Fl
  | .nan => .nan
  | .inf _ => .nan
  | .fin d =>
    let A := flAlg rnd lt fused
    let x2 := asinX2 rnd d
    if x2 < 0 then .nan else
    let x := asinX rnd sq d
    let x := if |d| = 1 then 0 else x
    let u := A.mul (poly A x2) (A.mul x x2)
    let y := sub rnd halfPi (add rnd (mulsignQ x d) (mulsignQ u d))
    let x := add rnd x u
    let r := if |d| < 1 / 2 then y else mul rnd x 2
    .fin (if ¬|d| < 1 / 2 ∧ d < 0 then add rnd pi (-r) else r)

/-- `xasin`; `M_PI / 2` is a quotient of numbers of type `double`: src/sleefdp.c:538; src/sleefsimddp.c:1998; src/misc.h:17. -/
def xasin (simd fused : Bool) : Fl → Fl := asinWith rnd rnd sq simd (simd && fused) asinPoly64 (rnd (rnd M_PI / 2))

/-- `xasinf`; the coefficients are literals of type `double`, `M_PIf` is `(float)M_PI`: src/sleefsp.c:1012; src/sleefsimdsp.c:1721;
src/misc.h:131. -/
def xasinf (simd fused : Bool) (rndd : ℚ → ℚ) : Fl → Fl :=
  asinWith rnd (fun c => rnd (rndd c)) sq simd (simd && fused) asinPoly32 (rnd (rnd (rndd M_PI) / 2))

/-- `xacos`: src/sleefdp.c:567, 570; src/sleefsimddp.c:2056, 2060. -/
def xacos (simd fused : Bool) : Fl → Fl :=
  acosWith rnd rnd sq (simd && fused) asinPoly64 (rnd (rnd (if simd then M_PI else 3.1415926535897932) / 2)) (rnd 3.141592653589793116)

/-- `xacosf`: src/sleefsp.c:1032, 1035; src/sleefsimdsp.c:1739, 1743. -/
def xacosf (simd fused : Bool) (rndd : ℚ → ℚ) : Fl → Fl :=
  acosWith rnd (fun c => rnd (rndd c)) sq (simd && fused) asinPoly32 (rnd (rnd 3.1415926535897932 / 2)) (rnd 3.1415927410125732422)

end Nsimd.Sleef
