import Verif.Model.Log

/-!
# `log2_u35` of the vendored SLEEF, f32

The operator `log2_u35` (egg/operators.py:1635-1644) calls `xlog2f_u35` for f32. Not modelled: `xlog2_u35` for f64, which works with
double-double numbers, and the branches for AVX-512, which get the exponent and the significand with `vgetexp` and `vgetmant`.
-/

namespace Nsimd.Sleef
open Nsimd.DoubleDouble Nsimd.Round Nsimd.Hypot

section kernels
variable {α : Type} (A : Alg α)

/-- The polynomial of `xlog2f_u35`: src/sleefsp.c:1722-1724; src/sleefsimdsp.c:2700-2702. -/
def log2Poly (x2 : α) : α :=
  let t := A.lit 0.4374088347
  let t := A.mla t x2 (A.lit 0.5764843822)
  A.mla t x2 (A.lit 0.9618024230)

/-- The logarithm of `m * 2 ^ e` in `xlog2f_u35`: src/sleefsp.c:1719-1726; src/sleefsimdsp.c:2697-2706. The conversion of the integer
`e` to a number of type `float` is exact, since `e` is below `2 ^ 24`. -/
def log2Kernel (m e : α) : α :=
  let x := A.div (A.sub m (A.lit 1)) (A.add m (A.lit 1))
  let x2 := A.mul x x
  let t := log2Poly A x2
  A.mla (A.mul x2 x) t (A.mla x (A.lit 2.885390043) e)

end kernels

variable (rnd rndd : ℚ → ℚ)

/-- `xlog2f_u35`: src/sleefsp.c:1707-1733; src/sleefsimdsp.c:2682-2719. The scalar code is the one without fusion. The splitting into
significand and exponent and the selections at the end are those of `xlogf` (src/sleefsp.c:1711-1717, 1728-1730;
src/sleefsimdsp.c:2686-2690, 2708-2710). The literals have type `double` and are converted to `float`; `rndd` is the rounding to
`double`. -/
def xlog2f35 (simd fused : Bool) : Fl → Fl :=
  logWith rnd (-149) 128 24 (log2Kernel (flAlg rnd (fun c => rnd (rndd c)) (simd && fused)))

end Nsimd.Sleef
