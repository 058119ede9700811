import Verif.Model.FlExpr
import Verif.Model.Hypot
import Mathlib.Data.Int.Log

/-!
# `log_u35` of the vendored SLEEF

The operator `log_u35` (egg/operators.py) calls `xlog` and `xlogf`. Not modelled: the branches for AVX-512, which get the exponent
and the significand with `vgetexp` and `vgetmant`.
-/

namespace Nsimd.Sleef
open Nsimd.DoubleDouble Nsimd.Round Nsimd.Hypot

section kernels
variable {α : Type} (A : Alg α)

/-- The polynomial of `xlog`: src/sleefdp.c:1452-1462; src/sleefsimddp.c:2174-2182. -/
def logPoly64 (x2 : α) : α :=
  let x4 := A.mul x2 x2
  let x8 := A.mul x4 x4
  A.poly7 x2 x4 x8 (0.153487338491425068243146) (0.152519917006351951593857) (0.181863266251982985677316)
    (0.222221366518767365905163) (0.285714294746548025383248) (0.399999999950799600689777) (0.6666666666667778740063)

/-- The polynomial of `xlogf`: src/sleefsp.c:1146-1150; src/sleefsimdsp.c:1880-1884. -/
def logPoly32 (x2 : α) : α :=
  let t := A.lit 0.2392828464508056640625
  let t := A.mla t x2 (A.lit 0.28518211841583251953125)
  let t := A.mla t x2 (A.lit 0.400005877017974853515625)
  let t := A.mla t x2 (A.lit 0.666666686534881591796875)
  A.mla t x2 (A.lit 2)

/-- The logarithm of `m * 2 ^ e` in `xlog`: src/sleefdp.c:1449-1464; src/sleefsimddp.c:2171-2186. In the scalar code
`x * 2 + c * e + x * x2 * t` is `(x * 2 + c * e) + (x * x2) * t`. -/
def logKernel64 (m e : α) : α :=
  let x := A.div (A.sub m (A.lit 1)) (A.add m (A.lit 1))
  let x2 := A.mul x x
  let x3 := A.mul x x2
  let t := logPoly64 A x2
  A.mla x3 t (A.mla x (A.lit 2) (A.mul (A.lit 0.693147180559945286226764) e))

/-- The logarithm of `m * 2 ^ e` in `xlogf`: src/sleefsp.c:1143-1152; src/sleefsimdsp.c:1877-1887. -/
def logKernel32 (m e : α) : α :=
  let x := A.div (A.sub m (A.lit 1)) (A.add m (A.lit 1))
  let x2 := A.mul x x
  let t := logPoly32 A x2
  A.mla x t (A.mul (A.lit 0.693147180559945286226764) e)

end kernels

variable (rnd : ℚ → ℚ)

/-- The exponent field without its bias of a positive normal number or the infinity: `ilogb2k`, src/sleefdp.c:144-146; `ilogb2kf`,
src/sleefsp.c:92-94; `vilogb2k`, src/sleefsimddp.c:309-315; src/sleefsimdsp.c:377-383. -/
def expField (emax : ℤ) : Fl → ℤ
  | .fin q => Int.log 2 q
  | _ => emax

/-- The significand `m` and the exponent `e` of a positive number `d = m * 2 ^ e`: src/sleefdp.c:1441-1447;
src/sleefsp.c:1134-1140; src/sleefsimddp.c:2161-2165; src/sleefsimdsp.c:1866-1870. `ldexp3k` adds to the exponent field
(src/sleefdp.c:115-117; src/sleefsp.c:127-129); that is the product since `m` is normal. -/
def logSplit (emin emax : ℤ) (p : ℕ) (d : ℚ) : ℚ × ℤ :=
  let o := decide (d < 2 ^ (emin + p - 1))
  let d := if o then rnd (d * 2 ^ 64) else d
  let e := expField emax (roundFl rnd emax (d * rnd (1 / 0.75)))
  let m := d * 2 ^ (-e)
  (m, if o then e - 64 else e)

/-- `xlog` and `xlogf` with the selections at their end: src/sleefdp.c:1466-1468; src/sleefsp.c:1154-1156; src/sleefsimddp.c:2188-2190;
src/sleefsimdsp.c:1888-1890. -/
def logWith (emin emax : ℤ) (p : ℕ) (kernel : ℚ → ℚ → ℚ) : Fl → Fl
  | .nan => .nan
  | .inf neg => if neg then .nan else .inf false
  | .fin d =>
    if d = 0 then .inf true
    else if d < 0 then .nan
    else
      let (m, e) := logSplit rnd emin emax p d
      .fin (kernel m e)

/-- `xlog`: src/sleefdp.c:1438-1471; src/sleefsimddp.c:2156-2199. The scalar code is the one without fusion. -/
def xlog (simd fused : Bool) : Fl → Fl := logWith rnd (-1074) 1024 53 (logKernel64 (flAlg rnd rnd (simd && fused)))

/-- `xlogf`: src/sleefsp.c:1131-1158; src/sleefsimdsp.c:1862-1897. The scalar code is the one without fusion. -/
def xlogf (simd fused : Bool) : Fl → Fl := logWith rnd (-149) 128 24 (logKernel32 (flAlg rnd rnd (simd && fused)))

end Nsimd.Sleef
