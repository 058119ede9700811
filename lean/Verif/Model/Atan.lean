import Verif.Model.FlExpr
import Verif.Model.Hypot

/-!
# `atan_u35` of the vendored SLEEF

The operator `atan_u35` (egg/operators.py) calls `xatan` and `xatanf`. The sign of zero is not modelled.
-/

namespace Nsimd.Sleef
open Nsimd.DoubleDouble Nsimd.Round Nsimd.Hypot

section kernels
variable {α : Type} (A : Alg α)

/-- The polynomial of `xatan`: src/sleefdp.c:584-604; src/sleefsimddp.c:2121-2141. -/
def atanPoly64 (t : α) : α :=
  let t2 := A.mul t t
  let t4 := A.mul t2 t2
  let t8 := A.mul t4 t4
  let t16 := A.mul t8 t8
  A.poly19 t t2 t4 t8 t16
    (-1.88796008463073496563746e-05) (0.000209850076645816976906797) (-0.00110611831486672482563471)
    (0.00370026744188713119232403) (-0.00889896195887655491740809) (0.016599329773529201970117)
    (-0.0254517624932312641616861) (0.0337852580001353069993897) (-0.0407629191276836500001934)
    (0.0466667150077840625632675) (-0.0523674852303482457616113) (0.0587666392926673580854313)
    (-0.0666573579361080525984562) (0.0769219538311769618355029) (-0.090908995008245008229153)
    (0.111111105648261418443745) (-0.14285714266771329383765) (0.199999999996591265594148)
    (-0.333333333333311110369124)

/-- The polynomial of `xatanf`: src/sleefsp.c:944-953; src/sleefsimdsp.c:1633-1642. -/
def atanPoly32 (t : α) : α :=
  let t2 := A.mul t t
  let t4 := A.mul t2 t2
  A.poly8 t t2 t4
    (0.00282363896258175373077393) (-0.0159569028764963150024414) (0.0425049886107444763183594)
    (-0.0748900920152664184570312) (0.106347933411598205566406) (-0.142027363181114196777344)
    (0.199926957488059997558594) (-0.333331018686294555664062)

/-- `s + s * (t * u)` and `mla(s, t * u, s)` with `t = s * s`: src/sleefdp.c:582, 606; src/sleefsp.c:942, 955; src/sleefsimddp.c:2119, 2143;
src/sleefsimdsp.c:1631, 1644. -/
def atanKernel (poly : {α : Type} → Alg α → α → α) (s : α) : α :=
  let t := A.mul s s
  A.mla s (A.mul t (poly A t)) s

end kernels

variable (rnd : ℚ → ℚ)

/-- The reduction to `0 ≤ s ≤ 1`, with the two bits of `q` as tests, and the reconstruction: src/sleefdp.c:576-612;
src/sleefsp.c:936-961; src/sleefsimddp.c:2113-2146; src/sleefsimdsp.c:1625-1648. The scalar code is the one without fusion. An infinity
has the reciprocal 0. Not modelled: what `vrec` does instead of a division on 32-bit ARM. -/
def atanWith (fused : Bool) (poly : {α : Type} → Alg α → α → α) (halfPi : ℚ) : Fl → Fl
  | .nan => .nan
  | .inf neg =>
    let t := sub rnd halfPi (atanKernel (flAlg rnd rnd fused) poly 0)
    .fin (if neg then -t else t)
  | .fin x =>
    let s := |x|
    let t := if 1 < s then sub rnd halfPi (atanKernel (flAlg rnd rnd fused) poly (rnd (1 / s)))
      else atanKernel (flAlg rnd rnd fused) poly s
    .fin (if x < 0 then -t else t)

/-- `M_PI`: src/misc.h:17. -/
def M_PI : ℚ := 3.141592653589793238462643383279502884

/-- `M_PI / 2` in the SIMD code and a literal in the scalar code: src/sleefsimddp.c:2145; src/sleefdp.c:608. -/
def halfPi64 (simd : Bool) : ℚ := if simd then rnd (rnd M_PI / 2) else rnd 1.570796326794896557998982

/-- `(float)(M_PI / 2)` in the SIMD code and a literal in the scalar code: src/sleefsimdsp.c:1646; src/sleefsp.c:957. -/
def halfPi32 (simd : Bool) (rndd : ℚ → ℚ) : ℚ := if simd then rnd (rndd (rndd M_PI / 2)) else rnd 1.570796326794896557998982

/-- `xatan`: src/sleefdp.c:575-612; src/sleefsimddp.c:2106-2154. -/
def xatan (simd fused : Bool) : Fl → Fl := atanWith rnd (simd && fused) atanPoly64 (halfPi64 rnd simd)

/-- `xatanf`: src/sleefsp.c:935-961; src/sleefsimdsp.c:1621-1655. -/
def xatanf (simd fused : Bool) (rndd : ℚ → ℚ) : Fl → Fl := atanWith rnd (simd && fused) atanPoly32 (halfPi32 rnd simd rndd)

end Nsimd.Sleef
