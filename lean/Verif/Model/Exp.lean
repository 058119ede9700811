import Verif.Model.FlExpr
import Verif.Model.Hypot
import Verif.Model.Fmod

/-!
# `exp`, `exp2` and `exp10` of the vendored SLEEF

The operators `exp_u10`, `exp2_u35` and `exp10_u35` (egg/operators.py) call `xexp`, `xexp2_u35`, `xexp10_u35` and their
single precision counterparts.  A finite number is a rational, every floating-point operation is the exact operation
followed by `rnd`; the sign of zero is not modelled.
-/

namespace Nsimd.Sleef
open Nsimd.DoubleDouble Nsimd.Round Nsimd.Hypot

/-- The scalar code converts to `int` with a C cast, the SIMD code rounds to a nearest integer. -/
inductive Mode
  | scalar
  | simd (near : ℚ → ℤ)

/-- Is it the SIMD code? -/
def Mode.isSimd : Mode → Bool
  | .scalar => false
  | .simd _ => true

variable (rnd : ℚ → ℚ) (fused : Bool) (m : Mode)

/-- `rintk`, `rintfk`: src/sleefdp.c:69; src/sleefsp.c:69; `vrint_vd_vd`, `vrint_vi_vd`, `vrint_vf_vf`, `vrint_vi2_vf`:
src/helpersse2.h:170, 179, 187, 314; src/helperavx2.h:159, 161, 292. `none`: the cast to `int` is undefined because the
value is out of range. In the SIMD code the conversion of a number that is too large for an `int` gives another integer;
this is not modelled because the tests for large arguments replace the result. -/
def rintk (x : ℚ) : Option ℤ :=
  match m with
  | .scalar =>
    let n := if x < 0 then Fmod.truncQ (sub rnd x (rnd (1 / 2))) else Fmod.truncQ (add rnd x (rnd (1 / 2)))
    if -2 ^ 31 ≤ n ∧ n < 2 ^ 31 then some n else none
  | .simd near => some (near x)

/-- `pow2i`, `pow2if`, `vpow2i_vd_vi`, `vpow2i_vf_vi2`: src/sleefdp.c:92-94; src/sleefsp.c:104-106;
src/sleefsimddp.c:272-276; src/sleefsimdsp.c:396-398. A power of two with an exponent in the range of the type; the callers
modelled here use no other exponents. -/
def pow2i (q : ℤ) : ℚ := 2 ^ q

/-- `ldexp2k`, `ldexp2kf`, `vldexp2_vd_vd_vi`, `vldexp2_vf_vf_vi2`: src/sleefdp.c:111-113; src/sleefsp.c:123-125;
src/sleefsimddp.c:290-292; src/sleefsimdsp.c:415-417. Only the second product can overflow. -/
def ldexp2k (emax : ℤ) (d : ℚ) (e : ℤ) : Fl :=
  roundFl rnd emax (mul rnd d (pow2i (e.shiftRight 1)) * pow2i (e - e.shiftRight 1))

/-- The tests after the computation; `body` is the result for finite arguments. What the scalar code does with infinities
and NaNs is undefined because they are converted to `int` before the tests; in the SIMD code infinities satisfy one of the
tests and a NaN goes through all operations and satisfies none. src/sleefdp.c:1496-1499, 1966-1969, 2023-2026;
src/sleefsp.c:1178-1181, 1580-1583, 1627-1630; src/sleefsimddp.c:2247-2250, 2802-2805, 2866-2869;
src/sleefsimdsp.c:1919-1922, 2527-2530, 2574-2577. -/
def select (over under : ℚ → Bool) (body : ℚ → Option Fl) : Fl → Option Fl
  | .nan => if m.isSimd then some .nan else none
  | .inf neg => if m.isSimd then some (if neg then .fin 0 else .inf false) else none
  | .fin d => (body d).map fun u => if under d then .fin 0 else if over d then .inf false else u

/-- Two steps of the argument reduction: `mla(q, -l, mla(q, -u, d))`. src/sleefdp.c:1477-1478, 2005-2006;
src/sleefsp.c:1165-1166, 1614-1615; src/sleefsimddp.c:2207-2208, 2845-2846; src/sleefsimdsp.c:1905-1906, 2561-2562. -/
def reduce2 (u l : ℚ) (q : ℤ) (d : ℚ) : ℚ :=
  let A := flAlg rnd rnd fused
  A.mla q (A.neg (A.lit l)) (A.mla q (A.neg (A.lit u)) d)

section kernels
variable {α : Type} (A : Alg α)

/-- The polynomial of `xexp` without fused multiply-add: src/sleefdp.c:1480-1491; src/sleefsimddp.c:2229-2241. -/
def expPoly64 (s : α) : α :=
  let s2 := A.mul s s
  let s4 := A.mul s2 s2
  let s8 := A.mul s4 s4
  let u := A.poly10 s s2 s4 s8
    2.08860621107283687536341e-09 2.51112930892876518610661e-08 2.75573911234900471893338e-07
    2.75572362911928827629423e-06 2.4801587159235472998791e-05 0.000198412698960509205564975
    0.00138888888889774492207962 0.00833333333331652721664984 0.0416666666666665047591422
    0.166666666666666851703837
  A.mla u s (A.lit 0.5)

/-- The polynomial of `xexp` with fused multiply-add (`ENABLE_FMA_DP`): src/sleefsimddp.c:2211-2225. -/
def expPoly64fma (s : α) : α :=
  let s2 := A.mul s s
  let s4 := A.mul s2 s2
  let s8 := A.mul s4 s4
  let u := A.poly10 s s2 s4 s8
    0.2081276378237164457e-8 0.2511210703042288022e-7 0.2755762628169491192e-6
    0.2755723402025388239e-5 0.2480158687479686264e-4 0.1984126989855865850e-3
    0.1388888888914497797e-2 0.8333333333314938210e-2 0.4166666666666602598e-1
    0.1666666666666669072e+0
  let u := A.fma u s (A.lit 0.5)
  A.fma u s (A.lit 1)

/-- The polynomial of `xexpf`: src/sleefsp.c:1168-1173; src/sleefsimdsp.c:1908-1913. -/
def expPoly32 (s : α) : α :=
  let u := A.lit 0.000198527617612853646278381
  let u := A.mla u s (A.lit 0.00139304355252534151077271)
  let u := A.mla u s (A.lit 0.00833336077630519866943359)
  let u := A.mla u s (A.lit 0.0416664853692054748535156)
  let u := A.mla u s (A.lit 0.166666671633720397949219)
  A.mla u s (A.lit 0.5)

/-- `s*s*u + s + 1`: src/sleefdp.c:1493; src/sleefsp.c:1175; `1 + mla(s*s, u, s)`: src/sleefsimddp.c:2243;
src/sleefsimdsp.c:1915. -/
def expSum (simd : Bool) (u s : α) : α :=
  if simd then A.add (A.lit 1) (A.mla (A.mul s s) u s) else A.add (A.add (A.mul (A.mul s s) u) s) (A.lit 1)

/-- The polynomial of `xexp2_u35`, scalar: src/sleefdp.c:1951-1961. -/
def exp2Poly64 (s : α) : α :=
  let u := A.lit 0.4434359082926529454e-9
  let u := A.mla u s (A.lit 0.7073164598085707425e-8)
  let u := A.mla u s (A.lit 0.1017819260921760451e-6)
  let u := A.mla u s (A.lit 0.1321543872511327615e-5)
  let u := A.mla u s (A.lit 0.1525273353517584730e-4)
  let u := A.mla u s (A.lit 0.1540353045101147808e-3)
  let u := A.mla u s (A.lit 0.1333355814670499073e-2)
  let u := A.mla u s (A.lit 0.9618129107597600536e-2)
  let u := A.mla u s (A.lit 0.5550410866482046596e-1)
  let u := A.mla u s (A.lit 0.2402265069591012214e+0)
  A.mla u s (A.lit 0.6931471805599452862e+0)

/-- The polynomial of `xexp2_u35`, SIMD: src/sleefsimddp.c:2784-2796. -/
def exp2Poly64simd (s : α) : α :=
  let s2 := A.mul s s
  let s4 := A.mul s2 s2
  let s8 := A.mul s4 s4
  let u := A.poly10 s s2 s4 s8
    0.4434359082926529454e-9 0.7073164598085707425e-8 0.1017819260921760451e-6
    0.1321543872511327615e-5 0.1525273353517584730e-4 0.1540353045101147808e-3
    0.1333355814670499073e-2 0.9618129107597600536e-2 0.5550410866482046596e-1
    0.2402265069591012214e+0
  A.mla u s (A.lit 0.6931471805599452862e+0)

/-- The polynomial of `xexp2f_u35`: src/sleefsp.c:1570-1575; src/sleefsimdsp.c:2517-2522. -/
def exp2Poly32 (s : α) : α :=
  let u := A.lit 0.1535920892e-3
  let u := A.mla u s (A.lit 0.1339262701e-2)
  let u := A.mla u s (A.lit 0.9618384764e-2)
  let u := A.mla u s (A.lit 0.5550347269e-1)
  let u := A.mla u s (A.lit 0.2402264476e+0)
  A.mla u s (A.lit 0.6931471825e+0)

/-- The polynomial of `xexp10_u35`, scalar: src/sleefdp.c:2008-2018. -/
def exp10Poly64 (s : α) : α :=
  let u := A.lit 0.2411463498334267652e-3
  let u := A.mla u s (A.lit 0.1157488415217187375e-2)
  let u := A.mla u s (A.lit 0.5013975546789733659e-2)
  let u := A.mla u s (A.lit 0.1959762320720533080e-1)
  let u := A.mla u s (A.lit 0.6808936399446784138e-1)
  let u := A.mla u s (A.lit 0.2069958494722676234e+0)
  let u := A.mla u s (A.lit 0.5393829292058536229e+0)
  let u := A.mla u s (A.lit 0.1171255148908541655e+1)
  let u := A.mla u s (A.lit 0.2034678592293432953e+1)
  let u := A.mla u s (A.lit 0.2650949055239205876e+1)
  A.mla u s (A.lit 0.2302585092994045901e+1)

/-- The polynomial of `xexp10_u35`, SIMD: src/sleefsimddp.c:2848-2860. -/
def exp10Poly64simd (s : α) : α :=
  let s2 := A.mul s s
  let s4 := A.mul s2 s2
  let s8 := A.mul s4 s4
  A.poly11 s s2 s4 s8
    0.2411463498334267652e-3 0.1157488415217187375e-2 0.5013975546789733659e-2
    0.1959762320720533080e-1 0.6808936399446784138e-1 0.2069958494722676234e+0
    0.5393829292058536229e+0 0.1171255148908541655e+1 0.2034678592293432953e+1
    0.2650949055239205876e+1 0.2302585092994045901e+1

/-- The polynomial of `xexp10f_u35`: src/sleefsp.c:1617-1622; src/sleefsimdsp.c:2564-2569. -/
def exp10Poly32 (s : α) : α :=
  let u := A.lit 0.2064004987e+0
  let u := A.mla u s (A.lit 0.5417877436e+0)
  let u := A.mla u s (A.lit 0.1171286821e+1)
  let u := A.mla u s (A.lit 0.2034656048e+1)
  let u := A.mla u s (A.lit 0.2650948763e+1)
  A.mla u s (A.lit 0.2302585125e+1)

end kernels

/-- `L2U`: src/misc.h:99. -/
def L2U : ℚ := 0.69314718055966295651160180568695068359375
/-- `L2L`: src/misc.h:100. -/
def L2L : ℚ := 0.28235290563031577122588448175013436025525412068e-12
/-- `R_LN2`, `R_LN2f`: src/misc.h:101, 130. -/
def R_LN2 : ℚ := 1.442695040888963407359924681001892137426645954152985934135449406931
/-- `L2Uf`: src/misc.h:127. -/
def L2Uf : ℚ := 0.693145751953125
/-- `L2Lf`: src/misc.h:128. -/
def L2Lf : ℚ := 1.428606765330187045e-06
/-- `L10U`: src/misc.h:103. -/
def L10U : ℚ := 0.30102999566383914498
/-- `L10L`: src/misc.h:104. -/
def L10L : ℚ := 1.4205023227266099418e-13
/-- `LOG10_2`: src/misc.h:105. -/
def LOG10_2 : ℚ := 3.3219280948873623478703194294893901758648313930
/-- `L10Uf`: src/misc.h:107. -/
def L10Uf : ℚ := 0.3010253906
/-- `L10Lf`: src/misc.h:108. -/
def L10Lf : ℚ := 4.605038981e-06

/-- `xexp`, scalar and one lane of the SIMD version: src/sleefdp.c:1473-1500; src/sleefsimddp.c:2203-2251. `fused`: the
target has fused multiply-add, which also selects another polynomial in the SIMD version. -/
def xexp : Fl → Option Fl :=
  let A := flAlg rnd rnd (fused && m.isSimd)
  select m (fun d => decide (rnd 709.78271114955742909217217426 < d)) (fun d => decide (d < -1000)) fun d =>
    (rintk rnd m (mul rnd d (rnd R_LN2))).map fun q =>
      let s := reduce2 rnd (fused && m.isSimd) L2U L2L q d
      let u := if fused && m.isSimd then A.fma (expPoly64fma A s) s (A.lit 1)
        else expSum A m.isSimd (expPoly64 A s) s
      ldexp2k rnd 1024 u q

/-- `xexpf`, scalar and one lane of the SIMD version: src/sleefsp.c:1161-1182; src/sleefsimdsp.c:1901-1923. Constants without the
suffix `f` are of type `double` (rounding `rndd`) and are converted. -/
def xexpf (rndd : ℚ → ℚ) : Fl → Option Fl :=
  let A := flAlg rnd (fun c => rnd (rndd c)) (fused && m.isSimd)
  select m (fun d => decide ((if m.isSimd then 100 else 104) < d)) (fun d => decide (d < -104)) fun d =>
    (rintk rnd m (mul rnd d (rnd R_LN2))).map fun q =>
      let s := reduce2 rnd (fused && m.isSimd) L2Uf L2Lf q d
      ldexp2k rnd 128 (expSum A m.isSimd (expPoly32 A s) s) q

/-- `xexp2_u35`, scalar and one lane of the SIMD version: src/sleefdp.c:1945-1970; src/sleefsimddp.c:2778-2806. -/
def xexp2 : Fl → Option Fl :=
  let A := flAlg rnd rnd (fused && m.isSimd)
  select m (fun d => decide (1024 ≤ d)) (fun d => decide (d < -2000)) fun d =>
    (rintk rnd m d).map fun (q : ℤ) =>
      let s := A.sub d (q : ℚ)
      ldexp2k rnd 1024 (A.mla (if m.isSimd then exp2Poly64simd A s else exp2Poly64 A s) s (A.lit 1)) q

/-- `xexp2f_u35`, scalar and one lane of the SIMD version: src/sleefsp.c:1564-1584; src/sleefsimdsp.c:2511-2531. -/
def xexp2f (rndd : ℚ → ℚ) : Fl → Option Fl :=
  let A := flAlg rnd (fun c => rnd (rndd c)) (fused && m.isSimd)
  select m (fun d => decide (128 ≤ d)) (fun d => decide (d < -150)) fun d =>
    (rintk rnd m d).map fun (q : ℤ) =>
      let s := A.sub d (q : ℚ)
      ldexp2k rnd 128 (A.mla (exp2Poly32 A s) s (A.lit 1)) q

/-- `xexp10_u35`, scalar and one lane of the SIMD version: src/sleefdp.c:2001-2027; src/sleefsimddp.c:2841-2870. -/
def xexp10 : Fl → Option Fl :=
  let A := flAlg rnd rnd (fused && m.isSimd)
  select m (fun d => decide (rnd 308.25471555991671 < d)) (fun d => decide (d < -350)) fun d =>
    (rintk rnd m (mul rnd d (rnd LOG10_2))).map fun q =>
      let s := reduce2 rnd (fused && m.isSimd) L10U L10L q d
      ldexp2k rnd 1024 (A.mla (if m.isSimd then exp10Poly64simd A s else exp10Poly64 A s) s (A.lit 1)) q

/-- `xexp10f_u35`, scalar and one lane of the SIMD version: src/sleefsp.c:1610-1631; src/sleefsimdsp.c:2557-2578. -/
def xexp10f (rndd : ℚ → ℚ) : Fl → Option Fl :=
  let A := flAlg rnd (fun c => rnd (rndd c)) (fused && m.isSimd)
  select m (fun d => decide (rnd 38.5318394191036238941387 < d)) (fun d => decide (d < -50)) fun d =>
    (rintk rnd m (mul rnd d (rnd (rndd LOG10_2)))).map fun q =>
      let s := reduce2 rnd (fused && m.isSimd) L10Uf L10Lf q d
      ldexp2k rnd 128 (A.mla (exp10Poly32 A s) s (A.lit 1)) q

end Nsimd.Sleef
