import Verif.Model.Log
import Verif.Model.Fmod

/-!
# `cbrt_u35` of the vendored SLEEF

The operator `cbrt_u35` (egg/operators.py:1369-1377) calls `xcbrt` and `xcbrtf`.  Not modelled: infinities and NaNs, and the branches
for AVX-512, which get the exponent with `vgetexp` and restore zeros and infinities at the end.
-/

namespace Nsimd.Sleef
open Nsimd.DoubleDouble Nsimd.Round Nsimd.Hypot Nsimd.Fmod

section kernels
variable {α : Type} (A : Alg α)

/-- The polynomial close to `d ^ (-1/3)` for `d` between `1/2` and `1` in `xcbrt`: src/sleefdp.c:1858-1863; src/sleefsimddp.c:2669-2674. -/
def cbrtPoly64 (d : α) : α :=
  let x := A.lit (-0.640245898480692909870982)
  let x := A.mla x d (A.lit 2.96155103020039511818595)
  let x := A.mla x d (A.lit (-5.73353060922947843636166))
  let x := A.mla x d (A.lit 6.03990368989458747961407)
  let x := A.mla x d (A.lit (-3.85841935510444988821632))
  A.mla x d (A.lit 2.2307275302496609725722)

/-- The step of Newton's method for `d ^ (-1/3)` in `xcbrt`: src/sleefdp.c:1865; src/sleefsimddp.c:2676. `vmlapn(d, y, x)` is `d * y - x`,
fused where `mla` is (src/helpersse2.h:215; src/helperavx2.h:195). -/
def cbrtNewton64 (d : α) : α :=
  let x := cbrtPoly64 A d
  let y := A.mul x x
  let y := A.mul y y
  A.sub x (A.mul (A.mla d y (A.neg x)) (A.lit (1 / 3)))

/-- The polynomial close to `d ^ (-1/3)` for `d` between `1/2` and `1` in `xcbrtf`: src/sleefsp.c:1787-1792; src/sleefsimdsp.c:1999-2004. -/
def cbrtPoly32 (d : α) : α :=
  let x := A.lit (-0.601564466953277587890625)
  let x := A.mla x d (A.lit 2.8208892345428466796875)
  let x := A.mla x d (A.lit (-5.532182216644287109375))
  let x := A.mla x d (A.lit 5.898262500762939453125)
  let x := A.mla x d (A.lit (-3.8095417022705078125))
  A.mla x d (A.lit 2.2241256237030029296875)

/-- The last step, before the product with `q`: src/sleefdp.c:1866-1867; src/sleefsp.c:1794-1795; src/sleefsimddp.c:2677-2678;
src/sleefsimdsp.c:2006-2007. -/
def cbrtStep (d x : α) : α :=
  let y := A.mul (A.mul d x) x
  A.sub y (A.mul (A.mul (A.lit (2 / 3)) y) (A.mla y x (A.lit (-1))))

end kernels

variable (rnd : ℚ → ℚ)

/-- The exponent of a number that is not negative: `ilogbk`, src/sleefdp.c:134-140; `ilogbkf`, src/sleefsp.c:82-88; `vilogbk_vi_vd`,
src/sleefsimddp.c:299-307; `vilogbk_vi2_vf`, src/sleefsimdsp.c:369-375. Small numbers are multiplied by `2 ^ s`, `s` is 300 for f64 and
64 for f32. The exponent field of zero is zero, its bias is `emax - 1`. -/
def ilogbk (emax : ℤ) (s : ℕ) (d : ℚ) : ℤ :=
  let m := decide (d < 2 ^ (-(s : ℤ)))
  let d := if m then rnd (2 ^ s * d) else d
  let q := if d = 0 then -(emax - 1) else expField emax (.fin d)
  if m then q - s else q

/-- `ldexp2k`, src/sleefdp.c:111-113; `ldexp2kf`, src/sleefsp.c:123-125; `vldexp2_vd_vd_vi`, src/sleefsimddp.c:290-292;
`vldexp2_vf_vf_vi2`, src/sleefsimdsp.c:415-417. `e >> 1` rounds down. As `ldexp2k` of Model/Exp.lean but without overflow, which `cbrt` has not. -/
def cbrtLdexp (d : ℚ) (e : ℤ) : ℚ := rnd (rnd (d * 2 ^ (e / 2)) * 2 ^ (e - e / 2))

/-- A third of `e + 6144` and the rest in the scalar code, where `e + 6144` is positive: src/sleefdp.c:1850, 1853; src/sleefsp.c:1779, 1782. -/
def cbrtThird (e : ℤ) : ℤ × ℤ := ((e + 6144).tdiv 3, (e + 6144).tmod 3)

/-- A third of `e + 6144` and the rest in the SIMD code, with floating-point operations: src/sleefsimddp.c:2657-2659;
src/sleefsimdsp.c:1988-1990. -/
def cbrtThirdSimd (e : ℤ) : ℤ × ℤ :=
  let t := add rnd e 6144
  let qu := truncQ (mul rnd t (rnd (1 / 3)))
  (qu, truncQ (sub rnd t (mul rnd qu 3)))

/-- `xcbrt` and `xcbrtf` around the computation of the reciprocal cube root: src/sleefdp.c:1848-1857, 1866-1869; src/sleefsp.c:1777-1785,
1794-1797; src/sleefsimddp.c:2654-2667, 2677-2685; src/sleefsimdsp.c:1985-1997, 2006-2014. `mulsign` is the product with the sign. -/
def cbrtWith (emax : ℤ) (s : ℕ) (simd fused : Bool) (recip : ℚ → ℚ) (d : ℚ) : ℚ :=
  let e := ilogbk rnd emax s |d| + 1
  let d := cbrtLdexp rnd d (-e)
  let (qu, r) := if simd then cbrtThirdSimd rnd e else cbrtThird e
  let q := if r = 1 then rnd 1.2599210498948731647672106 else 1
  let q := if r = 2 then rnd 1.5874010519681994747517056 else q
  let q := cbrtLdexp rnd q (qu - 2048)
  let q := if d < 0 then -q else q
  let d := |d|
  mul rnd (cbrtStep (flAlg rnd rnd (simd && fused)) d (recip d)) q

/-- `xcbrt`: src/sleefdp.c:1844-1870; src/sleefsimddp.c:2646-2686. The scalar code is the one without fusion. -/
def xcbrt (simd fused : Bool) (d : ℚ) : ℚ :=
  cbrtWith rnd 1024 300 simd fused (cbrtNewton64 (flAlg rnd rnd (simd && fused))) d

/-- `xcbrtf`: src/sleefsp.c:1773-1798; src/sleefsimdsp.c:1978-2015. The scalar code is the one without fusion. -/
def xcbrtf (simd fused : Bool) (d : ℚ) : ℚ :=
  cbrtWith rnd 128 64 simd fused (cbrtPoly32 (flAlg rnd rnd (simd && fused))) d

end Nsimd.Sleef
