import Verif.Model.Asin
import Verif.Lemmas.AtanBound
import Verif.Lemmas.CbrtPoly
import Mathlib.Analysis.SpecialFunctions.Trigonometric.InverseDeriv

/-!
# The polynomials of `asin` and `acos`
-/

namespace Nsimd.Poly

/-- `(1 - t) * (l t) ^ 2 - 1`. Proof helper. -/
def asinRes (l : List ℚ) : List ℚ := addQ [-1] (mulQ [1, -1] (mulQ l l))

theorem eval_asinRes (l : List ℚ) (t : ℝ) : eval (asinRes l) t = (1 - t) * eval l t ^ 2 - 1 := by
  simp only [asinRes, eval_addQ, eval_mulQ, eval_cons, eval_nil]; push_cast; ring

/-- If `1 - s ^ 2` times the square of the derivative of `s * l (s ^ 2)` is close to one then this is close to the arcsine. -/
theorem arcsin_near {l : List ℚ} {ε : ℝ} (h : ∀ t : ℝ, 0 ≤ t → t ≤ 1 / 4 → |eval (asinRes (oddDeriv 0 l)) t| ≤ ε)
    (hpos : ∀ t : ℝ, 0 ≤ t → t ≤ 1 / 4 → 0 ≤ eval (oddDeriv 0 l) t) {s : ℝ} (h0 : 0 ≤ s) (h1 : s ≤ 1 / 2) :
    |Real.arcsin s - s * eval l (s ^ 2)| ≤ 2 * ε * s := by
  have hd : ∀ y ∈ Set.Icc (0 : ℝ) (1 / 2), HasDerivAt (fun s : ℝ => Real.arcsin s - s ^ (2 * 0 + 1) * eval l (s ^ 2))
      (1 / √(1 - y ^ 2) - y ^ (2 * 0) * eval (oddDeriv 0 l) (y ^ 2)) y := fun y hy =>
    (Real.hasDerivAt_arcsin (by linarith [hy.1]) (by linarith [hy.2])).sub (hasDerivAt_odd l 0 y)
  have hb : ∀ y ∈ Set.Icc (0 : ℝ) (1 / 2), ‖1 / √(1 - y ^ 2) - y ^ (2 * 0) * eval (oddDeriv 0 l) (y ^ 2)‖ ≤ 2 * ε := by
    intro y hy
    have hy2 : y ^ 2 ≤ 1 / 4 := by nlinarith [hy.1, hy.2]
    have h2 := h (y ^ 2) (by positivity) hy2
    have h3 := hpos (y ^ 2) (by positivity) hy2
    rw [eval_asinRes] at h2
    rw [mul_zero, pow_zero, one_mul, Real.norm_eq_abs]
    set D := eval (oddDeriv 0 l) (y ^ 2)
    set r := √(1 - y ^ 2) with hr
    have hr2 : r ^ 2 = 1 - y ^ 2 := Real.sq_sqrt (by linarith)
    have hr0 : 0 ≤ r := Real.sqrt_nonneg _
    have hr1 : 1 / 2 ≤ r := by nlinarith
    rw [← hr2] at h2
    have h4 : |r * D - 1| ≤ ε := by
      have e : r ^ 2 * D ^ 2 - 1 = (r * D - 1) * (r * D + 1) := by ring
      rw [e, abs_mul] at h2
      have h5 : 1 ≤ |r * D + 1| := by
        have : 0 ≤ r * D := by positivity
        rw [abs_of_nonneg (by linarith)]; linarith
      have := mul_le_mul_of_nonneg_left h5 (abs_nonneg (r * D - 1))
      linarith
    have e : 1 / r - D = -(r * D - 1) / r := by field_simp; ring
    rw [e, abs_div, abs_neg, abs_of_nonneg hr0, div_le_iff₀ (by linarith)]
    have := (abs_nonneg _).trans h4
    nlinarith
  have := Convex.norm_image_sub_le_of_norm_hasDerivWithin_le (s := Set.Icc (0 : ℝ) (1 / 2)) (C := 2 * ε)
    (fun z hz => (hd z hz).hasDerivWithinAt) hb (convex_Icc 0 _) (Set.mem_Icc.mpr ⟨le_refl _, by norm_num⟩)
    (Set.mem_Icc.mpr ⟨h0, h1⟩)
  simpa [Real.norm_eq_abs, abs_of_nonneg h0] using this

end Nsimd.Poly

namespace Nsimd.Sleef
open Nsimd.DoubleDouble Nsimd.Float Nsimd.Props.Round Nsimd.Props.Hypot Nsimd.Round Nsimd.Hypot Nsimd.Props.Ulp

/-- Truncated series of the arcsine, coefficients of `s * l (s ^ 2)`, rounded. Proof helper. -/
def asinCert : List ℚ := [1267650600228229401496703205376 / 2 ^ 100, 211275100038038233582783867563 / 2 ^ 100,
  95073795017117205112252740403 / 2 ^ 100, 56591544653045955423959964526 / 2 ^ 100, 38513690111100719663528309191 / 2 ^ 100,
  28360080899992348115870845859 / 2 ^ 100, 21997242236532526423207515057 / 2 ^ 100, 17702542561780937931057476403 / 2 ^ 100,
  14643647339708496450323280113 / 2 ^ 100, 12374310178876477994571426762 / 2 ^ 100, 10636014225177163228667345384 / 2 ^ 100,
  9269727812852033564905729870 / 2 ^ 100, 8172810021664542926391885169 / 2 ^ 100, 7276362198775412149565424830 / 2 ^ 100,
  6532596111954772730336446676 / 2 ^ 100, 5907433688337595555067689951 / 2 ^ 100, 5375988422814800500397774662 / 2 ^ 100,
  4919707052475056928515274459 / 2 ^ 100, 4524505359821279832906314724 / 2 ^ 100, 4179519458566350938764335262 / 2 ^ 100,
  3876249449072816937719849959 / 2 ^ 100, 3607959758522372797512219148 / 2 ^ 100, 3369251309852458233636410709 / 2 ^ 100,
  3155751111217034192004501243 / 2 ^ 100, 2963883590424501926079057502 / 2 ^ 100, 2790699804160482009614045907 / 2 ^ 100,
  2633748254942457803703241438 / 2 ^ 100, 2490976043142546791448621279 / 2 ^ 100, 2360652421837783221845889527 / 2 ^ 100,
  2241309093673570335411249291 / 2 ^ 100, 2131693157125054190591955951 / 2 ^ 100]

/-- Coefficients of `asinPoly64`. Proof helper. -/
def asinF64 : List ℚ := [0.1666666666666497543e+0, 0.7500000000378581611e-1, 0.4464285681377102438e-1, 0.3038195928038132237e-1,
  0.2237176181932048341e-1, 0.1735956991223614604e-1, 0.1388715184501609218e-1, 0.1215360525577377331e-1, 0.6606077476277170610e-2,
  0.1929045477267910674e-1, -0.1581918243329996643e-1, 0.3161587650653934628e-1]

/-- Coefficients of `asinPoly32`. Proof helper. -/
def asinF32 : List ℚ := [0.1666677296e+0, 0.7495029271e-1, 0.4547423869e-1, 0.2424046025e-1, 0.4197454825e-1]

/-- `1 + t * F t` minus the series. Proof helper. -/
def asinDiff (F : List ℚ) : List ℚ := Poly.addQ (1 :: F) (Poly.negQ asinCert)

theorem asin_natural64 : Natural asinPoly64 := by natural [asinPoly64]
theorem asin_natural32 : Natural asinPoly32 := by natural [asinPoly32]

theorem asin_eval64 (t : ℝ) : asinPoly64 reAlg t = Poly.eval asinF64 t := by
  simp only [asinPoly64, asinF64, Alg.poly12, Alg.poly8, Alg.poly4, reAlg, Poly.eval_cons, Poly.eval_nil]
  push_cast; ring

theorem asin_eval32 (t : ℝ) : asinPoly32 reAlg t = Poly.eval asinF32 t := by
  simp only [asinPoly32, asinF32, reAlg, Poly.eval_cons, Poly.eval_nil]
  push_cast; ring

set_option maxRecDepth 100000 in
theorem asinCert_check : Poly.check (Poly.asinRes (Poly.oddDeriv 0 asinCert)) (1 / 2 ^ 60) 512 (2 ^ 200 * 512 ^ 61) 0 1 64 = true := by
  decide +kernel

set_option maxRecDepth 100000 in
theorem asin_near64 : Poly.check (asinDiff asinF64) (0.3 / 2 ^ 53) 1024 (10 ^ 22 * 2 ^ 100 * 1024 ^ 30) 0 1 128 = true := by
  decide +kernel

set_option maxRecDepth 100000 in
theorem asin_mag64 : Poly.check asinF64 (0.19) 512 (10 ^ 22 * 512 ^ 30) 0 4 16 = true := by
  decide +kernel

set_option maxRecDepth 100000 in
theorem asin_der64 : Poly.check (Poly.deriv asinF64) (0.12) 512 (10 ^ 22 * 512 ^ 30) 0 4 16 = true := by
  decide +kernel

set_option maxRecDepth 100000 in
theorem asin_near32 : Poly.check (asinDiff asinF32) (0.18 / 2 ^ 24) 512 (10 ^ 22 * 2 ^ 100 * 512 ^ 30) 0 1 64 = true := by
  decide +kernel

set_option maxRecDepth 100000 in
theorem asin_mag32 : Poly.check asinF32 (0.19) 512 (10 ^ 22 * 512 ^ 30) 0 4 16 = true := by
  decide +kernel

set_option maxRecDepth 100000 in
theorem asin_der32 : Poly.check (Poly.deriv asinF32) (0.12) 512 (10 ^ 22 * 512 ^ 30) 0 4 16 = true := by
  decide +kernel

theorem asin_unit {l : List ℚ} {ε D : ℚ} {M r n : ℕ} (h : Poly.check l ε M D 0 r n = true) (hrn : 4 * (2 * r * n) = M) {t : ℝ} (h0 : 0 ≤ t)
    (h1 : t ≤ 1 / 4) : |Poly.eval l t| ≤ ε := by
  refine Poly.check_sound h (by push_cast; positivity) ?_
  have h3 : 4 * ((2 : ℝ) * r * n) = M := by exact_mod_cast hrn
  have h4 : (0 : ℝ) ≤ M := Nat.cast_nonneg _
  push_cast
  nlinarith

theorem eval_nonneg {l : List ℚ} (hl : ∀ c ∈ l, 0 ≤ c) {t : ℝ} (h0 : 0 ≤ t) : 0 ≤ Poly.eval l t := by
  induction l with
  | nil => simp [Poly.eval_nil]
  | cons c l ih =>
    rw [Poly.eval_cons]
    have h1 : (0 : ℝ) ≤ c := by exact_mod_cast hl c (by simp)
    have := ih fun c hc => hl c (by simp [hc])
    positivity

set_option maxRecDepth 100000 in
theorem asinCert_pos : ((Poly.oddDeriv 0 asinCert).all fun c => decide (0 ≤ c)) = true := by decide +kernel

theorem arcsin_cert {s : ℝ} (h0 : 0 ≤ s) (h1 : s ≤ 1 / 2) : |Real.arcsin s - s * Poly.eval asinCert (s ^ 2)| ≤ 1 / 2 ^ 59 * s := by
  have := Poly.arcsin_near (l := asinCert) (ε := 1 / 2 ^ 60) (fun t h2 h3 => by
    have := asin_unit asinCert_check rfl h2 h3; push_cast at this; exact this)
    (fun t h2 _ => eval_nonneg (fun c hc => by simpa using List.all_eq_true.mp asinCert_pos c hc) h2) h0 h1
  refine this.trans (le_of_eq ?_); norm_num

/-- What is used of the polynomials. Proof helper. -/
structure AsinPoly (p : ℕ) (poly : {α : Type} → Alg α → α → α) (F : List ℚ) (ε : ℝ) : Prop where
  nat : Natural poly
  eval : ∀ t : ℝ, poly reAlg t = Poly.eval F t
  mag : ∀ t : ℝ, 0 ≤ t → t ≤ 1 / 4 → |Poly.eval F t| ≤ 0.19
  der : ∀ t : ℝ, 0 ≤ t → t ≤ 1 / 4 → |Poly.eval (Poly.deriv F) t| ≤ 0.12
  near : ∀ s : ℝ, 0 ≤ s → s ≤ 1 / 2 → |s + Poly.eval F (s ^ 2) * s ^ 3 - Real.arcsin s| ≤ ε * (1 / 2 ^ p) * s
  fl : ∀ fused, (let B := poly (bdAlg p 0 (1 / 4) fused) (Bd.argI 0 (1 / 4))
    B.ok && decide (B.k = 0) && decide (B.a + B.b / 2 ^ 100 ≤ 0.53 / 2 ^ p)) = true

theorem asin_near_of {F : List ℚ} {s e e' : ℝ} (h0 : 0 ≤ s) (h1 : s ≤ 1 / 2) (h : |Poly.eval (asinDiff F) (s ^ 2)| ≤ e)
    (he : e + 1 / 2 ^ 59 ≤ e') : |s + Poly.eval F (s ^ 2) * s ^ 3 - Real.arcsin s| ≤ e' * s := by
  have h2 := arcsin_cert h0 h1
  have h3 : Poly.eval (asinDiff F) (s ^ 2) = 1 + s ^ 2 * Poly.eval F (s ^ 2) - Poly.eval asinCert (s ^ 2) := by
    simp only [asinDiff, Poly.eval_addQ, Poly.eval_negQ, Poly.eval_cons]; push_cast; ring
  rw [h3] at h
  have h4 : s + Poly.eval F (s ^ 2) * s ^ 3 - Real.arcsin s = s * (1 + s ^ 2 * Poly.eval F (s ^ 2) - Poly.eval asinCert (s ^ 2)) -
      (Real.arcsin s - s * Poly.eval asinCert (s ^ 2)) := by ring
  rw [h4]
  refine (abs_sub _ _).trans ?_
  rw [abs_mul, abs_of_nonneg h0]
  have h5 := mul_le_mul_of_nonneg_left h h0
  have h6 := mul_le_mul_of_nonneg_right he h0
  linarith

set_option maxRecDepth 100000 in
theorem asin_fl64 : ∀ fused, (let B := asinPoly64 (bdAlg 53 0 (1 / 4) fused) (Bd.argI 0 (1 / 4))
    B.ok && decide (B.k = 0) && decide (B.a + B.b / 2 ^ 100 ≤ 0.53 / 2 ^ 53)) = true := by
  decide +kernel

set_option maxRecDepth 100000 in
theorem asin_fl32 : ∀ fused, (let B := asinPoly32 (bdAlg 24 0 (1 / 4) fused) (Bd.argI 0 (1 / 4))
    B.ok && decide (B.k = 0) && decide (B.a + B.b / 2 ^ 100 ≤ 0.53 / 2 ^ 24)) = true := by
  decide +kernel

theorem asinPoly_64 : AsinPoly 53 asinPoly64 asinF64 0.32 where
  nat := asin_natural64
  eval := asin_eval64
  mag t h0 h1 := by have := asin_unit asin_mag64 rfl h0 h1; push_cast at this; exact this
  der t h0 h1 := by have := asin_unit asin_der64 rfl h0 h1; push_cast at this; exact this
  near s h0 h1 := asin_near_of h0 h1 (asin_unit asin_near64 rfl (by positivity) (by nlinarith)) (by norm_num)
  fl := asin_fl64

theorem asinPoly_32 : AsinPoly 24 asinPoly32 asinF32 0.32 where
  nat := asin_natural32
  eval := asin_eval32
  mag t h0 h1 := by have := asin_unit asin_mag32 rfl h0 h1; push_cast at this; exact this
  der t h0 h1 := by have := asin_unit asin_der32 rfl h0 h1; push_cast at this; exact this
  near s h0 h1 := asin_near_of h0 h1 (asin_unit asin_near32 rfl (by positivity) (by nlinarith)) (by norm_num)
  fl := asin_fl32

end Nsimd.Sleef
