import Verif.Lemmas.AsinKernel
import Verif.Lemmas.LogCombine
import Verif.Props.Atan
import Mathlib.Analysis.Real.Pi.Bounds

/-!
# Accuracy of `asin_u35` and `acos_u35`
-/

namespace Nsimd.Props.Asin
open Nsimd.Sleef Nsimd.DoubleDouble Nsimd.Float Nsimd.Props.Round Nsimd.Props.Hypot Nsimd.Round Nsimd.Hypot Nsimd.Props.Ulp

variable {p : ℕ} {emin emax : ℤ} {rnd rndd lt sq : ℚ → ℚ} {d : ℚ} {poly : {α : Type} → Alg α → α → α} {F : List ℚ}

/-! ### Parts of the proofs -/

theorem arccos_half {D : ℝ} (h0 : 0 ≤ D) (h1 : D ≤ 1) : Real.arccos D = 2 * Real.arcsin √((1 - D) / 2) := by
  set X := √((1 - D) / 2) with hX
  have hX0 : 0 ≤ X := Real.sqrt_nonneg _
  have hX2 : X ^ 2 = (1 - D) / 2 := Real.sq_sqrt (by linarith)
  have hX1 : X ≤ 1 := by nlinarith
  have h2 : Real.cos (2 * Real.arcsin X) = D := by
    rw [Real.cos_two_mul, Real.cos_sq', Real.sin_arcsin (by linarith) hX1, hX2]; ring
  have h3 := Real.arcsin_nonneg.mpr hX0
  have h4 := Real.arcsin_le_pi_div_two X
  rw [← h2, Real.arccos_cos (by linarith) (by linarith)]

theorem le_arcsin {x : ℝ} (h0 : 0 ≤ x) (h1 : x ≤ 1) : x ≤ Real.arcsin x := by
  have := Real.sin_le (Real.arcsin_nonneg.mpr h0)
  rwa [Real.sin_arcsin (by linarith) h1] at this

theorem within_neg {c y : ℝ} {r : ℚ} (h : Within p emin emax c y (.fin r)) : Within p emin emax c (-y) (.fin (-r)) := by
  refine ⟨rep_neg h.1, by rw [abs_neg]; exact h.2.1, fun w hw => ?_⟩
  rw [abs_neg] at hw
  have := h.2.2 w hw
  push_cast
  rwa [show -(r : ℝ) - -y = -(r - y) by ring, abs_neg]

theorem ulp_rel {y w : ℝ} (hw : IsUlp p emin y w) : 1 / 2 ^ p * y ≤ w := by
  obtain ⟨e, -, rfl, h, -⟩ := hw
  rw [one_div_mul_eq_div, div_le_iff₀ (by positivity), mul_comm]
  exact h.le

theorem ulp_min {y w : ℝ} (hw : IsUlp p emin y w) : 2 * eta emin ≤ w := by
  obtain ⟨e, he, rfl, -, -⟩ := hw
  unfold eta
  have : (2 : ℝ) ^ emin ≤ 2 ^ e := zpow_le_zpow_right₀ (by norm_num) he
  linarith

theorem upper (S : AsinEnv p emin rnd lt sq poly F) {X : ℝ} (hX0 : 0 ≤ X) (hX : X ≤ 1 / 2) : Real.arcsin X ≤ 0.524 := by
  have h1 := _root_.abs_le.mp (S.poly.near X hX0 hX)
  have h2 := _root_.abs_le.mp (S.poly.mag (X ^ 2) (by positivity) (by nlinarith))
  have hu := S.u_le
  have h3 : X ^ 3 ≤ 0.125 := by nlinarith [mul_nonneg hX0 hX0]
  have h4 : Poly.eval F (X ^ 2) * X ^ 3 ≤ 0.19 * 0.125 := mul_le_mul h2.2 h3 (by positivity) (by norm_num)
  have h5 : 0.32 * (1 / 2 ^ p) * X ≤ 0.32 * 0.000001 * (1 / 2) := mul_le_mul (by linarith) hX hX0 (by norm_num)
  linarith

/-- A result of at most two. -/
theorem within_two (S : AsinEnv p emin rnd lt sq poly F) (hemax : 3 ≤ emax) {z : ℚ} {y c : ℝ} (hz : |(z : ℝ)| ≤ 4)
    (h : ∀ w, IsUlp p emin |y| w → |((rnd z : ℚ) : ℝ) - y| ≤ c * w) : Within p emin emax c y (.fin (rnd z)) := by
  have hp := S.hp
  have hmin := S.hmin
  refine within_fin S.near (a := 4) ⟨1, 2, by rw [abs_one]; exact one_lt_pow₀ (by norm_num) (by omega), by omega, by norm_num⟩ ?_ ?_ h
  · have : ((|z| : ℚ) : ℝ) ≤ ((|4| : ℚ) : ℝ) := by rw [Rat.cast_abs]; norm_num; exact hz
    exact_mod_cast this
  · rw [abs_of_pos (by norm_num)]
    exact lt_of_lt_of_le (by norm_num : (4 : ℚ) < 2 ^ (3 : ℤ)) (zpow_le_zpow_right₀ (by norm_num) hemax)

/-- The argument and the square of an argument below one half. -/
theorem small (S : AsinEnv p emin rnd lt sq poly F) (h1 : |d| < 1 / 2) :
    asinX rnd sq d = |d| ∧ |((asinX2 rnd d : ℚ) : ℝ) - |(d : ℝ)| ^ 2| ≤ 1 / 2 ^ p * |(d : ℝ)| ^ 2 + eta emin ∧ 0 ≤ asinX2 rnd d ∧
      asinX2 rnd d ≤ 1 / 4 ∧ |(d : ℝ)| ≤ 1 / 2 := by
  have hp := S.hp
  have hmin := S.hmin
  have hx2 : asinX2 rnd d = rnd (d * d) := by rw [asinX2, if_pos h1]; rfl
  have h0 : (0 : ℚ) ≤ d * d := mul_self_nonneg d
  refine ⟨by rw [asinX, if_pos h1], ?_, ?_, ?_, ?_⟩
  · have := S.err (d * d)
    push_cast at this
    rw [hx2, sq_abs, pow_two]
    rwa [abs_of_nonneg (mul_self_nonneg (d : ℝ))] at this
  · rw [hx2]; have := S.near.mono h0; rwa [S.near.zero] at this
  · have hr : Rep p emin (1 / 4) := ⟨1, -2, by rw [abs_one]; exact one_lt_pow₀ (by norm_num) (by omega), by omega, by norm_num⟩
    rw [hx2, ← S.near.fix hr]
    refine S.near.mono ?_
    have := abs_lt.mp h1
    nlinarith
  · have : ((|d| : ℚ) : ℝ) ≤ ((1 / 2 : ℚ) : ℝ) := by exact_mod_cast h1.le
    push_cast at this; exact this

/-- The kernel of `asin` as a rounded sum. -/
theorem mla_eq (fused : Bool) (x t : ℚ) : ∃ m, (m = poly (flAlg rnd lt fused) t * rnd (x * t) ∨
    m = rnd (poly (flAlg rnd lt fused) t * rnd (x * t))) ∧
      (flAlg rnd lt fused).mla (poly (flAlg rnd lt fused) t) ((flAlg rnd lt fused).mul x t) x = rnd (x + m) := by
  cases fused
  · exact ⟨_, Or.inr rfl, by simp [flAlg, add, mul, add_comm]⟩
  · exact ⟨_, Or.inl rfl, by simp [flAlg, fma, mul, add_comm]⟩

/-- The sum of the kernel for an argument of at least one half. -/
theorem large_sum (S : AsinEnv p emin rnd lt sq poly F) (hr : Rep p emin d) (h1 : 1 / 2 ≤ |d|) (h2 : |d| ≤ 1) (fused : Bool) {m : ℚ}
    (hm : m = poly (flAlg rnd lt fused) (asinX2 rnd d) * rnd (asinX rnd sq d * asinX2 rnd d) ∨
      m = rnd (poly (flAlg rnd lt fused) (asinX2 rnd d) * rnd (asinX rnd sq d * asinX2 rnd d))) :
    ∃ y0 : ℝ, Real.arccos |(d : ℝ)| = 2 * y0 ∧ 0 ≤ y0 ∧ y0 ≤ 0.524 ∧ |((asinX rnd sq d + m : ℚ) : ℝ) - y0| ≤ 0.581 * (1 / 2 ^ p) ∧
      (|d| < 1 → |((asinX rnd sq d + m : ℚ) : ℝ) - y0| ≤ 1.661 * (1 / 2 ^ p) * y0 ∧ 1 / 2 ^ p / 2 ≤ y0) := by
  obtain ⟨e1, e2, e3, e4⟩ := S.large hr h1 h2
  have h1' : (0 : ℝ) ≤ |(d : ℝ)| := abs_nonneg _
  have h2' : |(d : ℝ)| ≤ 1 := by exact_mod_cast h2
  have hq : (((1 - |d|) / 2 : ℚ) : ℝ) = (1 - |(d : ℝ)|) / 2 := by push_cast; rfl
  rw [hq] at e2 e3 e4
  have hd : 1 / 2 ≤ |(d : ℝ)| := by
    have : ((1 / 2 : ℚ) : ℝ) ≤ ((|d| : ℚ) : ℝ) := by exact_mod_cast h1
    push_cast at this; exact this
  set X := √((1 - |(d : ℝ)|) / 2) with hX
  have hX0 : 0 ≤ X := Real.sqrt_nonneg _
  have hX2 : X ^ 2 = (1 - |(d : ℝ)|) / 2 := Real.sq_sqrt (by linarith)
  have hX1 : X ≤ 1 / 2 := by nlinarith
  have hu0 : (0 : ℝ) < 1 / 2 ^ p := by positivity
  have hη := S.eta_le
  have hη0 := eta_pos (emin := emin)
  have hk := S.kernel fused (x := asinX rnd sq d) (t := asinX2 rnd d) hX0 hX1 e2 (by
    rw [e1, hq, hX2, sub_self, abs_zero]
    have : 0 ≤ (1 - |(d : ℝ)|) / 2 := by linarith
    positivity) (by rw [e1]; linarith) (by rw [e1]; linarith) hm
  have hXle := le_arcsin hX0 (by linarith)
  have hu := S.u_le
  refine ⟨Real.arcsin X, arccos_half h1' h2', Real.arcsin_nonneg.mpr hX0, upper S hX0 hX1, hk.trans ?_, fun hlt => ⟨hk.trans ?_, ?_⟩⟩
  · have h3 : 0.66 * (1 / 2 ^ p) * X ≤ 0.66 * (1 / 2 ^ p) * (1 / 2) := mul_le_mul_of_nonneg_left hX1 (by positivity)
    have h4 : (1 : ℝ) / 2 ^ 100 * (1 / 2 ^ p) ≤ 0.0001 * (1 / 2 ^ p) := mul_le_mul_of_nonneg_right (by norm_num) hu0.le
    linarith
  · have h3 := e4 hlt
    have h4 : eta emin ≤ 0.0001 * (1 / 2 ^ p * X) := by
      have h5 : (2 : ℝ) ^ emin ≤ 2 ^ (-2 * (p : ℤ) - 20) := zpow_le_zpow_right₀ (by norm_num) S.hmin2
      have h6 : (2 : ℝ) ^ (-2 * (p : ℤ) - 20) = 1 / 2 ^ p * (1 / 2 ^ p / 2) * (2 / 2 ^ 20) := by
        rw [zpow_sub₀ (by norm_num), show -2 * (p : ℤ) = -(p : ℤ) + -(p : ℤ) by ring, zpow_add₀ (by norm_num), zpow_neg, zpow_natCast, one_div]
        norm_num; ring
      have h7 := mul_le_mul_of_nonneg_left h3 hu0.le
      unfold eta
      have : (0 : ℝ) < 1 / 2 ^ p * (1 / 2 ^ p / 2) := by positivity
      rw [h6] at h5
      linarith
    have h5 : 1 / 2 ^ p * X ≤ 1 / 2 ^ p * Real.arcsin X := mul_le_mul_of_nonneg_left hXle hu0.le
    linarith
  · exact (e4 hlt).trans hXle

theorem asinWith_within (S : AsinEnv p emin rnd lt sq poly F) (hemax : 3 ≤ emax) (simd fused : Bool) {H : ℚ}
    (hH : |(H : ℝ) - Real.pi / 2| ≤ 0.74 * (1 / 2 ^ p)) (hr : Rep p emin d) (h1 : |d| ≤ 1) :
    Within p emin emax 3.5 (Real.arcsin d) (asinWith rnd lt sq simd fused poly H (.fin d)) := by
  have h := S.near
  have hp := S.hp
  have hp1 : 1 ≤ p := by omega
  have hmin := S.hmin
  have hu0 : (0 : ℝ) < 1 / 2 ^ p := by positivity
  have hu := S.u_le
  have hsign : ∀ r : ℚ, Within p emin emax 3.5 (Real.arcsin |(d : ℝ)|) (.fin r) →
      Within p emin emax 3.5 (Real.arcsin d) (.fin (mulsignQ r d)) := fun r hr => by
    unfold mulsignQ
    split
    · rename_i hd
      have hd' : (d : ℝ) < 0 := by exact_mod_cast hd
      rw [abs_of_neg hd', Real.arcsin_neg] at hr
      have := within_neg hr
      rwa [neg_neg] at this
    · rename_i hd
      have hd' : (0 : ℝ) ≤ d := by exact_mod_cast not_lt.mp hd
      rwa [abs_of_nonneg hd'] at hr
  obtain ⟨m, hm, hu'⟩ := mla_eq (rnd := rnd) (lt := lt) (poly := poly) fused (asinX rnd sq d) (asinX2 rnd d)
  unfold asinWith
  simp only
  by_cases hd : |d| < 1 / 2
  · obtain ⟨e1, e2, e3, e4, e5⟩ := small S hd
    rw [if_neg (not_lt.mpr e3)]
    refine hsign _ ?_
    rw [if_pos hd, hu']
    have hX0 : 0 ≤ |(d : ℝ)| := abs_nonneg _
    have hk := S.kernel fused (x := asinX rnd sq d) (t := asinX2 rnd d) hX0 e5 (by
      rw [e1, Rat.cast_abs, sub_self, abs_zero]; positivity) e2 e3 e4 hm
    rw [e1, Rat.cast_abs, sub_self, abs_zero, zero_add] at hk
    rw [e1]
    have hle := le_arcsin hX0 (by linarith)
    have hup := upper S hX0 e5
    have hη := S.eta_le
    have hη0 := eta_pos (emin := emin)
    have hη1 : eta emin ≤ 0.000001 := hη.trans (by
      have : (1 : ℝ) / 2 ^ 100 * (1 / 2 ^ p) ≤ 1 * (1 / 2 ^ p) := mul_le_mul_of_nonneg_right (by norm_num) hu0.le
      linarith)
    refine within_two S hemax ?_ fun w hw => ?_
    · have h3 := _root_.abs_le.mp hk
      have h4 : 0.66 * (1 / 2 ^ p) * |(d : ℝ)| ≤ 0.66 * 0.000001 * 1 := mul_le_mul (by linarith) (by linarith) hX0 (by norm_num)
      rw [_root_.abs_le]; constructor <;> linarith
    · have hw' := hw
      rw [abs_of_nonneg (by linarith)] at hw'
      have h3 := ulp_rel hw'
      have h4 := ulp_min hw'
      have h5 := mul_le_mul_of_nonneg_left hle hu0.le
      have h6 := round_err' h (by omega) hw (κ := 1.34) (hk.trans (by linarith)) (by norm_num)
      refine h6.trans ?_
      have : 0 < w := by linarith
      linarith
  · push Not at hd
    obtain ⟨y0, f1, f2, f3, f4, -⟩ := large_sum S hr hd h1 fused hm
    have hx2 : 0 ≤ asinX2 rnd d := by rw [(S.large hr hd h1).1]; linarith
    rw [if_neg (not_lt.mpr hx2)]
    refine hsign _ ?_
    rw [if_neg (not_lt.mpr hd), hu']
    set z := asinX rnd sq d + m with hz
    have h2u : Rep p emin (2 * rnd z) := by
      obtain ⟨k, e, g1, g2, g3⟩ := h.rep z
      exact ⟨k, e + 1, g1, by omega, by rw [g3, zpow_add_one₀ (by norm_num)]; ring⟩
    have hres : (if simd = true then (flAlg rnd lt fused).mla (rnd z) (-2) H else sub rnd H (mul rnd 2 (rnd z))) = rnd (H - 2 * rnd z) := by
      cases simd
      · simp only [Bool.false_eq_true, if_false, sub, mul, h.fix h2u]
      · cases fused
        · have e : rnd (rnd z * -2) = -(2 * rnd z) := by
            rw [show rnd z * -2 = -(2 * rnd z) by ring]; exact h.fix (rep_neg h2u)
          simp only [if_true, flAlg, Bool.false_eq_true, if_false, add, mul, e]
          congr 1; ring
        · simp only [if_true, flAlg, fma]
          congr 1; ring
    rw [hres]
    have hpi1 := Real.pi_gt_d2
    have hpi2 := Real.pi_lt_d2
    have hY : Real.arcsin |(d : ℝ)| = Real.pi / 2 - 2 * y0 := by rw [← f1, Real.arccos]; ring
    have hd' : 1 / 2 ≤ |(d : ℝ)| := by
      have : ((1 / 2 : ℚ) : ℝ) ≤ ((|d| : ℚ) : ℝ) := by exact_mod_cast hd
      push_cast at this; exact this
    have hYl := le_arcsin (abs_nonneg (d : ℝ)) (by exact_mod_cast h1)
    have hHb := _root_.abs_le.mp hH
    have hzb := _root_.abs_le.mp f4
    -- the rounding of the sum and of the difference
    have key : abs (((rnd (H - 2 * rnd z) : ℚ) : ℝ) - Real.arcsin |(d : ℝ)|) ≤ 3.5 * (1 / 2 ^ p) ∧ |((H - 2 * rnd z : ℚ) : ℝ)| ≤ 4 := by
      have split : ∀ a b : ℝ, |((rnd z : ℚ) : ℝ) - z| ≤ a → |((rnd (H - 2 * rnd z) : ℚ) : ℝ) - ((H - 2 * rnd z : ℚ) : ℝ)| ≤ b →
          2 * a + b ≤ 1.5 * (1 / 2 ^ p) → abs (((rnd (H - 2 * rnd z) : ℚ) : ℝ) - Real.arcsin |(d : ℝ)|) ≤ 3.5 * (1 / 2 ^ p) := by
        intro a b ha hb hab
        rw [hY]
        have ha' := _root_.abs_le.mp ha
        have hb' := _root_.abs_le.mp hb
        push_cast at hb' ⊢
        rw [_root_.abs_le]
        constructor <;> linarith
      have r0 := half_pow h hp1 0 (by omega) (x := z) (by rw [zpow_zero, _root_.abs_le]; constructor <;> linarith)
      rw [zpow_zero, one_mul] at r0
      have r0' := _root_.abs_le.mp r0
      have hR : |((H - 2 * rnd z : ℚ) : ℝ)| ≤ 2 := by
        push_cast
        rw [_root_.abs_le]; constructor <;> linarith
      refine ⟨?_, hR.trans (by norm_num)⟩
      by_cases hz2 : (1 / 2 : ℝ) ≤ z
      · have hrz : (1 / 2 : ℝ) ≤ ((rnd z : ℚ) : ℝ) := by
          have hrep : Rep p emin (1 / 2) := ⟨1, -1, by rw [abs_one]; exact one_lt_pow₀ (by norm_num) (by omega), by omega, by norm_num⟩
          have : (1 / 2 : ℚ) ≤ z := by
            have : ((1 / 2 : ℚ) : ℝ) ≤ z := by push_cast; exact hz2
            exact_mod_cast this
          have := h.mono this
          rw [h.fix hrep] at this
          have : ((1 / 2 : ℚ) : ℝ) ≤ ((rnd z : ℚ) : ℝ) := by exact_mod_cast this
          push_cast at this; exact this
        have r1 := half_pow h hp1 0 (by omega) (x := H - 2 * rnd z) (by
          rw [zpow_zero]; push_cast; rw [_root_.abs_le]; constructor <;> linarith)
        rw [zpow_zero, one_mul] at r1
        exact split _ _ r0 r1 (by linarith)
      · push Not at hz2
        have r0 := half_pow h hp1 (-1) (by omega) (x := z) (by norm_num; rw [_root_.abs_le]; constructor <;> linarith)
        have r1 := half_pow h hp1 1 (by omega) (x := H - 2 * rnd z) (by rw [zpow_one]; exact hR)
        rw [zpow_one] at r1
        rw [zpow_neg_one] at r0
        exact split _ _ r0 r1 (by linarith)
    refine within_two S hemax key.2 fun w hw => key.1.trans ?_
    rw [abs_of_nonneg (by linarith)] at hw
    have := ulp_ge_of hw 0 (by rw [zpow_zero]; linarith)
    rw [zpow_zero, one_mul] at this
    linarith

theorem acosWith_within (S : AsinEnv p emin rnd lt sq poly F) (hemax : 3 ≤ emax) (fused : Bool) {H Q : ℚ}
    (hH : |(H : ℝ) - Real.pi / 2| ≤ 0.74 * (1 / 2 ^ p)) (hQ : |(Q : ℝ) - Real.pi| ≤ 1.48 * (1 / 2 ^ p)) (hr : Rep p emin d) (h1 : |d| ≤ 1) :
    Within p emin emax 3 (Real.arccos d) (acosWith rnd lt sq fused poly H Q (.fin d)) := by
  have h := S.near
  have hp := S.hp
  have hp1 : 1 ≤ p := by omega
  have hmin := S.hmin
  have hu0 : (0 : ℝ) < 1 / 2 ^ p := by positivity
  have hu := S.u_le
  have hpi1 := Real.pi_gt_d2
  have hpi2 := Real.pi_lt_d2
  have hHb := _root_.abs_le.mp hH
  have hQb := _root_.abs_le.mp hQ
  unfold acosWith
  simp only
  by_cases hd : |d| < 1 / 2
  · obtain ⟨e1, e2, e3, e4, e5⟩ := small S hd
    rw [if_neg (not_lt.mpr e3), if_neg (by rintro ⟨h2, -⟩; exact h2 hd), if_pos hd, if_neg (by linarith : ¬|d| = 1)]
    have hX0 : 0 ≤ |(d : ℝ)| := abs_nonneg _
    set m := (flAlg rnd lt fused).mul (poly (flAlg rnd lt fused) (asinX2 rnd d)) ((flAlg rnd lt fused).mul (asinX rnd sq d) (asinX2 rnd d)) with hm
    have hk := S.kernel fused (x := asinX rnd sq d) (t := asinX2 rnd d) (m := m) hX0 e5 (by
      rw [e1, Rat.cast_abs, sub_self, abs_zero]; positivity) e2 e3 e4 (Or.inr rfl)
    rw [e1, Rat.cast_abs, sub_self, abs_zero, zero_add] at hk
    have hη := S.eta_le
    have hη0 := eta_pos (emin := emin)
    have h3 : 0.66 * (1 / 2 ^ p) * |(d : ℝ)| ≤ 0.66 * (1 / 2 ^ p) * (1 / 2) := mul_le_mul_of_nonneg_left e5 (by positivity)
    have h4 : (1 : ℝ) / 2 ^ 100 * (1 / 2 ^ p) ≤ 0.0001 * (1 / 2 ^ p) := mul_le_mul_of_nonneg_right (by norm_num) hu0.le
    have hk' : abs (((|d| + m : ℚ) : ℝ) - Real.arcsin |(d : ℝ)|) ≤ 0.34 * (1 / 2 ^ p) := hk.trans (by linarith)
    have hup := upper S hX0 e5
    have hlo := Real.arcsin_nonneg.mpr hX0
    have hkb := _root_.abs_le.mp hk'
    -- the sum with the sign
    obtain ⟨σ, hσ, hσd, hσm⟩ : ∃ σ : ℚ, (σ = 1 ∨ σ = -1) ∧ Real.arcsin d = σ * Real.arcsin |(d : ℝ)| ∧
        add rnd (mulsignQ (asinX rnd sq d) d) (mulsignQ m d) = rnd (σ * (|d| + m)) := by
      by_cases hneg : d < 0
      · refine ⟨-1, Or.inr rfl, ?_, ?_⟩
        · have hd' : (d : ℝ) < 0 := by exact_mod_cast hneg
          rw [abs_of_neg hd', Real.arcsin_neg]; push_cast; ring
        · simp only [mulsignQ, if_pos hneg, add, e1]; congr 1; ring
      · refine ⟨1, Or.inl rfl, ?_, ?_⟩
        · have hd' : (0 : ℝ) ≤ d := by exact_mod_cast not_lt.mp hneg
          rw [abs_of_nonneg hd']; push_cast; ring
        · simp only [mulsignQ, if_neg hneg, add, e1]; congr 1; ring
    rw [hσm]
    simp only [sub]
    have hA : Real.arccos d = Real.pi / 2 - σ * Real.arcsin |(d : ℝ)| := by rw [← hσd]; rfl
    rw [hA]
    set A := Real.arcsin |(d : ℝ)|
    set z := |d| + m with hz
    have hsz : |((σ * z : ℚ) : ℝ) - σ * A| ≤ 0.34 * (1 / 2 ^ p) := by
      push_cast
      rw [← mul_sub, abs_mul]
      have : |(σ : ℝ)| = 1 := by rcases hσ with rfl | rfl <;> norm_num
      rw [this, one_mul]; exact hk'
    have hσA : |(σ : ℝ) * A| ≤ 0.524 := by
      rw [abs_mul]
      have : |(σ : ℝ)| = 1 := by rcases hσ with rfl | rfl <;> norm_num
      rw [this, one_mul, abs_of_nonneg hlo]; exact hup
    have hσA' := _root_.abs_le.mp hσA
    have hsz' := _root_.abs_le.mp hsz
    have r0 := half_pow h hp1 0 (by omega) (x := σ * z) (by rw [zpow_zero, _root_.abs_le]; constructor <;> linarith)
    rw [zpow_zero, one_mul] at r0
    have r0' := _root_.abs_le.mp r0
    have hR : |((H - rnd (σ * z) : ℚ) : ℝ)| ≤ 4 := by
      push_cast
      rw [_root_.abs_le]; constructor <;> linarith
    have r1 := half_pow h hp1 2 (by omega) (x := H - rnd (σ * z)) (hR.trans (by norm_num))
    refine within_two S hemax hR fun w hw => ?_
    rw [abs_of_nonneg (by linarith)] at hw
    have hw1 := ulp_ge_of hw 1 (by rw [zpow_one]; linarith)
    rw [zpow_one] at hw1
    have r1' := _root_.abs_le.mp r1
    norm_num at r1'
    norm_num at hw1 r0' hsz' hHb ⊢
    rw [_root_.abs_le]
    constructor <;> linarith
  · push Not at hd
    have hx2 : 0 ≤ asinX2 rnd d := by rw [(S.large hr hd h1).1]; linarith
    rw [if_neg (not_lt.mpr hx2), if_neg (not_lt.mpr hd)]
    -- the test for one changes nothing
    have hx : (if |d| = 1 then 0 else asinX rnd sq d) = asinX rnd sq d := by
      split
      · rename_i h1'
        obtain ⟨-, e2, -, -⟩ := S.large hr hd h1
        rw [h1'] at e2
        simp only [sub_self, zero_div, Rat.cast_zero, Real.sqrt_zero, mul_zero, sub_zero, abs_nonpos_iff] at e2
        have : asinX rnd sq d = 0 := by exact_mod_cast e2
        exact this.symm
      · rfl
    rw [hx]
    set m := (flAlg rnd lt fused).mul (poly (flAlg rnd lt fused) (asinX2 rnd d)) ((flAlg rnd lt fused).mul (asinX rnd sq d) (asinX2 rnd d)) with hm
    obtain ⟨y0, f1, f2, f3, f4, f5⟩ := large_sum S hr hd h1 fused (m := m) (Or.inr rfl)
    have hadd : add rnd (asinX rnd sq d) m = rnd (asinX rnd sq d + m) := rfl
    rw [hadd]
    set z := asinX rnd sq d + m with hz
    have h2u : Rep p emin (rnd z * 2) := by
      obtain ⟨k, e, g1, g2, g3⟩ := h.rep z
      exact ⟨k, e + 1, g1, by omega, by rw [g3, zpow_add_one₀ (by norm_num)]; ring⟩
    have hmul : mul rnd (rnd z) 2 = rnd z * 2 := h.fix h2u
    rw [hmul]
    have hzb := _root_.abs_le.mp f4
    have r0 := half_pow h hp1 0 (by omega) (x := z) (by rw [zpow_zero, _root_.abs_le]; constructor <;> linarith)
    rw [zpow_zero, one_mul] at r0
    have r0' := _root_.abs_le.mp r0
    by_cases hneg : d < 0
    · rw [if_pos ⟨not_lt.mpr hd, hneg⟩]
      have hd' : (d : ℝ) < 0 := by exact_mod_cast hneg
      have hY : Real.arccos d = Real.pi - 2 * y0 := by
        rw [← f1, abs_of_neg hd', Real.arccos_neg]; ring
      rw [hY]
      simp only [add]
      have hR : |((Q + -(rnd z * 2) : ℚ) : ℝ)| ≤ 4 := by
        push_cast
        rw [_root_.abs_le]; constructor <;> linarith
      have r1 := half_pow h hp1 2 (by omega) (x := Q + -(rnd z * 2)) (hR.trans (by norm_num))
      refine within_two S hemax hR fun w hw => ?_
      rw [abs_of_nonneg (by linarith)] at hw
      have hw1 := ulp_ge_of hw 2 (by norm_num; linarith)
      have r1' := _root_.abs_le.mp r1
      norm_num at r1'
      norm_num at hw1 r0' hzb hQb ⊢
      rw [_root_.abs_le]
      constructor <;> linarith
    · rw [if_neg (fun hh => hneg hh.2)]
      have hd' : (0 : ℝ) ≤ d := by exact_mod_cast not_lt.mp hneg
      have hY : Real.arccos d = 2 * y0 := by rw [← f1, abs_of_nonneg hd']
      rw [hY]
      have hfin : ∀ w, IsUlp p emin |2 * y0| w → |((rnd z * 2 : ℚ) : ℝ) - 2 * y0| ≤ 3 * w := fun w hw => by
        rw [abs_of_nonneg (by linarith)] at hw
        push_cast
        rw [show ((rnd z : ℚ) : ℝ) * 2 - 2 * y0 = (((rnd z : ℚ) : ℝ) - y0) * 2 by ring, abs_mul, abs_of_pos (by norm_num : (0 : ℝ) < 2)]
        rcases lt_or_eq_of_le h1 with hlt | heq
        · obtain ⟨g1, g2⟩ := f5 hlt
          have hy0 : 0 < y0 := lt_of_lt_of_le (by positivity) g2
          obtain ⟨w0, hw0⟩ := exists_ulp p emin hy0
          have hw0' := hw0
          rw [← abs_of_pos hy0] at hw0'
          have g3 := ulp_rel hw0
          have g4 := round_err' h (by omega) hw0' (κ := 1.7) (g1.trans (by nlinarith)) (by norm_num)
          have g5 := hw0.rel (by
            have h5 : (2 : ℝ) ^ emin ≤ 2 ^ (-2 * (p : ℤ) - 20) := zpow_le_zpow_right₀ (by norm_num) S.hmin2
            have h6 : (2 : ℝ) ^ p * 2 ^ (-2 * (p : ℤ) - 20) = 1 / 2 ^ p * (1 / 2 ^ 20) := by
              rw [zpow_sub₀ (by norm_num), show -2 * (p : ℤ) = -(p : ℤ) + -(p : ℤ) by ring, zpow_add₀ (by norm_num), zpow_neg, zpow_natCast]
              field_simp
            have h7 := mul_le_mul_of_nonneg_left h5 (show (0 : ℝ) ≤ 2 ^ p by positivity)
            rw [h6] at h7
            have : (1 : ℝ) / 2 ^ p * (1 / 2 ^ 20) ≤ 1 / 2 ^ p * 1 := mul_le_mul_of_nonneg_left (by norm_num) hu0.le
            linarith)
          obtain ⟨e, he, rfl, -, -⟩ := hw0
          have g7 := mul_le_mul_of_nonneg_left g5 (show (0 : ℝ) ≤ 2 ^ p by positivity)
          have g8 : (2 : ℝ) ^ p * (2 * y0 * (1 / 2 ^ p)) = 2 * y0 := by field_simp
          have g6 := hw.ge (e := e + 1) (by rw [zpow_add_one₀ (by norm_num)]; linarith)
          rw [zpow_add_one₀ (by norm_num)] at g6
          have g9 : (0 : ℝ) < 2 ^ e := by positivity
          linarith
        · obtain ⟨g1, g2, -, -⟩ := S.large hr hd h1
          rw [heq] at g1 g2
          simp only [sub_self, zero_div, Rat.cast_zero, Real.sqrt_zero, mul_zero, sub_zero, abs_nonpos_iff] at g1 g2
          have hx0 : asinX rnd sq d = 0 := by exact_mod_cast g2
          have hz0 : z = 0 := by rw [hz, hm, hx0]; simp [flAlg, mul, h.zero]
          have hy0 : y0 = 0 := by
            have : Real.arccos |(d : ℝ)| = 0 := by
              have : |(d : ℝ)| = 1 := by exact_mod_cast heq
              rw [this, Real.arccos_one]
            linarith
          obtain ⟨e, -, rfl, -, -⟩ := hw
          rw [hz0, h.zero, hy0]; norm_num; positivity
      refine ⟨h2u, ?_, hfin⟩
      have hlt4 : |rnd z * 2| < 8 := by
        have : ((|rnd z * 2| : ℚ) : ℝ) < ((8 : ℚ) : ℝ) := by
          push_cast
          rw [abs_lt]; constructor <;> linarith
        exact_mod_cast this
      exact hlt4.trans_le (le_trans (by norm_num : (8 : ℚ) ≤ 2 ^ (3 : ℤ)) (zpow_le_zpow_right₀ (by norm_num) hemax))

theorem env64 (h : Nearest 53 (-1074) rnd) (hq : Root 53 (-1074) sq) : AsinEnv 53 (-1074) rnd rnd sq asinPoly64 asinF64 :=
  ⟨h, lit_one h (by norm_num), hq, by norm_num, by norm_num, by norm_num, asinPoly_64⟩

theorem env32 (h : Nearest 24 (-149) rnd) (hd : Nearest 53 (-1074) rndd) (hq : Root 24 (-149) sq) :
    AsinEnv 24 (-149) rnd (fun c => rnd (rndd c)) sq asinPoly32 asinF32 :=
  ⟨h, lit_two h hd, hq, by norm_num, by norm_num, by norm_num, asinPoly_32⟩

theorem half_eq64 (h : Nearest 53 (-1074) rnd) {c : ℚ} (hc : |c - 7074237752028440 * 2 ^ (-51 : ℤ)| < 2 ^ (-51 : ℤ) / 2) :
    rnd (rnd c / 2) = 7074237752028440 * 2 ^ (-52 : ℤ) ∧ rnd c = 7074237752028440 * 2 ^ (-51 : ℤ) := by
  have h1 := rnd_lit h (c := c) (k := 7074237752028440) (e := -51) (by norm_num) (by norm_num) (by norm_num) (by exact_mod_cast hc)
  push_cast at h1
  refine ⟨?_, h1⟩
  rw [h1, show (7074237752028440 : ℚ) * 2 ^ (-51 : ℤ) / 2 = 7074237752028440 * 2 ^ (-52 : ℤ) by norm_num]
  exact h.fix ⟨7074237752028440, -52, by norm_num, by norm_num, by norm_num⟩

theorem half_eq32 (h : Nearest 24 (-149) rnd) {c : ℚ} (hc : |c - 13176795 * 2 ^ (-22 : ℤ)| < 2 ^ (-22 : ℤ) / 2) :
    rnd (rnd c / 2) = 13176795 * 2 ^ (-23 : ℤ) ∧ rnd c = 13176795 * 2 ^ (-22 : ℤ) := by
  have h1 := rnd_lit h (c := c) (k := 13176795) (e := -22) (by norm_num) (by norm_num) (by norm_num) (by exact_mod_cast hc)
  push_cast at h1
  refine ⟨?_, h1⟩
  rw [h1, show (13176795 : ℚ) * 2 ^ (-22 : ℤ) / 2 = 13176795 * 2 ^ (-23 : ℤ) by norm_num]
  exact h.fix ⟨13176795, -23, by norm_num, by norm_num, by norm_num⟩

theorem near64 : |((7074237752028440 * 2 ^ (-52 : ℤ) : ℚ) : ℝ) - Real.pi / 2| ≤ 0.74 * (1 / 2 ^ 53) ∧
    |((7074237752028440 * 2 ^ (-51 : ℤ) : ℚ) : ℝ) - Real.pi| ≤ 1.48 * (1 / 2 ^ 53) := by
  have h1 := Real.pi_gt_d20
  have h2 := Real.pi_lt_d20
  constructor <;> rw [_root_.abs_le] <;> norm_num at h1 h2 ⊢ <;> constructor <;> linarith

theorem near32 : |((13176795 * 2 ^ (-23 : ℤ) : ℚ) : ℝ) - Real.pi / 2| ≤ 0.74 * (1 / 2 ^ 24) ∧
    |((13176795 * 2 ^ (-22 : ℤ) : ℚ) : ℝ) - Real.pi| ≤ 1.48 * (1 / 2 ^ 24) := by
  have h1 := Real.pi_gt_d20
  have h2 := Real.pi_lt_d20
  constructor <;> rw [_root_.abs_le] <;> norm_num at h1 h2 ⊢ <;> constructor <;> linarith

/-! ### The functions -/

/-- **asin_u35, f64**: 3.5 ulps for all arguments from -1 to 1. -/
theorem xasin_within (h : Nearest 53 (-1074) rnd) (hq : Root 53 (-1074) sq) (simd fused : Bool) (hr : Rep 53 (-1074) d) (h1 : |d| ≤ 1) :
    Within 53 (-1074) 1024 3.5 (Real.arcsin d) (xasin rnd sq simd fused (.fin d)) := by
  unfold xasin
  rw [(half_eq64 h (c := M_PI) (by norm_num [M_PI, abs_lt])).1]
  exact asinWith_within (env64 h hq) (by norm_num) simd _ near64.1 hr h1

/-- **asin_u35, f32**: 3.5 ulps for all arguments from -1 to 1. -/
theorem xasinf_within (h : Nearest 24 (-149) rnd) (hd : Nearest 53 (-1074) rndd) (hq : Root 24 (-149) sq) (simd fused : Bool)
    (hr : Rep 24 (-149) d) (h1 : |d| ≤ 1) : Within 24 (-149) 128 3.5 (Real.arcsin d) (xasinf rnd sq simd fused rndd (.fin d)) := by
  unfold xasinf
  rw [(half_eq64 hd (c := M_PI) (by norm_num [M_PI, abs_lt])).2, (half_eq32 h (by norm_num [abs_lt])).1]
  exact asinWith_within (env32 h hd hq) (by norm_num) simd _ near32.1 hr h1

/-- **acos_u35, f64**: 3 ulps for all arguments from -1 to 1. -/
theorem xacos_within (h : Nearest 53 (-1074) rnd) (hq : Root 53 (-1074) sq) (simd fused : Bool) (hr : Rep 53 (-1074) d) (h1 : |d| ≤ 1) :
    Within 53 (-1074) 1024 3 (Real.arccos d) (xacos rnd sq simd fused (.fin d)) := by
  unfold xacos
  rw [(half_eq64 h (c := if simd then M_PI else 3.1415926535897932) (by cases simd <;> norm_num [M_PI, abs_lt])).1,
    (half_eq64 h (c := 3.141592653589793116) (by norm_num [abs_lt])).2]
  exact acosWith_within (env64 h hq) (by norm_num) _ near64.1 near64.2 hr h1

/-- **acos_u35, f32**: 3 ulps for all arguments from -1 to 1. -/
theorem xacosf_within (h : Nearest 24 (-149) rnd) (hd : Nearest 53 (-1074) rndd) (hq : Root 24 (-149) sq) (simd fused : Bool)
    (hr : Rep 24 (-149) d) (h1 : |d| ≤ 1) : Within 24 (-149) 128 3 (Real.arccos d) (xacosf rnd sq simd fused rndd (.fin d)) := by
  unfold xacosf
  rw [(half_eq32 h (c := 3.1415926535897932) (by norm_num [abs_lt])).1, (half_eq32 h (c := 3.1415927410125732422) (by norm_num [abs_lt])).2]
  exact acosWith_within (env32 h hd hq) (by norm_num) _ near32.1 near32.2 hr h1

theorem x2_neg (h : Nearest p emin rnd) (hp : 1 ≤ p) (hmin : emin ≤ -100 - p) (hr : Rep p emin d) (h1 : 1 < |d|) : asinX2 rnd d < 0 := by
  -- the difference is at least one unit
  have hlow : (2 : ℚ) ^ (1 - (p : ℤ)) ≤ |d| - 1 := by
    obtain ⟨k, hk⟩ := mult_of_ge (e := 1 - (p : ℤ)) (rep_absq hr) (by
      rw [pow_eq_zpow, show (p : ℤ) + (1 - p - 1) = 0 by ring, zpow_zero, abs_abs]; exact h1.le)
    have hE := two_zpow_pos (1 - (p : ℤ))
    obtain ⟨n, rfl⟩ : ∃ n, p = n + 1 := ⟨p - 1, by omega⟩
    have hone : (1 : ℚ) = (2 ^ n : ℤ) * 2 ^ (1 - ((n + 1 : ℕ) : ℤ)) := by
      rw [show 1 - ((n + 1 : ℕ) : ℤ) = -(n : ℤ) by push_cast; ring, zpow_neg, zpow_natCast]; push_cast; field_simp
    have h2 : (2 ^ n : ℤ) < k := by
      have : ((2 ^ n : ℤ) : ℚ) * 2 ^ (1 - ((n + 1 : ℕ) : ℤ)) < k * 2 ^ (1 - ((n + 1 : ℕ) : ℤ)) := by rw [← hone, ← hk]; exact h1
      exact_mod_cast lt_of_mul_lt_mul_right this hE.le
    have h3 : ((2 ^ n : ℤ) : ℚ) + 1 ≤ k := by exact_mod_cast h2
    have h4 : |d| - 1 = (k - (2 ^ n : ℤ)) * 2 ^ (1 - ((n + 1 : ℕ) : ℤ)) := by rw [sub_mul, ← hone, ← hk]
    rw [h4]
    nlinarith
  have hrep : ∀ e : ℤ, emin ≤ e → Rep p emin (-(2 : ℚ) ^ e) := fun e he =>
    ⟨-1, e, by rw [abs_neg, abs_one]; exact one_lt_pow₀ (by norm_num) (by omega), he, by push_cast; ring⟩
  have h2 : rnd (1 - |d|) ≤ -2 ^ (1 - (p : ℤ)) := by
    have := h.mono (show 1 - |d| ≤ -(2 : ℚ) ^ (1 - (p : ℤ)) by linarith)
    rwa [h.fix (hrep _ (by omega))] at this
  have h3 : rnd (rnd (1 - |d|) * (1 / 2)) ≤ -2 ^ (-(p : ℤ)) := by
    have e : (2 : ℚ) ^ (1 - (p : ℤ)) = 2 * 2 ^ (-(p : ℤ)) := by rw [sub_eq_add_neg, zpow_add₀ (by norm_num), zpow_one]
    have := h.mono (show rnd (1 - |d|) * (1 / 2) ≤ -(2 : ℚ) ^ (-(p : ℤ)) by linarith)
    rwa [h.fix (hrep _ (by omega))] at this
  rw [asinX2, if_neg (by linarith)]
  exact h3.trans_lt (neg_lt_zero.mpr (two_zpow_pos _))

/-- **asin_u35 and acos_u35, special cases**: NaN for a number outside of the interval from -1 to 1, for an infinity and for NaN. -/
theorem asin_special (h : Nearest 53 (-1074) rnd) (hf : Nearest 24 (-149) rndd) (sq sqf : ℚ → ℚ) (simd fused : Bool) :
    (∀ x, (x = .nan ∨ (∃ b, x = .inf b) ∨ ∃ d, x = .fin d ∧ Rep 53 (-1074) d ∧ 1 < |d|) →
      xasin rnd sq simd fused x = .nan ∧ xacos rnd sq simd fused x = .nan) ∧
    (∀ x, (x = .nan ∨ (∃ b, x = .inf b) ∨ ∃ d, x = .fin d ∧ Rep 24 (-149) d ∧ 1 < |d|) →
      xasinf rndd sqf simd fused rnd x = .nan ∧ xacosf rndd sqf simd fused rnd x = .nan) := by
  constructor
  · rintro x (rfl | ⟨b, rfl⟩ | ⟨d, rfl, hr, h1⟩)
    · exact ⟨rfl, rfl⟩
    · exact ⟨rfl, rfl⟩
    · have := x2_neg h (by norm_num) (by norm_num) hr h1
      simp only [xasin, xacos, asinWith, acosWith, if_pos this, and_self]
  · rintro x (rfl | ⟨b, rfl⟩ | ⟨d, rfl, hr, h1⟩)
    · exact ⟨rfl, rfl⟩
    · exact ⟨rfl, rfl⟩
    · have := x2_neg hf (by norm_num) (by norm_num) hr h1
      simp only [xasinf, xacosf, asinWith, acosWith, if_pos this, and_self]

/-- There are a rounding and a square root, and the results for minus one and the smallest positive number are within 3.5 ulps. -/
example : ∃ rnd sq, Nearest 53 (-1074) rnd ∧ Root 53 (-1074) sq ∧
    Within 53 (-1074) 1024 3 Real.pi (xacos rnd sq true true (.fin (-1))) ∧
    Within 53 (-1074) 1024 3.5 (Real.arcsin ((2 ^ (-1074 : ℤ) : ℚ) : ℝ)) (xasin rnd sq true true (.fin (2 ^ (-1074 : ℤ)))) := by
  obtain ⟨rnd, h⟩ := exists_nearest (p := 53) (by norm_num) (-1074)
  obtain ⟨sq, hq⟩ := exists_root 53 (-1074)
  refine ⟨rnd, sq, h, hq, ?_, ?_⟩
  · have := xacos_within h hq true true (d := -1) ⟨-1, 0, by norm_num, by norm_num, by norm_num⟩ (by norm_num)
    simpa using this
  · refine xasin_within h hq true true ⟨1, -1074, by norm_num, le_rfl, by norm_num⟩ ?_
    rw [abs_of_pos (two_zpow_pos _)]
    exact zpow_le_one_of_nonpos₀ (by norm_num) (by norm_num)

end Nsimd.Props.Asin
