import Verif.Lemmas.ExpBound
import Verif.Props.UlpSpec

/-!
# From an error in ulps before the last rounding to an error in ulps after it
-/

namespace Nsimd.Sleef
open Nsimd.DoubleDouble Nsimd.Float Nsimd.Props.Round Nsimd.Props.Hypot Nsimd.Round Nsimd.Hypot Nsimd.Props.Ulp

variable {p : ℕ} {emin emax : ℤ} {rnd : ℚ → ℚ}

/-- Larger numbers have larger ulps. -/
theorem _root_.Nsimd.Props.Hypot.IsUlp.mono {h h' w w' : ℝ} (hw : IsUlp p emin h w) (hw' : IsUlp p emin h' w') (hh : h ≤ h') : w ≤ w' := by
  obtain ⟨e, he, rfl, -, h1⟩ := hw
  obtain ⟨e', he', rfl, h2, -⟩ := hw'
  rcases h1 with rfl | h1
  · exact zpow_le_zpow_right₀ (by norm_num) he'
  · have h3 : (2 : ℝ) ^ p * 2 ^ e < 2 ^ p * 2 ^ (e' + 1) := by
      rw [zpow_add₀ (by norm_num), zpow_one]; linarith
    have h4 := lt_of_mul_lt_mul_left h3 (by positivity)
    have h5 := (zpow_lt_zpow_iff_right₀ (by norm_num : (1 : ℝ) < 2)).mp h4
    exact zpow_le_zpow_right₀ (by norm_num) (by omega)

/-- A number that is at least `2 ^ (p - 1) * 2 ^ e` has an ulp of at least `2 ^ e`. -/
theorem _root_.Nsimd.Props.Hypot.IsUlp.ge {h w : ℝ} (hw : IsUlp p emin h w) {e : ℤ} (hh : 2 ^ p * 2 ^ e ≤ 2 * h) : 2 ^ e ≤ w := by
  obtain ⟨e', he', rfl, h2, -⟩ := hw
  have h3 : (2 : ℝ) ^ p * 2 ^ e < 2 ^ p * 2 ^ (e' + 1) := by
    rw [zpow_add₀ (by norm_num), zpow_one]; linarith
  have h4 := lt_of_mul_lt_mul_left h3 (by positivity)
  have h5 := (zpow_lt_zpow_iff_right₀ (by norm_num : (1 : ℝ) < 2)).mp h4
  exact zpow_le_zpow_right₀ (by norm_num) (by omega)

/-- An ulp is at most `2 / 2 ^ p` times the number if that is normal. -/
theorem _root_.Nsimd.Props.Hypot.IsUlp.rel {h w : ℝ} (hw : IsUlp p emin h w) (hh : 2 ^ p * 2 ^ emin ≤ 2 * h) : 2 ^ p * w ≤ 2 * h := by
  obtain ⟨e, he, rfl, -, h1⟩ := hw
  rcases h1 with rfl | h1
  · exact hh
  · exact h1

/-- The last rounding costs at most an ulp of the exact value, and half an ulp if the number that is rounded is below the
next power of two. -/
theorem round_err (h : Nearest p emin rnd) (hp : 1 ≤ p) {z : ℚ} {y w κ : ℝ} (hw : IsUlp p emin |y| w)
    (hz : |(z : ℝ) - y| ≤ κ * w) (hκ : κ ≤ 2) : |((rnd z : ℚ) : ℝ) - y| ≤ (1 + κ) * w := by
  obtain ⟨e, he, rfl, hlt, -⟩ := hw
  have hw0 : (0 : ℝ) < 2 ^ e := by positivity
  have h1p : (2 : ℝ) ≤ 2 ^ p := by
    have : (2 : ℝ) ^ 1 ≤ 2 ^ p := pow_le_pow_right₀ (by norm_num) hp
    norm_num at this; exact this
  have h1 : |(z : ℝ)| ≤ |y| + |z - y| := by
    have := abs_add_le y (z - y); rwa [add_sub_cancel] at this
  have h2 := half_ulp_real h hp (e := e + 1) (by omega) (x := z) (by
    rw [zpow_add₀ (by norm_num), zpow_one]
    nlinarith)
  rw [zpow_add₀ (by norm_num), zpow_one] at h2
  have h3 : |((rnd z : ℚ) : ℝ) - y| ≤ |((rnd z : ℚ) : ℝ) - z| + |(z : ℝ) - y| := abs_sub_le _ _ _
  linarith

theorem round_err' (h : Nearest p emin rnd) (hp : 3 ≤ p) {z : ℚ} {y w κ : ℝ} (hw : IsUlp p emin |y| w)
    (hz : |(z : ℝ) - y| ≤ κ * w) (hκ : κ ≤ 8) : |((rnd z : ℚ) : ℝ) - y| ≤ (1 + κ) * w := by
  obtain ⟨e, he, rfl, hlt, -⟩ := hw
  have hw0 : (0 : ℝ) < 2 ^ e := by positivity
  have h1p : (8 : ℝ) ≤ 2 ^ p := by
    have : (2 : ℝ) ^ 3 ≤ 2 ^ p := pow_le_pow_right₀ (by norm_num) hp
    norm_num at this; exact this
  have h1 : |(z : ℝ)| ≤ |y| + |z - y| := by
    have := abs_add_le y (z - y); rwa [add_sub_cancel] at this
  have h2 := half_ulp_real h (by omega) (e := e + 1) (by omega) (x := z) (by
    rw [zpow_add₀ (by norm_num), zpow_one]
    nlinarith)
  rw [zpow_add₀ (by norm_num), zpow_one] at h2
  have h3 : |((rnd z : ℚ) : ℝ) - y| ≤ |((rnd z : ℚ) : ℝ) - z| + |(z : ℝ) - y| := abs_sub_le _ _ _
  linarith

theorem round_err_half (h : Nearest p emin rnd) (hp : 1 ≤ p) {z : ℚ} {y w κ : ℝ} (hw : IsUlp p emin |y| w)
    (hz : |(z : ℝ) - y| ≤ κ * w) (hc : |(z : ℝ)| ≤ 2 ^ p * w) : |((rnd z : ℚ) : ℝ) - y| ≤ (1 / 2 + κ) * w := by
  obtain ⟨e, he, rfl, hlt, -⟩ := hw
  have h2 := half_ulp_real h hp he hc
  have h3 : |((rnd z : ℚ) : ℝ) - y| ≤ |((rnd z : ℚ) : ℝ) - z| + |(z : ℝ) - y| := abs_sub_le _ _ _
  linarith

/-- A rounded result with the overflow rule of IEEE-754. -/
theorem within_roundFl (h : Nearest p emin rnd) {z : ℚ} {y c : ℝ}
    (hz : ∀ w, IsUlp p emin |y| w → |((rnd z : ℚ) : ℝ) - y| ≤ c * w) : Within p emin emax c y (roundFl rnd emax z) := by
  unfold roundFl
  split
  · rename_i hlt
    exact ⟨h.rep z, hlt, hz⟩
  · rename_i hge
    push Not at hge
    have hge' : (2 : ℝ) ^ emax ≤ |((rnd z : ℚ) : ℝ)| := by
      have : ((2 ^ emax : ℚ) : ℝ) ≤ ((|rnd z| : ℚ) : ℝ) := by exact_mod_cast hge
      push_cast at this; exact this
    have he : (0 : ℝ) < 2 ^ emax := by positivity
    intro w hw
    have h1 := _root_.abs_le.mp (hz w hw)
    by_cases hs : z < 0
    · have h2 : rnd z ≤ 0 := by have := h.mono hs.le; rwa [h.zero] at this
      have h2' : ((rnd z : ℚ) : ℝ) ≤ 0 := by exact_mod_cast h2
      rw [abs_of_nonpos h2'] at hge'
      simp only [hs, decide_true, if_true]
      linarith
    · have h2 : 0 ≤ rnd z := by have := h.mono (not_lt.mp hs); rwa [h.zero] at this
      have h2' : (0 : ℝ) ≤ ((rnd z : ℚ) : ℝ) := by exact_mod_cast h2
      rw [abs_of_nonneg h2'] at hge'
      simp only [hs, decide_false, Bool.false_eq_true, if_false]
      linarith

/-- A rounded result that cannot overflow. -/
theorem within_fin (h : Nearest p emin rnd) {z : ℚ} {y c : ℝ} {a : ℚ} (ha : Rep p emin a) (hz' : |z| ≤ |a|)
    (ha2 : |a| < 2 ^ emax) (hz : ∀ w, IsUlp p emin |y| w → |((rnd z : ℚ) : ℝ) - y| ≤ c * w) :
    Within p emin emax c y (.fin (rnd z)) :=
  ⟨h.rep z, (h.abs_ge ha hz').trans_lt ha2, hz⟩

end Nsimd.Sleef
