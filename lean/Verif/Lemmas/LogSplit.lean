import Verif.Model.Log
import Verif.Lemmas.UlpTools

/-!
# Significand and exponent in `log`
-/

namespace Nsimd.Sleef
open Nsimd.DoubleDouble Nsimd.Float Nsimd.Props.Round Nsimd.Props.Hypot Nsimd.Round Nsimd.Hypot Nsimd.Props.Ulp

variable {p : ℕ} {emin emax : ℤ} {rnd : ℚ → ℚ}

/-- The exponent field. -/
theorem expField_spec (h : Nearest p emin rnd) {v : ℚ} (hv : 0 < rnd v) (hlt : rnd v < 2 ^ (emax + 1)) :
    2 ^ expField emax (roundFl rnd emax v) ≤ rnd v ∧ rnd v < 2 ^ (expField emax (roundFl rnd emax v) + 1) := by
  unfold roundFl
  rw [abs_of_pos hv]
  split_ifs with h1
  · exact ⟨Int.zpow_log_le_self (b := 2) (by norm_num) hv, Int.lt_zpow_succ_log_self (b := 2) (by norm_num) _⟩
  · exact ⟨not_lt.mp h1, hlt⟩

theorem logSplit_core (h : Nearest p emin rnd) (hp : 20 ≤ p) (hmin : emin ≤ -100 - p) {d : ℚ} (hr : Rep p emin d)
    (hlo : 2 ^ (emin + p - 1) ≤ d) (hlt : d < 2 ^ emax) {e : ℤ} (he : e = expField emax (roundFl rnd emax (d * rnd (1 / 0.75)))) :
    Mult (-(p : ℤ)) (d * 2 ^ (-e)) ∧ 0.7499 ≤ d * 2 ^ (-e) ∧ d * 2 ^ (-e) ≤ 1.5001 := by
  have hp1 : 1 ≤ p := by omega
  have h2p : (2 : ℚ) ^ 20 ≤ 2 ^ p := pow_le_pow_right₀ (by norm_num) hp
  have hu : (1 : ℚ) / 2 ^ p ≤ 1 / 2 ^ 20 := one_div_le_one_div_of_le (by norm_num) h2p
  have hu0 : (0 : ℚ) < 1 / 2 ^ p := by positivity
  have hd0 : 0 < d := lt_of_lt_of_le (two_zpow_pos _) hlo
  -- the constant
  have hC := h.err hp1 (1 / 0.75)
  have hη : (2 : ℚ) ^ emin / 2 ≤ 1 / 2 ^ 100 := by
    have h1 : (2 : ℚ) ^ emin ≤ 2 ^ (-100 : ℤ) := zpow_le_zpow_right₀ (by norm_num) (by omega)
    norm_num at h1 ⊢; linarith
  rw [div_eq_mul_one_div _ ((2 : ℚ) ^ p), abs_of_pos (show (0 : ℚ) < 1 / 0.75 by norm_num)] at hC
  generalize hCd : rnd (1 / 0.75) = C at *
  have hC' := _root_.abs_le.mp hC
  have hC1 : 1.33333 ≤ C := by norm_num at hC' hu hη ⊢; linarith [hC'.1]
  have hC2 : C ≤ 1.33334 := by norm_num at hC' hu hη ⊢; linarith [hC'.2]
  have hv0 : 0 < d * C := by positivity
  have hvd : d ≤ d * C := by nlinarith
  have hrel := h.rel hp1 (x := d * C) (by
    rw [abs_of_pos hv0]
    have e1 : (2 : ℚ) ^ p * 2 ^ emin = 2 * 2 ^ (emin + p - 1) := by
      rw [pow_eq_zpow, mul_comm 2 (2 ^ _), ← zpow_add_one₀ (by norm_num)]; congr 1; ring
    rw [e1]; linarith)
  rw [abs_of_pos hv0, div_eq_mul_one_div] at hrel
  have hrel' := _root_.abs_le.mp hrel
  have hsm : d * C * (1 / 2 ^ p) ≤ d * C * (1 / 2 ^ 20) := mul_le_mul_of_nonneg_left hu hv0.le
  have hdC1 : d * 1.33333 ≤ d * C := mul_le_mul_of_nonneg_left hC1 hd0.le
  have hdC2 : d * C ≤ d * 1.33334 := mul_le_mul_of_nonneg_left hC2 hd0.le
  have hv1 : d * 1.33332 ≤ rnd (d * C) := by
    norm_num at *; linarith
  have hv2 : rnd (d * C) ≤ d * 1.33335 := by
    norm_num at *; linarith
  have hvpos : 0 < rnd (d * C) := lt_of_lt_of_le (by positivity) hv1
  obtain ⟨h1, h2⟩ := expField_spec (emax := emax) h hvpos (by
    rw [zpow_add_one₀ (by norm_num)]; linarith)
  rw [← he] at h1 h2
  have hE := two_zpow_pos e
  rw [zpow_add_one₀ (by norm_num)] at h2
  have hinv : (2 : ℚ) ^ e * 2 ^ (-e) = 1 := by rw [← zpow_add₀ (by norm_num)]; simp
  have hE' := two_zpow_pos (-e)
  have hm1 : 0.7499 ≤ d * 2 ^ (-e) := by
    have h3 : (2 : ℚ) ^ e * 0.7499 ≤ d := by norm_num at *; linarith
    have := mul_le_mul_of_nonneg_right h3 hE'.le
    calc (0.7499 : ℚ) = 2 ^ e * 2 ^ (-e) * 0.7499 := by rw [hinv, one_mul]
      _ = 2 ^ e * 0.7499 * 2 ^ (-e) := by ring
      _ ≤ _ := this
  have hm2 : d * 2 ^ (-e) ≤ 1.5001 := by
    have h3 : d ≤ (2 : ℚ) ^ e * 1.5001 := by norm_num at *; linarith
    have := mul_le_mul_of_nonneg_right h3 hE'.le
    calc d * 2 ^ (-e) ≤ 2 ^ e * 1.5001 * 2 ^ (-e) := this
      _ = 2 ^ e * 2 ^ (-e) * 1.5001 := by ring
      _ = _ := by rw [hinv, one_mul]
  refine ⟨?_, hm1, hm2⟩
  obtain ⟨k, j, hk, hj, rfl⟩ := hr
  have hrep : Rep p (j - e) ((k : ℚ) * 2 ^ j * 2 ^ (-e)) := ⟨k, j - e, hk, le_refl _, by
    rw [mul_assoc, ← zpow_add₀ (by norm_num)]; rfl⟩
  refine mult_of_ge hrep ?_
  rw [pow_eq_zpow, show (p : ℤ) + (-(p : ℤ) - 1) = -1 by ring, abs_of_pos (by linarith)]
  norm_num at hm1 ⊢
  linarith

/-- The splitting of a positive number. -/
theorem logSplit_spec (h : Nearest p emin rnd) (hp : 20 ≤ p) (hp' : p ≤ 64) (hmin : emin ≤ -100 - p) {d : ℚ} (hr : Rep p emin d)
    (hd0 : 0 < d) (hmax : 0 ≤ emax) (hlt : d < 2 ^ emax) {m : ℚ} {e : ℤ} (he : logSplit rnd emin emax p d = (m, e)) :
    d = m * 2 ^ e ∧ Mult (-(p : ℤ)) m ∧ 0.7499 ≤ m ∧ m ≤ 1.5001 := by
  unfold logSplit at he
  simp only [Prod.mk.injEq] at he
  obtain ⟨h1, h2⟩ := he
  by_cases ho : d < 2 ^ (emin + p - 1)
  · simp only [ho, decide_true, if_true] at h1 h2
    have hrep : Rep p emin (d * 2 ^ 64) := by
      obtain ⟨k, j, hk, hj, rfl⟩ := hr
      exact ⟨k, j + 64, hk, by omega, by rw [zpow_add₀ (by norm_num)]; norm_num; ring⟩
    rw [h.fix hrep] at h1 h2
    have hge : 2 ^ emin ≤ d := by
      obtain ⟨k, j, hk, hj, rfl⟩ := hr
      have hk0 : (0 : ℚ) < k := pos_of_mul_pos_left hd0 (two_zpow_pos j).le
      have hk1 : (1 : ℚ) ≤ k := by exact_mod_cast (by exact_mod_cast hk0 : (0 : ℤ) < k)
      have h3 : (2 : ℚ) ^ emin ≤ 2 ^ j := zpow_le_zpow_right₀ (by norm_num) hj
      have := two_zpow_pos j
      nlinarith
    have hlo : (2 : ℚ) ^ (emin + p - 1) ≤ d * 2 ^ 64 := by
      have h3 : (2 : ℚ) ^ (emin + p - 1) ≤ 2 ^ (emin + 64) := zpow_le_zpow_right₀ (by norm_num) (by omega)
      rw [zpow_add₀ (by norm_num)] at h3
      norm_num at h3 ⊢
      linarith
    have hhi : d * 2 ^ 64 < 2 ^ emax := by
      have h3 : (2 : ℚ) ^ (emin + p - 1) * 2 ^ 64 ≤ 2 ^ emax := by
        have : (2 : ℚ) ^ (emin + p - 1) * 2 ^ 64 = 2 ^ (emin + p - 1 + 64) := by
          rw [zpow_add₀ (by norm_num) _ 64]; norm_num
        rw [this]
        exact zpow_le_zpow_right₀ (by norm_num) (by omega)
      have : d * 2 ^ 64 < 2 ^ (emin + p - 1) * 2 ^ 64 := mul_lt_mul_of_pos_right ho (by norm_num)
      linarith
    obtain ⟨h3, h4, h5⟩ := logSplit_core h hp hmin hrep hlo hhi rfl
    rw [h1] at h3 h4 h5
    refine ⟨?_, h3, h4, h5⟩
    rw [← h1, ← h2, mul_assoc, mul_assoc, ← zpow_add₀ (by norm_num)]
    generalize expField emax _ = j
    rw [show -j + (j - 64) = -64 by ring]
    norm_num
  · simp only [ho, decide_false, Bool.false_eq_true, if_false] at h1 h2
    obtain ⟨h3, h4, h5⟩ := logSplit_core h hp hmin hr (not_lt.mp ho) hlt rfl
    rw [h1] at h3 h4 h5
    refine ⟨?_, h3, h4, h5⟩
    rw [← h1, ← h2, mul_assoc, ← zpow_add₀ (by norm_num)]
    simp

end Nsimd.Sleef
