import Mathlib.Analysis.SpecialFunctions.Log.Deriv

/-!
# Decimals of `log 2` and `log 10`

Standard mathematics, no code of the repo.
-/

namespace Nsimd.Sleef

/-- Partial sums of the series of `-log (1 - x)`. Proof helper. -/
def logSum (x : ℚ) : ℕ → ℚ
  | 0 => 0
  | n + 1 => logSum x n + x ^ (n + 1) / (n + 1)

theorem logSum_cast (x : ℚ) (n : ℕ) :
    ((logSum x n : ℚ) : ℝ) = ∑ i ∈ Finset.range n, (x : ℝ) ^ (i + 1) / (i + 1) := by
  induction n with
  | zero => simp [logSum]
  | succ n ih => rw [Finset.sum_range_succ, ← ih, logSum]; push_cast; ring

theorem log_one_sub {x c ε : ℚ} (n : ℕ) (h0 : 0 < x) (h1 : x < 1)
    (h : |logSum x n - c| + x ^ (n + 1) / (1 - x) ≤ ε) : |-Real.log (1 - x) - c| ≤ ε := by
  have h0' : (0 : ℝ) < x := by exact_mod_cast h0
  have h1' : (x : ℝ) < 1 := by exact_mod_cast h1
  have h2 := Real.abs_log_sub_add_sum_range_le (x := (x : ℝ)) (by rw [abs_of_pos h0']; exact h1') n
  rw [← logSum_cast, abs_of_pos h0'] at h2
  have h3 : ((|logSum x n - c| + x ^ (n + 1) / (1 - x) : ℚ) : ℝ) ≤ ε := by exact_mod_cast h
  push_cast at h3
  have h4 : -Real.log (1 - x) - c = (logSum x n - c) - (logSum x n + Real.log (1 - x)) := by ring
  rw [h4]
  exact (abs_sub _ _).trans ((add_le_add_right h2 _).trans h3)

/-- `log 2` to 40 digits. Proof helper. -/
def ln2 : ℚ := 0.6931471805599453094172321214581765680755

/-- `log 10` to 40 digits. Proof helper. -/
def ln10 : ℚ := 2.3025850929940456840179914546843642076011

theorem log_two : |Real.log 2 - ln2| ≤ 1 / 10 ^ 38 := by
  have h := log_one_sub (x := 1 / 2) (c := ln2) (ε := 1 / 10 ^ 38) 130 (by norm_num) (by norm_num) (by decide +kernel)
  have h2 : -Real.log (1 - ((1 / 2 : ℚ) : ℝ)) = Real.log 2 := by
    rw [← Real.log_inv]; norm_num
  rw [h2] at h
  push_cast at h ⊢
  exact h

theorem log_ten : |Real.log 10 - ln10| ≤ 1 / 10 ^ 36 := by
  have h := log_one_sub (x := 1 / 5) (c := ln10 - 3 * ln2) (ε := 1 / 10 ^ 37) 60 (by norm_num) (by norm_num) (by decide +kernel)
  have h2 : -Real.log (1 - ((1 / 5 : ℚ) : ℝ)) = Real.log 10 - 3 * Real.log 2 := by
    have : (3 : ℝ) * Real.log 2 = Real.log (2 ^ 3) := by rw [Real.log_pow]; norm_num
    rw [this, ← Real.log_inv, ← Real.log_div (by norm_num) (by norm_num)]; norm_num
  rw [h2] at h
  have h3 := log_two
  rw [abs_le] at *
  push_cast at h h3 ⊢
  constructor <;> norm_num at * <;> linarith

end Nsimd.Sleef
