import Verif.Lemmas.PolyBound
import Mathlib.Analysis.SpecialFunctions.Log.Deriv

/-!
# The logarithm and its power series

No code of the repo.
-/

namespace Nsimd.Poly

theorem odd_sum (x : ℝ) (n : ℕ) : (∑ i ∈ Finset.range (2 * n), x ^ (i + 1) / (i + 1)) - (∑ i ∈ Finset.range (2 * n), (-x) ^ (i + 1) / (i + 1)) =
    x * ∑ i ∈ Finset.range n, (2 / (2 * i + 1) : ℝ) * (x ^ 2) ^ i := by
  induction n with
  | zero => simp
  | succ n ih =>
    rw [show 2 * (n + 1) = 2 * n + 1 + 1 by ring, Finset.sum_range_succ, Finset.sum_range_succ, Finset.sum_range_succ,
      Finset.sum_range_succ, Finset.sum_range_succ, mul_add, ← ih]
    have e1 : (-x) ^ (2 * n + 1) = -x ^ (2 * n + 1) := Odd.neg_pow ⟨n, rfl⟩ x
    have e2 : (-x) ^ (2 * n + 1 + 1) = x ^ (2 * n + 1 + 1) := Even.neg_pow ⟨n + 1, by ring⟩ x
    rw [e1, e2, ← pow_mul]
    push_cast
    have : (0 : ℝ) < 2 * n + 1 := by positivity
    field_simp
    ring

/-- `log (1 + x) - log (1 - x)` and the first terms of its power series. -/
theorem log_series {x : ℝ} (hx : |x| < 1) (n : ℕ) :
    |Real.log (1 + x) - Real.log (1 - x) - x * ∑ i ∈ Finset.range n, (2 / (2 * i + 1) : ℝ) * (x ^ 2) ^ i| ≤
      2 * |x| ^ (2 * n) / (1 - |x|) * |x| := by
  have h1 := Real.abs_log_sub_add_sum_range_le hx (2 * n)
  have h2 := Real.abs_log_sub_add_sum_range_le (show |-x| < 1 by rwa [abs_neg]) (2 * n)
  rw [abs_neg, sub_neg_eq_add] at h2
  rw [← odd_sum]
  have h3 : 2 * |x| ^ (2 * n) / (1 - |x|) * |x| = |x| ^ (2 * n + 1) / (1 - |x|) + |x| ^ (2 * n + 1) / (1 - |x|) := by
    rw [pow_succ]; ring
  rw [h3]
  have := abs_sub (((∑ i ∈ Finset.range (2 * n), (-x) ^ (i + 1) / (i + 1 : ℝ)) + Real.log (1 + x)))
    (((∑ i ∈ Finset.range (2 * n), x ^ (i + 1) / (i + 1 : ℝ)) + Real.log (1 - x)))
  refine le_trans (le_of_eq ?_) (this.trans (add_le_add h2 h1))
  congr 1
  ring

theorem log_ratio {s : ℝ} (hs : -1 < s) : Real.log (1 + s / (2 + s)) - Real.log (1 - s / (2 + s)) = Real.log (1 + s) := by
  have h2 : (0 : ℝ) < 2 + s := by linarith
  have e1 : 1 + s / (2 + s) = 2 * (1 + s) / (2 + s) := by field_simp; ring
  have e2 : 1 - s / (2 + s) = 2 / (2 + s) := by field_simp; ring
  rw [e1, e2, ← Real.log_div (by have : 0 < 1 + s := by linarith
                                 positivity) (by positivity)]
  congr 1
  field_simp

/-- `log (1 + s)` and a polynomial in the square of `x = s / (2 + s)`. -/
theorem log_near {l : List ℚ} {ε X : ℝ} {n : ℕ} (hl : l.length ≤ n)
    (hd : ∀ t : ℝ, 0 ≤ t → t ≤ X ^ 2 → |eval (diff l (fun i => 2 / (2 * i + 1)) n) t| ≤ ε) (hX : X < 1) {s : ℝ} (hs : -1 < s)
    (hx : |s / (2 + s)| ≤ X) :
    |s / (2 + s) * eval l ((s / (2 + s)) ^ 2) - Real.log (1 + s)| ≤ (ε + 2 * X ^ (2 * n) / (1 - X)) * |s / (2 + s)| := by
  rw [← log_ratio hs]
  set x := s / (2 + s) with hxd
  have h1 := log_series (lt_of_le_of_lt hx hX) n
  have h2 := hd (x ^ 2) (by positivity) (by rw [← sq_abs]; exact pow_le_pow_left₀ (abs_nonneg _) hx 2)
  rw [eval_diff l _ hl] at h2
  push_cast at h2
  have hX0 : 0 ≤ X := (abs_nonneg _).trans hx
  have h3 : 2 * |x| ^ (2 * n) / (1 - |x|) ≤ 2 * X ^ (2 * n) / (1 - X) := by
    have := pow_le_pow_left₀ (abs_nonneg x) hx (2 * n)
    exact div_le_div₀ (by positivity) (by linarith) (by linarith) (by linarith)
  have e : x * eval l (x ^ 2) - (Real.log (1 + x) - Real.log (1 - x)) =
      x * (eval l (x ^ 2) - ∑ i ∈ Finset.range n, (2 / (2 * i + 1) : ℝ) * (x ^ 2) ^ i) -
      (Real.log (1 + x) - Real.log (1 - x) - x * ∑ i ∈ Finset.range n, (2 / (2 * i + 1) : ℝ) * (x ^ 2) ^ i) := by ring
  rw [e]
  refine (abs_sub _ _).trans ?_
  rw [abs_mul, add_mul, mul_comm]
  refine add_le_add (mul_le_mul_of_nonneg_right h2 (abs_nonneg _)) (h1.trans (mul_le_mul_of_nonneg_right h3 (abs_nonneg _)))

/-- `log (1 + s)` is at least twice `x` in absolute value, with its sign. -/
theorem two_mul_le_log {s : ℝ} (hs : 0 ≤ s) : 2 * (s / (2 + s)) ≤ Real.log (1 + s) := by
  have := Real.le_log_one_add_of_nonneg hs
  rwa [mul_div_assoc, add_comm s 2] at this

theorem log_le_two_mul {s : ℝ} (hs : -1 < s) (hs0 : s ≤ 0) : Real.log (1 + s) ≤ 2 * (s / (2 + s)) := by
  have h1 : 0 < 1 + s := by linarith
  have h2 : (0 : ℝ) < 2 + s := by linarith
  have h := two_mul_le_log (s := -s / (1 + s)) (div_nonneg (by linarith) h1.le)
  have e1 : 1 + -s / (1 + s) = (1 + s)⁻¹ := by field_simp; ring
  have e2 : -s / (1 + s) / (2 + -s / (1 + s)) = -(s / (2 + s)) := by
    have h3 : 2 + -s / (1 + s) = (2 + s) / (1 + s) := by field_simp; ring
    rw [h3]
    field_simp
  rw [e1, e2, Real.log_inv] at h
  linarith

theorem log_abs {s : ℝ} (hs : -1 < s) : 2 * |s / (2 + s)| ≤ |Real.log (1 + s)| := by
  have h2 : (0 : ℝ) < 2 + s := by linarith
  rcases le_total 0 s with h | h
  · have := two_mul_le_log h
    have hx : 0 ≤ s / (2 + s) := div_nonneg h h2.le
    rw [abs_of_nonneg hx, abs_of_nonneg (by linarith)]; exact this
  · have := log_le_two_mul hs h
    have hx : s / (2 + s) ≤ 0 := div_nonpos_of_nonpos_of_nonneg h h2.le
    rw [abs_of_nonpos hx, abs_of_nonpos (by linarith)]; linarith

end Nsimd.Poly
