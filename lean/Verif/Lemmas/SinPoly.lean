import Verif.Model.Sin
import Verif.Lemmas.AtanBound
import Mathlib.Analysis.Complex.Trigonometric
import Mathlib.Analysis.Complex.Exponential

/-!
# The polynomial of `sin` and `cos`
-/

namespace Nsimd.Sleef
open Nsimd.DoubleDouble Nsimd.Float Nsimd.Props.Round Nsimd.Props.Hypot Nsimd.Round Nsimd.Hypot Nsimd.Props.Ulp

/-- The even and odd terms of the exponential series of `i * x`. -/
theorem exp_series (x : ℝ) (n : ℕ) : ∑ k ∈ Finset.range (2 * n), ((x : ℂ) * Complex.I) ^ k / k.factorial =
    ((∑ k ∈ Finset.range n, (-1) ^ k * x ^ (2 * k) / ((2 * k).factorial : ℝ) : ℝ) : ℂ) +
      ((∑ k ∈ Finset.range n, (-1) ^ k * x ^ (2 * k + 1) / ((2 * k + 1).factorial : ℝ) : ℝ) : ℂ) * Complex.I := by
  induction n with
  | zero => simp
  | succ n ih =>
    rw [show 2 * (n + 1) = 2 * n + 1 + 1 by ring, Finset.sum_range_succ, Finset.sum_range_succ, ih, Finset.sum_range_succ,
      Finset.sum_range_succ, pow_succ (_ * Complex.I) (2 * n), mul_pow _ Complex.I, pow_mul Complex.I, Complex.I_sq]
    push_cast
    ring

theorem sin_series (x : ℝ) (hx : |x| ≤ 2) :
    |Real.sin x - ∑ k ∈ Finset.range 12, (-1) ^ k * x ^ (2 * k + 1) / ((2 * k + 1).factorial : ℝ)| ≤ |x| ^ 24 / (Nat.factorial 24 : ℝ) * 2 := by
  have h1 := Complex.exp_bound' (x := (x : ℂ) * Complex.I) (n := 2 * 12) (by
    rw [norm_mul, Complex.norm_I, mul_one, Complex.norm_real, Real.norm_eq_abs]
    norm_num; linarith)
  rw [exp_series, norm_mul, Complex.norm_I, mul_one, Complex.norm_real, Real.norm_eq_abs] at h1
  refine le_trans ?_ h1
  refine le_trans (le_of_eq ?_) (Complex.abs_im_le_norm _)
  congr 1
  rw [Complex.sub_im, Complex.exp_mul_I, Complex.add_im, ← Complex.ofReal_cos, ← Complex.ofReal_sin, Complex.add_im]
  simp only [Complex.ofReal_im, Complex.mul_im, Complex.ofReal_re, Complex.I_re, Complex.I_im, mul_one, mul_zero, zero_add, add_zero]

/-- Coefficients of `sinPoly64`. Proof helper. -/
def sinF : List ℚ := [-0.166666666666666657414808, 0.00833333333333332974823815, -0.000198412698412696162806809, 2.75573192239198747630416e-06,
  -2.50521083763502045810755e-08, 1.60590430605664501629054e-10, -7.64712219118158833288484e-13, 2.81009972710863200091251e-15,
  -7.97255955009037868891952e-18]

/-- Truncated series of the sine, coefficients of `s * l (s ^ 2)`. Proof helper. -/
def sinCert : List ℚ := [1, -1 / 6, 1 / 120, -1 / 5040, 1 / 362880, -1 / 39916800, 1 / 6227020800, -1 / 1307674368000, 1 / 355687428096000,
  -1 / 121645100408832000, 1 / 51090942171709440000, -1 / 25852016738884976640000]

/-- `1 + t * F t` minus the series. Proof helper. -/
def sinDiff : List ℚ := Poly.addQ (1 :: sinF) (Poly.negQ sinCert)

theorem sin_natural : Natural sinPoly64 := by natural [sinPoly64]

theorem sin_eval (t : ℝ) : sinPoly64 reAlg t = Poly.eval sinF t := by
  simp only [sinPoly64, sinF, Alg.poly8, Alg.poly4, reAlg, Poly.eval_cons, Poly.eval_nil]
  push_cast; ring

set_option maxRecDepth 100000 in
theorem sin_near_check : Poly.check sinDiff (0.06 / 2 ^ 53) 512 (10 ^ 41 * 25852016738884976640000 * 512 ^ 12) 0 1 640 = true := by
  decide +kernel

set_option maxRecDepth 100000 in
theorem sin_mag_check : Poly.check sinF 0.1667 512 (10 ^ 41 * 512 ^ 12) 0 1 640 = true := by
  decide +kernel

set_option maxRecDepth 100000 in
theorem sin_der_check : Poly.check (Poly.deriv (0 :: sinF)) 0.1667 512 (10 ^ 41 * 512 ^ 12) 0 1 640 = true := by
  decide +kernel

set_option maxRecDepth 100000 in
theorem sin_mag_check' : Poly.check sinF 0.159 512 (10 ^ 41 * 512 ^ 12) 500 1 390 = true := by
  decide +kernel

theorem sin_unit {l : List ℚ} {ε D : ℚ} (h : Poly.check l ε 512 D 0 1 640 = true) {t : ℝ} (h0 : 0 ≤ t)
    (h1 : t ≤ 2.5) : |Poly.eval l t| ≤ ε := by
  refine Poly.check_sound h (by push_cast; positivity) ?_
  push_cast
  linarith

theorem sin_mag {t : ℝ} (h0 : 0 ≤ t) (h1 : t ≤ 2.5) : |Poly.eval sinF t| ≤ 0.1667 := by
  have := sin_unit sin_mag_check h0 h1; push_cast at this; exact this

theorem sin_mag' {t : ℝ} (h0 : 0.978 ≤ t) (h1 : t ≤ 2.5) : |Poly.eval sinF t| ≤ 0.159 := by
  have := Poly.check_sound sin_mag_check' (x := t) (by push_cast; linarith) (by push_cast; linarith)
  push_cast at this; exact this

/-- `t * F t` changes slowly. -/
theorem sin_lip {t t' : ℝ} (h0 : 0 ≤ t) (h1 : t ≤ 2.5) (h0' : 0 ≤ t') (h1' : t' ≤ 2.5) :
    |t * Poly.eval sinF t - t' * Poly.eval sinF t'| ≤ 0.1667 * |t - t'| := by
  have := Poly.lipschitz (l := 0 :: sinF) (a := 0) (b := 2.5) (L := 0.1667)
    (fun x hx hx' => by have := sin_unit sin_der_check hx hx'; push_cast at this; exact this) h0 h1 h0' h1'
  simpa [Poly.eval_cons] using this

/-- The polynomial is close to the sine. -/
theorem sin_near {x : ℝ} (hx : |x| ≤ 1.58) : |x + x * (x ^ 2 * Poly.eval sinF (x ^ 2)) - Real.sin x| ≤ 0.07 * (1 / 2 ^ 53) * |x| := by
  have hx2 : x ^ 2 ≤ 2.5 := by rw [← sq_abs]; nlinarith [abs_nonneg x]
  have h1 := sin_series x (by linarith)
  have h2 := sin_unit sin_near_check (sq_nonneg x) hx2
  have e : x + x * (x ^ 2 * Poly.eval sinF (x ^ 2)) - Real.sin x = x * Poly.eval sinDiff (x ^ 2) -
      (Real.sin x - ∑ k ∈ Finset.range 12, (-1) ^ k * x ^ (2 * k + 1) / ((2 * k + 1).factorial : ℝ)) := by
    have : Poly.eval sinDiff (x ^ 2) = 1 + x ^ 2 * Poly.eval sinF (x ^ 2) - Poly.eval sinCert (x ^ 2) := by
      simp only [sinDiff, Poly.eval_addQ, Poly.eval_negQ, Poly.eval_cons]; push_cast; ring
    rw [this]
    simp only [Finset.sum_range_succ, Finset.sum_range_zero, sinCert, Poly.eval_cons, Poly.eval_nil]
    norm_num [Nat.factorial]
    ring
  rw [e]
  refine (abs_sub _ _).trans ?_
  rw [abs_mul]
  have h3 := mul_le_mul_of_nonneg_left h2 (abs_nonneg x)
  have h4 : |x| ^ 24 / (Nat.factorial 24 : ℝ) * 2 ≤ 0.005 * (1 / 2 ^ 53) * |x| := by
    have h5 : |x| ^ 23 ≤ 1.58 ^ 23 := pow_le_pow_left₀ (abs_nonneg _) hx 23
    have h6 := mul_le_mul_of_nonneg_right h5 (abs_nonneg x)
    rw [← pow_succ] at h6
    norm_num [Nat.factorial] at h6 ⊢
    linarith [abs_nonneg x]
  push_cast at h3
  rw [show |x| * (0.06 / 2 ^ 53) = 0.06 * (1 / 2 ^ 53) * |x| by ring] at h3
  have h7 : 0 ≤ 1 / 2 ^ 53 * |x| := by positivity
  linarith

set_option maxRecDepth 100000 in
theorem sin_fl : ∀ fused, (let B := sinPoly64 (bdAlg 53 0 (5 / 2) fused) (Bd.argI 0 (5 / 2))
    B.ok && decide (B.k = 0) && decide (B.a + B.b / 2 ^ 100 ≤ 0.201 / 2 ^ 53)) = true := by
  decide +kernel

end Nsimd.Sleef
