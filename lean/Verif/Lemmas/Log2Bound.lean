import Verif.Model.Log2
import Verif.Props.Log

/-!
# Error of the parts of `xlog2f_u35` for a significand `m = 1 + s`
-/

set_option linter.unusedSimpArgs false

namespace Nsimd.Sleef
open Nsimd.DoubleDouble Nsimd.Float Nsimd.Props.Round Nsimd.Props.Hypot Nsimd.Round Nsimd.Hypot Nsimd.Props.Ulp

variable {p : ℕ} {emin : ℤ} {rnd rndd lt : ℚ → ℚ}

section kernels
variable {α : Type} (A : Alg α)

/-- `x2 * x`. Proof helper. -/
def log2X3 (s : α) : α := A.mul (A.mul (logX A s) (logX A s)) (logX A s)

/-- `t`. Proof helper. -/
def log2T (s : α) : α := log2Poly A (A.mul (logX A s) (logX A s))

end kernels

theorem log2X3_natural : Natural log2X3 := by natural [log2X3, logX]
theorem log2T_natural : Natural log2T := by natural [log2T, log2Poly, logX]

/-- The literal `2.885390043` as a number of type `float`. Proof helper. -/
def log2C : ℚ := 12102203 / 4194304

/-- `x2 * x * t`, rounded or not. Proof helper. -/
def log2R (rnd lt : ℚ → ℚ) (fused : Bool) (s : ℚ) : ℚ :=
  let A := flAlg rnd lt fused
  if fused then log2X3 A s * log2T A s else rnd (log2X3 A s * log2T A s)

/-- Bound of it. Proof helper. -/
def log2BR (p : ℕ) (fused : Bool) (xl xu : ℚ) : Bd :=
  let A := bdAlg p xl xu fused
  let M := Bd.mulE (max |xl| |xu|) (log2X3 A Bd.arg) (log2T A Bd.arg)
  if fused then M else M.round p

/-- The sum that is computed if `e = 0`, without its last rounding. Proof helper. -/
def log2Z (rnd lt : ℚ → ℚ) (fused : Bool) (s : ℚ) : ℚ :=
  log2R rnd lt fused s + rnd (logX (flAlg rnd lt fused) s * log2C)

/-- Bound of it. Proof helper. -/
def log2BZ (p : ℕ) (fused : Bool) (xl xu : ℚ) : Bd :=
  Bd.addE xl xu (log2BR p fused xl xu) ((Bd.mulE (max |xl| |xu|) (logX (bdAlg p xl xu fused) Bd.arg) (Bd.pt log2C)).round p)

theorem log2R_ap {s xl xu : ℚ} (E : Env p emin rnd lt (s : ℝ) xl xu) (fused : Bool) :
    Ap (eta emin) s (log2R rnd lt fused s : ℚ) (log2X3 reAlg (s : ℝ) * log2T reAlg (s : ℝ)) (log2BR p fused xl xu) := by
  have hm := E.mulE (E.natural log2X3_natural fused) (E.natural log2T_natural fused)
  unfold log2R log2BR
  cases fused
  · simp only [Bool.false_eq_true, if_false]
    exact E.round (v := log2X3 (flAlg rnd lt false) s * log2T (flAlg rnd lt false) s) (by push_cast; exact hm)
  · simp only [if_true]
    push_cast
    exact hm

theorem log2Z_ap {s xl xu : ℚ} (E : Env p emin rnd lt (s : ℝ) xl xu) (fused : Bool) :
    Ap (eta emin) s (log2Z rnd lt fused s : ℚ) (log2X3 reAlg (s : ℝ) * log2T reAlg (s : ℝ) + logX reAlg (s : ℝ) * log2C)
      (log2BZ p fused xl xu) := by
  have hx := E.natural logX_natural fused
  have h2 : Ap (eta emin) (s : ℝ) log2C log2C (Bd.pt log2C) := Ap.pt log2C
  have hr := E.round (v := logX (flAlg rnd lt fused) s * log2C) (by push_cast; exact E.mulE hx h2)
  have := E.addE (log2R_ap E fused) hr
  unfold log2Z log2BZ
  push_cast at this ⊢
  exact this

/-- Coefficients of the polynomial in `x * x`. Proof helper. -/
def log2L : List ℚ := [log2C, 0.9618024230, 0.5764843822, 0.4374088347]

/-- The coefficients times the logarithm of two. Proof helper. -/
def log2Ln : List ℚ := [log2C * 0.69314718056, 0.9618024230 * 0.69314718056, 0.5764843822 * 0.69314718056, 0.4374088347 * 0.69314718056]

theorem log2_re (s : ℝ) : log2X3 reAlg s * log2T reAlg s + logX reAlg s * log2C = s / (2 + s) * Poly.eval log2L ((s / (2 + s)) ^ 2) := by
  simp only [log2X3, log2T, logX_re]
  generalize s / (2 + s) = x
  simp only [log2Poly, reAlg, log2L, Poly.eval_cons, Poly.eval_nil]
  push_cast
  ring

set_option maxRecDepth 100000 in
theorem log2Diff : Poly.check (Poly.diff log2Ln (fun i => 2 / (2 * i + 1)) 8) (0.45 / 2 ^ 24) 1000
    (10 ^ 21 * 2 ^ 22 * 1000 ^ 7 * 3 ^ 3 * 5 ^ 2 * 7 * 11 * 13) 0 1 21 = true := by decide +kernel

/-- The polynomial and the logarithm. -/
theorem log2_near {s : ℝ} (h1 : -0.2501 ≤ s) (h2 : s ≤ 0.5001) :
    |s / (2 + s) * Poly.eval log2L ((s / (2 + s)) ^ 2) - Real.log (1 + s) / Real.log 2| ≤ 0.66 * (1 / 2 ^ 24) * |s / (2 + s)| := by
  have hx := logX_abs h1 h2
  have h3 := Poly.log_near (l := log2Ln) (n := 8) (ε := 0.45 * (1 / 2 ^ 24)) (X := 0.20004) (by decide) (fun t ht ht' => by
    have := Poly.check_sound log2Diff (x := t) (by push_cast; positivity) (by push_cast; norm_num at ht' ⊢; linarith)
    push_cast at this ⊢
    norm_num at this ⊢
    exact this) (by norm_num) (by linarith) hx
  have hl := _root_.abs_le.mp log_two
  unfold ln2 at hl
  generalize Real.log (1 + s) = L at h3 ⊢
  generalize s / (2 + s) = x at hx h3 ⊢
  have hE : Poly.eval log2Ln (x ^ 2) = 0.69314718056 * Poly.eval log2L (x ^ 2) := by
    simp only [log2Ln, log2L, Poly.eval_cons, Poly.eval_nil]
    push_cast
    ring
  have hE3 : |Poly.eval log2L (x ^ 2)| ≤ 3 := by
    have ht0 : 0 ≤ x ^ 2 := by positivity
    have ht1 : x ^ 2 ≤ 0.05 := by
      rw [← sq_abs]
      have := pow_le_pow_left₀ (abs_nonneg _) hx 2
      norm_num at this ⊢; linarith
    simp only [log2L, log2C, Poly.eval_cons, Poly.eval_nil]
    generalize x ^ 2 = t at ht0 ht1
    push_cast
    have q2 : t * (0.4374088347 : ℝ) ≤ 0.1 := by linarith
    have q3 : t * (0.5764843822 + t * (0.4374088347 : ℝ)) ≤ 0.05 * 0.7 := mul_le_mul ht1 (by linarith) (by positivity) (by norm_num)
    have q4 : t * (0.9618024230 + t * (0.5764843822 + t * (0.4374088347 : ℝ))) ≤ 0.05 * 1 := mul_le_mul ht1 (by linarith) (by positivity) (by norm_num)
    have q5 : 0 ≤ t * (0.9618024230 + t * (0.5764843822 + t * (0.4374088347 : ℝ))) := by positivity
    norm_num at q4 q5 ⊢
    rw [_root_.abs_le]
    constructor <;> linarith
  rw [hE] at h3
  generalize Poly.eval log2L (x ^ 2) = P at h3 hE3 ⊢
  push_cast at hl
  have hl0 : (0.693 : ℝ) ≤ Real.log 2 := by norm_num at hl ⊢; linarith [hl.1]
  have hl1 : |Real.log 2 - 0.69314718056| ≤ 1 / 10 ^ 12 := by
    rw [_root_.abs_le]; norm_num at hl ⊢; constructor <;> linarith [hl.1, hl.2]
  generalize Real.log 2 = l at hl0 hl1 ⊢
  have hlp : 0 < l := by linarith
  have e : x * P - L / l = (x * (0.69314718056 * P) - L + x * P * (l - 0.69314718056)) / l := by field_simp; ring
  rw [e, abs_div, abs_of_pos hlp, div_le_iff₀ hlp]
  have h4 : |x * P * (l - 0.69314718056)| ≤ |x| * (3 * (1 / 10 ^ 12)) := by
    rw [abs_mul, abs_mul, mul_assoc]
    exact mul_le_mul_of_nonneg_left (mul_le_mul hE3 hl1 (abs_nonneg _) (by norm_num)) (abs_nonneg _)
  refine (abs_add_le _ _).trans ((add_le_add h3 h4).trans ?_)
  have hx0 := abs_nonneg x
  have h5 : 0.66 * (1 / 2 ^ 24) * |x| * 0.693 ≤ 0.66 * (1 / 2 ^ 24) * |x| * l := mul_le_mul_of_nonneg_left hl0 (by positivity)
  refine le_trans ?_ h5
  have h6 : (0.45 * (1 / 2 ^ 24) + 2 * 0.20004 ^ (2 * 8) / (1 - 0.20004) : ℝ) + 3 * (1 / 10 ^ 12) ≤ 0.66 * (1 / 2 ^ 24) * 0.693 := by norm_num
  have h7 := mul_le_mul_of_nonneg_right h6 hx0
  linarith

/-- Is the error of `x2 * x * t` small? Proof helper. -/
def log2OkR (fused : Bool) (xl xu : ℚ) : Bool :=
  let B := log2BR 24 fused xl xu
  B.ok && decide (B.k = 3) && decide (B.a * (max |xl| |xu|) ^ 3 ≤ 0.09 / 2 ^ 24) && decide (B.b ≤ 2000)

/-- Is the error for `e = 0` at most `3.2` times the logarithm in units of `2 ^ -24`? Proof helper. -/
def log2OkZ (fused : Bool) (xl xu : ℚ) : Bool :=
  let B := log2BZ 24 fused xl xu
  B.ok && decide (B.k = 1) && decide (-1 < xl) && decide (B.a * (1 + max xu 0 / 2) * 0.69315 ≤ 3.2 / 2 ^ 24) && decide (B.b ≤ 2000)

set_option maxRecDepth 100000 in
theorem log2ChainR : ∀ fused, chain (log2OkR fused) (-0.2501) logPts64 = true := by decide +kernel

set_option maxRecDepth 100000 in
theorem log2ChainZ : ∀ fused, chain (log2OkZ fused) (-0.2501) logPts64 = true := by decide +kernel

end Nsimd.Sleef
