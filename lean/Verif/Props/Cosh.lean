import Verif.Model.Cosh
import Verif.Lemmas.UlpTools
import Verif.Props.Exp
import Mathlib.Analysis.SpecialFunctions.Trigonometric.DerivHyp

/-!
# Accuracy of `cosh_u35`
-/

namespace Nsimd.Props.Cosh
open Nsimd.Sleef Nsimd.DoubleDouble Nsimd.Float Nsimd.Props.Round Nsimd.Props.Hypot Nsimd.Round Nsimd.Hypot Nsimd.Props.Ulp
open Nsimd.Props.Exp

variable {p : ℕ} {emin emax : ℤ} {rnd rndd : ℚ → ℚ} {m : Mode} {x : ℚ}

/-- From an exponential with an error of 1.17 ulps to a hyperbolic cosine with an error of 3.5 ulps. -/
theorem coshSum_error (h : Nearest p emin rnd) (hp : 20 ≤ p) (hmin : emin ≤ -p - 20) (fused : Bool) {e : ℚ} {a : ℝ} (ha : 0 ≤ a)
    (he : Rep p emin e) (herr : ∀ w, IsUlp p emin (Real.exp a) w → |(e : ℝ) - Real.exp a| ≤ 1.17 * w) {w : ℝ}
    (hw : IsUlp p emin (Real.cosh a) w) : |((rnd (coshSum rnd fused e) : ℚ) : ℝ) - Real.cosh a| ≤ 3.5 * w := by
  have hE1 : 1 ≤ Real.exp a := Real.one_le_exp ha
  have hcosh : Real.cosh a = (Real.exp a + 1 / Real.exp a) / 2 := by rw [Real.cosh_eq, Real.exp_neg, one_div]
  have hC1 : 1 ≤ Real.cosh a := Real.one_le_cosh a
  set E := Real.exp a with hE
  obtain ⟨wE, hwE⟩ := exists_ulp p emin (h := E) (by linarith)
  have h2p : (2 : ℝ) ^ 20 ≤ 2 ^ p := pow_le_pow_right₀ (by norm_num) hp
  have hu0 : (0 : ℝ) < 1 / 2 ^ p := by positivity
  have hu1 : (1 : ℝ) / 2 ^ p ≤ 1 / 2 ^ 20 := one_div_le_one_div_of_le (by norm_num) h2p
  have hpu : (2 : ℝ) ^ p * (1 / 2 ^ p) = 1 := by field_simp
  have hemin : (2 : ℝ) ^ p * 2 ^ emin ≤ 1 / 2 ^ 20 := by
    have : (2 : ℝ) ^ p * 2 ^ emin = 2 ^ ((p : ℤ) + emin) := by rw [zpow_add₀ (by norm_num), zpow_natCast]
    rw [this]
    have h1 : (2 : ℝ) ^ ((p : ℤ) + emin) ≤ 2 ^ (-20 : ℤ) := zpow_le_zpow_right₀ (by norm_num) (by omega)
    norm_num at h1 ⊢; exact h1
  -- ulps
  have hwE2 : (2 : ℝ) ^ p * wE ≤ 2 * E := hwE.rel (by linarith)
  have hwE3 : wE ≤ 2 * E * (1 / 2 ^ p) := by
    rw [mul_one_div, le_div_iff₀ (by positivity)]; linarith
  have hw1 : 2 * (1 / 2 ^ p) ≤ w := by
    have : (2 : ℝ) * (1 / 2 ^ p) = 2 ^ (1 - (p : ℤ)) := by
      rw [zpow_sub₀ (by norm_num), zpow_one, zpow_natCast, mul_one_div]
    rw [this]
    refine hw.ge ?_
    rw [← this, mul_left_comm, hpu]; linarith
  have hwh : wE / 2 ≤ w := by
    obtain ⟨e0, he0, rfl, -, h1⟩ := hwE
    have : (2 : ℝ) ^ e0 / 2 = 2 ^ (e0 - 1) := by rw [zpow_sub₀ (by norm_num), zpow_one]
    rw [this]
    refine hw.ge ?_
    rw [← this, hcosh]
    have h3 : 0 ≤ 1 / E := by positivity
    linarith
  have hw0 : 0 < w := hw.le.2.2
  -- the exponential
  have herr' := herr wE hwE
  have hwE0 : 0 < wE := hwE.le.2.2
  have he1 := _root_.abs_le.mp herr'
  have hsmall : 1.17 * wE ≤ 0.001 * E := by
    have : wE ≤ 2 * E * (1 / 2 ^ 20) := hwE3.trans (mul_le_mul_of_nonneg_left hu1 (by linarith))
    nlinarith
  have heE : 0.999 * E ≤ e := by linarith
  have he0 : (0.999 : ℝ) ≤ e := by nlinarith
  have hhalf : rnd (1 / 2) = 1 / 2 := by
    refine h.fix ?_
    have := rep_int_mul (p := p) (emin := emin) (by omega) (e := -1) (by omega) (k := 1) (by simp; exact one_le_pow₀ (by norm_num))
    norm_num at this ⊢; exact this
  have heq : (0.999 : ℚ) ≤ e := by
    have : ((0.999 : ℚ) : ℝ) ≤ (e : ℝ) := by push_cast; norm_num at he0 ⊢; exact he0
    exact_mod_cast this
  have hrep2 : Rep p emin (1 / 2 * e) := by
    have hm : Mult (-(p : ℤ)) e := mult_of_ge he (by
      rw [abs_of_nonneg (by linarith), pow_eq_zpow]
      have : (p : ℤ) + (-p - 1) = -1 := by ring
      rw [this]; norm_num at *; linarith)
    obtain ⟨k, e1, h1, h2, h3⟩ := he
    rcases lt_or_ge e1 (emin + 1) with h4 | h4
    · -- then the significand is even
      have h5 : e1 = emin := by omega
      obtain ⟨k', hk'⟩ := hm
      have h6 : (k : ℚ) = k' * 2 ^ (-(p : ℤ) - emin) := by
        have : (k : ℚ) * 2 ^ emin = k' * 2 ^ (-(p : ℤ)) := by rw [← h5, ← h3, hk']
        rw [zpow_sub₀ (by norm_num), mul_div_assoc', ← this, mul_div_assoc, div_self (zpow_ne_zero _ (by norm_num)), mul_one]
      have h7 : (k : ℚ) = (k' * 2 ^ (-(p : ℤ) - emin - 1).toNat * 2 : ℤ) := by
        have e8 : (2 : ℚ) ^ (-(p : ℤ) - emin) = 2 ^ (-(p : ℤ) - emin - 1).toNat * 2 := by
          rw [← zpow_natCast, Int.toNat_of_nonneg (by omega), ← zpow_add_one₀ (by norm_num)]; congr 1; ring
        rw [h6, e8]; push_cast; ring
      have h8 : k = k' * 2 ^ (-(p : ℤ) - emin - 1).toNat * 2 := by exact_mod_cast h7
      refine ⟨k' * 2 ^ (-(p : ℤ) - emin - 1).toNat, emin, ?_, le_refl _, ?_⟩
      · rw [h8, abs_mul (_ * _)] at h1
        have := abs_nonneg (k' * 2 ^ (-(p : ℤ) - emin - 1).toNat)
        rw [show |(2 : ℤ)| = 2 from rfl] at h1
        omega
      · rw [h3, h5, h8]; push_cast; ring
    · refine ⟨k, e1 - 1, h1, by omega, ?_⟩
      rw [h3, zpow_sub₀ (by norm_num)]; ring
  -- the sum before its rounding
  set z := coshSum rnd fused e with hz
  have hzv : z = 1 / 2 * e + rnd (1 / 2 / e) := by
    rw [hz]; unfold coshSum
    simp only [hhalf, mul]
    rw [h.fix hrep2]
    simp
  have hq := h.err (by omega : 1 ≤ p) (1 / 2 / e)
  have hqR : |((rnd (1 / 2 / e) : ℚ) : ℝ) - 1 / 2 / e| ≤ |1 / 2 / (e : ℝ)| / 2 ^ p + 2 ^ emin / 2 := by
    have : ((|rnd (1 / 2 / e) - 1 / 2 / e| : ℚ) : ℝ) ≤ ((|1 / 2 / e| / 2 ^ p + 2 ^ emin / 2 : ℚ) : ℝ) := by exact_mod_cast hq
    push_cast at this; exact this
  have heR0 : (0 : ℝ) < e := by linarith
  have hEpos : 0 < E := by linarith
  have hq1 : |1 / 2 / (e : ℝ)| ≤ 0.501 := by
    rw [abs_of_pos (by positivity), div_le_iff₀ heR0]; nlinarith
  have hq2 : |1 / 2 / (e : ℝ)| / 2 ^ p + 2 ^ emin / 2 ≤ 0.26 * w := by
    have h1 : |1 / 2 / (e : ℝ)| / 2 ^ p ≤ 0.501 * (1 / 2 ^ p) := by
      rw [div_eq_mul_one_div]; exact mul_le_mul_of_nonneg_right hq1 hu0.le
    have h2 : (2 : ℝ) ^ emin ≤ 1 / 2 ^ 20 * (1 / 2 ^ p) := by
      rw [mul_one_div, le_div_iff₀ (by positivity)]; linarith
    norm_num at *
    linarith
  have hinv : |1 / 2 / (e : ℝ) - 1 / 2 / E| ≤ 0.59 * w := by
    have h1 : 1 / 2 / (e : ℝ) - 1 / 2 / E = (E - e) / (2 * (e * E)) := by field_simp
    rw [h1, abs_div, abs_of_pos (show (0 : ℝ) < 2 * (e * E) by positivity), div_le_iff₀ (by positivity), abs_sub_comm]
    have h2 : 1.17 * wE ≤ 1.17 * (2 * E * (1 / 2 ^ p)) := mul_le_mul_of_nonneg_left hwE3 (by norm_num)
    have h3 : 1.17 * (2 * E * (1 / 2 ^ p)) ≤ 1.17 * E * w := by nlinarith
    have h4 : 0.59 * w * (2 * (0.999 * E)) ≤ 0.59 * w * (2 * (e * E)) := by
      refine mul_le_mul_of_nonneg_left ?_ (by linarith)
      nlinarith
    nlinarith
  have hfirst : |1 / 2 * (e : ℝ) - 1 / 2 * E| ≤ 1.17 * w := by
    have : 1 / 2 * (e : ℝ) - 1 / 2 * E = (e - E) / 2 := by ring
    rw [this, abs_div, abs_of_pos (by norm_num : (0 : ℝ) < 2)]
    linarith
  have hzerr : |(z : ℝ) - Real.cosh a| ≤ 2.02 * w := by
    have h1 : (z : ℝ) - Real.cosh a = (1 / 2 * (e : ℝ) - 1 / 2 * E) + (((rnd (1 / 2 / e) : ℚ) : ℝ) - 1 / 2 / e) +
        (1 / 2 / (e : ℝ) - 1 / 2 / E) := by
      rw [hzv, hcosh]; push_cast; ring
    rw [h1]
    refine (abs_add_three _ _ _).trans ?_
    linarith
  have hw' : IsUlp p emin |Real.cosh a| w := by rwa [abs_of_pos (by linarith)]
  have := round_err' h (by omega) hw' hzerr (by norm_num)
  linarith

theorem cosh_finish (h : Nearest p emin rnd) (hp : 20 ≤ p) (hmin : emin ≤ -p - 20) (fused : Bool) {r : Fl} {a : ℚ}
    (hr : Within p emin emax 1.17 (Real.exp |a|) r) (hov : Real.exp |a| + 3 / 2 ^ p * Real.exp |a| < 2 ^ emax) :
    Within p emin emax 3.5 (Real.cosh a)
      (match coshOf rnd fused emax r with | .nan => .inf false | y => y) := by
  have hpos := Real.exp_pos |(a : ℝ)|
  have hE1 : 1 ≤ Real.exp |(a : ℝ)| := Real.one_le_exp (abs_nonneg _)
  cases r with
  | nan => exact hr.elim
  | inf neg =>
    exfalso
    obtain ⟨w, hw⟩ := exists_ulp p emin hpos
    have h1 := hr w (by rwa [abs_of_pos hpos])
    have hw2 : w ≤ 2 * Real.exp |(a : ℝ)| * (1 / 2 ^ p) := by
      rw [mul_one_div, le_div_iff₀ (by positivity), mul_comm]
      refine hw.rel ?_
      have : (2 : ℝ) ^ p * 2 ^ emin = 2 ^ ((p : ℤ) + emin) := by rw [zpow_add₀ (by norm_num), zpow_natCast]
      rw [this]
      have h1 : (2 : ℝ) ^ ((p : ℤ) + emin) ≤ 2 ^ (0 : ℤ) := zpow_le_zpow_right₀ (by norm_num) (by omega)
      rw [zpow_zero] at h1; linarith
    have h3 : 3 / 2 ^ p * Real.exp |(a : ℝ)| = 3 * (Real.exp |(a : ℝ)| * (1 / 2 ^ p)) := by ring
    rw [h3] at hov
    have h4 : 0 < Real.exp |(a : ℝ)| * (1 / 2 ^ p) := by positivity
    have h5 : w ≤ 2 * (Real.exp |(a : ℝ)| * (1 / 2 ^ p)) := by linarith
    generalize Real.exp |(a : ℝ)| * (1 / 2 ^ p) = g at *
    have hM : (0 : ℝ) < 2 ^ emax := by positivity
    generalize (2 : ℝ) ^ emax = M at *
    split at h1
    · have := hw.le.2.2; have h6 : 1.17 * w ≤ 1.17 * (2 * g) := mul_le_mul_of_nonneg_left h5 (by norm_num)
      norm_num at *; linarith
    · norm_num at *; linarith
  | fin e =>
    suffices hs : Within p emin emax 3.5 (Real.cosh a) (roundFl rnd emax (coshSum rnd fused e)) by
      show Within p emin emax 3.5 (Real.cosh a) (match roundFl rnd emax (coshSum rnd fused e) with | .nan => .inf false | y => y)
      cases hv : roundFl rnd emax (coshSum rnd fused e) with
      | nan => rw [hv] at hs; exact hs.elim
      | inf _ => rw [hv] at hs; exact hs
      | fin _ => rw [hv] at hs; exact hs
    refine within_roundFl h fun w hw => ?_
    have hc : Real.cosh (a : ℝ) = Real.cosh |(a : ℝ)| := (Real.cosh_abs _).symm
    rw [hc] at hw ⊢
    rw [abs_of_pos (Real.cosh_pos _)] at hw
    refine coshSum_error h hp hmin fused (abs_nonneg _) hr.1 (fun w hw => hr.2.2 w ?_) hw
    rwa [abs_of_pos hpos]

/-- **cosh_u35, f64**: 3.5 ulps up to 709 in absolute value. Above that the code returns infinity. -/
theorem xcosh35_within_partial (h : Nearest 53 (-1074) rnd) (fused : Bool) (hm : m.Ok) (hx : Rep 53 (-1074) x) (hx' : |x| ≤ 709) :
    ∃ r, xcosh35 rnd fused m (.fin x) = some r ∧ Within 53 (-1074) 1024 3.5 (Real.cosh x) r := by
  have habs : Rep 53 (-1074) |x| := by
    rcases abs_choice x with e | e <;> rw [e]
    · exact hx
    · exact rep_neg hx
  have hT : |x| ≤ rnd 709.78271114955742909217217426 := by
    have h709 : Rep 53 (-1074) (709 : ℚ) := ⟨709, 0, by norm_num, by norm_num, by norm_num⟩
    have := h.mono (show (709 : ℚ) ≤ 709.78271114955742909217217426 by norm_num)
    rw [h.fix h709] at this
    exact hx'.trans this
  obtain ⟨r, h1, h2⟩ := xexp_within_partial (m := m) h fused hm habs (fun _ => by rw [abs_abs]; exact hx'.trans (by norm_num)) hT
  refine ⟨_, by simp only [xcosh35, coshTests, fabs, h1]; rfl, ?_⟩
  show Within _ _ _ _ _ (ite _ _ _)
  rw [if_neg (not_lt.mpr hx')]
  refine cosh_finish h (by norm_num) (by norm_num) (fused && m.isSimd) (a := x) (r := r) (by push_cast at h2; exact h2) ?_
  have hl := log_two_bounds
  have h3 : Real.exp |(x : ℝ)| ≤ 2 ^ (1023 : ℤ) := by
    refine exp_le_zpow ?_
    have : ((|x| : ℚ) : ℝ) ≤ ((709 : ℚ) : ℝ) := by exact_mod_cast hx'
    push_cast at this ⊢; linarith
  have h4 : (2 : ℝ) ^ (1024 : ℤ) = 2 * 2 ^ (1023 : ℤ) := by
    rw [show (1024 : ℤ) = 1 + 1023 by norm_num, zpow_add₀ (by norm_num), zpow_one]
  have h5 : (0 : ℝ) < 2 ^ (1023 : ℤ) := by positivity
  rw [h4]
  clear h4
  have h6 := Real.exp_pos |(x : ℝ)|
  generalize (2 : ℝ) ^ (1023 : ℤ) = M at *
  norm_num
  linarith

/-- **cosh_u35, f32**: 3.5 ulps up to 88 in absolute value. -/
theorem xcoshf35_within_partial (h : Nearest 24 (-149) rnd) (hdd : Nearest 53 (-1074) rndd) (fused : Bool) (hm : m.Ok)
    (hx : Rep 24 (-149) x) (hx' : |x| ≤ 88) :
    ∃ r, xcoshf35 rnd fused m rndd (.fin x) = some r ∧ Within 24 (-149) 128 3.5 (Real.cosh x) r := by
  have habs : Rep 24 (-149) |x| := by
    rcases abs_choice x with e | e <;> rw [e]
    · exact hx
    · exact rep_neg hx
  obtain ⟨r, h1, h2⟩ := xexpf_within_partial (m := m) h hdd fused hm habs (fun _ => by rw [abs_abs]; exact hx'.trans (by norm_num))
  refine ⟨_, by simp only [xcoshf35, coshTests, fabs, h1]; rfl, ?_⟩
  show Within _ _ _ _ _ (ite _ _ _)
  rw [if_neg (not_lt.mpr hx')]
  refine cosh_finish h (by norm_num) (by norm_num) (fused && m.isSimd) (a := x) (r := r) (by push_cast at h2; exact h2) ?_
  have hl := log_two_bounds
  have h3 : Real.exp |(x : ℝ)| ≤ 2 ^ (127 : ℤ) := by
    refine exp_le_zpow ?_
    have : ((|x| : ℚ) : ℝ) ≤ ((88 : ℚ) : ℝ) := by exact_mod_cast hx'
    push_cast at this ⊢; linarith
  have h4 : (2 : ℝ) ^ (128 : ℤ) = 2 * 2 ^ (127 : ℤ) := by
    rw [show (128 : ℤ) = 1 + 127 by norm_num, zpow_add₀ (by norm_num), zpow_one]
  have h5 : (0 : ℝ) < 2 ^ (127 : ℤ) := by positivity
  rw [h4]
  clear h4
  have h6 := Real.exp_pos |(x : ℝ)|
  generalize (2 : ℝ) ^ (127 : ℤ) = M at *
  norm_num
  linarith

theorem rep_abs' {q : ℚ} (hq : Rep p emin q) : Rep p emin |q| := by
  rcases abs_choice q with e | e <;> rw [e]
  · exact hq
  · exact rep_neg hq

/-- Above 709 the result is infinity. -/
theorem xcosh35_over (h : Nearest 53 (-1074) rnd) (fused : Bool) (hm : m.Ok) (hx : Rep 53 (-1074) x) (hx' : 709 < |x|)
    (hs : m = .scalar → |x| ≤ 2 ^ 27) : xcosh35 rnd fused m (.fin x) = some (.inf false) := by
  have hs' : m = .scalar → |(|x|)| ≤ 2 ^ 27 := by rwa [abs_abs]
  have : ∃ r, xexp rnd fused m (.fin |x|) = some r := by
    rcases le_or_gt |x| (rnd 709.78271114955742909217217426) with h1 | h1
    · obtain ⟨r, h2, -⟩ := xexp_within_partial (m := m) h fused hm (rep_abs' hx) hs' h1
      exact ⟨r, h2⟩
    · exact ⟨_, xexp_over h fused hs' h1⟩
  obtain ⟨r, h1⟩ := this
  simp only [xcosh35, coshTests, fabs, h1, Option.map_some, if_pos hx']

/-- Above 88 the result is infinity. -/
theorem xcoshf35_over (h : Nearest 24 (-149) rnd) (hdd : Nearest 53 (-1074) rndd) (fused : Bool) (hm : m.Ok) (hx : Rep 24 (-149) x)
    (hx' : 88 < |x|) (hs : m = .scalar → |x| ≤ 2 ^ 27) : xcoshf35 rnd fused m rndd (.fin x) = some (.inf false) := by
  obtain ⟨r, h1, -⟩ := xexpf_within_partial (m := m) h hdd fused hm (rep_abs' hx) (by rwa [abs_abs])
  simp only [xcoshf35, coshTests, fabs, h1, Option.map_some, if_pos hx']

/-- Infinities and NaN, SIMD. -/
theorem special_simd (hm : m.isSimd = true) (fused neg : Bool) :
    xcosh35 rnd fused m (.inf neg) = some (.inf false) ∧ xcosh35 rnd fused m .nan = some .nan ∧
    xcoshf35 rnd fused m rndd (.inf neg) = some (.inf false) ∧ xcoshf35 rnd fused m rndd .nan = some .nan := by
  cases m <;> simp_all [Mode.isSimd, xcosh35, xcoshf35, coshTests, fabs, xexp, xexpf, select]

/-- The values between 709 and the overflow threshold are why the claim of 3.5 ulps is not proved for them: it is wrong. The
hyperbolic cosine of 710 is below three quarters of the overflow threshold. -/
theorem xcosh35_710 (h : Nearest 53 (-1074) rnd) (fused : Bool) (hm : m.Ok) : xcosh35 rnd fused m (.fin 710) = some (.inf false) ∧
    Real.cosh 710 ≤ 3 / 4 * 2 ^ (1024 : ℤ) ∧ ¬ Within 53 (-1074) 1024 3.5 (Real.cosh 710) (.inf false) := by
  have hl := log_two_bounds
  have h1 : Real.exp 710 ≤ 1.29 * 2 ^ (1024 : ℤ) := by
    have e1 : Real.exp 710 = Real.exp (710 - 1024 * Real.log 2) * 2 ^ (1024 : ℤ) := by
      rw [Real.exp_sub, show (1024 : ℝ) * Real.log 2 = ((1024 : ℕ) : ℝ) * Real.log 2 by norm_num, Real.exp_nat_mul,
        Real.exp_log (by norm_num)]
      rw [show (1024 : ℤ) = ((1024 : ℕ) : ℤ) by norm_num, zpow_natCast]
      have : (2 : ℝ) ^ 1024 ≠ 0 := by positivity
      field_simp
    rw [e1]
    refine mul_le_mul_of_nonneg_right ?_ (by positivity)
    refine (Real.exp_le_exp.mpr (show 710 - 1024 * Real.log 2 ≤ 0.22 by norm_num at hl ⊢; linarith)).trans ?_
    refine (Real.exp_bound_div_one_sub_of_interval (by norm_num) (by norm_num)).trans (by norm_num)
  have h2 : Real.cosh 710 ≤ 3 / 4 * 2 ^ (1024 : ℤ) := by
    rw [Real.cosh_eq]
    have h3 : Real.exp (-710) ≤ 1 := Real.exp_le_one_iff.mpr (by norm_num)
    have h4 : (2 : ℝ) ^ (10 : ℤ) ≤ 2 ^ (1024 : ℤ) := zpow_le_zpow_right₀ (by norm_num) (by norm_num)
    generalize (2 : ℝ) ^ (1024 : ℤ) = M at *
    norm_num at h4
    linarith
  refine ⟨xcosh35_over h fused hm ⟨710, 0, by norm_num, by norm_num, by norm_num⟩ (by norm_num [abs_of_pos])
    (fun _ => by norm_num [abs_of_pos]), h2, fun hw => ?_⟩
  have hc := Real.one_le_cosh 710
  obtain ⟨w, hw1⟩ := exists_ulp 53 (-1074) (h := Real.cosh 710) (by linarith)
  have h5 := hw w (by rwa [abs_of_pos (by linarith)])
  have h6 := hw1.rel (by
    have h8 : (2 : ℝ) ^ 53 * 2 ^ (-1074 : ℤ) = 2 ^ (-1021 : ℤ) := by
      rw [show (-1021 : ℤ) = 53 + (-1074) by norm_num, zpow_add₀ (by norm_num)]; norm_cast
    have h9 : (2 : ℝ) ^ (-1021 : ℤ) ≤ 2 ^ (0 : ℤ) := zpow_le_zpow_right₀ (by norm_num) (by norm_num)
    rw [h8]
    rw [zpow_zero] at h9
    linarith)
  simp only [Bool.false_eq_true, if_false] at h5
  have h7 : (0 : ℝ) < 2 ^ (1024 : ℤ) := by positivity
  generalize (2 : ℝ) ^ (1024 : ℤ) = M at *
  norm_num at h5 h6
  linarith

/-- A concrete case, with a SIMD conversion to nearest. -/
example : ∃ (rnd : ℚ → ℚ) (near : ℚ → ℤ), ∃ r, xcosh35 rnd false (.simd near) (.fin (3 / 2)) = some r ∧
    Within 53 (-1074) 1024 3.5 (Real.cosh (3 / 2 : ℚ)) r := by
  obtain ⟨rnd, h⟩ := exists_nearest (p := 53) (by norm_num) (-1074)
  exact ⟨rnd, round, xcosh35_within_partial h false (m := .simd round) (fun y => by rw [abs_sub_comm]; exact abs_sub_round y)
    ⟨3, -1, by norm_num, by norm_num, by norm_num⟩ (by norm_num [abs_le])⟩

end Nsimd.Props.Cosh
