import Verif.Lemmas.Log2Bound
import Mathlib.Analysis.SpecialFunctions.Log.Base

/-!
# Accuracy of `log2_u35` of f32
-/

namespace Nsimd.Props.Log2
open Nsimd.Sleef Nsimd.DoubleDouble Nsimd.Float Nsimd.Props.Round Nsimd.Props.Hypot Nsimd.Round Nsimd.Hypot Nsimd.Props.Ulp Nsimd.Props.Log

variable {rnd rndd : ℚ → ℚ} {d : ℚ}

/-! ### Parts of the proofs -/

/-- The literal of the linear term. -/
theorem log2_lit (h : Nearest 24 (-149) rnd) (hd : Nearest 53 (-1074) rndd) : rnd (rndd 2.885390043) = log2C := by
  have h1 := hd.err (by norm_num) 2.885390043
  have h2 := _root_.abs_le.mp h1
  have h3 : (2 : ℚ) ^ (-1074 : ℤ) ≤ 2 ^ (-100 : ℤ) := zpow_le_zpow_right₀ (by norm_num) (by norm_num)
  generalize (2 : ℚ) ^ (-1074 : ℤ) = η at h2 h3
  have := rnd_lit h (c := rndd 2.885390043) (k := 12102203) (e := -22) (by norm_num) (by norm_num) (by norm_num) (by
    rw [abs_lt]
    norm_num at h2 h3 ⊢
    constructor <;> linarith [h2.1, h2.2])
  rw [this]
  norm_num [log2C]

theorem lt_fix (h : Nearest 24 (-149) rnd) (hd : Nearest 53 (-1074) rndd) {c : ℚ} (hc : Rep 24 (-149) c) : rnd (rndd c) = c :=
  (lit_two h hd).fix c hc

/-- `x` is rounded twice. -/
theorem logX_eq (h : Nearest 24 (-149) rnd) (hd : Nearest 53 (-1074) rndd) (fused : Bool) (s : ℚ) :
    logX (flAlg rnd (fun c => rnd (rndd c)) fused) s = rnd (s / rnd (s + 2)) := by
  simp only [logX, flAlg]
  rw [lt_fix h hd ⟨2, 0, by norm_num, by norm_num, by norm_num⟩]
  rfl

/-- The kernel for a significand `1 + s`. -/
theorem kernel_eq (h : Nearest 24 (-149) rnd) (hd : Nearest 53 (-1074) rndd) (fused : Bool) {s : ℚ} (hs : Rep 24 (-149) s) (e : ℚ) :
    log2Kernel (flAlg rnd (fun c => rnd (rndd c)) fused) (1 + s) e =
      rnd (log2R rnd (fun c => rnd (rndd c)) fused s +
        rnd ((if fused then logX (flAlg rnd (fun c => rnd (rndd c)) fused) s * log2C
          else rnd (logX (flAlg rnd (fun c => rnd (rndd c)) fused) s * log2C)) + e)) := by
  have hx : (flAlg rnd (fun c => rnd (rndd c)) fused).div
      ((flAlg rnd (fun c => rnd (rndd c)) fused).sub (1 + s) ((flAlg rnd (fun c => rnd (rndd c)) fused).lit 1))
      ((flAlg rnd (fun c => rnd (rndd c)) fused).add (1 + s) ((flAlg rnd (fun c => rnd (rndd c)) fused).lit 1)) =
        logX (flAlg rnd (fun c => rnd (rndd c)) fused) s := by
    rw [logX_eq h hd]
    simp only [flAlg, sub, add]
    rw [lt_fix h hd ⟨1, 0, by norm_num, by norm_num, by norm_num⟩, show (1 + s - 1 : ℚ) = s by ring, h.fix hs,
      show (1 + s + 1 : ℚ) = s + 2 by ring]
  have hl : (flAlg rnd (fun c => rnd (rndd c)) fused).lit 2.885390043 = log2C := log2_lit h hd
  unfold log2Kernel
  rw [hx, hl]
  unfold log2R log2T log2X3
  cases fused <;> rfl

/-- Error of `x`. -/
theorem x_err (h : Nearest 24 (-149) rnd) {s : ℚ} (h1 : (-0.2501 : ℝ) ≤ s) (h2 : (s : ℝ) ≤ 0.5001) :
    |((rnd (s / rnd (s + 2)) : ℚ) : ℝ) - s / (2 + s)| ≤ 0.2886 * (1 / 2 ^ 24) ∧
      (0 ≤ (s : ℝ) → (s : ℝ) ≤ 0.42 → |((rnd (s / rnd (s + 2)) : ℚ) : ℝ) - s / (2 + s)| ≤ 0.2686 * (1 / 2 ^ 24)) := by
  obtain ⟨d1, d2, -, -⟩ := logD_err h h1 h2 (D := rnd (s + 2)) rfl
  generalize rnd (s + 2) = D at d1 d2 ⊢
  have hD0 : (0 : ℝ) < D := by linarith
  have hs0 : (0 : ℝ) < 2 + s := by linarith
  have hq : |((s / D : ℚ) : ℝ)| ≤ 0.2887 := by
    push_cast
    have d2' := _root_.abs_le.mp d2
    norm_num at d2' h1 h2
    rw [_root_.abs_le, div_le_iff₀ hD0, le_div_iff₀ hD0]
    norm_num
    constructor <;> linarith [d2'.1, d2'.2]
  have hq4 : |((s / D : ℚ) : ℝ)| ≤ 2 ^ (-2 : ℤ) := by
    push_cast
    have d2' := _root_.abs_le.mp d2
    norm_num at d2' h1 h2
    rw [_root_.abs_le, div_le_iff₀ hD0, le_div_iff₀ hD0]
    norm_num
    constructor <;> linarith [d2'.1, d2'.2]
  have hr := half_pow h (by norm_num) (-2) (by norm_num) hq4
  have e : ((s / D : ℚ) : ℝ) - s / (2 + s) = s * (2 + s - D) / (D * (2 + s)) := by push_cast; field_simp
  have key : ∀ a : ℝ, 0 ≤ a → |(s : ℝ)| * 2 ≤ a * (D * (2 + s)) → |((rnd (s / D) : ℚ) : ℝ) - s / (2 + s)| ≤ (0.125 + a) * (1 / 2 ^ 24) := by
    intro a ha hb
    have h3 : |((s / D : ℚ) : ℝ) - s / (2 + s)| ≤ a * (1 / 2 ^ 24) := by
      rw [e, abs_div, abs_mul, abs_of_pos (mul_pos hD0 hs0), div_le_iff₀ (mul_pos hD0 hs0)]
      have := mul_le_mul_of_nonneg_left d2 (abs_nonneg (s : ℝ))
      have h4 := mul_le_mul_of_nonneg_right hb (show (0 : ℝ) ≤ 1 / 2 ^ 24 by positivity)
      linarith
    have h4 := abs_sub_le ((rnd (s / D) : ℚ) : ℝ) ((s / D : ℚ) : ℝ) (s / (2 + s))
    norm_num at hr h3 h4 ⊢
    linarith
  have d2' := _root_.abs_le.mp d2
  have hD : 2 + (s : ℝ) - 1 / 10 ^ 6 ≤ D := by norm_num at d2' ⊢; linarith [d2'.2]
  have hDD : (2 + (s : ℝ) - 1 / 10 ^ 6) * (2 + s) ≤ D * (2 + s) := mul_le_mul_of_nonneg_right hD hs0.le
  constructor
  · refine (key 0.1636 (by norm_num) ?_).trans (by norm_num)
    refine le_trans ?_ (mul_le_mul_of_nonneg_left hDD (by norm_num))
    norm_num at h1 h2 ⊢
    rcases le_total 0 (s : ℝ) with h0 | h0
    · rw [abs_of_nonneg h0]; nlinarith
    · rw [abs_of_nonpos h0]; nlinarith
  · intro h0 h42
    refine (key 0.1436 (by norm_num) ?_).trans (by norm_num)
    refine le_trans ?_ (mul_le_mul_of_nonneg_left hDD (by norm_num))
    norm_num at h42 ⊢
    rw [abs_of_nonneg h0]; nlinarith

theorem env (h : Nearest 24 (-149) rnd) (hd : Nearest 53 (-1074) rndd) {s xl xu : ℚ} (hl : (xl : ℝ) ≤ s) (hu : (s : ℝ) ≤ xu) :
    Env 24 (-149) rnd (fun c => rnd (rndd c)) (s : ℝ) xl xu := ⟨by norm_num, by norm_num, h, lit_two h hd, hl, hu⟩

theorem eta_le : 2000 * eta (-149) ≤ 0.000001 * (1 / 2 ^ 24 * (1 / 2 ^ 24)) := by unfold eta; norm_num

theorem pts_last : lastD (-0.2501) logPts64 = 0.5001 := by decide +kernel

/-- Error of `x2 * x * t`. -/
theorem r_err (h : Nearest 24 (-149) rnd) (hd : Nearest 53 (-1074) rndd) (fused : Bool) {s : ℚ} (h1 : (-0.2501 : ℝ) ≤ s)
    (h2 : (s : ℝ) ≤ 0.5001) :
    |((log2R rnd (fun c => rnd (rndd c)) fused s : ℚ) : ℝ) - log2X3 reAlg (s : ℝ) * log2T reAlg (s : ℝ)| ≤ 0.0901 * (1 / 2 ^ 24) := by
  obtain ⟨xl, xu, hok, hxl, hxu⟩ := chain_sound (log2ChainR fused) (by decide) (x := (s : ℝ))
    (by push_cast; norm_num at h1 ⊢; linarith) (by rw [pts_last]; push_cast; norm_num at h2 ⊢; linarith)
  simp only [log2OkR, Bool.and_eq_true, decide_eq_true_eq] at hok
  obtain ⟨⟨⟨o1, o2⟩, o3⟩, o4⟩ := hok
  obtain ⟨a1, b1, e1, -⟩ := log2R_ap (env h hd hxl hxu) fused o1
  rw [o2] at e1
  generalize log2BR 24 fused xl xu = B at *
  have hm : |(s : ℝ)| ≤ ((max |xl| |xu| : ℚ) : ℝ) := by
    push_cast
    exact abs_le_max_abs_abs hxl hxu
  have h3 : (B.a : ℝ) * |(s : ℝ)| ^ 3 ≤ 0.09 / 2 ^ 24 := by
    have := mul_le_mul_of_nonneg_left (pow_le_pow_left₀ (abs_nonneg _) hm 3) (show (0 : ℝ) ≤ B.a by exact_mod_cast a1)
    refine this.trans ?_
    have : ((B.a * (max |xl| |xu|) ^ 3 : ℚ) : ℝ) ≤ ((0.09 / 2 ^ 24 : ℚ) : ℝ) := by exact_mod_cast o3
    push_cast at this ⊢
    exact this
  have h4 : (B.b : ℝ) * eta (-149) ≤ 2000 * eta (-149) :=
    mul_le_mul_of_nonneg_right (by exact_mod_cast o4) (eta_pos (emin := -149)).le
  have h5 := eta_le
  norm_num at h3 h5 ⊢
  linarith

/-- Error for `e = 0` before the last rounding. -/
theorem z_err (h : Nearest 24 (-149) rnd) (hd : Nearest 53 (-1074) rndd) (fused : Bool) {s : ℚ} (h1 : (-0.2501 : ℝ) ≤ s)
    (h2 : (s : ℝ) ≤ 0.5001) :
    |((log2Z rnd (fun c => rnd (rndd c)) fused s : ℚ) : ℝ) - Real.log (1 + s) / Real.log 2| ≤
      3.43 * (1 / 2 ^ 24) * |Real.log (1 + s) / Real.log 2| + 2000 * eta (-149) := by
  obtain ⟨xl, xu, hok, hxl, hxu⟩ := chain_sound (log2ChainZ fused) (by decide) (x := (s : ℝ))
    (by push_cast; norm_num at h1 ⊢; linarith) (by rw [pts_last]; push_cast; norm_num at h2 ⊢; linarith)
  simp only [log2OkZ, Bool.and_eq_true, decide_eq_true_eq] at hok
  obtain ⟨⟨⟨⟨o1, o2⟩, o3⟩, o4⟩, o5⟩ := hok
  obtain ⟨a1, b1, e1, -⟩ := log2Z_ap (env h hd hxl hxu) fused o1
  rw [o2, pow_one, log2_re] at e1
  have hn := log2_near h1 h2
  have hs1 : (-1 : ℝ) < s := by linarith
  have l1 := abs_le_log hs1
  have l2 := Poly.log_abs hs1
  obtain ⟨k1, k2⟩ := _root_.abs_le.mp log_two
  unfold ln2 at k1 k2
  push_cast at k1 k2
  have hl0 : (0 : ℝ) < Real.log 2 := Real.log_pos (by norm_num)
  have hl1 : Real.log 2 ≤ 0.69315 := by norm_num at k2 ⊢; linarith
  have hla : |Real.log (1 + (s : ℝ))| = Real.log 2 * |Real.log (1 + (s : ℝ)) / Real.log 2| := by
    rw [abs_div, abs_of_pos hl0]; field_simp
  have hy0 := abs_nonneg (Real.log (1 + (s : ℝ)) / Real.log 2)
  have hlb : |Real.log (1 + (s : ℝ))| ≤ 0.69315 * |Real.log (1 + (s : ℝ)) / Real.log 2| := by
    rw [hla]; exact mul_le_mul_of_nonneg_right hl1 hy0
  generalize log2BZ 24 fused xl xu = B at *
  generalize |Real.log (1 + (s : ℝ)) / Real.log 2| = y at *
  have a1' : (0 : ℝ) ≤ B.a := by exact_mod_cast a1
  have hmx : (0 : ℝ) ≤ 1 + max (s : ℝ) 0 / 2 := by have := le_max_right (s : ℝ) 0; linarith
  have h3 : (B.a : ℝ) * |(s : ℝ)| ≤ 3.2 * (1 / 2 ^ 24) * y := by
    calc (B.a : ℝ) * |(s : ℝ)| ≤ B.a * ((1 + max (s : ℝ) 0 / 2) * (0.69315 * y)) :=
          mul_le_mul_of_nonneg_left (l1.trans (mul_le_mul_of_nonneg_left hlb hmx)) a1'
      _ ≤ B.a * ((1 + max (xu : ℝ) 0 / 2) * (0.69315 * y)) := by
        refine mul_le_mul_of_nonneg_left (mul_le_mul_of_nonneg_right ?_ (by positivity)) a1'
        have := max_le_max hxu (le_refl (0 : ℝ))
        linarith
      _ = B.a * (1 + max (xu : ℝ) 0 / 2) * 0.69315 * y := by ring
      _ ≤ _ := by
        refine mul_le_mul_of_nonneg_right ?_ hy0
        have : ((B.a * (1 + max xu 0 / 2) * 0.69315 : ℚ) : ℝ) ≤ ((3.2 / 2 ^ 24 : ℚ) : ℝ) := by exact_mod_cast o4
        push_cast at this
        rw [mul_one_div]; exact this
  have h4 : (B.b : ℝ) * eta (-149) ≤ 2000 * eta (-149) :=
    mul_le_mul_of_nonneg_right (by exact_mod_cast o5) (eta_pos (emin := -149)).le
  have h6 := abs_sub_le ((log2Z rnd (fun c => rnd (rndd c)) fused s : ℚ) : ℝ) ((s : ℝ) / (2 + s) * Poly.eval log2L (((s : ℝ) / (2 + s)) ^ 2))
    (Real.log (1 + s) / Real.log 2)
  norm_num at h3 hn ⊢
  linarith

/-- The sum before its last step, for a significand `1 + s`. -/
theorem sum_err (h : Nearest 24 (-149) rnd) (hd : Nearest 53 (-1074) rndd) (fused : Bool) {s : ℚ} (h1 : (-0.2501 : ℝ) ≤ s)
    (h2 : (s : ℝ) ≤ 0.5001) {R q : ℚ} (hR : R = log2R rnd (fun c => rnd (rndd c)) fused s)
    (hq : q = logX (flAlg rnd (fun c => rnd (rndd c)) fused) s * log2C) {l : ℝ} (hl : l = Real.log (1 + s) / Real.log 2) :
    |(R : ℝ) + q - l| ≤ 1.056 * (1 / 2 ^ 24) ∧ |(q : ℝ) - l| ≤ 0.6 ∧ |(q : ℝ)| ≤ 0.58 ∧ -0.4156 ≤ l ∧ l ≤ 0.5856 ∧
      (1 / 2 < l → 0.2 ≤ (q : ℝ)) ∧ (1 / 2 < l → (q : ℝ) ≤ 1 / 2 → |(R : ℝ) + q - l| ≤ 0.981 * (1 / 2 ^ 24)) := by
  obtain ⟨x1, x2⟩ := x_err h h1 h2
  rw [logX_eq h hd] at hq
  have hr := r_err h hd fused h1 h2
  rw [← hR] at hr
  have hn := log2_near h1 h2
  rw [← log2_re, logX_re, ← hl] at hn
  obtain ⟨g1, g2⟩ := log_range h1 h2
  have hxa := logX_abs h1 h2
  obtain ⟨k1, k2⟩ := _root_.abs_le.mp log_two
  unfold ln2 at k1 k2
  push_cast at k1 k2
  have hl0 : (0.69314 : ℝ) ≤ Real.log 2 := by norm_num at k1 ⊢; linarith
  have hlp : (0 : ℝ) < Real.log 2 := by linarith
  have hs2 : (0 : ℝ) < 2 + s := by linarith
  have hl1 : -0.4156 ≤ l := by rw [hl, le_div_iff₀ hlp]; norm_num at g1 hl0 ⊢; linarith
  have hl2 : l ≤ 0.5856 := by rw [hl, div_le_iff₀ hlp]; norm_num at g2 hl0 ⊢; linarith
  have hc : ((log2C : ℚ) : ℝ) ≤ 2.8854 ∧ 2.885 ≤ ((log2C : ℚ) : ℝ) := by unfold log2C; push_cast; norm_num
  have hsign : (0 ≤ (s : ℝ) ∧ 0 ≤ l ∧ 0 ≤ (s : ℝ) / (2 + s)) ∨ ((s : ℝ) ≤ 0 ∧ l ≤ 0 ∧ (s : ℝ) / (2 + s) ≤ 0) := by
    rcases le_total 0 (s : ℝ) with h0 | h0
    · left
      refine ⟨h0, ?_, div_nonneg h0 hs2.le⟩
      rw [hl]; exact div_nonneg (Real.log_nonneg (by linarith)) hlp.le
    · right
      refine ⟨h0, ?_, div_nonpos_of_nonpos_of_nonneg h0 hs2.le⟩
      rw [hl]; exact div_nonpos_of_nonpos_of_nonneg (Real.log_nonpos (by linarith) (by linarith)) hlp.le
  have hbig : 1 / 2 < l → 0 ≤ (s : ℝ) ∧ 0.1 ≤ (s : ℝ) / (2 + s) := fun h5 => by
    have h0 : 0 ≤ (s : ℝ) := by
      rcases hsign with hs | hs
      · exact hs.1
      · linarith [hs.2.1]
    refine ⟨h0, ?_⟩
    have h6 : 1 / 2 * Real.log 2 < Real.log (1 + s) := by rw [hl, lt_div_iff₀ hlp] at h5; exact h5
    have h7 := Real.log_le_sub_one_of_pos (show (0 : ℝ) < 1 + s by linarith)
    rw [le_div_iff₀ hs2]
    norm_num at hl0 h6 ⊢
    linarith
  have hsx : (s : ℝ) = (s : ℝ) / (2 + s) * (2 + s) := by field_simp
  generalize (s : ℝ) / (2 + s) = x at *
  generalize log2X3 reAlg (s : ℝ) * log2T reAlg (s : ℝ) = C at *
  generalize rnd (s / rnd (s + 2)) = X at *
  have hqr : (q : ℝ) = X * log2C := by rw [hq]; push_cast; rfl
  generalize ((log2C : ℚ) : ℝ) = c at *
  obtain ⟨c1, c2⟩ := hc
  have hc0 : 0 ≤ c := by linarith
  have hqx : ∀ a : ℝ, 0 ≤ a → |(X : ℝ) - x| ≤ a → |(q : ℝ) - x * c| ≤ 2.8854 * a := fun a ha hxx => by
    rw [hqr, ← sub_mul, abs_mul, abs_of_nonneg hc0, mul_comm]
    exact mul_le_mul c1 hxx (abs_nonneg _) (by norm_num)
  have hq1 := hqx _ (by positivity) x1
  have tri : |(R : ℝ) + q - l| ≤ |(R : ℝ) - C| + |(q : ℝ) - x * c| + |C + x * c - l| := by
    have := abs_add_three ((R : ℝ) - C) (q - x * c) (C + x * c - l)
    refine le_trans (le_of_eq ?_) this
    congr 1; ring
  have hxc1 : |x * c| ≤ 0.57721 := by
    rw [abs_mul, abs_of_nonneg hc0]
    refine (mul_le_mul hxa c1 hc0 (by norm_num)).trans (by norm_num)
  have hxcl : |x * c - l| ≤ 0.59 := by
    have b1 := _root_.abs_le.mp hxc1
    rw [_root_.abs_le]
    rcases hsign with ⟨-, s2, s3⟩ | ⟨-, s2, s3⟩
    · have := mul_nonneg s3 hc0
      norm_num at b1 hl2 ⊢
      constructor <;> linarith [b1.2]
    · have := mul_nonpos_of_nonpos_of_nonneg s3 hc0
      norm_num at b1 hl1 ⊢
      constructor <;> linarith [b1.1]
  refine ⟨?_, ?_, ?_, hl1, hl2, ?_, ?_⟩
  · have := mul_le_mul_of_nonneg_left hxa (show (0 : ℝ) ≤ 0.66 * (1 / 2 ^ 24) by positivity)
    norm_num at tri hr hq1 hn this ⊢
    linarith
  · have := abs_sub_le (q : ℝ) (x * c) l
    norm_num at hxcl hq1 this ⊢
    linarith
  · have := abs_sub_le (q : ℝ) (x * c) 0
    rw [sub_zero, sub_zero] at this
    norm_num at hxc1 hq1 this ⊢
    linarith
  · intro h5
    have h6 := (hbig h5).2
    have h7 := mul_le_mul h6 c2 (by norm_num) (by linarith)
    have h8 := _root_.abs_le.mp hq1
    norm_num at h7 h8 ⊢
    linarith [h8.1]
  · intro h5 h6
    obtain ⟨s0, hx1⟩ := hbig h5
    have h8 := _root_.abs_le.mp hq1
    have hx2 : x ≤ 0.17332 := by
      by_contra hcon
      push Not at hcon
      have := mul_le_mul hcon.le c2 (by norm_num) (by linarith)
      norm_num at this h8 h6
      linarith [h8.1]
    have hs42 : (s : ℝ) ≤ 0.42 := by
      rw [hsx]
      have := mul_le_mul_of_nonneg_right hx2 hs2.le
      norm_num at this hsx ⊢
      nlinarith
    have hq2 := hqx _ (by positivity) (x2 s0 hs42)
    have hxp : |x| ≤ 0.17332 := by rw [abs_of_nonneg (by linarith)]; exact hx2
    have := mul_le_mul_of_nonneg_left hxp (show (0 : ℝ) ≤ 0.66 * (1 / 2 ^ 24) by positivity)
    norm_num at tri hr hq2 hn this ⊢
    linarith

/-- The sum with the exponent in ulps of the result. -/
theorem exp_err (h : Nearest 24 (-149) rnd) (fused : Bool) {R q : ℚ} {l : ℝ} {e : ℤ} (he : e ≠ 0)
    (s1 : |(R : ℝ) + q - l| ≤ 1.056 * (1 / 2 ^ 24)) (s2 : |(q : ℝ) - l| ≤ 0.6) (s3 : |(q : ℝ)| ≤ 0.58) (s4 : -0.4156 ≤ l) (s5 : l ≤ 0.5856)
    (s6 : 1 / 2 < l → 0.2 ≤ (q : ℝ)) (s7 : 1 / 2 < l → (q : ℝ) ≤ 1 / 2 → |(R : ℝ) + q - l| ≤ 0.981 * (1 / 2 ^ 24))
    {w : ℝ} (hw : IsUlp 24 (-149) |e + l| w) :
    |((R + rnd ((if fused then q else rnd q) + e) : ℚ) : ℝ) - (e + l)| ≤ 3.5 * w := by
  have hP0 := half_pow h (by norm_num) 0 (by norm_num) (x := q) (by norm_num at s3 ⊢; linarith)
  obtain ⟨P, hPd, hP⟩ : ∃ P : ℚ, P = (if fused then q else rnd q) ∧ |(P : ℝ) - q| ≤ 1 / 2 ^ 25 := by
    refine ⟨_, rfl, ?_⟩
    cases fused
    · simp only [Bool.false_eq_true, if_false]; norm_num at hP0 ⊢; exact hP0
    · simp
  rw [← hPd]
  have tri : |((R + rnd (P + e) : ℚ) : ℝ) - (e + l)| ≤ |(R : ℝ) + q - l| + |(P : ℝ) - q| + |((rnd (P + e) : ℚ) : ℝ) - ((P + e : ℚ) : ℝ)| := by
    have := abs_add_three ((R : ℝ) + q - l) (P - q) (((rnd (P + e) : ℚ) : ℝ) - ((P + e : ℚ) : ℝ))
    refine le_trans (le_of_eq ?_) this
    congr 1; push_cast; ring
  obtain ⟨j, hj, rfl, hlt, -⟩ := hw
  have hB : (2 : ℝ) ^ 24 * 2 ^ j = 2 ^ (24 + j) := by rw [zpow_add₀ (by norm_num)]; norm_num
  have hw24 : (2 : ℝ) ^ j = 2 ^ (24 + j) * (1 / 2 ^ 24) := by rw [← hB]; ring
  rw [hB] at hlt
  rcases le_or_gt (1 / 2) |(e : ℝ) + l| with hy | hy
  · have hj0 : 0 ≤ 24 + j := by
      by_contra hcon
      have : (2 : ℝ) ^ (24 + j) ≤ 2 ^ (-1 : ℤ) := zpow_le_zpow_right₀ (by norm_num) (by omega)
      norm_num at this hy
      linarith
    have hB1 : (1 : ℝ) ≤ 2 ^ (24 + j) := one_le_zpow₀ (by norm_num) hj0
    have hk : (2 : ℝ) ^ (25 + j) = 2 * 2 ^ (24 + j) := by
      rw [show (25 + j : ℤ) = 1 + (24 + j) by ring, zpow_add₀ (by norm_num)]; norm_num
    have hmag : |((P + e : ℚ) : ℝ)| ≤ 2 ^ (25 + j) := by
      have := abs_add_three ((e : ℝ) + l) (q - l) (P - q)
      rw [show (e : ℝ) + l + (q - l) + (P - q) = P + e by ring] at this
      push_cast
      rw [hk]
      norm_num at this s2 hP ⊢
      linarith
    have hI := half_pow h (by norm_num) (25 + j) (by push_cast; omega) hmag
    rw [hk] at hI
    rw [hw24]
    generalize (2 : ℝ) ^ (24 + j) = B at *
    norm_num at tri s1 hP hI ⊢
    linarith
  · have hy' := abs_lt.mp hy
    have he1 : e = -1 := by
      rcases lt_trichotomy e (-1) with h3 | h3 | h3
      · have : (e : ℝ) ≤ -2 := by exact_mod_cast (by omega : e ≤ -2)
        norm_num at s5; linarith [hy'.1]
      · exact h3
      · have : (1 : ℝ) ≤ e := by exact_mod_cast (by omega : 1 ≤ e)
        norm_num at s4; linarith [hy'.2]
    subst he1
    push_cast at *
    have hl : 1 / 2 < l := by linarith [hy'.1]
    have hq2 := s6 hl
    have hj0 : -1 ≤ 24 + j := by
      by_contra hcon
      have h3 : (2 : ℝ) ^ (24 + j) ≤ 2 ^ (-2 : ℤ) := zpow_le_zpow_right₀ (by norm_num) (by omega)
      have h4 := (abs_lt.mp hlt).1
      norm_num at h3 s5 h4
      linarith
    have hB1 : (1 / 2 : ℝ) ≤ 2 ^ (24 + j) := by
      have : (2 : ℝ) ^ (-1 : ℤ) ≤ 2 ^ (24 + j) := zpow_le_zpow_right₀ (by norm_num) hj0
      norm_num at this ⊢; exact this
    have hI := half_pow h (by norm_num) 0 (by norm_num) (x := P + -1) (by
      have h3 := _root_.abs_le.mp hP
      have h4 := _root_.abs_le.mp s3
      push_cast
      norm_num at h3 h4 hq2 ⊢
      rw [_root_.abs_le]
      constructor <;> linarith [h3.1, h3.2, h4.1, h4.2])
    push_cast at hI
    rw [hw24]
    generalize (2 : ℝ) ^ (24 + j) = B at *
    cases fused
    · simp only [Bool.false_eq_true, if_false] at hPd
      rcases le_or_gt (1 / 2) P with hp | hp
      · have hrep : Rep 24 (-149) (P + -1) := by
          refine rep_of_mult (by norm_num) (e := -24) (by norm_num) ?_ ?_
          · have hPr : Rep 24 (-149) P := by rw [hPd]; exact h.rep _
            obtain ⟨n, hn⟩ := mult_of_ge hPr (e := -24) (by rw [abs_of_nonneg (by linarith)]; norm_num at hp ⊢; exact hp)
            exact ⟨n - 2 ^ 24, by rw [hn]; push_cast; norm_num; ring⟩
          · have h3 := (_root_.abs_le.mp hP).2
            have h4 := (_root_.abs_le.mp s3).2
            have h5 : (P : ℝ) ≤ ((1 : ℚ) : ℝ) := by norm_num at h3 h4 ⊢; linarith
            have h6 : P ≤ 1 := by exact_mod_cast h5
            rw [_root_.abs_le]; norm_num
            constructor <;> linarith
        rw [h.fix hrep] at tri ⊢
        push_cast at tri ⊢
        norm_num at tri s1 hP ⊢
        linarith
      · have hq5 : q ≤ 1 / 2 := by
          by_contra hcon
          push Not at hcon
          have h3 := h.mono hcon.le
          rw [h.fix ⟨1, -1, by norm_num, by norm_num, by norm_num⟩, ← hPd] at h3
          linarith
        have hq5' : (q : ℝ) ≤ 1 / 2 := by
          have : (q : ℝ) ≤ ((1 / 2 : ℚ) : ℝ) := by exact_mod_cast hq5
          push_cast at this; exact this
        have hPq := half_pow h (by norm_num) (-1) (by norm_num) (x := q) (by
          rw [abs_of_nonneg (by linarith)]; norm_num at hq5' ⊢; exact hq5')
        rw [← hPd] at hPq
        have h9 := s7 hl hq5'
        norm_num at tri h9 hPq hI ⊢
        linarith
    · simp only [if_true] at hPd
      rw [hPd] at tri hI ⊢
      rw [sub_self, abs_zero] at tri
      norm_num at tri s1 hI ⊢
      linarith

/-- The linear term has the sign of the logarithm. -/
theorem q_sign (h : Nearest 24 (-149) rnd) (hd : Nearest 53 (-1074) rndd) (fused : Bool) {s : ℚ} (h1 : (-0.2501 : ℝ) ≤ s)
    (h2 : (s : ℝ) ≤ 0.5001) {q : ℚ} (hq : q = logX (flAlg rnd (fun c => rnd (rndd c)) fused) s * log2C) {l : ℝ}
    (hl : l = Real.log (1 + s) / Real.log 2) : (0 < l → 0 ≤ q) ∧ (l < 0 → q ≤ 0) := by
  obtain ⟨d1, -, -, -⟩ := logD_err h h1 h2 (D := rnd (s + 2)) rfl
  have hD : 0 ≤ rnd (s + 2) := by
    have : (0 : ℝ) ≤ (rnd (s + 2) : ℚ) := by linarith
    exact_mod_cast this
  have hlp : (0 : ℝ) < Real.log 2 := Real.log_pos (by norm_num)
  have hc : (0 : ℚ) ≤ log2C := by norm_num [log2C]
  rw [hq, logX_eq h hd]
  constructor
  · intro h0
    have hs : 0 ≤ s := by
      by_contra hcon
      push Not at hcon
      have hs' : (s : ℝ) < 0 := by exact_mod_cast hcon
      have := div_nonpos_of_nonpos_of_nonneg (Real.log_nonpos (x := 1 + (s : ℝ)) (by linarith) (by linarith)) hlp.le
      linarith
    have := h.mono (div_nonneg hs hD)
    rw [h.zero] at this
    exact mul_nonneg this hc
  · intro h0
    have hs : s ≤ 0 := by
      by_contra hcon
      push Not at hcon
      have hs' : (0 : ℝ) < s := by exact_mod_cast hcon
      have := div_nonneg (Real.log_nonneg (x := 1 + (s : ℝ)) (by linarith)) hlp.le
      linarith
    have := h.mono (div_nonpos_of_nonpos_of_nonneg hs hD)
    rw [h.zero] at this
    exact mul_nonpos_of_nonpos_of_nonneg this hc

/-- The sum with the exponent for a result that is not small. -/
theorem far_err (h : Nearest 24 (-149) rnd) (fused : Bool) {R q : ℚ} {l : ℝ} {e : ℤ}
    (s1 : |(R : ℝ) + q - l| ≤ 1.056 * (1 / 2 ^ 24)) (s2 : |(q : ℝ) - l| ≤ 0.6) (s3 : |(q : ℝ)| ≤ 0.58) (s4 : -0.4156 ≤ l) (s5 : l ≤ 0.5856)
    (g1 : 0 < l → 0 ≤ q) (g2 : l < 0 → q ≤ 0) (hy : 1 / 2 ≤ |e + l|) {w : ℝ} (hw : IsUlp 24 (-149) |e + l| w) :
    |((R + rnd ((if fused then q else rnd q) + e) : ℚ) : ℝ) - (e + l)| ≤ 2.5 * w := by
  have hP0 := half_pow h (by norm_num) 0 (by norm_num) (x := q) (by norm_num at s3 ⊢; linarith)
  obtain ⟨P, hPd, hP, p1, p2⟩ : ∃ P : ℚ, P = (if fused then q else rnd q) ∧ |(P : ℝ) - q| ≤ 1 / 2 ^ 25 ∧ (0 ≤ q → 0 ≤ P) ∧ (q ≤ 0 → P ≤ 0) := by
    refine ⟨_, rfl, ?_⟩
    cases fused
    · simp only [Bool.false_eq_true, if_false]
      refine ⟨by norm_num at hP0 ⊢; exact hP0, fun h0 => ?_, fun h0 => ?_⟩
      · have := h.mono h0; rwa [h.zero] at this
      · have := h.mono h0; rwa [h.zero] at this
    · simp
  rw [← hPd]
  have tri : |((R + rnd (P + e) : ℚ) : ℝ) - (e + l)| ≤ |(R : ℝ) + q - l| + |(P : ℝ) - q| + |((rnd (P + e) : ℚ) : ℝ) - ((P + e : ℚ) : ℝ)| := by
    have := abs_add_three ((R : ℝ) + q - l) (P - q) (((rnd (P + e) : ℚ) : ℝ) - ((P + e : ℚ) : ℝ))
    refine le_trans (le_of_eq ?_) this
    congr 1; push_cast; ring
  obtain ⟨j, hj, rfl, hlt, -⟩ := hw
  have hB : (2 : ℝ) ^ 24 * 2 ^ j = 2 ^ (24 + j) := by rw [zpow_add₀ (by norm_num)]; norm_num
  have hw24 : (2 : ℝ) ^ j = 2 ^ (24 + j) * (1 / 2 ^ 24) := by rw [← hB]; ring
  rw [hB] at hlt
  have hj0 : 0 ≤ 24 + j := by
    by_contra hcon
    have : (2 : ℝ) ^ (24 + j) ≤ 2 ^ (-1 : ℤ) := zpow_le_zpow_right₀ (by norm_num) (by omega)
    norm_num at this hy
    linarith
  have hB1 : (1 : ℝ) ≤ 2 ^ (24 + j) := one_le_zpow₀ (by norm_num) hj0
  rcases lt_or_ge |(e : ℝ) + l| 1 with hy1 | hy1
  · have hy' := abs_lt.mp hy1
    have hPm : |((P + e : ℚ) : ℝ)| ≤ 2 ^ (0 : ℤ) := by
      have b1 := _root_.abs_le.mp hP
      have b2 := _root_.abs_le.mp s3
      push_cast
      norm_num at b1 b2 s4 s5 ⊢
      have e1 : -2 < e := by
        by_contra hcon
        have : (e : ℝ) ≤ -2 := by exact_mod_cast (by omega : e ≤ -2)
        linarith [hy'.1]
      have e2 : e < 2 := by
        by_contra hcon
        have : (2 : ℝ) ≤ e := by exact_mod_cast (by omega : 2 ≤ e)
        linarith [hy'.2]
      obtain rfl | rfl | rfl : e = -1 ∨ e = 0 ∨ e = 1 := by omega
      · have : (0 : ℝ) ≤ P := by exact_mod_cast p1 (g1 (by push_cast at hy'; linarith [hy'.1]))
        push_cast
        rw [_root_.abs_le]
        constructor <;> linarith [b1.1, b1.2, b2.1, b2.2]
      · push_cast
        rw [_root_.abs_le]
        constructor <;> linarith [b1.1, b1.2, b2.1, b2.2]
      · have : (P : ℝ) ≤ 0 := by exact_mod_cast p2 (g2 (by push_cast at hy'; linarith [hy'.2]))
        push_cast
        rw [_root_.abs_le]
        constructor <;> linarith [b1.1, b1.2, b2.1, b2.2]
    have hI := half_pow h (by norm_num) 0 (by norm_num) hPm
    rw [hw24]
    generalize (2 : ℝ) ^ (24 + j) = B at *
    norm_num at tri s1 hP hI ⊢
    linarith
  · have hj1 : 1 ≤ 24 + j := by
      by_contra hcon
      have : (2 : ℝ) ^ (24 + j) ≤ 2 ^ (0 : ℤ) := zpow_le_zpow_right₀ (by norm_num) (by omega)
      rw [zpow_zero] at this
      linarith
    have hB2 : (2 : ℝ) ≤ 2 ^ (24 + j) := by
      have : (2 : ℝ) ^ (1 : ℤ) ≤ 2 ^ (24 + j) := zpow_le_zpow_right₀ (by norm_num) hj1
      rwa [zpow_one] at this
    have hk : (2 : ℝ) ^ (25 + j) = 2 * 2 ^ (24 + j) := by
      rw [show (25 + j : ℤ) = 1 + (24 + j) by ring, zpow_add₀ (by norm_num)]; norm_num
    have hmag : |((P + e : ℚ) : ℝ)| ≤ 2 ^ (25 + j) := by
      have := abs_add_three ((e : ℝ) + l) (q - l) (P - q)
      rw [show (e : ℝ) + l + (q - l) + (P - q) = P + e by ring] at this
      push_cast
      rw [hk]
      norm_num at this s2 hP ⊢
      linarith
    have hI := half_pow h (by norm_num) (25 + j) (by push_cast; omega) hmag
    rw [hk] at hI
    rw [hw24]
    generalize (2 : ℝ) ^ (24 + j) = B at *
    norm_num at tri s1 hP hI ⊢
    linarith

/-- The kernel on significand and exponent. -/
theorem kernel (h : Nearest 24 (-149) rnd) (hd : Nearest 53 (-1074) rndd) (fused : Bool) {m : ℚ} {e : ℤ} (hm : Mult (-((24 : ℕ) : ℤ)) m)
    (h1 : 0.7499 ≤ m) (h2 : m ≤ 1.5001) :
    Rep 24 (-149) (log2Kernel (flAlg rnd (fun c => rnd (rndd c)) fused) m e) ∧ ∀ w, IsUlp 24 (-149) |e + Real.log m / Real.log 2| w →
      |((log2Kernel (flAlg rnd (fun c => rnd (rndd c)) fused) m e : ℚ) : ℝ) - (e + Real.log m / Real.log 2)| ≤ 4.5 * w ∧
      (1 / 2 ≤ |e + Real.log m / Real.log 2| →
        |((log2Kernel (flAlg rnd (fun c => rnd (rndd c)) fused) m e : ℚ) : ℝ) - (e + Real.log m / Real.log 2)| ≤ 3.5 * w) := by
  obtain ⟨s, rfl, hs1, hs2, hs0, -⟩ := split_facts h (by norm_num) (by norm_num) hm h1 h2 fused
  have hcast : ((1 + s : ℚ) : ℝ) = 1 + (s : ℝ) := by push_cast; rfl
  have hsr : Rep 24 (-149) s := by
    obtain ⟨k, hk⟩ := hm
    refine rep_of_mult (by norm_num) (e := -24) (by norm_num) ⟨k - 2 ^ 24, ?_⟩ ?_
    · have : s = (k : ℚ) * 2 ^ (-((24 : ℕ) : ℤ)) - 1 := by rw [← hk]; ring
      rw [this]; push_cast; norm_num; ring
    · rw [_root_.abs_le]; norm_num at h1 h2 ⊢; constructor <;> linarith
  rw [hcast, kernel_eq h hd fused hsr]
  refine ⟨h.rep _, fun w hw => ?_⟩
  obtain ⟨t1, t2, t3, t4, t5, t6, t7⟩ := sum_err h hd fused hs1 hs2 rfl rfl rfl
  obtain ⟨t8, t9⟩ := q_sign h hd fused hs1 hs2 rfl rfl
  refine ⟨?_, fun hy => ?_⟩
  swap
  · have := round_err' h (by norm_num) hw (κ := 2.5) (far_err h fused t1 t2 t3 t4 t5 t8 t9 hy hw) (by norm_num)
    linarith
  by_cases he : e = 0
  · subst he
    have hI : rnd ((if fused then logX (flAlg rnd (fun c => rnd (rndd c)) fused) s * log2C
        else rnd (logX (flAlg rnd (fun c => rnd (rndd c)) fused) s * log2C)) + ((0 : ℤ) : ℚ)) =
        rnd (logX (flAlg rnd (fun c => rnd (rndd c)) fused) s * log2C) := by
      rw [Int.cast_zero, add_zero]
      cases fused
      · simp only [Bool.false_eq_true, if_false]; exact h.fix (h.rep _)
      · simp only [if_true]
    rw [hI]
    simp only [Int.cast_zero, zero_add] at hw ⊢
    change |((rnd (log2Z rnd (fun c => rnd (rndd c)) fused s) : ℚ) : ℝ) - _| ≤ _
    have hz := z_err h hd fused hs1 hs2
    have hw0 := hw.le.2.2
    rcases hs0 with hs0 | hs0
    · subst hs0
      have hx0 : logX (flAlg rnd (fun c => rnd (rndd c)) fused) 0 = 0 := by rw [logX_eq h hd, zero_div, h.zero]
      have : log2Z rnd (fun c => rnd (rndd c)) fused 0 = 0 := by
        unfold log2Z log2R
        simp only [log2X3, hx0]
        have h0 : (flAlg rnd (fun c => rnd (rndd c)) fused).mul ((flAlg rnd (fun c => rnd (rndd c)) fused).mul 0 0) 0 = 0 := by
          simp [flAlg, mul, h.zero]
        rw [h0]
        cases fused <;> simp [h.zero]
      rw [this, h.zero]
      simp
      linarith
    · have h3 := Poly.log_abs (s := (s : ℝ)) (by linarith)
      have h4 : |(s : ℝ)| / 3 ≤ |(s : ℝ) / (2 + s)| := by
        rw [abs_div, abs_of_pos (show (0 : ℝ) < 2 + s by linarith)]
        exact div_le_div_of_nonneg_left (abs_nonneg _) (by linarith) (by linarith)
      have hl0 : (0 : ℝ) < Real.log 2 := Real.log_pos (by norm_num)
      have hl1 : Real.log 2 ≤ 1 := by have := Real.log_le_sub_one_of_pos (show (0 : ℝ) < 2 by norm_num); linarith
      have h5 : |Real.log (1 + (s : ℝ))| ≤ |Real.log (1 + (s : ℝ)) / Real.log 2| := by
        rw [abs_div, abs_of_pos hl0]
        exact le_div_self (abs_nonneg _) hl0 hl1
      have h6 := hw.le.2.1
      have h7 : 1 / 2 ^ 24 * (1 / 2 ^ 25) ≤ w := by
        refine le_trans (mul_le_mul_of_nonneg_left ?_ (by positivity)) h6
        norm_num at hs0 h3 h4 h5 ⊢
        linarith
      have hη := eta_le
      have := round_err' h (z := log2Z rnd (fun c => rnd (rndd c)) fused s) (by norm_num) hw (κ := 3.5) (by
        generalize |Real.log (1 + (s : ℝ)) / Real.log 2| = y at *
        norm_num at hz hη h6 h7 ⊢
        linarith) (by norm_num)
      linarith
  · have := round_err' h (by norm_num) hw (κ := 3.5) (exp_err h fused he t1 t2 t3 t4 t5 t6 t7 hw) (by norm_num)
    linarith

/-! ### The function -/

/-- Both bounds. -/
theorem within_both (h : Nearest 24 (-149) rnd) (hd : Nearest 53 (-1074) rndd) (simd fused : Bool) (hr : Rep 24 (-149) d)
    (h0 : 0 < d) (h1 : d < 2 ^ (128 : ℤ)) :
    Within 24 (-149) 128 4.5 (Real.logb 2 d) (xlog2f35 rnd rndd simd fused (.fin d)) ∧
      (1 / 2 ≤ |Real.logb 2 d| → Within 24 (-149) 128 3.5 (Real.logb 2 d) (xlog2f35 rnd rndd simd fused (.fin d))) := by
  simp only [xlog2f35, logWith, if_neg h0.ne', if_neg (not_lt.mpr h0.le)]
  rcases hs : logSplit rnd (-149) 128 24 d with ⟨m, e⟩
  obtain ⟨hde, hm, hm1, hm2⟩ := logSplit_spec h (by norm_num) (by norm_num) (by norm_num) hr h0 (by norm_num) h1 hs
  obtain ⟨k1, k2⟩ := kernel h hd (simd && fused) (e := e) hm hm1 hm2
  have hl0 : (0.5 : ℝ) < Real.log 2 := by have := (_root_.abs_le.mp log_two).1; unfold ln2 at this; push_cast at this; norm_num at this ⊢; linarith
  have hy : Real.logb 2 (d : ℝ) = e + Real.log m / Real.log 2 := by
    unfold Real.logb
    rw [log_split_eq hde (by linarith)]
    field_simp
  have ha : |Real.logb 2 (d : ℝ)| ≤ 2048 := by
    have := log_abs_le (d := d) (emax := 128) (by norm_num) (by norm_num) hr h0 h1
    unfold Real.logb
    rw [abs_div, abs_of_pos (show (0 : ℝ) < Real.log 2 by linarith), div_le_iff₀ (by linarith)]
    linarith
  rw [← hy] at k2
  suffices hfin : |log2Kernel (flAlg rnd (fun c => rnd (rndd c)) (simd && fused)) m e| < 2 ^ (128 : ℤ) from
    ⟨⟨k1, hfin, fun w hw => (k2 w hw).1⟩, fun hf => ⟨k1, hfin, fun w hw => (k2 w hw).2 hf⟩⟩
  have hex : ∃ w, IsUlp 24 (-149) |Real.logb 2 (d : ℝ)| w := by
    by_cases hz : Real.logb 2 (d : ℝ) = 0
    · refine ⟨2 ^ (-149 : ℤ), -149, le_rfl, rfl, ?_, Or.inl rfl⟩
      rw [hz, abs_zero]; positivity
    · exact exists_ulp 24 (-149) (abs_pos.mpr hz)
  obtain ⟨w, hw⟩ := hex
  have h5 := (k2 w hw).1
  have hw1 : w ≤ 1 := by
    obtain ⟨j, hj, rfl, -, h8⟩ := hw
    rcases h8 with rfl | h8
    · exact zpow_le_one_of_nonpos₀ (by norm_num) (by norm_num)
    · norm_num at h8; linarith
  generalize log2Kernel (flAlg rnd (fun c => rnd (rndd c)) (simd && fused)) m e = r at *
  have h3 := abs_sub_abs_le_abs_sub (r : ℝ) (Real.logb 2 d)
  have h4 : |(r : ℝ)| < 4096 := by linarith
  have h6 : |r| < 4096 := by
    have : ((|r| : ℚ) : ℝ) < ((4096 : ℚ) : ℝ) := by rw [Rat.cast_abs]; push_cast; exact h4
    exact_mod_cast this
  exact h6.trans (by norm_num)

/-- **log2_u35, f32**: the documented 3.5 ulps for all numbers up to the square root of one half and from the square root of two,
subnormal ones included. -/
theorem xlog2f35_within_far (h : Nearest 24 (-149) rnd) (hd : Nearest 53 (-1074) rndd) (simd fused : Bool) (hr : Rep 24 (-149) d)
    (h0 : 0 < d) (h1 : d < 2 ^ (128 : ℤ)) (hf : d ^ 2 ≤ 1 / 2 ∨ 2 ≤ d ^ 2) :
    Within 24 (-149) 128 3.5 (Real.logb 2 d) (xlog2f35 rnd rndd simd fused (.fin d)) := by
  refine (within_both h hd simd fused hr h0 h1).2 ?_
  have hl0 : (0 : ℝ) < Real.log 2 := Real.log_pos (by norm_num)
  have h0' : (0 : ℝ) < d := by exact_mod_cast h0
  have e2 : 2 * Real.log (d : ℝ) = Real.log ((d : ℝ) ^ 2) := by rw [Real.log_pow]; norm_num
  unfold Real.logb
  rw [abs_div, abs_of_pos hl0, le_div_iff₀ hl0]
  rcases hf with hf | hf
  · have hf' : (d : ℝ) ^ 2 ≤ 2⁻¹ := by
      have : ((d ^ 2 : ℚ) : ℝ) ≤ ((1 / 2 : ℚ) : ℝ) := by exact_mod_cast hf
      push_cast at this; norm_num at this ⊢; exact this
    have := Real.log_le_log (by positivity) hf'
    rw [Real.log_inv, ← e2] at this
    have h3 := neg_abs_le (Real.log (d : ℝ))
    linarith
  · have hf' : (2 : ℝ) ≤ (d : ℝ) ^ 2 := by exact_mod_cast hf
    have := Real.log_le_log (by norm_num) hf'
    rw [← e2] at this
    have h3 := le_abs_self (Real.log (d : ℝ))
    linarith

/-- **log2_u35, f32**: 4.5 ulps for all positive numbers, subnormal ones included. Missing: the documented bound of 3.5 ulps
between the square roots of one half and two. -/
theorem xlog2f35_within_partial (h : Nearest 24 (-149) rnd) (hd : Nearest 53 (-1074) rndd) (simd fused : Bool) (hr : Rep 24 (-149) d)
    (h0 : 0 < d) (h1 : d < 2 ^ (128 : ℤ)) :
    Within 24 (-149) 128 4.5 (Real.logb 2 d) (xlog2f35 rnd rndd simd fused (.fin d)) :=
  (within_both h hd simd fused hr h0 h1).1

/-- The logarithm of zero is minus infinity, that of a negative number and of minus infinity is NaN, that of infinity is infinity,
NaN is kept. -/
theorem log2_special (rnd rndd : ℚ → ℚ) (simd fused : Bool) :
    xlog2f35 rnd rndd simd fused (.fin 0) = .inf true ∧ xlog2f35 rnd rndd simd fused (.inf false) = .inf false ∧
      xlog2f35 rnd rndd simd fused (.inf true) = .nan ∧ xlog2f35 rnd rndd simd fused .nan = .nan ∧
      ∀ d : ℚ, d < 0 → xlog2f35 rnd rndd simd fused (.fin d) = .nan := by
  refine ⟨rfl, rfl, rfl, rfl, fun d hd => ?_⟩
  simp only [xlog2f35, logWith, if_neg hd.ne, if_pos hd]

/-- The numbers 3 and 0.25 are among those of `xlog2f35_within_far`, and so is the least subnormal number. -/
example : (2 : ℚ) ≤ 3 ^ 2 ∧ (0.25 : ℚ) ^ 2 ≤ 1 / 2 ∧ Rep 24 (-149) 3 ∧ (2 ^ (-149 : ℤ) : ℚ) ^ 2 ≤ 1 / 2 :=
  ⟨by norm_num, by norm_num, ⟨3, 0, by norm_num, by norm_num, by norm_num⟩, by norm_num⟩

/-- There are roundings, and the logarithm of the least subnormal number is within 4.5 ulps of `-149`. -/
example : ∃ rnd rndd, Nearest 24 (-149) rnd ∧ Nearest 53 (-1074) rndd ∧
    Within 24 (-149) 128 4.5 (-149) (xlog2f35 rnd rndd true true (.fin (2 ^ (-149 : ℤ)))) := by
  obtain ⟨rnd, h⟩ := exists_nearest (p := 24) (by norm_num) (-149)
  obtain ⟨rndd, hd⟩ := exists_nearest (p := 53) (by norm_num) (-1074)
  refine ⟨rnd, rndd, h, hd, ?_⟩
  have := xlog2f35_within_partial h hd true true (d := 2 ^ (-149 : ℤ)) ⟨1, -149, by norm_num, le_rfl, by simp⟩ (two_zpow_pos _)
    (zpow_lt_zpow_right₀ (by norm_num) (by norm_num))
  rw [show Real.logb 2 ((2 ^ (-149 : ℤ) : ℚ) : ℝ) = -149 by
    unfold Real.logb
    push_cast
    rw [Real.log_zpow, mul_div_assoc, div_self (Real.log_pos (by norm_num)).ne']; norm_num] at this
  exact this

end Nsimd.Props.Log2
