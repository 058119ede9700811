import Verif.Lemmas.LogBound
import Verif.Lemmas.LogCombine

/-!
# `x * t` in `xlogf` for arguments near one, in ulps of the result
-/

namespace Nsimd.Sleef
open Nsimd.DoubleDouble Nsimd.Float Nsimd.Props.Round Nsimd.Props.Hypot Nsimd.Round Nsimd.Hypot Nsimd.Props.Ulp

variable {p : ℕ} {emin emax : ℤ} {rnd lt : ℚ → ℚ}

/-- Slightly above a power of two, numbers are rounded to it. -/
theorem rnd_above_pow (h : Nearest p emin rnd) {q b : ℚ} {k : ℤ} (hb : Rep p emin b) (hbk : |b| = 2 ^ p * 2 ^ (k - 1)) (hbq : |b| ≤ |q|)
    (hd : |q - b| < 2 ^ k / 2) : rnd q = b := by
  have hpos := two_zpow_pos k
  have hnear := h.near q b hb
  have hdist : |rnd q - b| < 2 ^ k := by
    have h4 : |rnd q - b| ≤ |rnd q - q| + |q - b| := abs_sub_le _ _ _
    rw [abs_sub_comm q (rnd q)] at hnear
    linarith
  obtain ⟨n, hn⟩ := mult_of_ge (h.rep q) (e := k) (by rw [← hbk]; exact h.abs_le hb hbq)
  obtain ⟨j, hj⟩ := mult_of_ge hb (e := k) (by rw [← hbk])
  rw [hn, hj, ← sub_mul, abs_mul, abs_of_pos hpos] at hdist
  have h6 : |(n : ℚ) - j| < 1 := by
    by_contra hc
    push Not at hc
    nlinarith
  have h7 : |n - j| < 1 := by exact_mod_cast h6
  have h8 : n = j := by have := Int.abs_lt_one_iff.mp h7; omega
  rw [hn, hj, h8]

/-- Rounding of a quotient `q` near `x`, in ulps of a number `y` with `2 |x| ≤ |y|`. -/
theorem quot_round (h : Nearest p emin rnd) (hp : 1 ≤ p) {q : ℚ} {x y w κ : ℝ} (hw : IsUlp p emin |y| w) (hxy : 2 * |x| ≤ |y|)
    (hy : (2 : ℝ) ^ p * 2 ^ emin ≤ |y|) (hq : |(q : ℝ) - x| ≤ κ * (1 / 2 ^ p) * |x|) (hκ0 : 0 < κ) (hκ : κ ≤ 1) :
    |((rnd q : ℚ) : ℝ) - x| ≤ (κ / 2 + 1 / 4) * w := by
  obtain ⟨k, hk, rfl, hlt, -⟩ := hw
  have h2p : (0 : ℝ) < 2 ^ p := by positivity
  have hk1 : emin ≤ k - 1 := by
    have h1 := hy.trans_lt hlt
    have h2 : (2 : ℝ) ^ emin < 2 ^ k := lt_of_mul_lt_mul_left h1 h2p.le
    have := (zpow_lt_zpow_iff_right₀ (by norm_num : (1 : ℝ) < 2)).mp h2
    omega
  have hkz : (2 : ℝ) ^ (k - 1) = 2 ^ k / 2 := by rw [zpow_sub_one₀ (by norm_num), div_eq_mul_inv]
  have hkq : (2 : ℚ) ^ (k - 1) = 2 ^ k / 2 := by rw [zpow_sub_one₀ (by norm_num), div_eq_mul_inv]
  have hxu : 1 / 2 ^ p * |x| < 2 ^ k / 2 := by
    rw [one_div_mul_eq_div, div_lt_iff₀ h2p]; linarith
  have hq' : κ * (1 / 2 ^ p) * |x| ≤ κ * (2 ^ k / 2) := by
    rw [mul_assoc]; exact mul_le_mul_of_nonneg_left hxu.le hκ0.le
  have hw0 : (0 : ℝ) < 2 ^ k := by positivity
  by_cases hqa : |(q : ℝ)| ≤ 2 ^ p * 2 ^ (k - 1)
  · have h1 := half_ulp_real h hp hk1 hqa
    have h2 := abs_sub_le ((rnd q : ℚ) : ℝ) q x
    rw [hkz] at h1
    linarith
  · push Not at hqa
    have hxa : |x| < 2 ^ p * 2 ^ (k - 1) := by rw [hkz]; linarith
    -- the power of two between them
    have hex : ∃ b : ℚ, |b| = 2 ^ p * 2 ^ (k - 1) ∧ Rep p emin b ∧ |b| ≤ |q| ∧ |(q : ℝ) - b| ≤ |(q : ℝ) - x| ∧ |(b : ℝ) - x| ≤ |(q : ℝ) - x| ∧
        |(q : ℝ) - b| < |(q : ℝ) - x| + 1 * 0 + (2 ^ k / 2 - κ * (1 / 2 ^ p) * |x|) := by
      have hlt' : κ * (1 / 2 ^ p) * |x| < 2 ^ k / 2 := by nlinarith [abs_nonneg x]
      have hpos : (0 : ℚ) < 2 ^ p * 2 ^ (k - 1) := by have := two_zpow_pos (k - 1); positivity
      have hrep : Rep p emin (2 ^ p * 2 ^ (k - 1)) := rep_of_mult hp hk1 ⟨2 ^ p, by push_cast; ring⟩ (by rw [abs_of_pos hpos])
      have hqa' : (2 : ℚ) ^ p * 2 ^ (k - 1) < |q| := by
        have : ((2 ^ p * 2 ^ (k - 1) : ℚ) : ℝ) < ((|q| : ℚ) : ℝ) := by rw [Rat.cast_abs]; push_cast; exact hqa
        exact_mod_cast this
      obtain ⟨hx1, hx2⟩ := abs_lt.mp hxa
      rcases abs_cases (q : ℝ) with ⟨h1, h2⟩ | ⟨h1, h2⟩
      · rw [h1] at hqa
        refine ⟨2 ^ p * 2 ^ (k - 1), abs_of_pos hpos, hrep, by rw [abs_of_pos hpos]; exact hqa'.le, ?_⟩
        push_cast
        rw [abs_of_pos (show (0 : ℝ) < q - 2 ^ p * 2 ^ (k - 1) by linarith), abs_of_pos (show (0 : ℝ) < q - x by linarith),
          abs_of_pos (show (0 : ℝ) < 2 ^ p * 2 ^ (k - 1) - x by linarith)]
        refine ⟨by linarith, by linarith, by linarith⟩
      · rw [h1] at hqa
        refine ⟨-(2 ^ p * 2 ^ (k - 1)), by rw [abs_neg, abs_of_pos hpos], rep_neg hrep, by rw [abs_neg, abs_of_pos hpos]; exact hqa'.le, ?_⟩
        push_cast
        rw [abs_of_neg (show (q : ℝ) - -(2 ^ p * 2 ^ (k - 1)) < 0 by linarith), abs_of_neg (show (q : ℝ) - x < 0 by linarith),
          abs_of_neg (show -((2 : ℝ) ^ p * 2 ^ (k - 1)) - x < 0 by linarith)]
        refine ⟨by linarith, by linarith, by linarith⟩
    obtain ⟨b, hb1, hb2, hb3, hb4, hb5, hb6⟩ := hex
    have hd : |q - b| < 2 ^ k / 2 := by
      have : ((|q - b| : ℚ) : ℝ) < ((2 ^ k / 2 : ℚ) : ℝ) := by
        rw [Rat.cast_abs]; push_cast; linarith
      exact_mod_cast this
    rw [rnd_above_pow h hb2 hb1 hb3 hd]
    linarith

/-- The error of `x̂ t̂` from the errors of its factors. -/
theorem logProd_err (h : Nearest 24 (-149) rnd) {s D : ℚ} {κ τ ε T Th w : ℝ} {t : ℚ} (hs0 : (1 : ℝ) / 2 ^ 24 ≤ |(s : ℝ)|) (h1 : (-0.2501 : ℝ) ≤ s)
    (h2 : (s : ℝ) ≤ 0.5001) (hD0 : 0 < (D : ℝ)) (hD : |2 + (s : ℝ) - D| ≤ κ * (1 / 2 ^ 24) * D) (hκ0 : 0 < κ) (hκ : κ ≤ 1) (hT : |T| ≤ Th) (ht : |(t : ℝ) - T| ≤ τ)
    (hn : |(s : ℝ) / (2 + s) * T - Real.log (1 + s)| ≤ ε * (1 / 2 ^ 24) * |(s : ℝ) / (2 + s)|) (hε : 0 ≤ ε)
    (hw : IsUlp 24 (-149) |Real.log (1 + s)| w) :
    |((rnd (s / D) * t : ℚ) : ℝ) - Real.log (1 + s)| ≤ ((κ / 2 + 1 / 4) * (Th + τ) + τ * 2 ^ 23 + ε / 2) * w := by
  have hs2 : (0 : ℝ) < 2 + s := by linarith
  have hxy := Poly.log_abs (s := (s : ℝ)) (by linarith)
  set x := (s : ℝ) / (2 + s) with hx
  have hτ0 : 0 ≤ τ := (abs_nonneg _).trans ht
  have hw0 : 0 < w := hw.le.2.2
  have hux : 1 / 2 ^ 24 * |x| ≤ w / 2 := by
    have := hw.le.2.1
    linarith
  have hyb : (2 : ℝ) ^ 24 * 2 ^ (-149 : ℤ) ≤ |Real.log (1 + s)| := by
    refine le_trans ?_ hxy
    have : |(s : ℝ)| / 3 ≤ |x| := by
      rw [hx, abs_div, abs_of_pos hs2]
      exact div_le_div_of_nonneg_left (abs_nonneg _) hs2 (by linarith)
    norm_num at hs0 ⊢
    linarith
  have hqx : |((s / D : ℚ) : ℝ) - x| ≤ κ * (1 / 2 ^ 24) * |x| := by
    have e1 : ((s / D : ℚ) : ℝ) - x = (2 + s - D) / D * x := by
      rw [hx]; push_cast; field_simp
    rw [e1, abs_mul]
    refine mul_le_mul_of_nonneg_right ?_ (abs_nonneg _)
    rw [abs_div, abs_of_pos hD0, div_le_iff₀ hD0]; exact hD
  have hxr := quot_round h (by norm_num) hw hxy hyb hqx hκ0 hκ
  have ht2 : |(t : ℝ)| ≤ Th + τ := by
    have := abs_add_le T (t - T); rw [add_sub_cancel] at this; linarith
  have e2 : ((rnd (s / D) * t : ℚ) : ℝ) - Real.log (1 + s) =
      ((rnd (s / D) : ℚ) - x) * t + x * (t - T) + (x * T - Real.log (1 + s)) := by push_cast; ring
  rw [e2]
  have h4 : |(((rnd (s / D) : ℚ) : ℝ) - x) * t| ≤ (κ / 2 + 1 / 4) * w * (Th + τ) := by
    rw [abs_mul]; exact mul_le_mul hxr ht2 (abs_nonneg _) (by positivity)
  have h5 : |x * (t - T)| ≤ τ * 2 ^ 23 * w := by
    rw [abs_mul]
    have h6 : |x| * |(t : ℝ) - T| ≤ |x| * τ := mul_le_mul_of_nonneg_left ht (abs_nonneg _)
    have h7 : |x| ≤ 2 ^ 23 * w := by norm_num at hux ⊢; linarith
    have h8 := mul_le_mul_of_nonneg_right h7 hτ0
    linarith
  have h6 : ε * (1 / 2 ^ 24) * |x| ≤ ε / 2 * w := by
    have := mul_le_mul_of_nonneg_left hux hε
    linarith
  refine (abs_add_three _ _ _).trans ?_
  calc _ ≤ (κ / 2 + 1 / 4) * w * (Th + τ) + τ * 2 ^ 23 * w + ε / 2 * w := by linarith
    _ = _ := by ring

/-- The denominator. -/
theorem logD_err (h : Nearest 24 (-149) rnd) {s : ℚ} (h1 : -0.2501 ≤ (s : ℝ)) (h2 : (s : ℝ) ≤ 0.5001) {D : ℚ} (hD : D = rnd (s + 2)) :
    1.7498 ≤ (D : ℝ) ∧ |2 + (s : ℝ) - D| ≤ 2 * (1 / 2 ^ 24) ∧ (0 ≤ s → 2 ≤ D) ∧
      (s ≤ 0 → |2 + (s : ℝ) - D| ≤ 1 / 2 ^ 24) := by
  have hb4 := half_pow h (by norm_num) 2 (by norm_num) (x := s + 2) (by
    push_cast; rw [_root_.abs_le]; constructor <;> norm_num at h1 h2 ⊢ <;> linarith)
  rw [← hD] at hb4
  push_cast at hb4
  rw [abs_sub_comm, add_comm] at hb4
  have hb4' := _root_.abs_le.mp hb4
  refine ⟨?_, by norm_num at hb4 ⊢; linarith, ?_, ?_⟩
  · norm_num at hb4' h1 ⊢; linarith [hb4'.2]
  · intro hs
    have h2r : Rep 24 (-149) 2 := ⟨2, 0, by norm_num, by norm_num, by norm_num⟩
    have := h.mono (show (2 : ℚ) ≤ s + 2 by linarith)
    rw [h.fix h2r, ← hD] at this
    exact this
  · intro hs
    have hs' : (s : ℝ) ≤ 0 := by exact_mod_cast hs
    have hb2 := half_pow h (by norm_num) 1 (by norm_num) (x := s + 2) (by
      push_cast; rw [_root_.abs_le]; constructor <;> norm_num at h1 h2 ⊢ <;> linarith)
    rw [← hD] at hb2
    push_cast at hb2
    rw [abs_sub_comm, add_comm] at hb2
    norm_num at hb2 ⊢
    linarith

/-- The factor of the error of the denominator. Proof helper. -/
def logKappa (xl : ℚ) : ℚ := if 0 < xl then 2 / (2 + xl - 1 / 1000000) else 0.58

/-- Is the error of `x * t` at most `2.5` ulps? Proof helper. -/
def logOk32 (fused : Bool) (ε xl xu : ℚ) : Bool :=
  let B := logT32 (bdAlg 24 xl xu fused) Bd.arg
  B.ok && decide (B.k = 0) && decide (0 ≤ B.lo) && decide (B.b ≤ 2000) && decide (0 < xl ∧ 1 / 1000000 ≤ xl ∨ xu ≤ 0) &&
    decide ((logKappa xl / 2 + 1 / 4) * (B.hi + (B.a + 1 / 2 ^ 100)) + (B.a + 1 / 2 ^ 100) * 2 ^ 23 + ε / 2 ≤ 2.49999)

theorem logOk32_sound (h : Nearest 24 (-149) rnd) (fused : Bool) {s ε xl xu : ℚ} (hok : logOk32 fused ε xl xu = true) (hε : 0 ≤ ε)
    (hs0 : (1 : ℝ) / 2 ^ 24 ≤ |(s : ℝ)|) (h1 : (-0.2501 : ℝ) ≤ s) (h2 : (s : ℝ) ≤ 0.5001) (hxl : (xl : ℝ) ≤ s) (hxu : (s : ℝ) ≤ xu)
    (hn : |(s : ℝ) / (2 + s) * Poly.eval logL32 (((s : ℝ) / (2 + s)) ^ 2) - Real.log (1 + s)| ≤ ε * (1 / 2 ^ 24) * |(s : ℝ) / (2 + s)|)
    {w : ℝ} (hw : IsUlp 24 (-149) |Real.log (1 + s)| w) :
    |((logZ32 rnd fused s : ℚ) : ℝ) - Real.log (1 + s)| ≤ 2.5 * w := by
  simp only [logOk32, Bool.and_eq_true, decide_eq_true_eq] at hok
  obtain ⟨⟨⟨⟨⟨o1, o2⟩, o3⟩, o4⟩, o5⟩, o6⟩ := hok
  have E : Env 24 (-149) rnd rnd (s : ℝ) xl xu := ⟨by norm_num, by norm_num, h, lit_one h (by norm_num), hxl, hxu⟩
  obtain ⟨a1, b1, e1, r, hr, hr1, hr2⟩ := E.natural logT32_natural fused o1
  have hTe : logT32 reAlg (s : ℝ) = Poly.eval logL32 (((s : ℝ) / (2 + s)) ^ 2) := by
    simp only [logT32, logX_re]
    generalize (s : ℝ) / (2 + s) = x
    simp only [logPoly32, reAlg, logL32, Poly.eval_cons, Poly.eval_nil]
    push_cast
    ring
  rw [o2, pow_zero, mul_one] at e1
  rw [o2, pow_zero, one_mul] at hr
  rw [← hr] at hr1 hr2
  rw [hTe] at e1 hr1 hr2
  set B := logT32 (bdAlg 24 xl xu fused) Bd.arg with hB
  have hlo : (0 : ℝ) ≤ B.lo := by exact_mod_cast o3
  have hTh : |Poly.eval logL32 (((s : ℝ) / (2 + s)) ^ 2)| ≤ (B.hi : ℝ) := by
    rw [abs_of_nonneg (hlo.trans hr1)]; exact hr2
  have hb : (B.b : ℝ) * eta (-149) ≤ 1 / 2 ^ 100 := by
    have : (B.b : ℝ) ≤ 2000 := by exact_mod_cast o4
    have h3 := mul_le_mul_of_nonneg_right this (eta_pos (emin := -149)).le
    refine h3.trans ?_
    unfold eta
    norm_num
  have hτ := e1.trans (add_le_add_right hb _)
  obtain ⟨d1, d2, d3, d4⟩ := logD_err h h1 h2 (D := rnd (s + 2)) rfl
  have hD0 : (0 : ℝ) < ((rnd (s + 2) : ℚ) : ℝ) := by linarith
  have hxe : logX (flAlg rnd rnd fused) s = rnd (s / rnd (s + 2)) := by
    have h2r : Rep 24 (-149) 2 := ⟨2, 0, by norm_num, by norm_num, by norm_num⟩
    simp only [logX, flAlg]
    rw [h.fix h2r]
    rfl
  have hκ : |2 + (s : ℝ) - (rnd (s + 2) : ℚ)| ≤ (logKappa xl : ℝ) * (1 / 2 ^ 24) * (rnd (s + 2) : ℚ) ∧ (0 : ℝ) < logKappa xl ∧ (logKappa xl : ℝ) ≤ 1 := by
    unfold logKappa
    rcases o5 with ⟨o5, o7⟩ | o5
    · rw [if_pos o5]
      have o7' : (1 / 1000000 : ℝ) ≤ xl := by
        have : ((1 / 1000000 : ℚ) : ℝ) ≤ xl := by exact_mod_cast o7
        push_cast at this; exact this
      have hpos : (0 : ℝ) < 2 + xl - 1 / 1000000 := by linarith
      push_cast
      refine ⟨d2.trans ?_, by positivity, by rw [div_le_one hpos]; linarith⟩
      have d2' := _root_.abs_le.mp d2
      rw [mul_assoc, mul_comm (1 / (2 : ℝ) ^ 24), ← mul_assoc]
      refine mul_le_mul_of_nonneg_right ?_ (by positivity)
      rw [div_mul_eq_mul_div, le_div_iff₀ hpos]
      norm_num at d2' ⊢
      linarith [d2'.2]
    · have hxl0 : ¬ (0 : ℚ) < xl := by
        have : (xl : ℝ) ≤ xu := hxl.trans hxu
        have : xl ≤ xu := by exact_mod_cast this
        linarith
      rw [if_neg hxl0]
      have hs' : s ≤ 0 := by
        have : (s : ℝ) ≤ ((0 : ℚ) : ℝ) := hxu.trans (by exact_mod_cast o5)
        exact_mod_cast this
      refine ⟨(d4 hs').trans ?_, by norm_num, by norm_num⟩
      push_cast
      norm_num at d1 ⊢
      linarith
  have hm := logProd_err h hs0 h1 h2 hD0 hκ.1 hκ.2.1 hκ.2.2 hTh hτ hn (by exact_mod_cast hε) hw
  unfold logZ32
  rw [hxe]
  refine hm.trans (mul_le_mul_of_nonneg_right ?_ hw.le.2.2.le)
  have : (((logKappa xl / 2 + 1 / 4) * (B.hi + (B.a + 1 / 2 ^ 100)) + (B.a + 1 / 2 ^ 100) * 2 ^ 23 + ε / 2 : ℚ) : ℝ) ≤ ((2.49999 : ℚ) : ℝ) := by
    exact_mod_cast o6
  push_cast at this
  refine this.trans (by norm_num)

set_option maxRecDepth 100000 in
theorem logChainD1 : ∀ fused, chain (logOk32 fused 0.0001) (1 / 4096) [0.0073, 0.03] = true := by decide +kernel

set_option maxRecDepth 100000 in
theorem logChainD2 : ∀ fused, chain (logOk32 fused 0.016) 0.03 [0.085, 0.22, 0.36, 0.5001] = true := by decide +kernel

set_option maxRecDepth 100000 in
theorem logChainD3 : ∀ fused, chain (logOk32 fused 0.016) (-0.2501) [0] = true := by decide +kernel

set_option maxRecDepth 100000 in
theorem logDiff32s : Poly.check (Poly.diff logL32 (fun i => 2 / (2 * i + 1)) 8) (0.00009 / 2 ^ 24) 100000
    (10 ^ 24 * 100000 ^ 7 * 3 ^ 3 * 5 ^ 2 * 7 * 11 * 13) 0 1 12 = true := by decide +kernel

theorem log_near32s {s : ℝ} (h1 : 0 ≤ s) (h2 : s ≤ 0.03) :
    |s / (2 + s) * Poly.eval logL32 ((s / (2 + s)) ^ 2) - Real.log (1 + s)| ≤ 0.0001 * (1 / 2 ^ 24) * |s / (2 + s)| := by
  have hx : |s / (2 + s)| ≤ 0.015 := by
    rw [abs_of_nonneg (by positivity), div_le_iff₀ (by linarith)]; linarith
  refine (Poly.log_near (n := 8) (ε := 0.00009 * (1 / 2 ^ 24)) (X := 0.015) (by decide) ?_ (by norm_num) (by linarith) hx).trans ?_
  · intro t ht ht'
    have := Poly.check_sound logDiff32s (x := t) (by push_cast; positivity) (by push_cast; norm_num at ht' ⊢; linarith)
    push_cast at this ⊢
    norm_num at this ⊢
    exact this
  · exact mul_le_mul_of_nonneg_right (by norm_num) (abs_nonneg _)

section tiny
variable {α : Type} (A : Alg α)

/-- `t` in `xlogf` before its last step. Proof helper. -/
def logT3 (s : α) : α :=
  let x2 := A.mul (logX A s) (logX A s)
  A.mla (A.mla (A.mla (A.lit 0.2392828464508056640625) x2 (A.lit 0.28518211841583251953125)) x2 (A.lit 0.400005877017974853515625)) x2
    (A.lit 0.666666686534881591796875)

/-- `x2`. Proof helper. -/
def logXX (s : α) : α := A.mul (logX A s) (logX A s)

end tiny

theorem logT3_natural : Natural logT3 := by natural [logT3, logX]
theorem logXX_natural : Natural logXX := by natural [logXX, logX]

/-- Bound of `t - 2` near zero. Proof helper. -/
def logBV (fused : Bool) : Bd :=
  let A := bdAlg 24 0 (1 / 4096) fused
  let M := Bd.mulE (1 / 4096) (logT3 A Bd.arg) (logXX A Bd.arg)
  if fused then M else M.round 24

set_option maxRecDepth 100000 in
theorem logBV_ok : ∀ fused, (logBV fused).ok && decide ((logBV fused).k = 2) && decide (0 ≤ (logBV fused).lo) &&
    decide ((logBV fused).hi + (logBV fused).a ≤ 0.17) && decide ((logBV fused).b ≤ 2000) = true := by decide +kernel

/-- Near zero `t` is near `2`. -/
theorem logT_tiny (h : Nearest 24 (-149) rnd) (fused : Bool) {s : ℚ} (h1 : (0 : ℝ) ≤ s) (h2 : (s : ℝ) ≤ 1 / 4096) :
    |((logT32 (flAlg rnd rnd fused) s : ℚ) : ℝ) - 2| ≤ 0.35 * (1 / 2 ^ 24) := by
  have E : Env 24 (-149) rnd rnd (s : ℝ) 0 (1 / 4096) :=
    ⟨by norm_num, by norm_num, h, lit_one h (by norm_num), by exact_mod_cast h1, by push_cast; exact h2⟩
  have hmax : max |(0 : ℚ)| |(1 / 4096 : ℚ)| = 1 / 4096 := by norm_num [abs_of_pos]
  have hm := E.mulE (E.natural logT3_natural fused) (E.natural logXX_natural fused)
  rw [hmax] at hm
  have hok := logBV_ok fused
  simp only [Bool.and_eq_true, decide_eq_true_eq] at hok
  obtain ⟨⟨⟨⟨o1, o2⟩, o3⟩, o4⟩, o5⟩ := hok
  -- the product before the addition of two
  have key : ∀ v : ℚ, Ap (eta (-149)) s v (logT3 reAlg (s : ℝ) * logXX reAlg (s : ℝ)) (logBV fused) → |((rnd (v + 2) : ℚ) : ℝ) - 2| ≤ 0.35 * (1 / 2 ^ 24) := by
    intro v hv
    obtain ⟨a1, b1, e1, r, hr, hr1, hr2⟩ := hv o1
    rw [o2] at e1 hr
    have hs2 : (s : ℝ) ^ 2 ≤ 1 / 2 ^ 24 := by
      have := pow_le_pow_left₀ h1 h2 2
      norm_num at this ⊢; exact this
    have hs20 : (0 : ℝ) ≤ (s : ℝ) ^ 2 := by positivity
    rw [abs_of_nonneg h1] at e1
    have hlo : (0 : ℝ) ≤ (logBV fused).lo := by exact_mod_cast o3
    have hr0 : 0 ≤ logT3 reAlg (s : ℝ) * logXX reAlg (s : ℝ) := by rw [hr]; exact mul_nonneg hs20 (hlo.trans hr1)
    have hr3 : logT3 reAlg (s : ℝ) * logXX reAlg (s : ℝ) ≤ (s : ℝ) ^ 2 * (logBV fused).hi := by
      rw [hr]; exact mul_le_mul_of_nonneg_left hr2 hs20
    have hsum : (s : ℝ) ^ 2 * ((logBV fused).hi + (logBV fused).a) ≤ 0.17 * (1 / 2 ^ 24) := by
      have o4' : ((logBV fused).hi : ℝ) + (logBV fused).a ≤ 0.17 := by
        have : (((logBV fused).hi + (logBV fused).a : ℚ) : ℝ) ≤ ((0.17 : ℚ) : ℝ) := by exact_mod_cast o4
        push_cast at this; norm_num at this ⊢; linarith
      have h3 := mul_le_mul_of_nonneg_left o4' hs20
      linarith
    have hb : ((logBV fused).b : ℝ) * eta (-149) ≤ 1 / 2 ^ 100 := by
      have : ((logBV fused).b : ℝ) ≤ 2000 := by exact_mod_cast o5
      have h3 := mul_le_mul_of_nonneg_right this (eta_pos (emin := -149)).le
      refine h3.trans ?_
      unfold eta
      norm_num
    have hv1 : |(v : ℝ)| ≤ 0.17 * (1 / 2 ^ 24) + 1 / 2 ^ 100 := by
      have h4 := abs_add_le (logT3 reAlg (s : ℝ) * logXX reAlg (s : ℝ)) (v - logT3 reAlg (s : ℝ) * logXX reAlg (s : ℝ))
      rw [add_sub_cancel, abs_of_nonneg hr0] at h4
      linarith
    have h2r : Rep 24 (-149) 2 := ⟨2, 0, by norm_num, by norm_num, by norm_num⟩
    have hn := h.near (v + 2) 2 h2r
    rw [add_sub_cancel_right, abs_sub_comm] at hn
    have hn' : |((rnd (v + 2) : ℚ) : ℝ) - (v + 2)| ≤ |(v : ℝ)| := by
      have : ((|rnd (v + 2) - (v + 2)| : ℚ) : ℝ) ≤ ((|v| : ℚ) : ℝ) := by exact_mod_cast hn
      rw [Rat.cast_abs, Rat.cast_abs] at this
      push_cast at this
      exact this
    have h5 := abs_sub_le ((rnd (v + 2) : ℚ) : ℝ) (v + 2) 2
    rw [add_sub_cancel_right] at h5
    norm_num at hv1 ⊢
    linarith
  have h2r : Rep 24 (-149) 2 := ⟨2, 0, by norm_num, by norm_num, by norm_num⟩
  cases fused
  · have hr := E.round (v := logT3 (flAlg rnd rnd false) s * logXX (flAlg rnd rnd false) s) (by push_cast; exact hm)
    have := key _ hr
    have e : logT32 (flAlg rnd rnd false) s = rnd (rnd (logT3 (flAlg rnd rnd false) s * logXX (flAlg rnd rnd false) s) + 2) := by
      have e0 : logT32 (flAlg rnd rnd false) s = rnd (rnd (logT3 (flAlg rnd rnd false) s * logXX (flAlg rnd rnd false) s) + rnd 2) := rfl
      rw [e0, h.fix h2r]
    rw [e]
    exact this
  · have := key (logT3 (flAlg rnd rnd true) s * logXX (flAlg rnd rnd true) s) (by push_cast; exact hm)
    have e : logT32 (flAlg rnd rnd true) s = rnd (logT3 (flAlg rnd rnd true) s * logXX (flAlg rnd rnd true) s + 2) := by
      have e0 : logT32 (flAlg rnd rnd true) s = rnd (logT3 (flAlg rnd rnd true) s * logXX (flAlg rnd rnd true) s + rnd 2) := rfl
      rw [e0, h.fix h2r]
    rw [e]
    exact this

/-- `x * t` in `xlogf` has an error of at most `2.5` ulps. -/
theorem logZ32_ulp (h : Nearest 24 (-149) rnd) (fused : Bool) {s : ℚ} (hs0 : (1 : ℝ) / 2 ^ 24 ≤ |(s : ℝ)|) (h1 : (-0.2501 : ℝ) ≤ s)
    (h2 : (s : ℝ) ≤ 0.5001) {w : ℝ} (hw : IsUlp 24 (-149) |Real.log (1 + s)| w) :
    |((logZ32 rnd fused s : ℚ) : ℝ) - Real.log (1 + s)| ≤ 2.5 * w := by
  have hn := log_near32 h1 h2
  rcases le_total (s : ℝ) 0 with hneg | hpos
  · obtain ⟨xl, xu, hok, hxl, hxu⟩ := chain_sound (logChainD3 fused) (by decide) (x := (s : ℝ)) (by push_cast; norm_num at h1 ⊢; linarith)
      (by exact_mod_cast hneg)
    exact logOk32_sound h fused hok (by norm_num) hs0 h1 h2 hxl hxu (hn.trans (le_of_eq (by norm_num))) hw
  · by_cases h3 : (s : ℝ) ≤ 1 / 4096
    · obtain ⟨d1, d2, d3, -⟩ := logD_err h h1 h2 (D := rnd (s + 2)) rfl
      have hD2 : (2 : ℝ) ≤ ((rnd (s + 2) : ℚ) : ℝ) := by exact_mod_cast d3 (by exact_mod_cast hpos)
      have hxe : logX (flAlg rnd rnd fused) s = rnd (s / rnd (s + 2)) := by
        have h2r : Rep 24 (-149) 2 := ⟨2, 0, by norm_num, by norm_num, by norm_num⟩
        simp only [logX, flAlg]
        rw [h.fix h2r]
        rfl
      have hx0 : 0 ≤ (s : ℝ) / (2 + s) := by positivity
      have hx1 : (s : ℝ) / (2 + s) ≤ 1 / 8192 := by rw [div_le_iff₀ (by linarith)]; linarith
      have hx2 : ((s : ℝ) / (2 + s)) ^ 2 ≤ 1 / 8192 ^ 2 := by
        have := pow_le_pow_left₀ hx0 hx1 2; norm_num at this ⊢; exact this
      have hT : |Poly.eval logL32 (((s : ℝ) / (2 + s)) ^ 2) - 2| ≤ 0.2 * (1 / 2 ^ 24) := by
        simp only [logL32, Poly.eval_cons, Poly.eval_nil]
        have ht0 : 0 ≤ ((s : ℝ) / (2 + s)) ^ 2 := by positivity
        generalize ((s : ℝ) / (2 + s)) ^ 2 = t at hx2 ht0
        push_cast
        have hin : 0.666666686534881591796875 + t * (0.400005877017974853515625 + t * (0.28518211841583251953125 + t * 0.2392828464508056640625)) ≤ 0.7 := by
          have q1 : t * (0.28518211841583251953125 + t * 0.2392828464508056640625) ≤ 0.01 := by nlinarith
          nlinarith
        have hv : |t * (0.666666686534881591796875 + t * (0.400005877017974853515625 + t * (0.28518211841583251953125 + t * 0.2392828464508056640625)))| ≤
            0.2 * (1 / 2 ^ 24) := by
          rw [abs_of_nonneg (by positivity)]
          nlinarith
        refine le_trans (le_of_eq ?_) hv
        congr 1
        ring
      have ht := logT_tiny h fused hpos h3
      have hT2 : |Poly.eval logL32 (((s : ℝ) / (2 + s)) ^ 2)| ≤ 2.001 := by
        have := abs_add_le (2 : ℝ) (Poly.eval logL32 (((s : ℝ) / (2 + s)) ^ 2) - 2)
        rw [add_sub_cancel, abs_of_pos (show (0 : ℝ) < 2 by norm_num)] at this
        norm_num at this hT ⊢
        linarith
      have htT : |((logT32 (flAlg rnd rnd fused) s : ℚ) : ℝ) - Poly.eval logL32 (((s : ℝ) / (2 + s)) ^ 2)| ≤ 0.55 * (1 / 2 ^ 24) := by
        have := abs_sub_le ((logT32 (flAlg rnd rnd fused) s : ℚ) : ℝ) 2 (Poly.eval logL32 (((s : ℝ) / (2 + s)) ^ 2))
        rw [abs_sub_comm 2] at this
        linarith
      have hm := logProd_err (κ := 1) h hs0 h1 h2 (by linarith) (by norm_num at d2 ⊢; linarith) (by norm_num) le_rfl hT2 htT hn (by norm_num) hw
      unfold logZ32
      rw [hxe]
      refine hm.trans (mul_le_mul_of_nonneg_right ?_ hw.le.2.2.le)
      norm_num
    · push Not at h3
      by_cases h4 : (s : ℝ) ≤ 0.03
      · obtain ⟨xl, xu, hok, hxl, hxu⟩ := chain_sound (logChainD1 fused) (by decide) (x := (s : ℝ)) (by push_cast; exact h3.le)
          (by show (s : ℝ) ≤ ((0.03 : ℚ) : ℝ); push_cast; norm_num at h4 ⊢; linarith)
        exact logOk32_sound h fused hok (by norm_num) hs0 h1 h2 hxl hxu ((log_near32s hpos h4).trans (le_of_eq (by norm_num))) hw
      · push Not at h4
        obtain ⟨xl, xu, hok, hxl, hxu⟩ := chain_sound (logChainD2 fused) (by decide) (x := (s : ℝ)) (by push_cast; norm_num at h4 ⊢; linarith)
          (by show (s : ℝ) ≤ ((0.5001 : ℚ) : ℝ); push_cast; norm_num at h2 ⊢; linarith)
        exact logOk32_sound h fused hok (by norm_num) hs0 h1 h2 hxl hxu (hn.trans (le_of_eq (by norm_num))) hw

end Nsimd.Sleef
