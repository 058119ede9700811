import Verif.Lemmas.ExpChecks

/-!
# Accuracy of `exp_u10`, `exp2_u35` and `exp10_u35`

For every argument, with the rounding to nearest of the format and whatever tie rule, the scalar code and every lane of the
SIMD code return a number within a bound in ulps of the real exponential.
-/

namespace Nsimd.Props.Exp
open Nsimd.Sleef Nsimd.DoubleDouble Nsimd.Float Nsimd.Props.Round Nsimd.Props.Hypot Nsimd.Round Nsimd.Hypot Nsimd.Props.Ulp

variable {rnd rndd : ℚ → ℚ} {m : Mode} {d : ℚ}

/-! ### The constants as numbers of the formats -/

theorem rnd_L2U (h : Nearest 53 (-1074) rnd) : rnd L2U = red64.u := by
  have := rnd_lit h (c := L2U) (k := 6243314768162816) (e := -53) (by norm_num) (by norm_num) (by norm_num)
    (by norm_num [L2U])
  rw [this]; norm_num [red64]

theorem rnd_L2L (h : Nearest 53 (-1074) rnd) : rnd L2L = red64.l := by
  have := rnd_lit h (c := L2L) (k := 5592575473413350) (e := -94) (by norm_num) (by norm_num) (by norm_num)
    (by norm_num [L2L, abs_lt])
  rw [this]; norm_num [red64]

theorem rnd_R_LN2 (h : Nearest 53 (-1074) rnd) : rnd R_LN2 = red64.R := by
  have := rnd_lit h (c := R_LN2) (k := 6497320848556798) (e := -52) (by norm_num) (by norm_num) (by norm_num)
    (by norm_num [R_LN2, abs_lt])
  rw [this]; norm_num [red64]

theorem rnd_L2Uf (h : Nearest 24 (-149) rnd) : rnd L2Uf = red32.u := by
  have := rnd_lit h (c := L2Uf) (k := 11629056) (e := -24) (by norm_num) (by norm_num) (by norm_num)
    (by norm_num [L2Uf])
  rw [this]; norm_num [red32]

theorem rnd_L2Lf (h : Nearest 24 (-149) rnd) : rnd L2Lf = red32.l := by
  have := rnd_lit h (c := L2Lf) (k := 12566158) (e := -43) (by norm_num) (by norm_num) (by norm_num)
    (by norm_num [L2Lf, abs_lt])
  rw [this]; norm_num [red32]

theorem rnd_R_LN2f (h : Nearest 24 (-149) rnd) : rnd R_LN2 = red32.R := by
  have := rnd_lit h (c := R_LN2) (k := 12102203) (e := -23) (by norm_num) (by norm_num) (by norm_num)
    (by norm_num [R_LN2, abs_lt])
  rw [this]; norm_num [red32]

theorem rnd_L10U (h : Nearest 53 (-1074) rnd) : rnd L10U = red10_64.u := by
  have := rnd_lit h (c := L10U) (k := 5422874305196032) (e := -54) (by norm_num) (by norm_num) (by norm_num)
    (by norm_num [L10U, abs_lt])
  rw [this]; norm_num [red10_64]

theorem rnd_L10L (h : Nearest 53 (-1074) rnd) : rnd L10L = red10_64.l := by
  have := rnd_lit h (c := L10L) (k := 5627189443843691) (e := -95) (by norm_num) (by norm_num) (by norm_num)
    (by norm_num [L10L, abs_lt])
  rw [this]; norm_num [red10_64]

theorem rnd_LOG10_2 (h : Nearest 53 (-1074) rnd) : rnd LOG10_2 = red10_64.R := by
  have := rnd_lit h (c := LOG10_2) (k := 7480317065143153) (e := -51) (by norm_num) (by norm_num) (by norm_num)
    (by norm_num [LOG10_2, abs_lt])
  rw [this]; norm_num [red10_64]

theorem rnd_L10Uf (h : Nearest 24 (-149) rnd) : rnd L10Uf = red10_32.u := by
  have := rnd_lit h (c := L10Uf) (k := 10100736) (e := -25) (by norm_num) (by norm_num) (by norm_num)
    (by norm_num [L10Uf, abs_lt])
  rw [this]; norm_num [red10_32]

theorem rnd_L10Lf (h : Nearest 24 (-149) rnd) : rnd L10Lf = red10_32.l := by
  have := rnd_lit h (c := L10Lf) (k := 10126588) (e := -41) (by norm_num) (by norm_num) (by norm_num)
    (by norm_num [L10Lf, abs_lt])
  rw [this]; norm_num [red10_32]

theorem rnd_LOG10_2f (h : Nearest 24 (-149) rnd) (hd : Nearest 53 (-1074) rndd) : rnd (rndd LOG10_2) = red10_32.R := by
  rw [rnd_LOG10_2 hd]
  have := rnd_lit h (c := red10_64.R) (k := 13933176) (e := -22) (by norm_num) (by norm_num) (by norm_num)
    (by norm_num [red10_64, abs_lt])
  rw [this]; norm_num [red10_32]

theorem mult_of_eq {e : ℤ} {x : ℚ} (k : ℤ) (h : x = k * 2 ^ e) : Mult e x := ⟨k, h⟩

/-! ### The polynomials of the code and the numbers before the last rounding -/

theorem rnd_fSum (rnd lt : ℚ → ℚ) (fused simd : Bool) (poly : {α : Type} → Alg α → α → α) (s : ℚ)
    (hf : simd = false → fused = false) :
    expSum (flAlg rnd lt fused) simd (poly (flAlg rnd lt fused) s) s = rnd (fSum rnd lt fused poly s) := by
  cases simd
  · rw [hf rfl]
    show rnd (rnd (rnd _ + s) + lt 1) = _
    rw [add_comm (rnd (rnd _ + s)) (lt 1)]; rfl
  · rfl

theorem rnd_fMla (rnd lt : ℚ → ℚ) (fused : Bool) (poly : {α : Type} → Alg α → α → α) (s : ℚ) :
    (flAlg rnd lt fused).mla (poly (flAlg rnd lt fused) s) s ((flAlg rnd lt fused).lit 1) = rnd (fMla rnd lt fused poly s) := by
  cases fused <;> rfl

theorem fmt64 (h : Nearest 53 (-1074) rnd) : Fmt 53 (-1074) rnd rnd :=
  ⟨by norm_num, by norm_num, h, lit_one h (by norm_num)⟩

theorem fmt32 (h : Nearest 24 (-149) rnd) (hd : Nearest 53 (-1074) rndd) : Fmt 24 (-149) rnd fun c => rnd (rndd c) :=
  ⟨by norm_num, by norm_num, h, lit_two h hd⟩

theorem last_steps {S : ℚ} : lastD (-S) (steps S 16) = S := by
  simp [steps, List.range, List.range.loop, lastD]; ring

theorem steps_ne {S : ℚ} : steps S 16 ≠ [] := by simp [steps, List.range, List.range.loop]

/-! ### `exp`, f64 -/

theorem exp64_reduced (h : Nearest 53 (-1074) rnd) (fused : Bool) (hm : m.Ok) (hd : Rep 53 (-1074) d) (hD : |d| ≤ 1000) :
    ∃ q : ℤ, rintk rnd m (mul rnd d (rnd R_LN2)) = some q ∧ |reduce2 rnd fused L2U L2L q d| ≤ 0.3468 ∧
      |((1 : ℚ) : ℝ) * (reduce2 rnd fused L2U L2L q d : ℚ) - (d - q * Real.log 2)| ≤ ((1.001 / 2 ^ 55 : ℚ) : ℝ) ∧
      2 * (-1074 + (53 : ℕ)) ≤ q := by
  obtain ⟨q, s, h1, h2, h3, h4, h5⟩ := Red.sound red64_ok h fused hm hd hD
    (mult_of_eq 1524246769571 (by norm_num [red64])) (lam := 1) (by norm_num [red64])
  refine ⟨q, ?_, ?_, ?_, h5⟩
  · rw [rnd_R_LN2 h]; exact h1
  all_goals
    have e : reduce2 rnd fused L2U L2L q d = s := by
      rw [← h2, ← rnd_L2U h, ← rnd_L2L h]; rfl
    rw [e]
  · exact h3
  · rw [one_mul] at h4; exact h4

theorem exp32_reduced (h : Nearest 24 (-149) rnd) (fused : Bool) (hm : m.Ok) (hd : Rep 24 (-149) d) (hD : |d| ≤ 104) :
    ∃ q : ℤ, rintk rnd m (mul rnd d (rnd R_LN2)) = some q ∧ |reduce2 rnd fused L2Uf L2Lf q d| ≤ 0.3468 ∧
      |((1 : ℚ) : ℝ) * (reduce2 rnd fused L2Uf L2Lf q d : ℚ) - (d - q * Real.log 2)| ≤ ((1.005 / 2 ^ 26 : ℚ) : ℝ) ∧
      2 * (-149 + (24 : ℕ)) ≤ q := by
  obtain ⟨q, s, h1, h2, h3, h4, h5⟩ := Red.sound red32_ok h fused hm hd hD
    (mult_of_eq 22713 (by norm_num [red32])) (lam := 1) (by norm_num [red32])
  refine ⟨q, ?_, ?_, ?_, h5⟩
  · rw [rnd_R_LN2f h]; exact h1
  all_goals
    have e : reduce2 rnd fused L2Uf L2Lf q d = s := by
      rw [← h2, ← rnd_L2Uf h, ← rnd_L2Lf h]; rfl
    rw [e]
  · exact h3
  · rw [one_mul] at h4; exact h4

theorem exp10_64_reduced (h : Nearest 53 (-1074) rnd) (fused : Bool) (hm : m.Ok) (hd : Rep 53 (-1074) d) (hD : |d| ≤ 350) :
    ∃ q : ℤ, rintk rnd m (mul rnd d (rnd LOG10_2)) = some q ∧ |reduce2 rnd fused L10U L10L q d| ≤ 0.1508 ∧
      |(ln10 : ℝ) * (reduce2 rnd fused L10U L10L q d : ℚ) - (Real.log 10 * d - q * Real.log 2)| ≤
        ((2.31 / 2 ^ 56 : ℚ) : ℝ) ∧ 2 * (-1074 + (53 : ℕ)) ≤ q := by
  obtain ⟨q, s, h1, h2, h3, h4, h5⟩ := Red.sound red10_64_ok h fused hm hd hD
    (mult_of_eq 1323943922167 (by norm_num [red10_64])) (lam := Real.log 10) log_ten
  refine ⟨q, ?_, ?_, ?_, h5⟩
  · rw [rnd_LOG10_2 h]; exact h1
  all_goals
    have e : reduce2 rnd fused L10U L10L q d = s := by
      rw [← h2, ← rnd_L10U h, ← rnd_L10L h]; rfl
    rw [e]
  · exact h3
  · exact h4

theorem exp10_32_reduced (h : Nearest 24 (-149) rnd) (hdd : Nearest 53 (-1074) rndd) (fused : Bool) (hm : m.Ok)
    (hd : Rep 24 (-149) d) (hD : |d| ≤ 50) :
    ∃ q : ℤ, rintk rnd m (mul rnd d (rnd (rndd LOG10_2))) = some q ∧ |reduce2 rnd fused L10Uf L10Lf q d| ≤ 0.1508 ∧
      |(ln10 : ℝ) * (reduce2 rnd fused L10Uf L10Lf q d : ℚ) - (Real.log 10 * d - q * Real.log 2)| ≤
        ((2.33 / 2 ^ 27 : ℚ) : ℝ) ∧ 2 * (-149 + (24 : ℕ)) ≤ q := by
  obtain ⟨q, s, h1, h2, h3, h4, h5⟩ := Red.sound red10_32_ok h fused hm hd hD
    (mult_of_eq 1233 (by norm_num [red10_32])) (lam := Real.log 10) log_ten
  refine ⟨q, ?_, ?_, ?_, h5⟩
  · rw [rnd_LOG10_2f h hdd]; exact h1
  all_goals
    have e : reduce2 rnd fused L10Uf L10Lf q d = s := by
      rw [← h2, ← rnd_L10Uf h, ← rnd_L10Lf h]; rfl
    rw [e]
  · exact h3
  · exact h4

/-- The subtraction of the nearest integer. -/
theorem exp2_reduced {p : ℕ} {emin : ℤ} (h : Nearest p emin rnd) (hp : 24 ≤ p) (hp' : p ≤ 53) (hmin : emin ≤ -p - 1) (hm : m.Ok)
    {D : ℚ} (hD : |d| ≤ D) {j : ℕ} (hj : j ≤ 11) (hDj : D + 1 / 2 ≤ 2 ^ j) (hjp : (2 : ℚ) ^ j / 2 ^ p / 2 ≤ 0.00001)
    (hq : (2 * (emin + p) : ℚ) ≤ -D - 1) :
    ∃ q : ℤ, rintk rnd m d = some q ∧ |sub rnd d q| ≤ 0.5001 ∧
      |(ln2 : ℝ) * (sub rnd d q : ℚ) - (Real.log 2 * d - q * Real.log 2)| ≤ ((0.7 / 2 ^ (p + 1) : ℚ) : ℝ) ∧
      2 * (emin + p) ≤ q := by
  obtain ⟨q, h1, h2⟩ := rintk_near h (by omega) hmin hm (y := d) (j := j) (by omega) (by linarith)
  have h3 : |d - q| ≤ 0.50001 := by rw [abs_sub_comm]; refine h2.trans ?_; norm_num at hjp ⊢; linarith
  have h4 := h.half_ulp (by omega) (e := -p) (x := d - q) (by omega) (by
    rw [pow_eq_zpow, add_neg_cancel, zpow_zero]; exact h3.trans (by norm_num))
  rw [abs_sub_comm] at h4
  have h5 : (2 : ℚ) ^ (-(p : ℤ)) = 1 / 2 ^ p := by rw [zpow_neg, zpow_natCast, one_div]
  rw [h5] at h4
  have h6 : (1 : ℚ) / 2 ^ p ≤ 1 / 2 ^ 24 := one_div_le_one_div_of_le (by positivity) (pow_le_pow_right₀ (by norm_num) hp)
  have h7 : (1 : ℚ) / 2 ^ 53 ≤ 1 / 2 ^ p := one_div_le_one_div_of_le (by positivity) (pow_le_pow_right₀ (by norm_num) hp')
  refine ⟨q, h1, ?_, ?_, ?_⟩
  · unfold sub
    have := abs_add_le (d - q) (rnd (d - q) - (d - q))
    rw [add_sub_cancel] at this
    norm_num at *
    linarith
  · have e1 : (ln2 : ℝ) * (sub rnd d q : ℚ) - (Real.log 2 * d - q * Real.log 2) =
        ln2 * ((sub rnd d q - (d - q) : ℚ) : ℝ) - (Real.log 2 - ln2) * ((d - q : ℚ) : ℝ) := by push_cast; ring
    rw [e1]
    refine (abs_sub _ _).trans ?_
    rw [abs_mul, abs_mul]
    have e2 : |((sub rnd d q - (d - q) : ℚ) : ℝ)| ≤ ((1 / 2 ^ p / 2 : ℚ) : ℝ) := by exact_mod_cast h4
    have e3 : |((d - q : ℚ) : ℝ)| ≤ ((0.50001 : ℚ) : ℝ) := by exact_mod_cast h3
    have e4 : |(ln2 : ℝ)| ≤ 0.6932 := by
      have : |(ln2 : ℝ)| = ln2 := abs_of_pos (by norm_num [ln2])
      rw [this]; norm_num [ln2]
    have e5 := mul_le_mul e4 e2 (abs_nonneg _) (by norm_num)
    have e6 := mul_le_mul log_two e3 (abs_nonneg _) (by norm_num)
    have e7 : ((1 / 2 ^ 53 : ℚ) : ℝ) ≤ ((1 / 2 ^ p : ℚ) : ℝ) := by exact_mod_cast h7
    have e8 : ((0.7 / 2 ^ (p + 1) : ℚ) : ℝ) = 0.35 * ((1 / 2 ^ p : ℚ) : ℝ) := by push_cast; rw [pow_succ]; field_simp; norm_num
    have e9 : ((1 / 2 ^ p / 2 : ℚ) : ℝ) = ((1 / 2 ^ p : ℚ) : ℝ) / 2 := by push_cast; ring
    rw [e8]
    rw [e9] at e5
    generalize ((1 / 2 ^ p : ℚ) : ℝ) = v at *
    norm_num at *
    linarith
  · have h8 : |(q : ℚ)| ≤ D + 1 := by
      have := abs_add_le d ((q : ℚ) - d)
      rw [add_sub_cancel, abs_sub_comm (q : ℚ) d] at this
      norm_num at *
      linarith
    have h9 := (_root_.abs_le.mp h8).1
    have : ((2 * (emin + p) : ℤ) : ℚ) ≤ q := by push_cast; linarith
    exact_mod_cast this

/-- The tests around the computation. -/
theorem select_fin {over under : ℚ → Bool} {body : ℚ → Option Fl} {u : Fl} (h : body d = some u) :
    select m over under body (.fin d) = some (if under d then .fin 0 else if over d then .inf false else u) := by
  simp [select, h]

/-! ### `exp` -/

/-- `xexp` on finite arguments up to the threshold of the code, which is smaller than `log (2 ^ 1024)`. -/
theorem xexp_fin (h : Nearest 53 (-1074) rnd) (fused : Bool) (hm : m.Ok) (hd : Rep 53 (-1074) d)
    (h1 : -1000 ≤ d) (h2 : d ≤ rnd 709.78271114955742909217217426) {c : ℝ}
    (hc : (if fused && m.isSimd then 1 else 1.17) ≤ c) :
    ∃ r, xexp rnd fused m (.fin d) = some r ∧ Within 53 (-1074) 1024 c (Real.exp d) r := by
  have hT : rnd 709.78271114955742909217217426 ≤ 1000 := by
    have h3 := h.mono (show (709.78271114955742909217217426 : ℚ) ≤ 1000 by norm_num)
    rwa [h.fix (q := 1000) ⟨1000, 0, by norm_num, by norm_num, by norm_num⟩] at h3
  obtain ⟨q, e1, e2, e3, e4⟩ := exp64_reduced h (fused && m.isSimd) hm hd (abs_le.mpr ⟨h1, h2.trans hT⟩)
  unfold xexp
  rw [select_fin (u := ldexp2k rnd 1024 _ q) (by rw [e1]; rfl)]
  refine ⟨_, rfl, ?_⟩
  rw [if_neg (by simpa using h1), if_neg (by simpa using h2)]
  generalize hs : reduce2 rnd (fused && m.isSimd) L2U L2L q d = s at *
  cases hf : fused && m.isSimd
  · rw [hf] at hc
    simp only [Bool.false_eq_true, if_false] at hc ⊢
    rw [rnd_fSum rnd rnd false m.isSimd expPoly64 s (fun _ => rfl)]
    exact exp_finish (fmt64 h) (ap_sum natural_expPoly64 false) (fun x hx => expPoly64_approx hx) steps_ne last_steps chain_exp64
      (by norm_num) e2 e3 e4 (by norm_num at hc ⊢; linarith) (by norm_num at hc ⊢; linarith) (by norm_num at hc ⊢; linarith)
  · rw [hf] at hc
    simp only [if_true] at hc ⊢
    have : (flAlg rnd rnd true).fma (expPoly64fma (flAlg rnd rnd true) s) s ((flAlg rnd rnd true).lit 1) =
        rnd (fMla rnd rnd true expPoly64fma s) := rfl
    rw [this]
    exact exp_finish (fmt64 h) (ap_mla natural_expPoly64fma true) (fun x hx => expPoly64fma_approx hx) steps_ne last_steps
      chain_exp64fma (by norm_num) e2 e3 e4 hc (by norm_num; linarith) (by norm_num; linarith)

/-- The conversion to an integer of a product with a small constant. -/
theorem rintk_mul {p : ℕ} {emin : ℤ} (h : Nearest p emin rnd) (hp : 1 ≤ p) (hmin : emin ≤ -p - 1)
    (hs : m = .scalar → |d| ≤ 2 ^ 27) {R : ℚ} (hR : |R| ≤ 4) : ∃ q : ℤ, rintk rnd m (mul rnd d R) = some q := by
  refine rintk_some h hp hmin fun hm => ?_
  have h1 := hs hm
  have hrep : Rep p emin ((2 : ℚ) ^ 29) := by
    have := rep_int_mul (p := p) (emin := emin) hp (e := 29) (by omega) (k := 1) (by simp; exact one_le_pow₀ (by norm_num))
    norm_num at this ⊢; exact this
  have h2 : |d * R| ≤ 2 ^ 29 := by
    rw [abs_mul]
    calc _ ≤ (2 : ℚ) ^ 27 * 4 := mul_le_mul h1 hR (abs_nonneg _) (by norm_num)
      _ = _ := by norm_num
  have := h.abs_ge hrep (x := d * R) (by rw [abs_of_pos (show (0 : ℚ) < 2 ^ 29 by positivity)]; exact h2)
  rwa [abs_of_pos (show (0 : ℚ) < 2 ^ 29 by positivity)] at this

theorem xexp_all (h : Nearest 53 (-1074) rnd) (fused : Bool) (hm : m.Ok) (hd : Rep 53 (-1074) d)
    (hs : m = .scalar → |d| ≤ 2 ^ 27) (h2 : d ≤ rnd 709.78271114955742909217217426) {c : ℝ}
    (hc : (if fused && m.isSimd then 1 else 1.17) ≤ c) :
    ∃ r, xexp rnd fused m (.fin d) = some r ∧ Within 53 (-1074) 1024 c (Real.exp d) r := by
  rcases le_or_gt (-1000) d with h1 | h1
  · exact xexp_fin h fused hm hd h1 h2 hc
  · obtain ⟨q, e1⟩ := rintk_mul h (by norm_num) (by norm_num) hs (R := rnd R_LN2) (by rw [rnd_R_LN2 h]; norm_num [red64, abs_le])
    unfold xexp
    rw [select_fin (u := ldexp2k rnd 1024 _ q) (by rw [e1]; rfl)]
    refine ⟨_, rfl, ?_⟩
    rw [if_pos (by simpa using h1)]
    have hc1 : 1 ≤ c := by split at hc <;> norm_num at hc ⊢ <;> linarith
    refine within_zero hc1 (Real.exp_pos _).le (exp_le_zpow ?_)
    have h3 : (d : ℝ) < ((-1000 : ℚ) : ℝ) := by exact_mod_cast h1
    have := log_two_bounds
    push_cast at h3 ⊢; linarith

/-- **exp_u10, f64, target with fused multiply-add.**  On all arguments up to the threshold of the code the error is at most
1 ulp. -/
theorem xexp_fma_within (h : Nearest 53 (-1074) rnd) {near : ℚ → ℤ} (hm : ∀ y : ℚ, |(near y : ℚ) - y| ≤ 1 / 2)
    (hd : Rep 53 (-1074) d) (h2 : d ≤ rnd 709.78271114955742909217217426) :
    ∃ r, xexp rnd true (.simd near) (.fin d) = some r ∧ Within 53 (-1074) 1024 1 (Real.exp d) r :=
  xexp_all h true (m := .simd near) hm hd (fun h => by cases h) h2 (by simp [Mode.isSimd])

/-- **exp_u10, f64, scalar code and all SIMD targets.**  The error is at most 1.17 ulps; the documented bound is 1 ulp. -/
theorem xexp_within_partial (h : Nearest 53 (-1074) rnd) (fused : Bool) (hm : m.Ok) (hd : Rep 53 (-1074) d)
    (hs : m = .scalar → |d| ≤ 2 ^ 27) (h2 : d ≤ rnd 709.78271114955742909217217426) :
    ∃ r, xexp rnd fused m (.fin d) = some r ∧ Within 53 (-1074) 1024 1.17 (Real.exp d) r :=
  xexp_all h fused hm hd hs h2 (by split <;> norm_num)

/-- Above the threshold the result is infinity. -/
theorem xexp_over (h : Nearest 53 (-1074) rnd) (fused : Bool) (hs : m = .scalar → |d| ≤ 2 ^ 27)
    (h2 : rnd 709.78271114955742909217217426 < d) : xexp rnd fused m (.fin d) = some (.inf false) := by
  obtain ⟨q, e1⟩ := rintk_mul h (by norm_num) (by norm_num) hs (R := rnd R_LN2) (by rw [rnd_R_LN2 h]; norm_num [red64, abs_le])
  have h0 : 0 ≤ rnd 709.78271114955742909217217426 := by
    have := h.mono (show (0 : ℚ) ≤ 709.78271114955742909217217426 by norm_num); rwa [h.zero] at this
  unfold xexp
  rw [select_fin (u := ldexp2k rnd 1024 _ q) (by rw [e1]; rfl)]
  rw [if_neg (by simp; linarith), if_pos (by simpa using h2)]

/-- The threshold is too small: there are arguments whose exponential is an ordinary finite number, more than `10 ^ 9` ulps
below the largest one, and for which the result is infinity. -/
theorem xexp_over_early (h : Nearest 53 (-1074) rnd) (fused : Bool) :
    ∃ d : ℚ, Rep 53 (-1074) d ∧ xexp rnd fused m (.fin d) = some (.inf false) ∧ Real.exp d + 10 ^ 9 * 2 ^ (971 : ℤ) ≤ 2 ^ (1024 : ℤ) := by
  refine ⟨6243314752840000 / 2 ^ 43, ⟨6243314752840000, -43, by norm_num, by norm_num, by norm_num⟩, ?_, ?_⟩
  · refine xexp_over h fused (fun _ => by norm_num [abs_le]) ?_
    rw [rnd_lit h (k := 6243314752826499) (e := -43) (by norm_num) (by norm_num) (by norm_num) (by norm_num [abs_lt])]
    norm_num
  · have e1 : Real.exp ((6243314752840000 / 2 ^ 43 : ℚ) : ℝ) ≤ 2 ^ (1024 : ℤ) * (1 - 1 / 2 ^ 21) := by
      have e2 : ((6243314752840000 / 2 ^ 43 : ℚ) : ℝ) ≤ (1024 : ℤ) * Real.log 2 + -(1 / 2 ^ 20 : ℝ) := by
        have := (_root_.abs_le.mp log_two).1
        push_cast
        rw [ln2] at this
        norm_num at this ⊢
        linarith
      have e3 : Real.exp (-(1 / 2 ^ 20 : ℝ)) ≤ 1 - 1 / 2 ^ 21 := by
        have := Real.abs_exp_sub_one_sub_id_le (x := -(1 / 2 ^ 20 : ℝ)) (by rw [abs_le]; constructor <;> norm_num)
        have := (_root_.abs_le.mp this).2
        norm_num at this ⊢
        linarith
      have e4 : Real.exp (((1024 : ℤ) : ℝ) * Real.log 2) ≤ 2 ^ (1024 : ℤ) := exp_le_zpow le_rfl
      calc _ ≤ Real.exp ((1024 : ℤ) * Real.log 2 + -(1 / 2 ^ 20 : ℝ)) := Real.exp_le_exp.mpr e2
        _ = Real.exp (((1024 : ℤ) : ℝ) * Real.log 2) * Real.exp (-(1 / 2 ^ 20 : ℝ)) := Real.exp_add _ _
        _ ≤ _ := mul_le_mul e4 e3 (Real.exp_pos _).le (by positivity)
    have e5 : (2 : ℝ) ^ (1024 : ℤ) = 2 ^ 53 * 2 ^ (971 : ℤ) := by rw [← zpow_natCast, ← zpow_add₀ (by norm_num)]; norm_num
    rw [e5] at e1 ⊢
    have e6 : (0 : ℝ) < 2 ^ (971 : ℤ) := by positivity
    generalize (2 : ℝ) ^ (971 : ℤ) = w at e1 e6 ⊢
    clear e5
    norm_num at e1 ⊢
    linarith

/-- **exp_u10, f32.**  On all arguments the error is at most 1.17 ulps; the documented bound is 1 ulp. -/
theorem xexpf_within_partial (h : Nearest 24 (-149) rnd) (hdd : Nearest 53 (-1074) rndd) (fused : Bool) (hm : m.Ok)
    (hd : Rep 24 (-149) d) (hs : m = .scalar → |d| ≤ 2 ^ 27) :
    ∃ r, xexpf rnd fused m rndd (.fin d) = some r ∧ Within 24 (-149) 128 1.17 (Real.exp d) r := by
  have hl := log_two_bounds
  have hq : ∃ q : ℤ, rintk rnd m (mul rnd d (rnd R_LN2)) = some q :=
    rintk_mul h (by norm_num) (by norm_num) hs (by rw [rnd_R_LN2f h]; norm_num [red32, abs_le])
  by_cases h1 : d < -104
  · obtain ⟨q, e1⟩ := hq
    unfold xexpf
    rw [select_fin (u := ldexp2k rnd 128 _ q) (by rw [e1]; rfl)]
    refine ⟨_, rfl, ?_⟩
    rw [if_pos (by simpa using h1)]
    refine within_zero (by norm_num) (Real.exp_pos _).le (exp_le_zpow ?_)
    have h3 : (d : ℝ) < ((-104 : ℚ) : ℝ) := by exact_mod_cast h1
    push_cast at h3 ⊢; linarith
  by_cases h2 : (if m.isSimd then 100 else 104) < d
  · obtain ⟨q, e1⟩ := hq
    unfold xexpf
    rw [select_fin (u := ldexp2k rnd 128 _ q) (by rw [e1]; rfl)]
    refine ⟨_, rfl, ?_⟩
    rw [if_neg (by simpa using h1), if_pos (by simpa using h2)]
    refine within_inf (by norm_num) (zpow_le_exp ?_)
    have h3 : (100 : ℚ) < d := by split at h2 <;> linarith
    have h3 : ((100 : ℚ) : ℝ) < (d : ℝ) := by exact_mod_cast h3
    push_cast at h3 ⊢; linarith
  · have hD : |d| ≤ 104 := by
      rw [abs_le]; push Not at h1 h2
      exact ⟨h1, h2.trans (by split <;> norm_num)⟩
    obtain ⟨q, e1, e2, e3, e4⟩ := exp32_reduced h (fused && m.isSimd) hm hd hD
    unfold xexpf
    rw [select_fin (u := ldexp2k rnd 128 _ q) (by rw [e1]; rfl)]
    refine ⟨_, rfl, ?_⟩
    rw [if_neg (by simpa using h1), if_neg (by simpa using h2)]
    generalize hs : reduce2 rnd (fused && m.isSimd) L2Uf L2Lf q d = s at *
    rw [rnd_fSum rnd _ (fused && m.isSimd) m.isSimd expPoly32 s (fun h => by rw [h, Bool.and_false])]
    cases fused && m.isSimd
    · exact exp_finish (fmt32 h hdd) (ap_sum natural_expPoly32 false) (fun x hx => expPoly32_approx hx) steps_ne last_steps
        chain_exp32 (by norm_num) e2 e3 e4 (by norm_num) (by norm_num) (by norm_num)
    · exact exp_finish (fmt32 h hdd) (ap_sum natural_expPoly32 true) (fun x hx => expPoly32_approx hx) steps_ne last_steps
        chain_exp32fma (by norm_num) e2 e3 e4 (by norm_num) (by norm_num) (by norm_num)

/-! ### `exp2` -/

theorem two_rpow (d : ℚ) : (2 : ℝ) ^ (d : ℝ) = Real.exp (Real.log 2 * d) := Real.rpow_def_of_pos (by norm_num) _

theorem ten_rpow (d : ℚ) : (10 : ℝ) ^ (d : ℝ) = Real.exp (Real.log 10 * d) := Real.rpow_def_of_pos (by norm_num) _

theorem xexp2_all (h : Nearest 53 (-1074) rnd) (fused : Bool) (hm : m.Ok) (hs : m = .scalar → |d| ≤ 2 ^ 27) :
    ∃ r, xexp2 rnd fused m (.fin d) = some r ∧ Within 53 (-1074) 1024 2.5 (2 ^ (d : ℝ)) r := by
  have hl := log_two_bounds
  have hq : ∃ q : ℤ, rintk rnd m d = some q :=
    rintk_some h (by norm_num) (by norm_num) fun e => (hs e).trans (by norm_num)
  rw [two_rpow]
  by_cases h1 : d < -2000
  · obtain ⟨q, e1⟩ := hq
    unfold xexp2
    rw [select_fin (u := ldexp2k rnd 1024 _ q) (by rw [e1]; rfl)]
    refine ⟨_, rfl, ?_⟩
    rw [if_pos (by simpa using h1)]
    refine within_zero (by norm_num) (Real.exp_pos _).le (exp_le_zpow ?_)
    have h3 : (d : ℝ) < ((-2000 : ℚ) : ℝ) := by exact_mod_cast h1
    push_cast at h3 ⊢; nlinarith
  by_cases h2 : 1024 ≤ d
  · obtain ⟨q, e1⟩ := hq
    unfold xexp2
    rw [select_fin (u := ldexp2k rnd 1024 _ q) (by rw [e1]; rfl)]
    refine ⟨_, rfl, ?_⟩
    rw [if_neg (by simpa using h1), if_pos (by simpa using h2)]
    refine within_inf (by norm_num) (zpow_le_exp ?_)
    have h3 : ((1024 : ℚ) : ℝ) ≤ (d : ℝ) := by exact_mod_cast h2
    push_cast at h3 ⊢; nlinarith
  · push Not at h1 h2
    obtain ⟨q, e1, e2, e3, e4⟩ := exp2_reduced h (by norm_num) (by norm_num) (by norm_num) hm (D := 2000)
      (abs_le.mpr ⟨h1, by linarith⟩) (j := 11) (by norm_num) (by norm_num) (by norm_num) (by norm_num)
    unfold xexp2
    rw [select_fin (u := ldexp2k rnd 1024 _ q) (by rw [e1]; rfl)]
    refine ⟨_, rfl, ?_⟩
    rw [if_neg (by simpa using h1), if_neg (by simpa using h2)]
    have hsub : (flAlg rnd rnd (fused && m.isSimd)).sub d q = sub rnd d q := rfl
    simp only [hsub]
    generalize sub rnd d q = s at *
    cases hm' : m.isSimd
    · simp only [Bool.and_false, Bool.false_eq_true, if_false]
      rw [rnd_fMla]
      exact exp_finish (fmt64 h) (ap_mla natural_exp2Poly64 false) (fun x hx => exp2Poly64_approx hx) steps_ne last_steps
        chain_exp2_64 (by norm_num) e2 e3 e4 (by norm_num) (by norm_num) (by norm_num)
    · simp only [Bool.and_true, if_true]
      rw [rnd_fMla]
      cases fused
      · exact exp_finish (fmt64 h) (ap_mla natural_exp2Poly64simd false) (fun x hx => exp2Poly64simd_approx hx) steps_ne
          last_steps chain_exp2_64simd (by norm_num) e2 e3 e4 (by norm_num) (by norm_num) (by norm_num)
      · exact exp_finish (fmt64 h) (ap_mla natural_exp2Poly64simd true) (fun x hx => exp2Poly64simd_approx hx) steps_ne
          last_steps chain_exp2_64fma (by norm_num) e2 e3 e4 (by norm_num) (by norm_num) (by norm_num)

theorem xexp2f_all (h : Nearest 24 (-149) rnd) (hdd : Nearest 53 (-1074) rndd) (fused : Bool) (hm : m.Ok)
    (hs : m = .scalar → |d| ≤ 2 ^ 27) :
    ∃ r, xexp2f rnd fused m rndd (.fin d) = some r ∧ Within 24 (-149) 128 2.5 (2 ^ (d : ℝ)) r := by
  have hl := log_two_bounds
  have hq : ∃ q : ℤ, rintk rnd m d = some q :=
    rintk_some h (by norm_num) (by norm_num) fun e => (hs e).trans (by norm_num)
  rw [two_rpow]
  by_cases h1 : d < -150
  · obtain ⟨q, e1⟩ := hq
    unfold xexp2f
    rw [select_fin (u := ldexp2k rnd 128 _ q) (by rw [e1]; rfl)]
    refine ⟨_, rfl, ?_⟩
    rw [if_pos (by simpa using h1)]
    refine within_zero (by norm_num) (Real.exp_pos _).le (exp_le_zpow ?_)
    have h3 : (d : ℝ) < ((-150 : ℚ) : ℝ) := by exact_mod_cast h1
    push_cast at h3 ⊢; nlinarith
  by_cases h2 : 128 ≤ d
  · obtain ⟨q, e1⟩ := hq
    unfold xexp2f
    rw [select_fin (u := ldexp2k rnd 128 _ q) (by rw [e1]; rfl)]
    refine ⟨_, rfl, ?_⟩
    rw [if_neg (by simpa using h1), if_pos (by simpa using h2)]
    refine within_inf (by norm_num) (zpow_le_exp ?_)
    have h3 : ((128 : ℚ) : ℝ) ≤ (d : ℝ) := by exact_mod_cast h2
    push_cast at h3 ⊢; nlinarith
  · push Not at h1 h2
    obtain ⟨q, e1, e2, e3, e4⟩ := exp2_reduced h (by norm_num) (by norm_num) (by norm_num) hm (D := 150)
      (abs_le.mpr ⟨h1, by linarith⟩) (j := 8) (by norm_num) (by norm_num) (by norm_num) (by norm_num)
    unfold xexp2f
    rw [select_fin (u := ldexp2k rnd 128 _ q) (by rw [e1]; rfl)]
    refine ⟨_, rfl, ?_⟩
    rw [if_neg (by simpa using h1), if_neg (by simpa using h2)]
    have hsub : (flAlg rnd (fun c => rnd (rndd c)) (fused && m.isSimd)).sub d q = sub rnd d q := rfl
    simp only [hsub]
    generalize sub rnd d q = s at *
    rw [rnd_fMla]
    cases fused && m.isSimd
    · exact exp_finish (fmt32 h hdd) (ap_mla natural_exp2Poly32 false) (fun x hx => exp2Poly32_approx hx) steps_ne last_steps
        chain_exp2_32 (by norm_num) e2 e3 e4 (by norm_num) (by norm_num) (by norm_num)
    · exact exp_finish (fmt32 h hdd) (ap_mla natural_exp2Poly32 true) (fun x hx => exp2Poly32_approx hx) steps_ne last_steps
        chain_exp2_32fma (by norm_num) e2 e3 e4 (by norm_num) (by norm_num) (by norm_num)

/-- **exp2_u35, f64**, the documented bound. -/
theorem xexp2_within (h : Nearest 53 (-1074) rnd) (fused : Bool) (hm : m.Ok) (hs : m = .scalar → |d| ≤ 2 ^ 27) :
    ∃ r, xexp2 rnd fused m (.fin d) = some r ∧ Within 53 (-1074) 1024 3.5 (2 ^ (d : ℝ)) r := by
  obtain ⟨r, h1, h2⟩ := xexp2_all h fused hm hs
  exact ⟨r, h1, h2.mono (by norm_num)⟩

/-- **exp2_u35, f32**, the documented bound. -/
theorem xexp2f_within (h : Nearest 24 (-149) rnd) (hdd : Nearest 53 (-1074) rndd) (fused : Bool) (hm : m.Ok)
    (hs : m = .scalar → |d| ≤ 2 ^ 27) :
    ∃ r, xexp2f rnd fused m rndd (.fin d) = some r ∧ Within 24 (-149) 128 3.5 (2 ^ (d : ℝ)) r := by
  obtain ⟨r, h1, h2⟩ := xexp2f_all h hdd fused hm hs
  exact ⟨r, h1, h2.mono (by norm_num)⟩

/-! ### `exp10` -/

theorem log_ten_bounds : (2.302585 : ℝ) < Real.log 10 ∧ Real.log 10 < 2.302586 := by
  have h := _root_.abs_le.mp log_ten
  rw [ln10] at h
  norm_num at h ⊢
  constructor <;> linarith

theorem xexp10_all (h : Nearest 53 (-1074) rnd) (fused : Bool) (hm : m.Ok) (hd : Rep 53 (-1074) d)
    (hs : m = .scalar → |d| ≤ 2 ^ 27) :
    ∃ r, xexp10 rnd fused m (.fin d) = some r ∧ Within 53 (-1074) 1024 2.9 (10 ^ (d : ℝ)) r := by
  have hl := log_two_bounds
  have hl10 := log_ten_bounds
  have hT : rnd 308.25471555991671 = 5422874305198590 * 2 ^ (-44 : ℤ) := by
    have := rnd_lit h (c := 308.25471555991671) (k := 5422874305198590) (e := -44) (by norm_num) (by norm_num) (by norm_num)
      (by norm_num [abs_lt])
    rw [this]; norm_num
  have hq : ∃ q : ℤ, rintk rnd m (mul rnd d (rnd LOG10_2)) = some q :=
    rintk_mul h (by norm_num) (by norm_num) hs (by rw [rnd_LOG10_2 h]; norm_num [red10_64, abs_le])
  rw [ten_rpow]
  by_cases h1 : d < -350
  · obtain ⟨q, e1⟩ := hq
    unfold xexp10
    rw [select_fin (u := ldexp2k rnd 1024 _ q) (by rw [e1]; rfl)]
    refine ⟨_, rfl, ?_⟩
    rw [if_pos (by simpa using h1)]
    refine within_zero (by norm_num) (Real.exp_pos _).le (exp_le_zpow ?_)
    have h3 : (d : ℝ) < ((-350 : ℚ) : ℝ) := by exact_mod_cast h1
    push_cast at h3 ⊢; nlinarith
  by_cases h2 : rnd 308.25471555991671 < d
  · obtain ⟨q, e1⟩ := hq
    unfold xexp10
    rw [select_fin (u := ldexp2k rnd 1024 _ q) (by rw [e1]; rfl)]
    refine ⟨_, rfl, ?_⟩
    rw [if_neg (by simpa using h1), if_pos (by simpa using h2)]
    refine within_inf (by norm_num) (zpow_le_exp ?_)
    -- the next number of the format
    have h3 : (5422874305198591 : ℚ) / 2 ^ 44 ≤ d := by
      rw [hT] at h2
      have hm : Mult (-44) d := mult_of_ge hd (by
        rw [abs_of_pos (by norm_num at h2; linarith)]; norm_num at h2 ⊢; linarith)
      obtain ⟨k, hk⟩ := hm
      rw [hk] at h2 ⊢
      have h4 : (5422874305198590 : ℚ) < k := lt_of_mul_lt_mul_right h2 (by positivity)
      have h5 : (5422874305198591 : ℤ) ≤ k := by have : (5422874305198590 : ℤ) < k := by exact_mod_cast h4
                                                 omega
      have h6 : (5422874305198591 : ℚ) ≤ k := by exact_mod_cast h5
      rw [zpow_neg, ← div_eq_mul_inv]
      norm_num
      linarith
    have h3 : ((5422874305198591 / 2 ^ 44 : ℚ) : ℝ) ≤ (d : ℝ) := by exact_mod_cast h3
    have k1 := _root_.abs_le.mp log_two
    have k2 := _root_.abs_le.mp log_ten
    rw [ln2] at k1
    rw [ln10] at k2
    push_cast at h3 ⊢
    norm_num at k1 k2 h3
    nlinarith
  · push Not at h1 h2
    obtain ⟨q, e1, e2, e3, e4⟩ := exp10_64_reduced h (fused && m.isSimd) hm hd
      (abs_le.mpr ⟨h1, h2.trans (by rw [hT]; norm_num)⟩)
    unfold xexp10
    rw [select_fin (u := ldexp2k rnd 1024 _ q) (by rw [e1]; rfl)]
    refine ⟨_, rfl, ?_⟩
    rw [if_neg (by simpa using h1), if_neg (by simpa using h2)]
    generalize reduce2 rnd (fused && m.isSimd) L10U L10L q d = s at *
    cases hm' : m.isSimd
    · simp only [Bool.and_false, Bool.false_eq_true, if_false]
      rw [rnd_fMla]
      exact exp_finish (fmt64 h) (ap_mla natural_exp10Poly64 false) (fun x hx => exp10Poly64_approx hx) steps_ne last_steps
        chain_exp10_64 (by norm_num) e2 e3 e4 (by norm_num) (by norm_num) (by norm_num)
    · simp only [Bool.and_true, if_true]
      rw [rnd_fMla]
      cases fused
      · exact exp_finish (fmt64 h) (ap_mla natural_exp10Poly64simd false) (fun x hx => exp10Poly64simd_approx hx) steps_ne
          last_steps chain_exp10_64simd (by norm_num) e2 e3 e4 (by norm_num) (by norm_num) (by norm_num)
      · exact exp_finish (fmt64 h) (ap_mla natural_exp10Poly64simd true) (fun x hx => exp10Poly64simd_approx hx) steps_ne
          last_steps chain_exp10_64fma (by norm_num) e2 e3 e4 (by norm_num) (by norm_num) (by norm_num)

theorem xexp10f_all (h : Nearest 24 (-149) rnd) (hdd : Nearest 53 (-1074) rndd) (fused : Bool) (hm : m.Ok)
    (hd : Rep 24 (-149) d) (hs : m = .scalar → |d| ≤ 2 ^ 27) :
    ∃ r, xexp10f rnd fused m rndd (.fin d) = some r ∧ Within 24 (-149) 128 2.9 (10 ^ (d : ℝ)) r := by
  have hl := log_two_bounds
  have hl10 := log_ten_bounds
  have hT : rnd 38.5318394191036238941387 = 10100891 * 2 ^ (-18 : ℤ) := by
    have := rnd_lit h (c := 38.5318394191036238941387) (k := 10100891) (e := -18) (by norm_num) (by norm_num) (by norm_num)
      (by norm_num [abs_lt])
    rw [this]; norm_num
  have hq : ∃ q : ℤ, rintk rnd m (mul rnd d (rnd (rndd LOG10_2))) = some q :=
    rintk_mul h (by norm_num) (by norm_num) hs (by rw [rnd_LOG10_2f h hdd]; norm_num [red10_32, abs_le])
  rw [ten_rpow]
  by_cases h1 : d < -50
  · obtain ⟨q, e1⟩ := hq
    unfold xexp10f
    rw [select_fin (u := ldexp2k rnd 128 _ q) (by rw [e1]; rfl)]
    refine ⟨_, rfl, ?_⟩
    rw [if_pos (by simpa using h1)]
    refine within_zero (by norm_num) (Real.exp_pos _).le (exp_le_zpow ?_)
    have h3 : (d : ℝ) < ((-50 : ℚ) : ℝ) := by exact_mod_cast h1
    push_cast at h3 ⊢; nlinarith
  by_cases h2 : rnd 38.5318394191036238941387 < d
  · obtain ⟨q, e1⟩ := hq
    unfold xexp10f
    rw [select_fin (u := ldexp2k rnd 128 _ q) (by rw [e1]; rfl)]
    refine ⟨_, rfl, ?_⟩
    rw [if_neg (by simpa using h1), if_pos (by simpa using h2)]
    refine within_inf (by norm_num) (zpow_le_exp ?_)
    rw [hT] at h2
    have h3 : ((10100891 * 2 ^ (-18 : ℤ) : ℚ) : ℝ) < (d : ℝ) := by exact_mod_cast h2
    have k1 := _root_.abs_le.mp log_two
    have k2 := _root_.abs_le.mp log_ten
    rw [ln2] at k1
    rw [ln10] at k2
    push_cast at h3 ⊢
    norm_num at k1 k2 h3
    nlinarith
  · push Not at h1 h2
    obtain ⟨q, e1, e2, e3, e4⟩ := exp10_32_reduced h hdd (fused && m.isSimd) hm hd
      (abs_le.mpr ⟨h1, h2.trans (by rw [hT]; norm_num)⟩)
    unfold xexp10f
    rw [select_fin (u := ldexp2k rnd 128 _ q) (by rw [e1]; rfl)]
    refine ⟨_, rfl, ?_⟩
    rw [if_neg (by simpa using h1), if_neg (by simpa using h2)]
    generalize reduce2 rnd (fused && m.isSimd) L10Uf L10Lf q d = s at *
    rw [rnd_fMla]
    cases fused && m.isSimd
    · exact exp_finish (fmt32 h hdd) (ap_mla natural_exp10Poly32 false) (fun x hx => exp10Poly32_approx hx) steps_ne last_steps
        chain_exp10_32 (by norm_num) e2 e3 e4 (by norm_num) (by norm_num) (by norm_num)
    · exact exp_finish (fmt32 h hdd) (ap_mla natural_exp10Poly32 true) (fun x hx => exp10Poly32_approx hx) steps_ne last_steps
        chain_exp10_32fma (by norm_num) e2 e3 e4 (by norm_num) (by norm_num) (by norm_num)

/-- **exp10_u35, f64**, the documented bound. -/
theorem xexp10_within (h : Nearest 53 (-1074) rnd) (fused : Bool) (hm : m.Ok) (hd : Rep 53 (-1074) d)
    (hs : m = .scalar → |d| ≤ 2 ^ 27) :
    ∃ r, xexp10 rnd fused m (.fin d) = some r ∧ Within 53 (-1074) 1024 3.5 (10 ^ (d : ℝ)) r := by
  obtain ⟨r, h1, h2⟩ := xexp10_all h fused hm hd hs
  exact ⟨r, h1, h2.mono (by norm_num)⟩

/-- **exp10_u35, f32**, the documented bound. -/
theorem xexp10f_within (h : Nearest 24 (-149) rnd) (hdd : Nearest 53 (-1074) rndd) (fused : Bool) (hm : m.Ok)
    (hd : Rep 24 (-149) d) (hs : m = .scalar → |d| ≤ 2 ^ 27) :
    ∃ r, xexp10f rnd fused m rndd (.fin d) = some r ∧ Within 24 (-149) 128 3.5 (10 ^ (d : ℝ)) r := by
  obtain ⟨r, h1, h2⟩ := xexp10f_all h hdd fused hm hd hs
  exact ⟨r, h1, h2.mono (by norm_num)⟩

/-! ### Infinities, NaNs and the undefined conversion of the scalar code -/

/-- The SIMD code: `exp(+inf) = +inf`, `exp(-inf) = 0`, and a NaN gives a NaN, in the six functions. -/
theorem special_simd (rnd rndd : ℚ → ℚ) (fused : Bool) (near : ℚ → ℤ) :
    (∀ f ∈ [xexp rnd fused (.simd near), xexpf rnd fused (.simd near) rndd, xexp2 rnd fused (.simd near),
        xexp2f rnd fused (.simd near) rndd, xexp10 rnd fused (.simd near), xexp10f rnd fused (.simd near) rndd],
      f (.inf false) = some (.inf false) ∧ f (.inf true) = some (.fin 0) ∧ f .nan = some .nan) := by
  intro f hf
  simp only [List.mem_cons, List.not_mem_nil, or_false] at hf
  rcases hf with rfl | rfl | rfl | rfl | rfl | rfl <;> exact ⟨rfl, rfl, rfl⟩

/-- The scalar code converts its argument to `int` before it tests it: infinities and NaNs are undefined behaviour. -/
theorem special_scalar (rnd rndd : ℚ → ℚ) (fused : Bool) :
    (∀ f ∈ [xexp rnd fused .scalar, xexpf rnd fused .scalar rndd, xexp2 rnd fused .scalar, xexp2f rnd fused .scalar rndd,
        xexp10 rnd fused .scalar, xexp10f rnd fused .scalar rndd],
      f (.inf false) = none ∧ f (.inf true) = none ∧ f .nan = none) := by
  intro f hf
  simp only [List.mem_cons, List.not_mem_nil, or_false] at hf
  rcases hf with rfl | rfl | rfl | rfl | rfl | rfl <;> exact ⟨rfl, rfl, rfl⟩

/-- So does an argument of `exp2` that is too large for an `int`. -/
theorem xexp2_scalar_undefined (h : Nearest 53 (-1074) rnd) (fused : Bool) (hd : 2 ^ 31 ≤ d) :
    xexp2 rnd fused .scalar (.fin d) = none := by
  have h1 : (2 : ℚ) ^ 31 ≤ rnd (d + rnd (1 / 2)) := by
    have e1 : rnd (2 ^ 31) = 2 ^ 31 := h.fix ⟨2 ^ 31, 0, by norm_num, by norm_num, by norm_num⟩
    have e2 : 0 ≤ rnd (1 / 2) := by have := h.mono (show (0 : ℚ) ≤ 1 / 2 by norm_num); rwa [h.zero] at this
    have := h.mono (show (2 : ℚ) ^ 31 ≤ d + rnd (1 / 2) by linarith)
    rwa [e1] at this
  have h2 : (2 : ℤ) ^ 31 ≤ Fmod.truncQ (rnd (d + rnd (1 / 2))) := by
    unfold Fmod.truncQ
    rw [if_neg (by push Not; exact le_trans (by norm_num) h1)]
    exact Int.le_floor.mpr (by exact_mod_cast h1)
  have h0 : ¬ d < 0 := by push Not; exact le_trans (by norm_num) hd
  have h3 : rintk rnd .scalar d = none := by
    unfold rintk
    simp only [h0, if_false, add]
    rw [if_neg]
    push Not
    intro _; exact h2
  simp [xexp2, select, h3]

/-! ### The hypotheses can be met -/

/-- There is a rounding, a conversion and an argument, below the threshold and not an integer. -/
example : ∃ (rnd : ℚ → ℚ) (near : ℚ → ℤ) (d : ℚ), Nearest 53 (-1074) rnd ∧ (Mode.simd near).Ok ∧ Mode.scalar.Ok ∧
    Rep 53 (-1074) d ∧ d = 3 / 2 ∧ d ≤ rnd 709.78271114955742909217217426 ∧ |d| ≤ 2 ^ 27 := by
  obtain ⟨rnd, h⟩ := exists_nearest (p := 53) (by norm_num) (-1074)
  refine ⟨rnd, round, 3 / 2, h, fun y => ?_, trivial, ⟨3, -1, by norm_num, by norm_num, by norm_num⟩, rfl, ?_, by norm_num [abs_le]⟩
  · rw [abs_sub_comm]; exact abs_sub_round y
  · have := h.mono (show (3 / 2 : ℚ) ≤ 709.78271114955742909217217426 by norm_num)
    rwa [h.fix (q := 3 / 2) ⟨3, -1, by norm_num, by norm_num, by norm_num⟩] at this

/-- The same for f32. -/
example : ∃ (rnd rndd : ℚ → ℚ) (d : ℚ), Nearest 24 (-149) rnd ∧ Nearest 53 (-1074) rndd ∧ Rep 24 (-149) d ∧ d = -5 / 4 := by
  obtain ⟨rnd, h⟩ := exists_nearest (p := 24) (by norm_num) (-149)
  obtain ⟨rndd, hd⟩ := exists_nearest (p := 53) (by norm_num) (-1074)
  exact ⟨rnd, rndd, -5 / 4, h, hd, ⟨-5, -2, by norm_num, by norm_num, by norm_num⟩, rfl⟩

end Nsimd.Props.Exp
