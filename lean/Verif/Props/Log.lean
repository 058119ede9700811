import Verif.Lemmas.LogF32
import Verif.Lemmas.LogSplit

/-!
# Accuracy of `log_u35`
-/

namespace Nsimd.Props.Log
open Nsimd.Sleef Nsimd.DoubleDouble Nsimd.Float Nsimd.Props.Round Nsimd.Props.Hypot Nsimd.Round Nsimd.Hypot Nsimd.Props.Ulp

variable {p : ℕ} {emin emax : ℤ} {rnd : ℚ → ℚ} {d : ℚ}

/-! ### Parts of the proofs -/

theorem log_range {s : ℝ} (h1 : -0.2501 ≤ s) (h2 : s ≤ 0.5001) : -0.2879 ≤ Real.log (1 + s) ∧ Real.log (1 + s) ≤ 0.4057 := by
  constructor
  · have h3 := log_near32 (s := -0.2501) le_rfl (by norm_num)
    have h4 : Real.log (1 + -0.2501) ≤ Real.log (1 + s) := Real.log_le_log (by norm_num) (by linarith)
    refine le_trans ?_ h4
    have h5 := (_root_.abs_le.mp h3).2
    have e : |(-0.2501 : ℝ) / (2 + -0.2501)| ≤ 1 := by norm_num [abs_of_neg]
    have h6 : (-0.2501 : ℝ) / (2 + -0.2501) * Poly.eval logL32 ((-0.2501 / (2 + -0.2501)) ^ 2) ≥ -0.28785 := by
      simp only [logL32, Poly.eval_cons, Poly.eval_nil]; norm_num
    have h7 : 0.016 * (1 / 2 ^ 24) * |(-0.2501 : ℝ) / (2 + -0.2501)| ≤ 0.016 * (1 / 2 ^ 24) * 1 := mul_le_mul_of_nonneg_left e (by norm_num)
    norm_num at h7
    linarith
  · have h3 := log_near32 (s := 0.5001) (by norm_num) le_rfl
    have h4 : Real.log (1 + s) ≤ Real.log (1 + 0.5001) := Real.log_le_log (by linarith) (by linarith)
    refine h4.trans ?_
    have h5 := (_root_.abs_le.mp h3).1
    have e : |(0.5001 : ℝ) / (2 + 0.5001)| ≤ 1 := by norm_num [abs_of_pos]
    have h6 : (0.5001 : ℝ) / (2 + 0.5001) * Poly.eval logL32 ((0.5001 / (2 + 0.5001)) ^ 2) ≤ 0.4056 := by
      simp only [logL32, Poly.eval_cons, Poly.eval_nil]; norm_num
    have h7 : 0.016 * (1 / 2 ^ 24) * |(0.5001 : ℝ) / (2 + 0.5001)| ≤ 0.016 * (1 / 2 ^ 24) * 1 := mul_le_mul_of_nonneg_left e (by norm_num)
    norm_num at h7
    linarith

theorem logX_near_log {s : ℝ} (h1 : -0.2501 ≤ s) (h2 : s ≤ 0.5001) : |s / (2 + s) * 2 - Real.log (1 + s)| ≤ 0.0056 := by
  have h3 := log_near32 h1 h2
  have h4 := logX_abs h1 h2
  have e : s / (2 + s) * 2 - Real.log (1 + s) = s / (2 + s) * (2 - Poly.eval logL32 ((s / (2 + s)) ^ 2)) +
      (s / (2 + s) * Poly.eval logL32 ((s / (2 + s)) ^ 2) - Real.log (1 + s)) := by ring
  rw [e]
  refine (abs_add_le _ _).trans ?_
  have h5 : |2 - Poly.eval logL32 ((s / (2 + s)) ^ 2)| ≤ 0.0275 := by
    have ht0 : 0 ≤ (s / (2 + s)) ^ 2 := by positivity
    have ht1 : (s / (2 + s)) ^ 2 ≤ 0.04002 := by
      rw [← sq_abs]
      have := pow_le_pow_left₀ (abs_nonneg _) h4 2
      norm_num at this ⊢; linarith
    simp only [logL32, Poly.eval_cons, Poly.eval_nil]
    generalize (s / (2 + s)) ^ 2 = t at ht0 ht1
    push_cast
    have q1 : t * (0.2392828464508056640625 : ℝ) ≤ 0.01 := by linarith
    have q2 : t * (0.28518211841583251953125 + t * (0.2392828464508056640625 : ℝ)) ≤ 0.04002 * 0.3 := mul_le_mul ht1 (by linarith) (by positivity) (by norm_num)
    have q3 : t * (0.400005877017974853515625 + t * (0.28518211841583251953125 + t * (0.2392828464508056640625 : ℝ))) ≤ 0.04002 * 0.413 :=
      mul_le_mul ht1 (by linarith) (by positivity) (by norm_num)
    have q4 : t * (0.666666686534881591796875 + t * (0.400005877017974853515625 + t * (0.28518211841583251953125 + t * (0.2392828464508056640625 : ℝ)))) ≤ 0.04002 * 0.6835 :=
      mul_le_mul ht1 (by linarith) (by positivity) (by norm_num)
    have q5 : 0 ≤ t * (0.666666686534881591796875 + t * (0.400005877017974853515625 + t * (0.28518211841583251953125 + t * (0.2392828464508056640625 : ℝ)))) := by positivity
    rw [_root_.abs_le]
    constructor <;> linarith
  rw [abs_mul]
  have h6 : |s / (2 + s)| * |2 - Poly.eval logL32 ((s / (2 + s)) ^ 2)| ≤ 0.20004 * 0.0275 := mul_le_mul h4 h5 (abs_nonneg _) (by norm_num)
  have h7 : 0.016 * (1 / 2 ^ 24) * |s / (2 + s)| ≤ 0.016 * (1 / 2 ^ 24) * 0.20004 := mul_le_mul_of_nonneg_left h4 (by norm_num)
  norm_num at h6 h7 ⊢
  linarith

set_option maxRecDepth 100000 in
theorem logX_bd : ∀ fused, (logX (bdAlg 53 (-0.2501) 0.5001 fused) Bd.arg).ok && decide ((logX (bdAlg 53 (-0.2501) 0.5001 fused) Bd.arg).k = 1) &&
    decide ((logX (bdAlg 53 (-0.2501) 0.5001 fused) Bd.arg).a ≤ 1 / 2 ^ 40) && decide ((logX (bdAlg 53 (-0.2501) 0.5001 fused) Bd.arg).b ≤ 2000) = true := by
  decide +kernel

theorem eta64_le : eta (-1074) ≤ 1 / 2 ^ 200 := by
  have h1 : (2 : ℝ) ^ (-1074 : ℤ) ≤ 2 ^ (-200 : ℤ) := zpow_le_zpow_right₀ (by norm_num) (by norm_num)
  have e : (2 : ℝ) ^ (-200 : ℤ) = 1 / 2 ^ 200 := by rw [zpow_neg]; norm_num
  unfold eta
  rw [e] at h1
  have : (0 : ℝ) ≤ 2 ^ (-1074 : ℤ) := by positivity
  linarith

/-- `2 x` in `xlog` is near the logarithm. -/
theorem logX_near (h : Nearest 53 (-1074) rnd) (fused : Bool) {s : ℚ} (h1 : (-0.2501 : ℝ) ≤ s) (h2 : (s : ℝ) ≤ 0.5001) :
    |((logX (flAlg rnd rnd fused) s * 2 : ℚ) : ℝ) - Real.log (1 + s)| ≤ 0.006 := by
  have E : Env 53 (-1074) rnd rnd (s : ℝ) (-0.2501) 0.5001 :=
    ⟨by norm_num, by norm_num, h, lit_one h (by norm_num), by push_cast; norm_num at h1 ⊢; linarith, by push_cast; norm_num at h2 ⊢; linarith⟩
  have hok := logX_bd fused
  simp only [Bool.and_eq_true, decide_eq_true_eq] at hok
  obtain ⟨⟨⟨o1, o2⟩, o3⟩, o4⟩ := hok
  obtain ⟨a1, b1, e1, -⟩ := E.natural logX_natural fused o1
  rw [o2, pow_one, logX_re] at e1
  generalize logX (bdAlg 53 (-0.2501) 0.5001 fused) Bd.arg = B at *
  have ha : (B.a : ℝ) * |(s : ℝ)| ≤ 1 / 2 ^ 40 * 1 := by
    refine mul_le_mul ?_ ?_ (abs_nonneg _) (by norm_num)
    · have : (B.a : ℝ) ≤ ((1 / 2 ^ 40 : ℚ) : ℝ) := by exact_mod_cast o3
      push_cast at this; exact this
    · rw [_root_.abs_le]; constructor <;> linarith
  have hb : (B.b : ℝ) * eta (-1074) ≤ 1 / 2 ^ 100 := by
    have : (B.b : ℝ) ≤ 2000 := by exact_mod_cast o4
    have h3 := mul_le_mul_of_nonneg_right this (eta_pos (emin := -1074)).le
    have h4 := eta64_le
    norm_num at h4 ⊢
    linarith
  have h3 := logX_near_log h1 h2
  have e : ((logX (flAlg rnd rnd fused) s * 2 : ℚ) : ℝ) - Real.log (1 + s) =
      ((logX (flAlg rnd rnd fused) s : ℚ) - (s : ℝ) / (2 + s)) * 2 + ((s : ℝ) / (2 + s) * 2 - Real.log (1 + s)) := by push_cast; ring
  rw [e]
  refine (abs_add_le _ _).trans ?_
  rw [abs_mul, abs_of_pos (show (0 : ℝ) < 2 by norm_num)]
  norm_num at ha hb h3 ⊢
  linarith

/-- Facts on the significand. -/
theorem split_facts (h : Nearest p emin rnd) (hp : 20 ≤ p) (hmin : emin ≤ -100 - p) {m : ℚ} (hm : Mult (-(p : ℤ)) m) (h1 : 0.7499 ≤ m) (h2 : m ≤ 1.5001) (fused : Bool) :
    ∃ s : ℚ, m = 1 + s ∧ (-0.2501 : ℝ) ≤ s ∧ (s : ℝ) ≤ 0.5001 ∧ (s = 0 ∨ (1 : ℝ) / 2 ^ p ≤ |(s : ℝ)|) ∧
      (flAlg rnd rnd fused).div ((flAlg rnd rnd fused).sub m ((flAlg rnd rnd fused).lit 1)) ((flAlg rnd rnd fused).add m ((flAlg rnd rnd fused).lit 1)) =
        logX (flAlg rnd rnd fused) s := by
  have r1 : Rep p emin 1 := ⟨1, 0, by rw [abs_one]; exact one_lt_pow₀ (by norm_num) (by omega), by omega, by norm_num⟩
  have r2 : Rep p emin 2 := ⟨1, 1, by rw [abs_one]; exact one_lt_pow₀ (by norm_num) (by omega), by omega, by norm_num⟩
  have hms : Mult (-(p : ℤ)) (m - 1) := by
    obtain ⟨k, hk⟩ := hm
    refine ⟨k - 2 ^ p, ?_⟩
    rw [hk, zpow_neg, zpow_natCast]
    push_cast
    field_simp
  have hsr : Rep p emin (m - 1) := rep_of_mult (by omega) (by omega) hms (by
    rw [← zpow_natCast, ← zpow_add₀ (by norm_num)]
    simp only [add_neg_cancel, zpow_zero]
    rw [_root_.abs_le]; constructor <;> linarith)
  refine ⟨m - 1, by ring, ?_, ?_, ?_, ?_⟩
  · have : ((0.7499 : ℚ) : ℝ) ≤ m := by exact_mod_cast h1
    push_cast
    norm_num at this ⊢
    linarith
  · have : (m : ℝ) ≤ ((1.5001 : ℚ) : ℝ) := by exact_mod_cast h2
    push_cast
    norm_num at this ⊢
    linarith
  · obtain ⟨k, hk⟩ := hms
    by_cases hk0 : k = 0
    · left; rw [hk, hk0]; simp
    · right
      rw [hk]
      push_cast
      rw [zpow_neg, zpow_natCast, abs_mul, abs_of_pos (show (0 : ℝ) < (2 ^ p)⁻¹ by positivity), one_div]
      have : (1 : ℝ) ≤ |(k : ℝ)| := by
        have : (1 : ℤ) ≤ |k| := Int.one_le_abs hk0
        exact_mod_cast this
      exact le_mul_of_one_le_left (by positivity) this
  · simp only [logX, flAlg, sub, add]
    rw [h.fix r1, h.fix r2, h.fix hsr, show m - 1 + 2 = m + 1 by ring]

theorem ulp_le {y w : ℝ} (hp : 20 ≤ p) (hmin : emin ≤ -100 - p) (hw : IsUlp p emin |y| w) (hy : |y| ≤ 1024) : w ≤ 1 := by
  have h2p : (2 : ℝ) ^ 20 ≤ 2 ^ p := pow_le_pow_right₀ (by norm_num) hp
  obtain ⟨e, he, rfl, -, h8⟩ := hw
  rcases h8 with rfl | h8
  · exact zpow_le_one_of_nonpos₀ (by norm_num) (by omega)
  · have h9 : (2 : ℝ) ^ 20 * 2 ^ e ≤ 2 * 1024 := by
      have := mul_le_mul_of_nonneg_right h2p (show (0 : ℝ) ≤ 2 ^ e by positivity)
      linarith
    norm_num at h9; linarith

/-- A result near a value of moderate size is finite. -/
theorem within_of_err (hp : 20 ≤ p) (hmin : emin ≤ -100 - p) (hmax : 12 ≤ emax) {r : ℚ} {y : ℝ} (hr : Rep p emin r) (hy : |y| ≤ 1024)
    (herr : ∀ w, IsUlp p emin |y| w → |(r : ℝ) - y| ≤ 3.5 * w) : Within p emin emax 3.5 y (.fin r) := by
  refine ⟨hr, ?_, herr⟩
  have hex : ∃ w, IsUlp p emin |y| w := by
    by_cases h0 : y = 0
    · refine ⟨2 ^ emin, emin, le_rfl, rfl, ?_, Or.inl rfl⟩
      rw [h0, abs_zero]; positivity
    · exact exists_ulp p emin (abs_pos.mpr h0)
  obtain ⟨w, hw⟩ := hex
  have h1 := herr w hw
  have h2 := ulp_le hp hmin hw hy
  have h3 := abs_sub_abs_le_abs_sub (r : ℝ) y
  have h4 : |(r : ℝ)| < 4096 := by linarith
  have h5 : |r| < 4096 := by
    have : ((|r| : ℚ) : ℝ) < ((4096 : ℚ) : ℝ) := by rw [Rat.cast_abs]; push_cast; exact h4
    exact_mod_cast this
  refine h5.trans_le ?_
  have : (2 : ℚ) ^ (12 : ℤ) ≤ 2 ^ emax := zpow_le_zpow_right₀ (by norm_num) hmax
  norm_num at this; exact this

theorem log_abs_le (hmin : -1074 ≤ emin) (hmax : emax ≤ 1024) (hr : Rep p emin d) (h0 : 0 < d) (h1 : d < 2 ^ emax) : |Real.log (d : ℝ)| ≤ 1024 := by
  have h0' : (0 : ℝ) < d := by exact_mod_cast h0
  obtain ⟨l1, l2⟩ := log_two_bounds
  have hlo : (2 : ℝ) ^ (-1074 : ℤ) ≤ d := by
    obtain ⟨k, j, hk, hj, rfl⟩ := hr
    have hk0 : (0 : ℚ) < k := pos_of_mul_pos_left h0 (two_zpow_pos j).le
    have hk1 : (1 : ℚ) ≤ k := by exact_mod_cast (by exact_mod_cast hk0 : (0 : ℤ) < k)
    have hk1' : (1 : ℝ) ≤ k := by exact_mod_cast hk1
    have h3 : (2 : ℝ) ^ (-1074 : ℤ) ≤ 2 ^ j := zpow_le_zpow_right₀ (by norm_num) (by omega)
    push_cast
    exact h3.trans (le_mul_of_one_le_left (by positivity) hk1')
  have hhi : (d : ℝ) ≤ 2 ^ (1024 : ℤ) := by
    have h3 : (2 : ℚ) ^ emax ≤ 2 ^ (1024 : ℤ) := zpow_le_zpow_right₀ (by norm_num) hmax
    have : ((d : ℚ) : ℝ) ≤ ((2 ^ (1024 : ℤ) : ℚ) : ℝ) := by exact_mod_cast h1.le.trans h3
    push_cast at this ⊢; exact this
  have a1 := Real.log_le_log (by positivity) hlo
  have a2 := Real.log_le_log h0' hhi
  rw [Real.log_zpow] at a1 a2
  push_cast at a1 a2
  rw [_root_.abs_le]
  constructor <;> linarith

theorem logc64 (h : Nearest 53 (-1074) rnd) : rnd 0.693147180559945286226764 = 6243314768165359 * 2 ^ (-53 : ℤ) := by
  have := rnd_lit h (c := 0.693147180559945286226764) (k := 6243314768165359) (e := -53) (by norm_num) (by norm_num) (by norm_num)
    (by norm_num [abs_lt])
  simpa using this

theorem logc32 (h : Nearest 24 (-149) rnd) : rnd 0.693147180559945286226764 = 11629080 * 2 ^ (-24 : ℤ) := by
  have := rnd_lit h (c := 0.693147180559945286226764) (k := 11629080) (e := -24) (by norm_num) (by norm_num) (by norm_num)
    (by norm_num [abs_lt])
  simpa using this

theorem logc64_near : |((6243314768165359 * 2 ^ (-53 : ℤ) : ℚ) : ℝ) - Real.log 2| ≤ 0.209 * (1 / 2 ^ 53) := by
  have h1 := _root_.abs_le.mp log_two
  rw [_root_.abs_le]
  unfold ln2 at h1
  push_cast at h1 ⊢
  norm_num at h1 ⊢
  constructor <;> linarith [h1.1, h1.2]

theorem logc32_near : |((11629080 * 2 ^ (-24 : ℤ) : ℚ) : ℝ) - Real.log 2| ≤ 0.033 * (1 / 2 ^ 24) := by
  have h1 := _root_.abs_le.mp log_two
  rw [_root_.abs_le]
  unfold ln2 at h1
  push_cast at h1 ⊢
  norm_num at h1 ⊢
  constructor <;> linarith [h1.1, h1.2]

/-- The kernel of `xlog` on significand and exponent. -/
theorem kernel64 (h : Nearest 53 (-1074) rnd) (fused : Bool) {m : ℚ} {e : ℤ} (hm : Mult (-((53 : ℕ) : ℤ)) m) (h1 : 0.7499 ≤ m) (h2 : m ≤ 1.5001) :
    Rep 53 (-1074) (logKernel64 (flAlg rnd rnd fused) m e) ∧ ∀ w, IsUlp 53 (-1074) |e * Real.log 2 + Real.log m| w →
      |((logKernel64 (flAlg rnd rnd fused) m e : ℚ) : ℝ) - (e * Real.log 2 + Real.log m)| ≤ 3.5 * w := by
  obtain ⟨s, rfl, hs1, hs2, hs0, hxe⟩ := split_facts h (by norm_num) (by norm_num) hm h1 h2 fused
  have hcast : ((1 + s : ℚ) : ℝ) = 1 + (s : ℝ) := by push_cast; rfl
  rw [hcast]
  have hQ := logZ64_err h fused (s := s) (by exact_mod_cast (by norm_num at hs1 ⊢; linarith : ((-0.2501 : ℚ) : ℝ) ≤ s))
    (by exact_mod_cast (by norm_num at hs2 ⊢; linarith : (s : ℝ) ≤ ((0.5001 : ℚ) : ℝ)))
  have hη := eta64_le
  -- the result
  set c : ℚ := rnd 0.693147180559945286226764 with hc
  have hxrep : ∃ q, logX (flAlg rnd rnd fused) s = rnd q := ⟨_, rfl⟩
  have hX2 : rnd (logX (flAlg rnd rnd fused) s * 2) = logX (flAlg rnd rnd fused) s * 2 := by
    obtain ⟨q, hq⟩ := hxrep
    rw [hq]; exact h.fix (rep_two_mul (h.rep q))
  have r2 : rnd 2 = 2 := h.fix ⟨1, 1, by norm_num, by norm_num, by norm_num⟩
  have hk : logKernel64 (flAlg rnd rnd fused) (1 + s) e = rnd (logZ64 rnd fused s + rnd (c * e) +
      (rnd (logX (flAlg rnd rnd fused) s * 2 + rnd (c * e)) - (logX (flAlg rnd rnd fused) s * 2 + rnd (c * e)))) := by
    unfold logKernel64
    rw [hxe]
    have e0 : ∀ x3 t : ℚ, x3 = logX3 (flAlg rnd rnd fused) s → t = logT64 (flAlg rnd rnd fused) s →
        (flAlg rnd rnd fused).mla x3 t ((flAlg rnd rnd fused).mla (logX (flAlg rnd rnd fused) s) ((flAlg rnd rnd fused).lit 2)
          ((flAlg rnd rnd fused).mul ((flAlg rnd rnd fused).lit 0.693147180559945286226764) e)) = rnd (logZ64 rnd fused s + rnd (c * e) +
      (rnd (logX (flAlg rnd rnd fused) s * 2 + rnd (c * e)) - (logX (flAlg rnd rnd fused) s * 2 + rnd (c * e)))) := by
      rintro x3 t rfl rfl
      unfold logZ64
      cases fused
      · simp only [flAlg, add, mul, Bool.false_eq_true, if_false, r2] at hX2 ⊢
        rw [hX2]
        congr 1
        ring
      · simp only [flAlg, mul, fma, if_true, r2]
        congr 1
        ring
    exact e0 _ _ rfl rfl
  rw [hk]
  refine ⟨h.rep _, fun w hw => ?_⟩
  obtain ⟨hL1, hL2⟩ := log_range hs1 hs2
  by_cases he : e = 0
  · subst he
    have hP : rnd (c * ((0 : ℤ) : ℚ)) = 0 := by rw [Int.cast_zero, mul_zero, h.zero]
    rw [hP, add_zero, add_zero, hX2, sub_self, add_zero]
    simp only [Int.cast_zero, zero_mul, zero_add] at hw ⊢
    rcases hs0 with hs0 | hs0
    · subst hs0
      have : logZ64 rnd fused 0 = 0 := by
        have hx0 : logX (flAlg rnd rnd fused) 0 = 0 := by simp [logX, flAlg, h.zero]
        unfold logZ64
        simp only [logX3, hx0]
        have h0 : (flAlg rnd rnd fused).mul 0 ((flAlg rnd rnd fused).mul 0 0) = 0 := by simp [flAlg, mul, h.zero]
        rw [h0]
        cases fused <;> simp [h.zero]
      rw [this, h.zero]
      have := hw.le.2.2
      simp
      linarith
    · have h3 := Poly.log_abs (s := (s : ℝ)) (by linarith)
      have h4 : |(s : ℝ)| / 3 ≤ |(s : ℝ) / (2 + s)| := by
        rw [abs_div, abs_of_pos (show (0 : ℝ) < 2 + s by linarith)]
        exact div_le_div_of_nonneg_left (abs_nonneg _) (by linarith) (by linarith)
      have h5 := hw.le.2.1
      have h6 : 2000 * eta (-1074) ≤ 0.035 * w := by
        have h7 : 1 / 2 ^ 53 * (1 / 2 ^ 54) ≤ w := by
          refine le_trans (mul_le_mul_of_nonneg_left ?_ (by positivity)) h5
          norm_num at hs0 h3 h4 ⊢
          linarith
        norm_num at h7 hη ⊢
        linarith
      have := round_err' h (z := logZ64 rnd fused s) (by norm_num) hw (κ := 2.5) (by linarith) (by norm_num)
      linarith
  · refine log_combine64 h (by norm_num) (by norm_num) he (h.rep _) ?_ hL1 hL2 (hQ.trans ?_) (logX_near h fused hs1 hs2) hw rfl
    · rw [logc64 h]; exact logc64_near
    · norm_num at hη ⊢
      linarith

/-- The kernel of `xlogf` on significand and exponent. -/
theorem kernel32 (h : Nearest 24 (-149) rnd) (fused : Bool) {m : ℚ} {e : ℤ} (hm : Mult (-((24 : ℕ) : ℤ)) m) (h1 : 0.7499 ≤ m) (h2 : m ≤ 1.5001) :
    Rep 24 (-149) (logKernel32 (flAlg rnd rnd fused) m e) ∧ ∀ w, IsUlp 24 (-149) |e * Real.log 2 + Real.log m| w →
      |((logKernel32 (flAlg rnd rnd fused) m e : ℚ) : ℝ) - (e * Real.log 2 + Real.log m)| ≤ 3.5 * w := by
  obtain ⟨s, rfl, hs1, hs2, hs0, hxe⟩ := split_facts h (by norm_num) (by norm_num) hm h1 h2 fused
  have hcast : ((1 + s : ℚ) : ℝ) = 1 + (s : ℝ) := by push_cast; rfl
  rw [hcast]
  have hs2' : s ≤ 0.5001 := by exact_mod_cast (by norm_num at hs2 ⊢; linarith : (s : ℝ) ≤ ((0.5001 : ℚ) : ℝ))
  have hQ := logZ32_err h fused (s := s) (by exact_mod_cast (by norm_num at hs1 ⊢; linarith : ((-0.2501 : ℚ) : ℝ) ≤ s)) hs2'
  have hη : eta (-149) ≤ 1 / 2 ^ 149 := by unfold eta; norm_num
  set c : ℚ := rnd 0.693147180559945286226764 with hc
  have hk : logKernel32 (flAlg rnd rnd fused) (1 + s) e =
      rnd ((if fused then logZ32 rnd fused s else rnd (logZ32 rnd fused s)) + rnd (c * e)) := by
    unfold logKernel32
    rw [hxe]
    cases fused <;> rfl
  rw [hk]
  refine ⟨h.rep _, fun w hw => ?_⟩
  obtain ⟨hL1, hL2⟩ := log_range hs1 hs2
  by_cases he : e = 0
  · subst he
    have hP : rnd (c * ((0 : ℤ) : ℚ)) = 0 := by rw [Int.cast_zero, mul_zero, h.zero]
    rw [hP, add_zero]
    simp only [Int.cast_zero, zero_mul, zero_add] at hw ⊢
    have hr : rnd (if fused then logZ32 rnd fused s else rnd (logZ32 rnd fused s)) = rnd (logZ32 rnd fused s) := by
      cases fused
      · simp only [Bool.false_eq_true, if_false]; exact h.fix (h.rep _)
      · rfl
    rw [hr]
    rcases hs0 with hs0 | hs0
    · subst hs0
      have : logZ32 rnd fused 0 = 0 := by
        have hx0 : logX (flAlg rnd rnd fused) 0 = 0 := by simp [logX, flAlg, h.zero]
        unfold logZ32
        rw [hx0, zero_mul]
      rw [this, h.zero]
      have := hw.le.2.2
      simp
      linarith
    · have := round_err' h (by norm_num) hw (κ := 2.5) (logZ32_ulp h fused hs0 hs1 hs2 hw) (by norm_num)
      linarith
  · have hη' : 2000 * eta (-149) ≤ 0.000001 * (1 / 2 ^ 24) := by norm_num at hη ⊢; linarith
    have hLa : |Real.log (1 + (s : ℝ))| ≤ 0.4057 := by rw [_root_.abs_le]; constructor <;> linarith
    have hQh : |((logZ32 rnd fused s : ℚ) : ℝ)| ≤ 2 ^ (-1 : ℤ) := by
      have h3 := abs_add_le (Real.log (1 + (s : ℝ))) ((logZ32 rnd fused s : ℚ) - Real.log (1 + s))
      rw [add_sub_cancel] at h3
      norm_num at h3 hQ hLa hη ⊢
      linarith
    have hr := half_pow h (by norm_num) (-1) (by norm_num) hQh
    refine log_combine32 h (by norm_num) (by norm_num) he (h.rep _) ?_ hL1 hL2 (hQ.trans (by linarith)) (fun h26 => ?_) ?_ hw
      (ρ := ((if fused then logZ32 rnd fused s else rnd (logZ32 rnd fused s) : ℚ) : ℝ) - (logZ32 rnd fused s : ℚ)) (by push_cast; ring)
    · rw [logc32 h]; exact logc32_near
    · have h28 : 0.28 ≤ s := by
        by_contra hcon
        push Not at hcon
        have hcon' : (s : ℝ) < 0.28 := by
          have : (s : ℝ) < ((0.28 : ℚ) : ℝ) := by exact_mod_cast hcon
          norm_num at this ⊢; linarith
        have h3 : Real.log (1 + (s : ℝ)) ≤ Real.log (1 + 0.28) := Real.log_le_log (by linarith) (by linarith)
        have h5 := (_root_.abs_le.mp (log_near32 (s := 0.28) (by norm_num) (by norm_num))).1
        have e1 : |(0.28 : ℝ) / (2 + 0.28)| ≤ 1 := by norm_num [abs_of_pos]
        have h6 : (0.28 : ℝ) / (2 + 0.28) * Poly.eval logL32 ((0.28 / (2 + 0.28)) ^ 2) ≤ 0.25 := by
          simp only [logL32, Poly.eval_cons, Poly.eval_nil]; norm_num
        have h7 : 0.016 * (1 / 2 ^ 24) * |(0.28 : ℝ) / (2 + 0.28)| ≤ 0.016 * (1 / 2 ^ 24) * 1 := mul_le_mul_of_nonneg_left e1 (by norm_num)
        norm_num at h7
        linarith
      exact (logZ32_err' h fused h28 hs2').trans (by linarith)
    · cases fused
      · simp only [Bool.false_eq_true, if_false]
        norm_num at hr ⊢
        linarith
      · simp only [if_true, sub_self, abs_zero]
        positivity

theorem log_split_eq {m : ℚ} {e : ℤ} (hd : d = m * 2 ^ e) (hm : 0 < m) : Real.log (d : ℝ) = e * Real.log 2 + Real.log m := by
  have hm' : (m : ℝ) ≠ 0 := by exact_mod_cast hm.ne'
  rw [hd]
  push_cast
  rw [Real.log_mul hm' (by positivity), Real.log_zpow]
  ring

/-! ### The functions -/

/-- **log_u35, f64**: 3.5 ulps for all positive numbers, subnormal ones included. -/
theorem xlog_within (h : Nearest 53 (-1074) rnd) (simd fused : Bool) (hr : Rep 53 (-1074) d) (h0 : 0 < d) (h1 : d < 2 ^ (1024 : ℤ)) :
    Within 53 (-1074) 1024 3.5 (Real.log d) (xlog rnd simd fused (.fin d)) := by
  simp only [xlog, logWith, if_neg h0.ne', if_neg (not_lt.mpr h0.le)]
  rcases hs : logSplit rnd (-1074) 1024 53 d with ⟨m, e⟩
  obtain ⟨hd, hm, hm1, hm2⟩ := logSplit_spec h (by norm_num) (by norm_num) (by norm_num) hr h0 (by norm_num) h1 hs
  obtain ⟨k1, k2⟩ := kernel64 h (simd && fused) (e := e) hm hm1 hm2
  refine within_of_err (by norm_num) (by norm_num) (by norm_num) k1 (log_abs_le le_rfl le_rfl hr h0 h1) ?_
  rw [log_split_eq hd (by linarith)]
  exact k2

/-- **log_u35, f32**: 3.5 ulps for all positive numbers, subnormal ones included. -/
theorem xlogf_within (h : Nearest 24 (-149) rnd) (simd fused : Bool) (hr : Rep 24 (-149) d) (h0 : 0 < d) (h1 : d < 2 ^ (128 : ℤ)) :
    Within 24 (-149) 128 3.5 (Real.log d) (xlogf rnd simd fused (.fin d)) := by
  simp only [xlogf, logWith, if_neg h0.ne', if_neg (not_lt.mpr h0.le)]
  rcases hs : logSplit rnd (-149) 128 24 d with ⟨m, e⟩
  obtain ⟨hd, hm, hm1, hm2⟩ := logSplit_spec h (by norm_num) (by norm_num) (by norm_num) hr h0 (by norm_num) h1 hs
  obtain ⟨k1, k2⟩ := kernel32 h (simd && fused) (e := e) hm hm1 hm2
  refine within_of_err (by norm_num) (by norm_num) (by norm_num) k1 (log_abs_le (by norm_num) (by norm_num) hr h0 h1) ?_
  rw [log_split_eq hd (by linarith)]
  exact k2

/-- The logarithm of zero is minus infinity, that of a negative number and of minus infinity is NaN, that of infinity is infinity,
NaN is kept. -/
theorem log_special (rnd : ℚ → ℚ) (simd fused : Bool) :
    (xlog rnd simd fused (.fin 0) = .inf true ∧ xlog rnd simd fused (.inf false) = .inf false ∧ xlog rnd simd fused (.inf true) = .nan ∧
      xlog rnd simd fused .nan = .nan ∧ ∀ d : ℚ, d < 0 → xlog rnd simd fused (.fin d) = .nan) ∧
    (xlogf rnd simd fused (.fin 0) = .inf true ∧ xlogf rnd simd fused (.inf false) = .inf false ∧ xlogf rnd simd fused (.inf true) = .nan ∧
      xlogf rnd simd fused .nan = .nan ∧ ∀ d : ℚ, d < 0 → xlogf rnd simd fused (.fin d) = .nan) := by
  refine ⟨⟨rfl, rfl, rfl, rfl, fun d hd => ?_⟩, ⟨rfl, rfl, rfl, rfl, fun d hd => ?_⟩⟩
  · simp only [xlog, logWith, if_neg hd.ne, if_pos hd]
  · simp only [xlogf, logWith, if_neg hd.ne, if_pos hd]

/-- The logarithm of one is zero without any error. -/
theorem log_one_exact (h : Nearest p emin rnd) (hp : 20 ≤ p) (hmin : emin ≤ -100 - p) (fused : Bool) :
    logKernel64 (flAlg rnd rnd fused) 1 0 = 0 ∧ logKernel32 (flAlg rnd rnd fused) 1 0 = 0 := by
  have r1 : rnd 1 = 1 := h.fix ⟨1, 0, by rw [abs_one]; exact one_lt_pow₀ (by norm_num) (by omega), by omega, by norm_num⟩
  constructor
  · simp only [logKernel64, flAlg, r1]
    cases fused <;> simp [sub, add, mul, fma, h.zero]
  · simp only [logKernel32, flAlg, r1]
    cases fused <;> simp [sub, add, mul, fma, h.zero]

/-- There is a rounding, and the logarithm of the least subnormal number is within 3.5 ulps. -/
example : ∃ rnd, Nearest 53 (-1074) rnd ∧
    Within 53 (-1074) 1024 3.5 (Real.log ((2 ^ (-1074 : ℤ) : ℚ) : ℝ)) (xlog rnd true true (.fin (2 ^ (-1074 : ℤ)))) := by
  obtain ⟨rnd, h⟩ := exists_nearest (p := 53) (by norm_num) (-1074)
  exact ⟨rnd, h, xlog_within h true true ⟨1, -1074, by norm_num, le_rfl, by simp⟩ (two_zpow_pos _) (zpow_lt_zpow_right₀ (by norm_num) (by norm_num))⟩

end Nsimd.Props.Log
