import Verif.Model.Log
import Verif.Lemmas.LogNear
import Verif.Lemmas.AtanBound

/-!
# Error of the kernels of `log` for a significand `m = 1 + s`
-/

set_option linter.unusedSimpArgs false

namespace Nsimd.Sleef
open Nsimd.DoubleDouble Nsimd.Float Nsimd.Props.Round Nsimd.Props.Hypot Nsimd.Round Nsimd.Hypot Nsimd.Props.Ulp

variable {p : ℕ} {emin emax : ℤ} {rnd lt : ℚ → ℚ}

section kernels
variable {α : Type} (A : Alg α)

/-- `x`. Proof helper. -/
def logX (s : α) : α := A.div s (A.add s (A.lit 2))

/-- `x * x2`. Proof helper. -/
def logX3 (s : α) : α := A.mul (logX A s) (A.mul (logX A s) (logX A s))

/-- `t` in `xlog`. Proof helper. -/
def logT64 (s : α) : α := logPoly64 A (A.mul (logX A s) (logX A s))

/-- `t` in `xlogf`. Proof helper. -/
def logT32 (s : α) : α := logPoly32 A (A.mul (logX A s) (logX A s))

end kernels

theorem logX_natural : Natural logX := by natural [logX]
theorem logX3_natural : Natural logX3 := by natural [logX3, logX]
theorem logT64_natural : Natural logT64 := by natural [logT64, logPoly64, logX]
theorem logT32_natural : Natural logT32 := by natural [logT32, logPoly32, logX]

/-- The sum that `xlog` computes if `e = 0`, without its last rounding. Proof helper. -/
def logZ64 (rnd : ℚ → ℚ) (fused : Bool) (s : ℚ) : ℚ :=
  let A := flAlg rnd rnd fused
  (if fused then logX3 A s * logT64 A s else rnd (logX3 A s * logT64 A s)) + logX A s * 2

/-- Bound of it. Proof helper. -/
def logB64 (p : ℕ) (fused : Bool) (xl xu : ℚ) : Bd :=
  let A := bdAlg p xl xu fused
  let M := Bd.mulE (max |xl| |xu|) (logX3 A Bd.arg) (logT64 A Bd.arg)
  Bd.addE xl xu (if fused then M else M.round p) (Bd.mulE (max |xl| |xu|) (logX A Bd.arg) (Bd.pt 2))

theorem logZ64_ap {s xl xu : ℚ} (E : Env p emin rnd rnd (s : ℝ) xl xu) (fused : Bool) :
    Ap (eta emin) s (logZ64 rnd fused s : ℚ) (logX3 reAlg (s : ℝ) * logT64 reAlg (s : ℝ) + logX reAlg (s : ℝ) * 2)
      (logB64 p fused xl xu) := by
  have hx := E.natural logX_natural fused
  have hx3 := E.natural logX3_natural fused
  have ht := E.natural logT64_natural fused
  have h2 : Ap (eta emin) (s : ℝ) 2 2 (Bd.pt 2) := by simpa using Ap.pt (η := eta emin) (x := (s : ℝ)) 2
  have hm := E.mulE hx3 ht
  have hx2 := E.mulE hx h2
  unfold logZ64 logB64
  cases fused
  · simp only [Bool.false_eq_true, if_false]
    have hr := E.round (v := logX3 (flAlg rnd rnd false) s * logT64 (flAlg rnd rnd false) s) (by push_cast; exact hm)
    have := E.addE hr hx2
    push_cast at this ⊢
    exact this
  · simp only [if_true]
    have := E.addE hm hx2
    push_cast at this ⊢
    exact this

/-- `x * t` in `xlogf` without rounding of the product. Proof helper. -/
def logZ32 (rnd : ℚ → ℚ) (fused : Bool) (s : ℚ) : ℚ := logX (flAlg rnd rnd fused) s * logT32 (flAlg rnd rnd fused) s

/-- Bound of it. Proof helper. -/
def logB32 (p : ℕ) (fused : Bool) (xl xu : ℚ) : Bd :=
  Bd.mulE (max |xl| |xu|) (logX (bdAlg p xl xu fused) Bd.arg) (logT32 (bdAlg p xl xu fused) Bd.arg)

theorem logZ32_ap {s xl xu : ℚ} (E : Env p emin rnd rnd (s : ℝ) xl xu) (fused : Bool) :
    Ap (eta emin) s (logZ32 rnd fused s : ℚ) (logX reAlg (s : ℝ) * logT32 reAlg (s : ℝ)) (logB32 p fused xl xu) := by
  have := E.mulE (E.natural logX_natural fused) (E.natural logT32_natural fused)
  unfold logZ32 logB32
  push_cast
  exact this

/-- Coefficients of `(x * 2 + x * x2 * t) / x` in `xlog`. Proof helper. -/
def logL64 : List ℚ := [2, 0.6666666666667778740063, 0.399999999950799600689777, 0.285714294746548025383248, 0.222221366518767365905163,
  0.181863266251982985677316, 0.152519917006351951593857, 0.153487338491425068243146]

/-- Coefficients of `t` in `xlogf`. Proof helper. -/
def logL32 : List ℚ := [2, 0.666666686534881591796875, 0.400005877017974853515625, 0.28518211841583251953125, 0.2392828464508056640625]

theorem logX_re (s : ℝ) : logX reAlg s = s / (2 + s) := by
  simp only [logX, reAlg]; push_cast; rw [add_comm]

theorem log_re64 (s : ℝ) : logX3 reAlg s * logT64 reAlg s + logX reAlg s * 2 = s / (2 + s) * Poly.eval logL64 ((s / (2 + s)) ^ 2) := by
  simp only [logX3, logT64, logX_re]
  generalize s / (2 + s) = x
  simp only [logPoly64, Alg.poly7, Alg.poly3, Alg.poly4, reAlg, logL64, Poly.eval_cons, Poly.eval_nil]
  push_cast
  ring

theorem log_re32 (s : ℝ) : logX reAlg s * logT32 reAlg s = s / (2 + s) * Poly.eval logL32 ((s / (2 + s)) ^ 2) := by
  simp only [logT32, logX_re]
  generalize s / (2 + s) = x
  simp only [logPoly32, reAlg, logL32, Poly.eval_cons, Poly.eval_nil]
  push_cast
  ring

/-- `s` and `log (1 + s)`. -/
theorem abs_le_log {s : ℝ} (hs : -1 < s) : |s| ≤ (1 + max s 0 / 2) * |Real.log (1 + s)| := by
  rcases le_total 0 s with h | h
  · have h1 := Poly.two_mul_le_log h
    have h2 : 0 < 2 + s := by linarith
    have h3 : 0 ≤ s / (2 + s) := div_nonneg h h2.le
    have h4 : s = (1 + s / 2) * (2 * (s / (2 + s))) := by field_simp
    rw [abs_of_nonneg h, abs_of_nonneg (by linarith), max_eq_left h]
    calc s = (1 + s / 2) * (2 * (s / (2 + s))) := h4
      _ ≤ _ := mul_le_mul_of_nonneg_left h1 (by linarith)
  · have h1 := Real.log_le_sub_one_of_pos (show 0 < 1 + s by linarith)
    rw [abs_of_nonpos h, abs_of_nonpos (by linarith), max_eq_right h]
    linarith

/-- Is the error at most `c` times the logarithm in units of `2 ^ -p`? Proof helper. -/
def logOk (p : ℕ) (c : ℚ) (bd : ℚ → ℚ → Bd) (xl xu : ℚ) : Bool :=
  let B := bd xl xu
  B.ok && decide (B.k = 1) && decide (-1 < xl) && decide (B.a * (1 + max xu 0 / 2) ≤ c / 2 ^ p) && decide (B.b ≤ 2000)

theorem log_rel {s xl xu c : ℚ} {bd : ℚ → ℚ → Bd} {v : ℚ} {r ε : ℝ} (hl : (xl : ℝ) ≤ s) (hu : (s : ℝ) ≤ xu) (h : Ap (eta emin) s v r (bd xl xu))
    (hok : logOk p c bd xl xu = true) (hr : |r - Real.log (1 + s)| ≤ ε * (1 / 2 ^ p) * |(s : ℝ) / (2 + s)|) (hε : 0 ≤ ε) :
    |(v : ℝ) - Real.log (1 + s)| ≤ (c + ε / 2) * (1 / 2 ^ p) * |Real.log (1 + s)| + 2000 * eta emin := by
  simp only [logOk, Bool.and_eq_true, decide_eq_true_eq] at hok
  obtain ⟨⟨⟨⟨o1, o2⟩, o3⟩, o4⟩, o5⟩ := hok
  obtain ⟨a1, b1, e1, -⟩ := h o1
  rw [o2, pow_one] at e1
  have hs : (-1 : ℝ) < s := lt_of_lt_of_le (by exact_mod_cast o3) hl
  have h1 := abs_le_log hs
  have h2 := Poly.log_abs hs
  have a1' : (0 : ℝ) ≤ (bd xl xu).a := by exact_mod_cast a1
  have b5 : ((bd xl xu).b : ℝ) ≤ 2000 := by exact_mod_cast o5
  have o4' : ((bd xl xu).a : ℝ) * (1 + max (xu : ℝ) 0 / 2) ≤ c * (1 / 2 ^ p) := by
    have : (((bd xl xu).a * (1 + max xu 0 / 2) : ℚ) : ℝ) ≤ ((c / 2 ^ p : ℚ) : ℝ) := by exact_mod_cast o4
    push_cast at this; rw [mul_one_div]; exact this
  have hη := eta_pos (emin := emin)
  have h3 : (bd xl xu).a * |(s : ℝ)| ≤ c * (1 / 2 ^ p) * |Real.log (1 + s)| := by
    calc (bd xl xu).a * |(s : ℝ)| ≤ (bd xl xu).a * ((1 + max (s : ℝ) 0 / 2) * |Real.log (1 + s)|) := mul_le_mul_of_nonneg_left h1 a1'
      _ ≤ (bd xl xu).a * ((1 + max (xu : ℝ) 0 / 2) * |Real.log (1 + s)|) := by
        refine mul_le_mul_of_nonneg_left (mul_le_mul_of_nonneg_right ?_ (abs_nonneg _)) a1'
        have := max_le_max hu (le_refl (0 : ℝ))
        linarith
      _ = (bd xl xu).a * (1 + max (xu : ℝ) 0 / 2) * |Real.log (1 + s)| := by ring
      _ ≤ _ := mul_le_mul_of_nonneg_right o4' (abs_nonneg _)
  have h4 : ε * (1 / 2 ^ p) * |(s : ℝ) / (2 + s)| ≤ ε / 2 * (1 / 2 ^ p) * |Real.log (1 + s)| := by
    have : (0 : ℝ) ≤ ε / 2 * (1 / 2 ^ p) := by positivity
    have := mul_le_mul_of_nonneg_left h2 this
    linarith
  have h5 : ((bd xl xu).b : ℝ) * eta emin ≤ 2000 * eta emin := mul_le_mul_of_nonneg_right b5 hη.le
  have h6 := abs_sub_le (v : ℝ) r (Real.log (1 + s))
  calc _ ≤ _ := h6
    _ ≤ c * (1 / 2 ^ p) * |Real.log (1 + s)| + 2000 * eta emin + ε / 2 * (1 / 2 ^ p) * |Real.log (1 + s)| := by linarith
    _ = _ := by ring

/-- Bounds of `x`. -/
theorem logX_abs {s : ℝ} (h1 : -0.2501 ≤ s) (h2 : s ≤ 0.5001) : |s / (2 + s)| ≤ 0.20004 := by
  have h : (0 : ℝ) < 2 + s := by linarith
  rw [_root_.abs_le, div_le_iff₀ h, le_div_iff₀ h]
  constructor <;> linarith

set_option maxRecDepth 100000 in
theorem logDiff64 : Poly.check (Poly.diff logL64 (fun i => 2 / (2 * i + 1)) 14) (0.8 / 2 ^ 53) 10000
    (10 ^ 24 * 10000 ^ 13 * 3 ^ 3 * 5 ^ 2 * 7 * 11 * 13 * 17 * 19 * 23) 0 3 67 = true := by decide +kernel

set_option maxRecDepth 100000 in
theorem logDiff32 : Poly.check (Poly.diff logL32 (fun i => 2 / (2 * i + 1)) 8) (0.015 / 2 ^ 24) 1000
    (10 ^ 24 * 1000 ^ 7 * 3 ^ 3 * 5 ^ 2 * 7 * 11 * 13) 0 1 21 = true := by decide +kernel

theorem log_near64 {s : ℝ} (h1 : -0.2501 ≤ s) (h2 : s ≤ 0.5001) :
    |s / (2 + s) * Poly.eval logL64 ((s / (2 + s)) ^ 2) - Real.log (1 + s)| ≤ 0.81 * (1 / 2 ^ 53) * |s / (2 + s)| := by
  refine (Poly.log_near (n := 14) (ε := 0.8 * (1 / 2 ^ 53)) (X := 0.20004) (by decide) ?_ (by norm_num) (by linarith) (logX_abs h1 h2)).trans ?_
  · intro t ht ht'
    have := Poly.check_sound logDiff64 (x := t) (by push_cast; positivity) (by push_cast; norm_num at ht' ⊢; linarith)
    push_cast at this ⊢
    norm_num at this ⊢
    exact this
  · exact mul_le_mul_of_nonneg_right (by norm_num) (abs_nonneg _)

theorem log_near32 {s : ℝ} (h1 : -0.2501 ≤ s) (h2 : s ≤ 0.5001) :
    |s / (2 + s) * Poly.eval logL32 ((s / (2 + s)) ^ 2) - Real.log (1 + s)| ≤ 0.016 * (1 / 2 ^ 24) * |s / (2 + s)| := by
  refine (Poly.log_near (n := 8) (ε := 0.015 * (1 / 2 ^ 24)) (X := 0.20004) (by decide) ?_ (by norm_num) (by linarith) (logX_abs h1 h2)).trans ?_
  · intro t ht ht'
    have := Poly.check_sound logDiff32 (x := t) (by push_cast; positivity) (by push_cast; norm_num at ht' ⊢; linarith)
    push_cast at this ⊢
    norm_num at this ⊢
    exact this
  · exact mul_le_mul_of_nonneg_right (by norm_num) (abs_nonneg _)

/-- Breakpoints for `xlog`. Proof helper. -/
def logPts64 : List ℚ := [0, 0.04, 0.093, 0.16, 0.241, 0.329, 0.412, 0.473, 0.5001]

/-- Breakpoints for `xlogf`. Proof helper. -/
def logPts32 : List ℚ := [0, 0.028, 0.065, 0.115, 0.178, 0.231, 0.294, 0.364, 0.43, 0.5001]

/-- Breakpoints for `xlogf` and a large significand. Proof helper. -/
def logPts32' : List ℚ := [0.304, 0.326, 0.345, 0.37, 0.391, 0.416, 0.444, 0.471, 0.491, 0.5001]

set_option maxRecDepth 100000 in
theorem logChain64_false : chain (logOk 53 2.06 (logB64 53 false)) (-0.2501) (logPts64) = true := by decide +kernel

set_option maxRecDepth 100000 in
theorem logChain64_true : chain (logOk 53 2.06 (logB64 53 true)) (-0.2501) (logPts64) = true := by decide +kernel

set_option maxRecDepth 100000 in
theorem logChain32_false : chain (logOk 24 3.06 (logB32 24 false)) (-0.2501) (logPts32) = true := by decide +kernel

set_option maxRecDepth 100000 in
theorem logChain32_true : chain (logOk 24 3.06 (logB32 24 true)) (-0.2501) (logPts32) = true := by decide +kernel

set_option maxRecDepth 100000 in
theorem logChain32'_false : chain (logOk 24 2.96 (logB32 24 false)) 0.28 logPts32' = true := by
  decide +kernel

set_option maxRecDepth 100000 in
theorem logChain32'_true : chain (logOk 24 2.96 (logB32 24 true)) 0.28 logPts32' = true := by
  decide +kernel

/-- Error of `xlog` for `e = 0` before the last rounding. -/
theorem logZ64_err (h : Nearest 53 (-1074) rnd) (fused : Bool) {s : ℚ} (h1 : -0.2501 ≤ s) (h2 : s ≤ 0.5001) :
    |((logZ64 rnd fused s : ℚ) : ℝ) - Real.log (1 + s)| ≤ 2.465 * (1 / 2 ^ 53) * |Real.log (1 + s)| + 2000 * eta (-1074) := by
  have h1' : (-0.2501 : ℝ) ≤ s := by have : ((-0.2501 : ℚ) : ℝ) ≤ s := by exact_mod_cast h1
                                     norm_num at this ⊢; linarith
  have h2' : (s : ℝ) ≤ 0.5001 := by have : (s : ℝ) ≤ ((0.5001 : ℚ) : ℝ) := by exact_mod_cast h2
                                    norm_num at this ⊢; linarith
  have hc : chain (logOk 53 2.06 (logB64 53 fused)) (-0.2501) (logPts64) = true := by
    cases fused
    · exact logChain64_false
    · exact logChain64_true
  obtain ⟨xl, xu, hok, hxl, hxu⟩ := chain_sound hc (by decide) (x := (s : ℝ)) (by exact_mod_cast h1) (by
    have : lastD (-0.2501) (logPts64) = 0.5001 := by decide +kernel
    rw [this]; exact_mod_cast h2)
  have E : Env 53 (-1074) rnd rnd (s : ℝ) xl xu := ⟨by norm_num, by norm_num, h, lit_one h (by norm_num), hxl, hxu⟩
  have := log_rel (ε := 0.81) hxl hxu (logZ64_ap E fused) hok (by rw [log_re64]; exact log_near64 h1' h2') (by norm_num)
  refine this.trans (le_of_eq ?_)
  norm_num

/-- Error of `x * t` in `xlogf`. -/
theorem logZ32_err (h : Nearest 24 (-149) rnd) (fused : Bool) {s : ℚ} (h1 : -0.2501 ≤ s) (h2 : s ≤ 0.5001) :
    |((logZ32 rnd fused s : ℚ) : ℝ) - Real.log (1 + s)| ≤ 3.068 * (1 / 2 ^ 24) * |Real.log (1 + s)| + 2000 * eta (-149) := by
  have h1' : (-0.2501 : ℝ) ≤ s := by have : ((-0.2501 : ℚ) : ℝ) ≤ s := by exact_mod_cast h1
                                     norm_num at this ⊢; linarith
  have h2' : (s : ℝ) ≤ 0.5001 := by have : (s : ℝ) ≤ ((0.5001 : ℚ) : ℝ) := by exact_mod_cast h2
                                    norm_num at this ⊢; linarith
  have hc : chain (logOk 24 3.06 (logB32 24 fused)) (-0.2501) (logPts32) = true := by
    cases fused
    · exact logChain32_false
    · exact logChain32_true
  obtain ⟨xl, xu, hok, hxl, hxu⟩ := chain_sound hc (by decide) (x := (s : ℝ)) (by exact_mod_cast h1) (by
    have : lastD (-0.2501) (logPts32) = 0.5001 := by decide +kernel
    rw [this]; exact_mod_cast h2)
  have E : Env 24 (-149) rnd rnd (s : ℝ) xl xu := ⟨by norm_num, by norm_num, h, lit_one h (by norm_num), hxl, hxu⟩
  have := log_rel (ε := 0.016) hxl hxu (logZ32_ap E fused) hok (by rw [log_re32]; exact log_near32 h1' h2') (by norm_num)
  refine this.trans (le_of_eq ?_)
  norm_num

theorem logZ32_err' (h : Nearest 24 (-149) rnd) (fused : Bool) {s : ℚ} (h1 : 0.28 ≤ s) (h2 : s ≤ 0.5001) :
    |((logZ32 rnd fused s : ℚ) : ℝ) - Real.log (1 + s)| ≤ 2.968 * (1 / 2 ^ 24) * |Real.log (1 + s)| + 2000 * eta (-149) := by
  have h1' : (0.28 : ℝ) ≤ s := by have : ((0.28 : ℚ) : ℝ) ≤ s := by exact_mod_cast h1
                                  norm_num at this ⊢; linarith
  have h2' : (s : ℝ) ≤ 0.5001 := by have : (s : ℝ) ≤ ((0.5001 : ℚ) : ℝ) := by exact_mod_cast h2
                                    norm_num at this ⊢; linarith
  have hc : chain (logOk 24 2.96 (logB32 24 fused)) 0.28 logPts32' = true := by
    cases fused
    · exact logChain32'_false
    · exact logChain32'_true
  obtain ⟨xl, xu, hok, hxl, hxu⟩ := chain_sound hc (by decide) (x := (s : ℝ)) (by exact_mod_cast h1) (by exact_mod_cast h2)
  have E : Env 24 (-149) rnd rnd (s : ℝ) xl xu := ⟨by norm_num, by norm_num, h, lit_one h (by norm_num), hxl, hxu⟩
  have := log_rel (ε := 0.016) hxl hxu (logZ32_ap E fused) hok (by rw [log_re32]; exact log_near32 (by linarith) h2') (by norm_num)
  refine this.trans (le_of_eq ?_)
  norm_num

end Nsimd.Sleef
