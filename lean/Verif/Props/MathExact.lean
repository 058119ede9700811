import Verif.Props.Exp2Exact
import Verif.Model.Cosh

/-!
# Arguments at which the exponentials, `cosh` and the logarithms are exact
-/

namespace Nsimd.Props.MathExact
open Nsimd.Hypot Nsimd.Sleef Nsimd.DoubleDouble Nsimd.Float Nsimd.Round
open Nsimd.Props.Round Nsimd.Props.Hypot Nsimd.Props.Exp2Exact

variable {rnd rndd : ℚ → ℚ} {m : Mode} {p : ℕ} {emin : ℤ}

/-! ### Parts of the proofs -/

theorem rnd_zero (h : Nearest p emin rnd) (hmin : emin ≤ 0) : rnd 0 = 0 := h.fix ⟨0, 0, by simp, hmin, by simp⟩

theorem rnd_one (h : Nearest p emin rnd) (hp : 1 ≤ p) (hmin : emin ≤ 0) : rnd 1 = 1 := by simpa using h.fix (rep_pow (k := 0) hp hmin)

theorem rnd_half (h : Nearest p emin rnd) (hp : 1 ≤ p) (hmin : emin ≤ -1) : rnd (1 / 2) = 1 / 2 := by
  have := h.fix (rep_pow (k := -1) hp hmin)
  norm_num at this ⊢
  exact this

theorem rintk_zero (h : Nearest p emin rnd) (hp : 20 ≤ p) (hmin : emin ≤ -p - 1) (hm : m.Ok) (R : ℚ) : rintk rnd m (mul rnd 0 R) = some 0 := by
  have := rintk_int h hp hmin hm (k := 0) (by norm_num)
  rw [mul, zero_mul, rnd_zero h (by omega)]
  exact_mod_cast this

theorem reduce2_zero (h : Nearest p emin rnd) (hmin : emin ≤ 0) (b : Bool) (u l : ℚ) : reduce2 rnd b u l 0 0 = 0 := by
  cases b <;> simp [reduce2, flAlg, mul, add, fma, rnd_zero h hmin]

theorem expSum_zero (h : Nearest p emin rnd) (hp : 1 ≤ p) (hmin : emin ≤ 0) (lt : ℚ → ℚ) (hl : lt 1 = 1) (b c : Bool) (u : ℚ) :
    expSum (flAlg rnd lt b) c u 0 = 1 := by
  cases b <;> cases c <;> simp [expSum, flAlg, mul, add, fma, rnd_zero h hmin, rnd_one h hp hmin, hl]

theorem fma_zero (h : Nearest p emin rnd) (hp : 1 ≤ p) (hmin : emin ≤ 0) (lt : ℚ → ℚ) (hl : lt 1 = 1) (b : Bool) (u : ℚ) :
    (flAlg rnd lt b).fma u 0 ((flAlg rnd lt b).lit 1) = 1 := by
  simp [flAlg, fma, rnd_one h hp hmin, hl]

theorem ldexp2k_zero {emax : ℤ} (h : Nearest p emin rnd) (hp : 1 ≤ p) (hmin : emin ≤ 0) (hmax : 0 < emax) : ldexp2k rnd emax 1 0 = .fin 1 := by
  simpa using ldexp2k_one (k := 0) h hp hmin hmin hmax

theorem coshOf_one {emax : ℤ} (h : Nearest p emin rnd) (hp : 1 ≤ p) (hmin : emin ≤ -1) (hmax : 0 < emax) (b : Bool) :
    coshOf rnd b emax (.fin 1) = .fin 1 := by
  have e : coshSum rnd b 1 = 1 := by
    cases b <;> simp only [coshSum, mul, rnd_half h hp hmin, div_one, mul_one, if_true, Bool.false_eq_true, if_false] <;> norm_num
  simp only [coshOf, e, roundFl, rnd_one h hp (by omega), abs_one]
  rw [if_pos (one_lt_zpow₀ (by norm_num) hmax)]

theorem lit_nonneg (h : Nearest p emin rnd) (hmin : emin ≤ 0) {c : ℚ} (hc : 0 ≤ c) : ¬ rnd c < 0 := by
  have := h.mono hc
  rw [rnd_zero h hmin] at this
  exact not_lt.mpr this

/-! ### The theorems -/

/-- **exp_u10, exp10_u35 and cosh_u35, f64**: 1 for 0. -/
theorem exp_zero64 (h : Nearest 53 (-1074) rnd) (fused : Bool) (hm : m.Ok) :
    xexp rnd fused m (.fin 0) = some (.fin 1) ∧ xexp10 rnd fused m (.fin 0) = some (.fin 1) ∧ xcosh35 rnd fused m (.fin 0) = some (.fin 1) := by
  have o := rnd_one h (by norm_num) (by norm_num)
  have e : xexp rnd fused m (.fin 0) = some (.fin 1) := by
    simp only [xexp, select, rintk_zero h (by norm_num) (by norm_num) hm, Option.map_some, reduce2_zero h (by norm_num),
      expSum_zero h (by norm_num) (by norm_num) rnd o, fma_zero h (by norm_num) (by norm_num) rnd o, ite_self,
      ldexp2k_zero h (by norm_num) (by norm_num) (show (0 : ℤ) < 1024 by norm_num)]
    rw [if_neg (by norm_num), if_neg (by simpa using lit_nonneg h (by norm_num) (c := 709.78271114955742909217217426) (by norm_num))]
  refine ⟨e, ?_, ?_⟩
  · simp only [xexp10, select, rintk_zero h (by norm_num) (by norm_num) hm, Option.map_some, reduce2_zero h (by norm_num),
      mla_zero h (by norm_num) (by norm_num) rnd o, ldexp2k_zero h (by norm_num) (by norm_num) (show (0 : ℤ) < 1024 by norm_num)]
    rw [if_neg (by norm_num), if_neg (by simpa using lit_nonneg h (by norm_num) (c := 308.25471555991671) (by norm_num))]
  · simp [xcosh35, coshTests, fabs, e, coshOf_one h (by norm_num) (by norm_num) (show (0 : ℤ) < 1024 by norm_num)]

/-- **exp_u10, exp10_u35 and cosh_u35, f32**: 1 for 0. -/
theorem exp_zero32 (h : Nearest 24 (-149) rnd) (hd : Nearest 53 (-1074) rndd) (fused : Bool) (hm : m.Ok) :
    xexpf rnd fused m rndd (.fin 0) = some (.fin 1) ∧ xexp10f rnd fused m rndd (.fin 0) = some (.fin 1) ∧
      xcoshf35 rnd fused m rndd (.fin 0) = some (.fin 1) := by
  have o : rnd (rndd 1) = 1 := by rw [rnd_one hd (by norm_num) (by norm_num), rnd_one h (by norm_num) (by norm_num)]
  have e : xexpf rnd fused m rndd (.fin 0) = some (.fin 1) := by
    simp only [xexpf, select, rintk_zero h (by norm_num) (by norm_num) hm, Option.map_some, reduce2_zero h (by norm_num),
      expSum_zero h (by norm_num) (by norm_num) (fun c => rnd (rndd c)) o,
      ldexp2k_zero h (by norm_num) (by norm_num) (show (0 : ℤ) < 128 by norm_num)]
    rw [if_neg (by norm_num), if_neg (by split <;> norm_num)]
  refine ⟨e, ?_, ?_⟩
  · simp only [xexp10f, select, rintk_zero h (by norm_num) (by norm_num) hm, Option.map_some, reduce2_zero h (by norm_num),
      mla_zero h (by norm_num) (by norm_num) (fun c => rnd (rndd c)) o,
      ldexp2k_zero h (by norm_num) (by norm_num) (show (0 : ℤ) < 128 by norm_num)]
    rw [if_neg (by norm_num), if_neg (by simpa using lit_nonneg h (by norm_num) (c := 38.5318394191036238941387) (by norm_num))]
  · simp [xcoshf35, coshTests, fabs, e, coshOf_one h (by norm_num) (by norm_num) (show (0 : ℤ) < 128 by norm_num)]

/-- The splitting of 1. Proof helper. -/
theorem logSplit_one {emax : ℤ} (h : Nearest p emin rnd) (hp : 20 ≤ p) (hp' : p ≤ 64) (hmin : emin ≤ -100 - p) (hmax : 0 < emax) :
    logSplit rnd emin emax p 1 = (1, 0) := by
  rcases hs : logSplit rnd emin emax p 1 with ⟨m, e⟩
  obtain ⟨hde, -, hm1, hm2⟩ := logSplit_spec h hp hp' hmin (by simpa using rep_pow (p := p) (k := 0) (by omega) (by omega)) one_pos hmax.le
    (one_lt_zpow₀ (by norm_num) hmax) hs
  have hm : m = 2 ^ (-e) := by
    rw [zpow_neg]
    exact eq_inv_of_mul_eq_one_left hde.symm
  rw [hm] at hm1 hm2
  have hj := Log2Exact.pow_one hm1 hm2
  rw [hm, hj, zpow_zero, show e = 0 by omega]

/-- **log_u35, f64 and f32**: 0 for 1. -/
theorem log_one64 (h : Nearest 53 (-1074) rnd) (simd fused : Bool) : xlog rnd simd fused (.fin 1) = .fin 0 := by
  have z := rnd_zero h (by norm_num)
  simp only [xlog, logWith, logSplit_one h (by norm_num) (by norm_num) (by norm_num) (show (0 : ℤ) < 1024 by norm_num)]
  cases simd && fused <;> simp [logKernel64, flAlg, sub, mul, add, fma, z, rnd_one h (by norm_num) (by norm_num)]

theorem log_one32 (h : Nearest 24 (-149) rnd) (simd fused : Bool) : xlogf rnd simd fused (.fin 1) = .fin 0 := by
  have z := rnd_zero h (by norm_num)
  simp only [xlogf, logWith, logSplit_one h (by norm_num) (by norm_num) (by norm_num) (show (0 : ℤ) < 128 by norm_num)]
  cases simd && fused <;> simp [logKernel32, flAlg, sub, mul, add, fma, z, rnd_one h (by norm_num) (by norm_num)]

/-- A concrete case. -/
example : ∃ r : ℚ → ℚ, xexp r true .scalar (.fin 0) = some (.fin 1) ∧ xlog r true true (.fin 1) = .fin 0 := by
  obtain ⟨r, hr⟩ := exists_nearest (p := 53) (by norm_num) (-1074)
  exact ⟨r, (exp_zero64 hr true (m := .scalar) trivial).1, log_one64 hr true true⟩

example : ∃ r rd : ℚ → ℚ, xcoshf35 r true (.simd round) rd (.fin 0) = some (.fin 1) ∧ xlogf r true false (.fin 1) = .fin 0 := by
  obtain ⟨r, hr⟩ := exists_nearest (p := 24) (by norm_num) (-149)
  obtain ⟨rd, hrd⟩ := exists_nearest (p := 53) (by norm_num) (-1074)
  have hm : (Mode.simd round).Ok := fun y => by rw [abs_sub_comm]; exact abs_sub_round y
  exact ⟨r, rd, (exp_zero32 hr hrd true hm).2.2, log_one32 hr true false⟩

end Nsimd.Props.MathExact
