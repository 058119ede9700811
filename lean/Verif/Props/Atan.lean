import Verif.Lemmas.AtanFinish
import Verif.Lemmas.ExpReduce

/-!
# Accuracy of `atan_u35`
-/

namespace Nsimd.Props.Atan
open Nsimd.Sleef Nsimd.DoubleDouble Nsimd.Float Nsimd.Props.Round Nsimd.Props.Hypot Nsimd.Round Nsimd.Hypot Nsimd.Props.Ulp

variable {p : ℕ} {emin emax : ℤ} {rnd rndd : ℚ → ℚ} {x : ℚ}

theorem atan_recip {x : ℝ} (hx : 0 < x) : Real.arctan x = Real.pi / 2 - Real.arctan (1 / x) := by
  rw [one_div, Real.arctan_inv_of_pos hx]; ring

/-- Error of the reduction, the kernel and the reconstruction. -/
theorem atanWith_within (h : Nearest p emin rnd) (hp : 20 ≤ p) (hmin : emin ≤ -100 - p) (hmax : 2 ≤ emax) {fused : Bool}
    {poly : {α : Type} → Alg α → α → α} {k H : ℚ} (Z : AtanZ p emin rnd fused poly k) (hk : 0.5 ≤ k) (hk1 : k ≤ 0.8)
    (hH : |(H : ℝ) - Real.pi / 2| ≤ k * (1 / 2 ^ p)) (hHm : Mult (-(p : ℤ)) H) :
    Within p emin emax 3.5 (Real.arctan x) (atanWith rnd fused poly H (.fin x)) := by
  -- the absolute value
  have key : ∀ a : ℚ, 0 ≤ a → ∀ w, IsUlp p emin |Real.arctan a| w →
      |(((if 1 < a then sub rnd H (atanKernel (flAlg rnd rnd fused) poly (rnd (1 / a)))
        else atanKernel (flAlg rnd rnd fused) poly a : ℚ)) : ℝ) - Real.arctan a| ≤ 3.5 * w := by
    intro a ha w hw
    rw [atanKernel_eq, atanKernel_eq]
    split_ifs with h1
    · have ha0 : (0 : ℝ) < a := by have : (0 : ℚ) < a := by linarith
                                   exact_mod_cast this
      rw [atan_recip ha0] at hw ⊢
      have e : (1 : ℝ) / a = ((1 / a : ℚ) : ℝ) := by push_cast; rfl
      rw [e] at hw ⊢
      refine atan_gt_one h hp hmin Z hk hk1 hH hHm (by positivity) ?_ hw
      rw [div_le_one (by linarith)]; exact h1.le
    · exact atan_le_one h hp Z hk ha (not_lt.mp h1) hw
  have hrep : ∀ a : ℚ, ∃ z, (if 1 < a then sub rnd H (atanKernel (flAlg rnd rnd fused) poly (rnd (1 / a)))
        else atanKernel (flAlg rnd rnd fused) poly a) = rnd z := by
    intro a
    split_ifs
    · exact ⟨_, rfl⟩
    · exact ⟨_, atanKernel_eq _ _ _⟩
  obtain ⟨z, hz⟩ := hrep |x|
  have habs : Real.arctan |(x : ℝ)| = |Real.arctan x| := by
    rcases le_total 0 (x : ℝ) with h0 | h0
    · rw [abs_of_nonneg h0, abs_of_nonneg (by rwa [Real.arctan_nonneg])]
    · rw [abs_of_nonpos h0, Real.arctan_neg, abs_of_nonpos (by have := arctan_mono h0; rwa [Real.arctan_zero] at this)]
  have herr : ∀ w, IsUlp p emin |Real.arctan x| w →
      |(((if x < 0 then -rnd z else rnd z : ℚ)) : ℝ) - Real.arctan x| ≤ 3.5 * w := by
    intro w hw
    have h1 := key |x| (abs_nonneg x) w (by push_cast; rwa [habs, abs_abs])
    rw [hz] at h1
    push_cast at h1
    split_ifs with h2
    · have h2' : (x : ℝ) < 0 := by exact_mod_cast h2
      rw [abs_of_neg h2', Real.arctan_neg] at h1
      rw [← abs_neg]
      push_cast
      convert h1 using 2
      ring
    · have h2' : (0 : ℝ) ≤ x := by exact_mod_cast not_lt.mp h2
      rwa [abs_of_nonneg h2'] at h1
  have hpos : Rep p emin (if x < 0 then -rnd z else rnd z) := by
    split_ifs
    · exact rep_neg (h.rep z)
    · exact h.rep z
  show Within p emin emax 3.5 _ (.fin (if x < 0 then -_ else _))
  rw [hz]
  refine ⟨hpos, ?_, herr⟩
  -- the result is far from the greatest number
  have hy : |Real.arctan (x : ℝ)| ≤ 2 := by
    have := Real.pi_le_four
    rw [_root_.abs_le]
    constructor
    · linarith [Real.neg_pi_div_two_lt_arctan (x : ℝ)]
    · linarith [Real.arctan_lt_pi_div_two (x : ℝ)]
  have h4 : |((if x < 0 then -rnd z else rnd z : ℚ) : ℝ)| < 4 := by
    by_cases h0 : x = 0
    · subst h0
      have hz0 : rnd z = 0 := by
        rw [← hz]
        simp only [abs_zero]
        rw [if_neg (by norm_num), atanKernel_eq]
        have : atanZ rnd fused poly 0 = 0 := by
          unfold atanZ
          cases fused <;> simp [h.zero]
        rw [this, h.zero]
      rw [hz0]; simp
    · have hne : 0 < |Real.arctan (x : ℝ)| := by
        rw [abs_pos, Ne, Real.arctan_eq_zero_iff]; exact_mod_cast h0
      obtain ⟨w, hw⟩ := exists_ulp p emin hne
      have h6 := herr w hw
      have h7 : w ≤ 1 / 2 ^ 18 := by
        have h2p : (2 : ℝ) ^ 20 ≤ 2 ^ p := pow_le_pow_right₀ (by norm_num) hp
        obtain ⟨e, he, rfl, -, h8⟩ := hw
        rcases h8 with rfl | h8
        · have h1 : (2 : ℝ) ^ e ≤ 2 ^ (-100 : ℤ) := zpow_le_zpow_right₀ (by norm_num) (by omega)
          norm_num at h1 ⊢; linarith
        · have h9 : (2 : ℝ) ^ 20 * 2 ^ e ≤ 2 * 2 := by
            have := mul_le_mul_of_nonneg_right h2p (show (0 : ℝ) ≤ 2 ^ e by positivity)
            linarith
          norm_num at h9 ⊢; linarith
      have h8 := abs_sub_abs_le_abs_sub ((if x < 0 then -rnd z else rnd z : ℚ) : ℝ) (Real.arctan x)
      have h9 : 3.5 * w ≤ 3.5 * (1 / 2 ^ 18) := mul_le_mul_of_nonneg_left h7 (by norm_num)
      norm_num at h9
      linarith
  have h5 : |if x < 0 then -rnd z else rnd z| < 4 := by
    have : ((|if x < 0 then -rnd z else rnd z| : ℚ) : ℝ) < ((4 : ℚ) : ℝ) := by rw [Rat.cast_abs]; push_cast; exact h4
    exact_mod_cast this
  refine h5.trans_le ?_
  have : (2 : ℚ) ^ (2 : ℤ) ≤ 2 ^ emax := zpow_le_zpow_right₀ (by norm_num) hmax
  norm_num at this; exact this

theorem halfPi64_eq (h : Nearest 53 (-1074) rnd) (simd : Bool) : halfPi64 rnd simd = 7074237752028440 * 2 ^ (-52 : ℤ) := by
  cases simd
  · have := rnd_lit h (c := 1.570796326794896557998982) (k := 7074237752028440) (e := -52) (by norm_num) (by norm_num) (by norm_num)
      (by norm_num [abs_lt])
    simpa [halfPi64] using this
  · have h1 := rnd_lit h (c := M_PI) (k := 7074237752028440) (e := -51) (by norm_num) (by norm_num) (by norm_num)
      (by norm_num [M_PI, abs_lt])
    simp only [halfPi64, if_true, h1]
    have h2 : ((7074237752028440 : ℤ) : ℚ) * 2 ^ (-51 : ℤ) / 2 = (7074237752028440 : ℤ) * 2 ^ (-52 : ℤ) := by norm_num
    rw [h2, h.fix ⟨7074237752028440, -52, by norm_num, by norm_num, rfl⟩]
    norm_num

theorem halfPi32_eq (h : Nearest 24 (-149) rnd) (hd : Nearest 53 (-1074) rndd) (simd : Bool) :
    halfPi32 rnd simd rndd = 13176795 * 2 ^ (-23 : ℤ) := by
  cases simd
  · have := rnd_lit h (c := 1.570796326794896557998982) (k := 13176795) (e := -23) (by norm_num) (by norm_num) (by norm_num)
      (by norm_num [abs_lt])
    simpa [halfPi32] using this
  · have e : rndd (rndd M_PI / 2) = 7074237752028440 * 2 ^ (-52 : ℤ) := halfPi64_eq hd true
    have := rnd_lit h (c := 7074237752028440 * 2 ^ (-52 : ℤ)) (k := 13176795) (e := -23) (by norm_num) (by norm_num) (by norm_num)
      (by norm_num [abs_lt])
    simp only [halfPi32, if_true, e]
    rw [this]; norm_num

theorem halfPi64_near : |((7074237752028440 * 2 ^ (-52 : ℤ) : ℚ) : ℝ) - Real.pi / 2| ≤ ((0.552 : ℚ) : ℝ) * (1 / 2 ^ 53) := by
  have h1 := Real.pi_gt_d20
  have h2 := Real.pi_lt_d20
  rw [_root_.abs_le]
  norm_num at h1 h2 ⊢
  constructor <;> linarith

theorem halfPi32_near : |((13176795 * 2 ^ (-23 : ℤ) : ℚ) : ℝ) - Real.pi / 2| ≤ ((0.734 : ℚ) : ℝ) * (1 / 2 ^ 24) := by
  have h1 := Real.pi_gt_d20
  have h2 := Real.pi_lt_d20
  rw [_root_.abs_le]
  norm_num at h1 h2 ⊢
  constructor <;> linarith

theorem atanZ64 (h : Nearest 53 (-1074) rnd) (fused : Bool) : AtanZ 53 (-1074) rnd fused atanPoly64 0.552 := by
  cases fused
  · exact atanZ_of h (by norm_num) (by norm_num) atanPoly_64 (by norm_num) atanTiny64_false atanAll64_false
  · exact atanZ_of h (by norm_num) (by norm_num) atanPoly_64 (by norm_num) atanTiny64_true atanAll64_true

theorem atanZ32 (h : Nearest 24 (-149) rnd) (fused : Bool) : AtanZ 24 (-149) rnd fused atanPoly32 0.734 := by
  cases fused
  · exact atanZ_of h (by norm_num) (by norm_num) atanPoly_32 (by norm_num) atanTiny32_false atanAll32_false
  · exact atanZ_of h (by norm_num) (by norm_num) atanPoly_32 (by norm_num) atanTiny32_true atanAll32_true

/-- **atan_u35, f64**: 3.5 ulps for all arguments. -/
theorem xatan_within (h : Nearest 53 (-1074) rnd) (simd fused : Bool) (x : ℚ) :
    Within 53 (-1074) 1024 3.5 (Real.arctan x) (xatan rnd simd fused (.fin x)) := by
  unfold xatan
  rw [halfPi64_eq h]
  exact atanWith_within h (by norm_num) (by norm_num) (by norm_num) (atanZ64 h _) (by norm_num) (by norm_num) halfPi64_near
    ⟨14148475504056880, by norm_num⟩

/-- **atan_u35, f32**: 3.5 ulps for all arguments. -/
theorem xatanf_within (h : Nearest 24 (-149) rnd) (hd : Nearest 53 (-1074) rndd) (simd fused : Bool) (x : ℚ) :
    Within 24 (-149) 128 3.5 (Real.arctan x) (xatanf rnd simd fused rndd (.fin x)) := by
  unfold xatanf
  rw [halfPi32_eq h hd]
  exact atanWith_within h (by norm_num) (by norm_num) (by norm_num) (atanZ32 h _) (by norm_num) (by norm_num) halfPi32_near
    ⟨26353590, by norm_num⟩

theorem atanKernel_zero (h : Nearest p emin rnd) (fused : Bool) (poly : {α : Type} → Alg α → α → α) :
    atanKernel (flAlg rnd rnd fused) poly 0 = 0 := by
  rw [atanKernel_eq]
  have : atanZ rnd fused poly 0 = 0 := by
    unfold atanZ
    cases fused <;> simp [h.zero]
  rw [this, h.zero]

/-- At the infinities the result is the nearest number of a half of pi, with the sign. -/
theorem xatan_inf (h : Nearest 53 (-1074) rnd) (simd fused neg : Bool) :
    xatan rnd simd fused (.inf neg) = .fin ((if neg then -1 else 1) * (7074237752028440 / 2 ^ 52)) := by
  unfold xatan
  rw [halfPi64_eq h]
  simp only [atanWith, atanKernel_zero h, sub, sub_zero]
  rw [h.fix (show Rep 53 (-1074) (7074237752028440 * 2 ^ (-52 : ℤ)) from ⟨7074237752028440, -52, by norm_num, by norm_num, by norm_num⟩)]
  cases neg <;> norm_num

theorem xatanf_inf (h : Nearest 24 (-149) rnd) (hd : Nearest 53 (-1074) rndd) (simd fused neg : Bool) :
    xatanf rnd simd fused rndd (.inf neg) = .fin ((if neg then -1 else 1) * (13176795 / 2 ^ 23)) := by
  unfold xatanf
  rw [halfPi32_eq h hd]
  simp only [atanWith, atanKernel_zero h, sub, sub_zero]
  rw [h.fix (show Rep 24 (-149) (13176795 * 2 ^ (-23 : ℤ)) from ⟨13176795, -23, by norm_num, by norm_num, by norm_num⟩)]
  cases neg <;> norm_num

/-- It is the nearest number of a half of pi. -/
theorem halfPi_nearest :
    (∀ f : ℚ, Rep 53 (-1074) f → |((7074237752028440 / 2 ^ 52 : ℚ) : ℝ) - Real.pi / 2| ≤ |(f : ℝ) - Real.pi / 2|) ∧
    (∀ f : ℚ, Rep 24 (-149) f → |((13176795 / 2 ^ 23 : ℚ) : ℝ) - Real.pi / 2| ≤ |(f : ℝ) - Real.pi / 2|) := by
  have gen : ∀ (p : ℕ) (emin : ℤ) (k : ℤ) (f : ℚ), 1 ≤ p → Rep p emin f → |((k * 2 ^ (1 - (p : ℤ)) : ℚ) : ℝ) - Real.pi / 2| ≤ 1 / 2 ^ p →
      |((k * 2 ^ (1 - (p : ℤ)) : ℚ) : ℝ) - Real.pi / 2| ≤ |(f : ℝ) - Real.pi / 2| ∨ |f| < 1 := by
    intro p emin k f hp hf hk
    by_cases h1 : |f| < 1
    · exact Or.inr h1
    · left
      obtain ⟨j, rfl⟩ := mult_of_ge (e := 1 - (p : ℤ)) hf (by
        rw [pow_eq_zpow, show (p : ℤ) + (1 - p - 1) = 0 by ring, zpow_zero]; exact not_lt.mp h1)
      rcases eq_or_ne j k with rfl | hjk
      · exact le_refl _
      · have h2 : (1 : ℝ) ≤ |((j - k : ℤ) : ℝ)| := by
          have : (1 : ℤ) ≤ |j - k| := Int.one_le_abs (sub_ne_zero.mpr hjk)
          exact_mod_cast this
        have e2 : (2 : ℝ) ^ (1 - (p : ℤ)) = 2 * (1 / 2 ^ p) := by
          rw [zpow_sub₀ (by norm_num), zpow_one, zpow_natCast, mul_one_div]
        have h3 : 2 * (1 / 2 ^ p) ≤ |((j * 2 ^ (1 - (p : ℤ)) : ℚ) : ℝ) - ((k * 2 ^ (1 - (p : ℤ)) : ℚ) : ℝ)| := by
          push_cast
          rw [e2, ← sub_mul, abs_mul, abs_of_pos (show (0 : ℝ) < 2 * (1 / 2 ^ p) by positivity)]
          push_cast at h2
          have := mul_le_mul_of_nonneg_right h2 (show (0 : ℝ) ≤ 2 * (1 / 2 ^ p) by positivity)
          linarith
        have h4 := abs_sub_le ((j * 2 ^ (1 - (p : ℤ)) : ℚ) : ℝ) (Real.pi / 2) ((k * 2 ^ (1 - (p : ℤ)) : ℚ) : ℝ)
        rw [abs_sub_comm (Real.pi / 2)] at h4
        linarith
  have hpi := Real.pi_gt_d2
  have far : ∀ f : ℚ, |f| < 1 → 0.5 ≤ |(f : ℝ) - Real.pi / 2| := by
    intro f hf
    have h1 : (f : ℝ) ≤ 1 := by exact_mod_cast (abs_lt.mp hf).2.le
    rw [abs_of_neg (by linarith)]
    linarith
  constructor
  · intro f hf
    have h1 := halfPi64_near
    have e : ((7074237752028440 / 2 ^ 52 : ℚ) : ℝ) = (((7074237752028440 : ℤ) * 2 ^ (1 - ((53 : ℕ) : ℤ)) : ℚ) : ℝ) := by norm_num
    have e' : ((7074237752028440 * 2 ^ (-52 : ℤ) : ℚ) : ℝ) = (((7074237752028440 : ℤ) * 2 ^ (1 - ((53 : ℕ) : ℤ)) : ℚ) : ℝ) := by norm_num
    rw [e'] at h1
    rw [e]
    rcases gen 53 (-1074) 7074237752028440 f (by norm_num) hf (h1.trans (by norm_num)) with h2 | h2
    · exact h2
    · refine (h1.trans ?_).trans (far f h2); norm_num
  · intro f hf
    have h1 := halfPi32_near
    have e : ((13176795 / 2 ^ 23 : ℚ) : ℝ) = (((13176795 : ℤ) * 2 ^ (1 - ((24 : ℕ) : ℤ)) : ℚ) : ℝ) := by norm_num
    have e' : ((13176795 * 2 ^ (-23 : ℤ) : ℚ) : ℝ) = (((13176795 : ℤ) * 2 ^ (1 - ((24 : ℕ) : ℤ)) : ℚ) : ℝ) := by norm_num
    rw [e'] at h1
    rw [e]
    rcases gen 24 (-149) 13176795 f (by norm_num) hf (h1.trans (by norm_num)) with h2 | h2
    · exact h2
    · refine (h1.trans ?_).trans (far f h2); norm_num

/-- NaN is kept. -/
theorem atan_nan (rnd rndd : ℚ → ℚ) (simd fused : Bool) :
    xatan rnd simd fused .nan = .nan ∧ xatanf rnd simd fused rndd .nan = .nan := ⟨rfl, rfl⟩

/-- There is a rounding, and the arctangent of a thousand is within 3.5 ulps. -/
example : ∃ rnd, Nearest 53 (-1074) rnd ∧ Within 53 (-1074) 1024 3.5 (Real.arctan (1000 : ℚ)) (xatan rnd true true (.fin 1000)) := by
  obtain ⟨rnd, h⟩ := exists_nearest (p := 53) (by norm_num) (-1074)
  exact ⟨rnd, h, xatan_within h true true 1000⟩

end Nsimd.Props.Atan
