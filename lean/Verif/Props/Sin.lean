import Verif.Lemmas.SinFinish
import Verif.Lemmas.ExpReduce
import Verif.Props.Atan2

/-!
# Accuracy of `sin_u35` and `cos_u35` for arguments below 15, f64

The full statement is that the results are within 3.5 ulps for all finite arguments of both types. Missing in the theorems: arguments of
absolute value 15 and more, f32, infinities and NaN.
-/

namespace Nsimd.Props.Sin
open Nsimd.Sleef Nsimd.DoubleDouble Nsimd.Float Nsimd.Props.Round Nsimd.Props.Hypot Nsimd.Round Nsimd.Hypot Nsimd.Props.Ulp Nsimd.Props.Atan2

variable {rnd : ℚ → ℚ}

theorem piA (h : Nearest 53 (-1074) rnd) : rnd PI_A2 = 2 * sinH := by
  have := rnd_lit h (c := PI_A2) (k := 7074237752028440) (e := -51) (by norm_num) (by norm_num) (by norm_num) (by norm_num [PI_A2, abs_lt])
  rw [this]; norm_num [sinH]

theorem piB (h : Nearest 53 (-1074) rnd) : rnd PI_B2 = 2 * sinL := by
  have := rnd_lit h (c := PI_B2) (k := 4967757600021511) (e := -105) (by norm_num) (by norm_num) (by norm_num) (by norm_num [PI_B2, abs_lt])
  rw [this]; norm_num [sinL]

theorem halfA (h : Nearest 53 (-1074) rnd) : rnd (rnd PI_A2 * (1 / 2)) = sinH := by
  rw [piA h, show 2 * sinH * (1 / 2) = sinH by ring]
  exact h.fix ⟨7074237752028440, -52, by norm_num, by norm_num, by norm_num [sinH]⟩

theorem halfB (h : Nearest 53 (-1074) rnd) : rnd (rnd PI_B2 * (1 / 2)) = sinL := by
  rw [piB h, show 2 * sinL * (1 / 2) = sinL by ring]
  exact h.fix ⟨4967757600021511, -106, by norm_num, by norm_num, by norm_num [sinL]⟩

theorem inv_pi (h : Nearest 53 (-1074) rnd) {d : ℚ} (hd : |d| < 15) :
    |((d * rnd M_1_PI : ℚ) : ℝ) - d / Real.pi| ≤ 1e-13 ∧ |((d * rnd M_1_PI : ℚ) : ℝ)| ≤ 5 := by
  have hpi := Real.pi_pos
  have p1 := pi_gt_d34
  have p2 := pi_lt_d34
  have hc := rnd_lit h (c := M_1_PI) (k := 5734161139222659) (e := -54) (by norm_num) (by norm_num) (by norm_num) (by norm_num [M_1_PI, abs_lt])
  have hdR : |(d : ℝ)| ≤ 15 := by
    have : ((|d| : ℚ) : ℝ) ≤ ((15 : ℚ) : ℝ) := by exact_mod_cast hd.le
    push_cast at this; exact this
  have h1 : |((rnd M_1_PI : ℚ) : ℝ) - 1 / Real.pi| ≤ 1e-16 := by
    rw [hc]
    have e : (((5734161139222659 : ℤ) * 2 ^ (-54 : ℤ) : ℚ) : ℝ) - 1 / Real.pi =
        ((5734161139222659 * 2 ^ (-54 : ℤ)) * Real.pi - 1) / Real.pi := by
      push_cast; field_simp
    rw [e, abs_div, abs_of_pos hpi, div_le_iff₀ hpi, _root_.abs_le]
    norm_num at p1 p2 ⊢
    constructor <;> linarith
  have h2 : |((d * rnd M_1_PI : ℚ) : ℝ) - d / Real.pi| ≤ 1e-13 := by
    have e : ((d * rnd M_1_PI : ℚ) : ℝ) - d / Real.pi = d * (((rnd M_1_PI : ℚ) : ℝ) - 1 / Real.pi) := by push_cast; ring
    rw [e, abs_mul]
    have := mul_le_mul hdR h1 (abs_nonneg _) (by norm_num)
    linarith
  refine ⟨h2, ?_⟩
  rw [hc]
  push_cast
  rw [abs_mul, abs_of_pos (by norm_num : (0 : ℝ) < 5734161139222659 * 2 ^ (-54 : ℤ))]
  have := mul_le_mul_of_nonneg_right hdR (by norm_num : (0 : ℝ) ≤ 5734161139222659 * 2 ^ (-54 : ℤ))
  norm_num at this ⊢
  linarith

/-- From the rounded multiple to the rest. -/
theorem rest_le {d : ℚ} {q : ℤ} (hq : |(q : ℝ) - 2 * (d / Real.pi)| ≤ 1 + 1e-9) (hd : |d| < 15) :
    |(d : ℝ) - q * (Real.pi / 2)| ≤ 1.57082 ∧ |q| ≤ 10 := by
  have hpi := Real.pi_pos
  have p1 := Real.pi_gt_d6
  have p2 := Real.pi_lt_d6
  have hdR : |(d : ℝ)| ≤ 15 := by
    have : ((|d| : ℚ) : ℝ) ≤ ((15 : ℚ) : ℝ) := by exact_mod_cast hd.le
    push_cast at this; exact this
  constructor
  · have e : (d : ℝ) - q * (Real.pi / 2) = -((q : ℝ) - 2 * (d / Real.pi)) * (Real.pi / 2) := by field_simp; ring
    rw [e, abs_mul, abs_neg, abs_of_pos (by positivity : 0 < Real.pi / 2)]
    have := mul_le_mul hq (by linarith : Real.pi / 2 ≤ 1.5707965) (by positivity) (by norm_num)
    norm_num at this ⊢
    linarith
  · have h1 : |(d : ℝ) / Real.pi| ≤ 4.78 := by
      rw [abs_div, abs_of_pos hpi, div_le_iff₀ hpi]; linarith
    have h2 := abs_sub_abs_le_abs_sub (q : ℝ) (2 * (d / Real.pi))
    rw [abs_mul, abs_of_pos (by norm_num : (0 : ℝ) < 2)] at h2
    have h3 : |(q : ℝ)| < 11 := by linarith
    have h4 : |q| < 11 := by exact_mod_cast h3
    omega

/-- The finish for a reduced argument with either sign. -/
theorem finish_within (h : Nearest 53 (-1074) rnd) (fused neg : Bool) {d a b : ℚ} {q M : ℤ} (ha : q * a = M * sinH) (hb : q * b = M * sinL)
    (hd : Rep 53 (-1074) d) (hd15 : |d| < 15) (hq : |(M : ℝ) - 2 * (d / Real.pi)| ≤ 1 + 1e-9) {y : ℝ}
    (hy : y = if neg then -Real.sin (d - M * (Real.pi / 2)) else Real.sin (d - M * (Real.pi / 2))) :
    Within 53 (-1074) 1024 3.5 y (.fin (sinFinish rnd fused (sinReduce rnd fused a b q d) neg)) := by
  obtain ⟨hR, hM⟩ := rest_le hq hd15
  obtain ⟨c1, c2, c3⟩ := reduce_near h fused ha hb hd hd15 hM (R := d - M * (Real.pi / 2)) rfl
  rw [sinFinish_eq]
  set R := (d : ℝ) - M * (Real.pi / 2) with hRd
  cases neg with
  | false =>
    obtain ⟨g1, g2⟩ := sin_finish h fused hR c1 c2 c3
    simp only [Bool.false_eq_true, if_false] at hy ⊢
    rw [hy]
    exact within_four h (by norm_num) (by norm_num) (by norm_num) g1 g2
  | true =>
    have e : ∀ x : ℚ, |((-x : ℚ) : ℝ) - -R| = |(x : ℝ) - R| := fun x => by
      rw [← abs_neg]; congr 1; push_cast; ring
    obtain ⟨g1, g2⟩ := sin_finish h fused (x := -sinReduce rnd fused a b q d) (R := -R) (by rwa [abs_neg])
      (by rwa [abs_neg, e]) (by rwa [abs_neg, e]) (by rwa [abs_neg, e])
    simp only [if_true] at hy ⊢
    rw [hy, ← Real.sin_neg]
    exact within_four h (by norm_num) (by norm_num) (by norm_num) g1 g2

/-- **sin_u35, f64, arguments below 15**: the result is within 3.5 ulps of the sine. -/
theorem xsin_within_partial (h : Nearest 53 (-1074) rnd) (fused : Bool) {m : Mode} (hm : m.Ok) {d : ℚ} (hd : Rep 53 (-1074) d) (hd15 : |d| < 15) :
    ∃ r, xsinSmall rnd fused m d = some r ∧ Within 53 (-1074) 1024 3.5 (Real.sin d) (.fin r) := by
  obtain ⟨i1, i2⟩ := inv_pi h hd15
  have hy := half_pow h (by norm_num) 3 (by norm_num) (i2.trans (by norm_num))
  have hyb : |rnd (d * rnd M_1_PI)| + 1 / 2 ≤ 2 ^ 3 := by
    have h1 := abs_sub_abs_le_abs_sub ((rnd (d * rnd M_1_PI) : ℚ) : ℝ) ((d * rnd M_1_PI : ℚ) : ℝ)
    have h2 : ((|rnd (d * rnd M_1_PI)| + 1 / 2 : ℚ) : ℝ) ≤ ((2 ^ 3 : ℚ) : ℝ) := by
      push_cast at *
      norm_num1 at *
      linarith
    exact_mod_cast h2
  obtain ⟨q, hq, hqn⟩ := rintk_near h (by norm_num) (by norm_num) hm (y := rnd (d * rnd M_1_PI)) (j := 3) (by norm_num) hyb
  have hqn' : ((|(q : ℚ) - rnd (d * rnd M_1_PI)| : ℚ) : ℝ) ≤ ((1 / 2 + 2 ^ 3 / 2 ^ 53 / 2 : ℚ) : ℝ) := by exact_mod_cast hqn
  rw [Rat.cast_abs, Rat.cast_sub, Rat.cast_intCast] at hqn'
  have hM : |((2 * q : ℤ) : ℝ) - 2 * (d / Real.pi)| ≤ 1 + 1e-9 := by
    have t1 := abs_sub_le (q : ℝ) ((rnd (d * rnd M_1_PI) : ℚ) : ℝ) ((d * rnd M_1_PI : ℚ) : ℝ)
    have t2 := abs_sub_le (q : ℝ) ((d * rnd M_1_PI : ℚ) : ℝ) (d / Real.pi)
    have e : ((2 * q : ℤ) : ℝ) - 2 * (d / Real.pi) = 2 * ((q : ℝ) - d / Real.pi) := by push_cast; ring
    rw [e, abs_mul, abs_of_pos (by norm_num : (0 : ℝ) < 2)]
    have h5 : ((1 / 2 + 2 ^ 3 / 2 ^ 53 / 2 : ℚ) : ℝ) ≤ 1 / 2 + 1e-12 := by push_cast; norm_num
    have h6 : (2 : ℝ) ^ (3 : ℤ) * (1 / 2 ^ 53) / 2 ≤ 1e-12 := by norm_num
    linarith
  refine ⟨_, ?_, finish_within h (fused && m.isSimd) (decide (q % 2 = 1)) (q := q) (M := 2 * q) (a := rnd PI_A2) (b := rnd PI_B2) ?_ ?_ hd hd15 hM ?_⟩
  · simp only [xsinSmall, TRIGRANGEMAX2, if_pos hd15, mul, hq, Option.map_some]
  · rw [piA h]; push_cast; ring
  · rw [piB h]; push_cast; ring
  · have e : (d : ℝ) - ((2 * q : ℤ) : ℝ) * (Real.pi / 2) = d - q * Real.pi := by push_cast; ring
    rw [e, Real.sin_sub_int_mul_pi]
    rcases Int.emod_two_eq_zero_or_one q with h0 | h0
    · rw [(Int.even_iff.mpr h0).neg_one_zpow]; simp [h0]
    · rw [(Int.odd_iff.mpr h0).neg_one_zpow]; simp [h0]

/-- **cos_u35, f64, arguments below 15**: the result is within 3.5 ulps of the cosine. -/
theorem xcos_within_partial (h : Nearest 53 (-1074) rnd) (fused : Bool) {m : Mode} (hm : m.Ok) {d : ℚ} (hd : Rep 53 (-1074) d) (hd15 : |d| < 15) :
    ∃ r, xcosSmall rnd fused m d = some r ∧ Within 53 (-1074) 1024 3.5 (Real.cos d) (.fin r) := by
  obtain ⟨i1, i2⟩ := inv_pi h hd15
  obtain ⟨y, hyd, hye⟩ : ∃ y, (flAlg rnd rnd (fused && m.isSimd)).mla d (rnd M_1_PI) (-(1 / 2)) = y ∧
      |(y : ℝ) - (((d * rnd M_1_PI : ℚ) : ℝ) - 1 / 2)| ≤ 1e-12 := by
    refine ⟨_, rfl, ?_⟩
    have hs : ∀ z : ℚ, |(z : ℝ)| ≤ 8 → |((rnd z : ℚ) : ℝ) - z| ≤ 5e-13 := fun z hz => by
      have := half_pow h (by norm_num) 3 (by norm_num) (x := z) (hz.trans (by norm_num))
      refine this.trans (by norm_num)
    have hh : |(1 / 2 : ℝ)| = 1 / 2 := by norm_num
    cases fused && m.isSimd
    · have e : (flAlg rnd rnd false).mla d (rnd M_1_PI) (-(1 / 2)) = rnd (rnd (d * rnd M_1_PI) + -(1 / 2)) := rfl
      rw [e]
      generalize d * rnd M_1_PI = c at *
      have h1 := hs c (by linarith)
      have h2 := abs_sub_abs_le_abs_sub ((rnd c : ℚ) : ℝ) c
      have h3 := abs_sub ((rnd c : ℚ) : ℝ) (1 / 2)
      have h4 := hs (rnd c + -(1 / 2)) (by push_cast; rw [← sub_eq_add_neg]; linarith)
      have h5 := abs_add_le (((rnd (rnd c + -(1 / 2)) : ℚ) : ℝ) - ((rnd c + -(1 / 2) : ℚ) : ℝ)) (((rnd c : ℚ) : ℝ) - c)
      have e2 : ((rnd (rnd c + -(1 / 2)) : ℚ) : ℝ) - ((c : ℝ) - 1 / 2) =
          ((rnd (rnd c + -(1 / 2)) : ℚ) : ℝ) - ((rnd c + -(1 / 2) : ℚ) : ℝ) + (((rnd c : ℚ) : ℝ) - c) := by push_cast; ring
      rw [e2]
      linarith
    · have e : (flAlg rnd rnd true).mla d (rnd M_1_PI) (-(1 / 2)) = rnd (d * rnd M_1_PI + -(1 / 2)) := rfl
      rw [e]
      generalize d * rnd M_1_PI = c at *
      have h3 := abs_sub (c : ℝ) (1 / 2)
      have h4 := hs (c + -(1 / 2)) (by push_cast; rw [← sub_eq_add_neg]; linarith)
      have e2 : ((c + -(1 / 2) : ℚ) : ℝ) = (c : ℝ) - 1 / 2 := by push_cast; ring
      rw [e2] at h4
      linarith
  have hyb : |y| + 1 / 2 ≤ 2 ^ 3 := by
    have h1 := abs_sub_abs_le_abs_sub (y : ℝ) (((d * rnd M_1_PI : ℚ) : ℝ) - 1 / 2)
    have h3 := abs_sub ((d * rnd M_1_PI : ℚ) : ℝ) (1 / 2)
    rw [abs_of_pos (by norm_num : (0 : ℝ) < 1 / 2)] at h3
    have h2 : ((|y| + 1 / 2 : ℚ) : ℝ) ≤ ((2 ^ 3 : ℚ) : ℝ) := by
      push_cast at *
      norm_num1 at *
      linarith
    exact_mod_cast h2
  obtain ⟨n, hq, hqn⟩ := rintk_near h (by norm_num) (by norm_num) hm (y := y) (j := 3) (by norm_num) hyb
  have hqn' : ((|(n : ℚ) - y| : ℚ) : ℝ) ≤ ((1 / 2 + 2 ^ 3 / 2 ^ 53 / 2 : ℚ) : ℝ) := by exact_mod_cast hqn
  rw [Rat.cast_abs, Rat.cast_sub, Rat.cast_intCast] at hqn'
  have hM : |((2 * n + 1 : ℤ) : ℝ) - 2 * (d / Real.pi)| ≤ 1 + 1e-9 := by
    have e : ((2 * n + 1 : ℤ) : ℝ) - 2 * (d / Real.pi) = 2 * (((n : ℝ) - y) + (y - (((d * rnd M_1_PI : ℚ) : ℝ) - 1 / 2)) +
        (((d * rnd M_1_PI : ℚ) : ℝ) - d / Real.pi)) := by push_cast; ring
    rw [e, abs_mul, abs_of_pos (by norm_num : (0 : ℝ) < 2)]
    have t1 := abs_add_le (((n : ℝ) - y) + (y - (((d * rnd M_1_PI : ℚ) : ℝ) - 1 / 2))) (((d * rnd M_1_PI : ℚ) : ℝ) - d / Real.pi)
    have t2 := abs_add_le ((n : ℝ) - y) (y - (((d * rnd M_1_PI : ℚ) : ℝ) - 1 / 2))
    have h5 : ((1 / 2 + 2 ^ 3 / 2 ^ 53 / 2 : ℚ) : ℝ) ≤ 1 / 2 + 1e-12 := by push_cast; norm_num
    linarith
  refine ⟨_, ?_, finish_within h (fused && m.isSimd) (decide ((2 * n + 1) % 4 < 2)) (q := 2 * n + 1) (M := 2 * n + 1)
    (a := rnd (rnd PI_A2 * (1 / 2))) (b := rnd (rnd PI_B2 * (1 / 2))) ?_ ?_ hd hd15 hM ?_⟩
  · simp only [xcosSmall, TRIGRANGEMAX2, if_pos hd15, hyd, hq, Option.map_some]
  · rw [halfA h]
  · rw [halfB h]
  · have e : (d : ℝ) - ((2 * n + 1 : ℤ) : ℝ) * (Real.pi / 2) = d - n * Real.pi - Real.pi / 2 := by push_cast; ring
    rw [e, Real.sin_sub_pi_div_two, Real.cos_sub_int_mul_pi]
    rcases Int.emod_two_eq_zero_or_one n with h0 | h0
    · have h1 : (2 * n + 1) % 4 < 2 := by omega
      rw [(Int.even_iff.mpr h0).neg_one_zpow]; simp [h1]
    · have h1 : ¬ (2 * n + 1) % 4 < 2 := by omega
      rw [(Int.odd_iff.mpr h0).neg_one_zpow]; simp [h1]

/-- The hypotheses can be met: the sine and the cosine of 14, which is more than four times pi. -/
example : ∃ rnd : ℚ → ℚ, Nearest 53 (-1074) rnd ∧
    (∃ r, xsinSmall rnd true .scalar 14 = some r ∧ Within 53 (-1074) 1024 3.5 (Real.sin 14) (.fin r)) ∧
    ∃ r, xcosSmall rnd true .scalar 14 = some r ∧ Within 53 (-1074) 1024 3.5 (Real.cos 14) (.fin r) := by
  obtain ⟨rnd, h⟩ := exists_nearest (p := 53) (by norm_num) (-1074)
  have hr : Rep 53 (-1074) 14 := ⟨14, 0, by norm_num, by norm_num, by norm_num⟩
  have h1 := xsin_within_partial h true (m := .scalar) trivial hr (by norm_num [abs_of_pos])
  have h2 := xcos_within_partial h true (m := .scalar) trivial hr (by norm_num [abs_of_pos])
  push_cast at h1 h2
  exact ⟨rnd, h, h1, h2⟩

end Nsimd.Props.Sin
