import Verif.Lemmas.SinKernel
import Verif.Lemmas.AtanFinish
import Mathlib.Analysis.SpecialFunctions.Trigonometric.Bounds

/-!
# Reduction, kernel and last rounding of `sin` and `cos`
-/

namespace Nsimd.Sleef
open Nsimd.DoubleDouble Nsimd.Float Nsimd.Props.Round Nsimd.Props.Hypot Nsimd.Round Nsimd.Hypot Nsimd.Props.Ulp

variable {rnd : ℚ → ℚ}

theorem sin_diff (x R : ℝ) : |Real.sin x - Real.sin R| ≤ |x - R| * |Real.cos ((x + R) / 2)| := by
  rw [Real.sin_sub_sin, abs_mul, abs_mul, abs_of_pos (by norm_num : (0 : ℝ) < 2)]
  have h1 : |Real.sin ((x - R) / 2)| ≤ |(x - R) / 2| := Real.abs_sin_le_abs
  rw [abs_div, abs_of_pos (by norm_num : (0 : ℝ) < 2)] at h1
  exact mul_le_mul_of_nonneg_right (by linarith) (abs_nonneg _)

theorem abs_sin_eq {R : ℝ} (h : |R| ≤ 3) : |Real.sin R| = Real.sin |R| := by
  have h1 := Real.pi_gt_three
  rcases le_total 0 R with h0 | h0
  · rw [abs_of_nonneg h0, abs_of_nonneg]
    exact Real.sin_nonneg_of_nonneg_of_le_pi h0 (by rw [abs_of_nonneg h0] at h; linarith)
  · rw [abs_of_nonpos h0] at h ⊢
    rw [← abs_neg, ← Real.sin_neg, abs_of_nonneg]
    exact Real.sin_nonneg_of_nonneg_of_le_pi (by linarith) (by linarith)

theorem cube_mid {r : ℝ} (h1 : 0.55 ≤ r) (h2 : r ≤ 0.99) : 1 / 2 ≤ r - r ^ 3 / 6 := by
  have g1 : 0 ≤ (r - 0.55) * (0.99 - r) := mul_nonneg (by linarith) (by linarith)
  have g2 := mul_nonneg g1 (by linarith : 0 ≤ r)
  nlinarith

theorem cube_le {r c : ℝ} (h0 : 0 ≤ r) (h1 : r ≤ c) : r ^ 3 ≤ c ^ 2 * r := by
  have := mul_le_mul_of_nonneg_right (pow_le_pow_left₀ h0 h1 2) h0
  rwa [← pow_succ] at this

theorem sq_le_abs {t c : ℝ} (h : |t| ≤ c) : t ^ 2 ≤ c ^ 2 := by
  rw [← sq_abs]; exact pow_le_pow_left₀ (abs_nonneg t) h 2

set_option maxHeartbeats 2000000 in
theorem sin_finish (h : Nearest 53 (-1074) rnd) (fused : Bool) {x : ℚ} {R : ℝ} (hR : |R| ≤ 1.57082)
    (c1 : |R| ≤ 0.55 → |(x : ℝ) - R| ≤ 1.66 * (1 / 2 ^ 53) * |R|) (c2 : |R| ≤ 0.99 → |(x : ℝ) - R| ≤ 1.001 * (1 / 2 ^ 53))
    (c3 : |R| ≤ 1.58 → |(x : ℝ) - R| ≤ 2.001 * (1 / 2 ^ 53)) :
    |((sinZ rnd fused x : ℚ) : ℝ)| ≤ 4 ∧
      ∀ w, IsUlp 53 (-1074) |Real.sin R| w → |((rnd (sinZ rnd fused x) : ℚ) : ℝ) - Real.sin R| ≤ 3.5 * w := by
  have c3 := c3 (by linarith)
  have hu0 : (0 : ℝ) < 1 / 2 ^ 53 := by norm_num
  have hu1 : (1 : ℝ) / 2 ^ 53 ≤ 1.2e-16 := by norm_num
  have hp1 := Real.pi_gt_d6
  have hp2 := Real.pi_lt_d6
  have hxR : |(x : ℝ)| ≤ |R| + |(x : ℝ) - R| := by
    have := abs_add_le R ((x : ℝ) - R); rwa [add_sub_cancel] at this
  have hRx : |R| ≤ |(x : ℝ)| + |(x : ℝ) - R| := by
    have := abs_sub (x : ℝ) ((x : ℝ) - R); rwa [sub_sub_cancel] at this
  have hx : |(x : ℝ)| ≤ 1.5712 := by linarith
  have hR0 := abs_nonneg R
  have hx0 := abs_nonneg (x : ℝ)
  have hmid : |R| - 0.00001 ≤ |((x : ℝ) + R) / 2| ∧ |((x : ℝ) + R) / 2| ≤ |R| + 0.00001 := by
    have e : ((x : ℝ) + R) / 2 = R + (x - R) / 2 := by ring
    have e2 : |((x : ℝ) - R) / 2| = |(x : ℝ) - R| / 2 := by rw [abs_div, abs_of_pos (by norm_num : (0 : ℝ) < 2)]
    have h1 := abs_add_le R (((x : ℝ) - R) / 2)
    have h2 := abs_sub (R + ((x : ℝ) - R) / 2) (((x : ℝ) - R) / 2)
    rw [add_sub_cancel_right] at h2
    rw [e]
    constructor <;> linarith
  have hker := sin_kernel h fused hx
  have hd := sin_diff x R
  have hkb' := sin_kernel_big h fused hx
  generalize sinZ rnd fused x = z at *
  generalize hu : (1 : ℝ) / 2 ^ 53 = u at *
  have habs := abs_sin_eq (R := R) (by linarith)
  have hone := Real.abs_sin_le_one R
  have hcos1 := Real.abs_cos_le_one (((x : ℝ) + R) / 2)
  have tri := abs_sub_le (z : ℝ) (Real.sin x) (Real.sin R)
  have hzy : |(z : ℝ)| ≤ |Real.sin R| + |(z : ℝ) - Real.sin R| := by
    have := abs_add_le (Real.sin R) ((z : ℝ) - Real.sin R); rwa [add_sub_cancel] at this
  have hd1 : |Real.sin x - Real.sin R| ≤ |(x : ℝ) - R| := hd.trans (mul_le_of_le_one_right (abs_nonneg _) hcos1)
  have hX3 : |(x : ℝ)| ^ 3 ≤ 4 := by
    have := pow_le_pow_left₀ hx0 hx 3
    norm_num at this ⊢; linarith
  have hcoarse : |(z : ℝ) - Real.sin R| ≤ 6 * u := by
    have := mul_le_mul_of_nonneg_left hX3 hu0.le
    have := mul_le_mul_of_nonneg_left hx hu0.le
    linarith
  have hrd0 : |(z : ℝ)| ≤ 1 → |((rnd z : ℚ) : ℝ) - z| ≤ 0.5 * u := fun h1 => by
    have := half_pow h (by norm_num) 0 (by norm_num) (x := z) (by rw [zpow_zero]; exact h1)
    rw [zpow_zero, one_mul, hu] at this
    linarith
  have hrd1 : |((rnd z : ℚ) : ℝ) - z| ≤ u := by
    have := half_pow h (by norm_num) 1 (by norm_num) (x := z) (by rw [zpow_one]; linarith)
    rw [zpow_one, hu] at this
    linarith
  have tri2 := abs_sub_le ((rnd z : ℚ) : ℝ) (z : ℝ) (Real.sin R)
  refine ⟨by linarith, fun w hw => ?_⟩
  have hw1 : u * |Real.sin R| ≤ w := by rw [← hu]; exact hw.le.2.1
  have hbig : 1 / 2 ≤ |Real.sin R| → u ≤ w := fun hs => by
    have := ulp_ge_of hw 0 (by rw [zpow_zero]; linarith)
    rwa [zpow_zero, one_mul, hu] at this
  rcases le_or_gt |R| 0.55 with r1 | r1
  · -- small
    have c1 := c1 r1
    have hs : 0.924 * |R| ≤ |Real.sin R| := by
      rcases hR0.eq_or_lt with h0 | h0
      · rw [← h0]; simp
      · have := Real.sin_gt_sub_cube h0
        rw [habs]
        have h3 := cube_le hR0 r1
        linarith only [this, h3, h0]
    have hxx : |(x : ℝ)| ≤ 1.0001 * |R| := by
      have : 1.66 * u * |R| ≤ 0.0001 * |R| := mul_le_mul_of_nonneg_right (by linarith) hR0
      linarith
    have hx3 := cube_le hx0 (by linarith only [hxx, r1] : |(x : ℝ)| ≤ 0.5501)
    have hκ : |(z : ℝ) - Real.sin R| ≤ 2.2 * w := by
      have g1 := mul_le_mul_of_nonneg_left hx3 hu0.le
      have g2 := mul_le_mul_of_nonneg_left hxx hu0.le
      have g3 := mul_le_mul_of_nonneg_left hs hu0.le
      have g4 : 0 ≤ u * |R| := by positivity
      linarith only [g1, g2, g3, g4, tri, hker, hd1, c1, hw1]
    have := round_err' h (by norm_num) hw hκ (by norm_num)
    refine this.trans ?_
    have := hw.le.2.2
    linarith
  · rcases le_or_gt |R| 0.99 with r2 | r2
    · have c2 := c2 r2
      have hs : 1 / 2 ≤ |Real.sin R| := by
        have := Real.sin_gt_sub_cube (by linarith : 0 < |R|)
        rw [habs]
        linarith only [this, cube_mid r1.le r2]
      have hs1 : |Real.sin R| ≤ 0.99 := by
        have : |Real.sin R| ≤ |R| := Real.abs_sin_le_abs
        linarith
      have hx3 : |(x : ℝ)| ^ 3 ≤ 0.98 := by
        have := pow_le_pow_left₀ hx0 (by linarith : |(x : ℝ)| ≤ 0.991) 3
        norm_num at this ⊢; linarith
      have g1 := mul_le_mul_of_nonneg_left hx3 hu0.le
      have g2 := mul_le_mul_of_nonneg_left (by linarith : |(x : ℝ)| ≤ 1) hu0.le
      have h5 := hrd0 (by linarith only [hzy, hs1, hcoarse, hu1])
      have h6 := hbig hs
      linarith only [h5, h6, g1, g2, tri2, tri, hker, hd1, c2, hu0]
    · -- the sine is at least that of 0.99
      have hge : ∀ a b : ℝ, 0 ≤ a → a ≤ b → b ≤ 1.5709 → Real.cos b ≤ Real.cos a := fun a b h0 hab hb =>
        Real.cos_le_cos_of_nonneg_of_le_pi h0 (by linarith) hab
      obtain ⟨t, ht⟩ : ∃ t, t = Real.pi / 2 - |R| := ⟨_, rfl⟩
      have hst : |Real.sin R| = Real.cos t := by rw [habs, ht, Real.cos_pi_div_two_sub]
      have htb : |t| ≤ 0.6 := by rw [_root_.abs_le]; constructor <;> linarith
      have hcb := _root_.abs_le.mp (Real.cos_bound (x := t) (by linarith))
      have ht4 : |t| ^ 4 ≤ 0.36 * t ^ 2 := by
        have e : |t| ^ 4 = t ^ 2 * t ^ 2 := by rw [← sq_abs t]; ring
        have : t ^ 2 ≤ 0.36 := (sq_le_abs htb).trans (by norm_num)
        rw [e]; exact mul_le_mul_of_nonneg_right this (sq_nonneg t)
      have ht2 : t ^ 2 ≤ 0.36 := (sq_le_abs htb).trans (by norm_num)
      have hs : 1 / 2 ≤ |Real.sin R| := by rw [hst]; linarith only [hcb.1, ht4, ht2]
      have hup : |Real.sin R| ≤ 1 - 0.48 * t ^ 2 := by
        rw [hst]; linarith only [sq_nonneg t, hcb.2, ht4]
      have huw := hbig hs
      have hcm : |Real.cos (((x : ℝ) + R) / 2)| ≤ |t| + 0.00001 := by
        rw [← Real.cos_abs, ← Real.sin_pi_div_two_sub]
        refine Real.abs_sin_le_abs.trans ?_
        have e : Real.pi / 2 - |((x : ℝ) + R) / 2| = t + (|R| - |((x : ℝ) + R) / 2|) := by rw [ht]; ring
        rw [e]
        refine (abs_add_le _ _).trans ?_
        have : abs (|R| - |((x : ℝ) + R) / 2|) ≤ 0.00001 := by rw [_root_.abs_le]; constructor <;> linarith
        linarith
      rcases le_or_gt |R| 1.3 with r3 | r3
      · have htl : 0.27 ≤ t := by linarith
        have hs1 : |Real.sin R| ≤ 0.97 := by
          have := pow_le_pow_left₀ (by norm_num) htl 2
          linarith only [this, hup]
        have hc : |Real.cos (((x : ℝ) + R) / 2)| ≤ 0.567 := by
          rw [← Real.cos_abs, abs_of_nonneg (Real.cos_nonneg_of_neg_pi_div_two_le_of_le (by linarith [abs_nonneg (((x : ℝ) + R) / 2)]) (by linarith))]
          have h1 := hge 0.9899 |((x : ℝ) + R) / 2| (by norm_num) (by linarith) (by linarith)
          have h2 : |Real.cos 0.9899 - Real.cos 1| ≤ |0.9899 - 1| := Real.abs_cos_sub_cos_le _ _
          have h3 := Real.cos_one_le
          rw [show |(0.9899 : ℝ) - 1| = 0.0101 by norm_num [abs_of_neg]] at h2
          have := (_root_.abs_le.mp h2).2
          linarith only [this, h1, h3]
        have hx3 : |(x : ℝ)| ^ 3 ≤ 2.199 := by
          have := pow_le_pow_left₀ hx0 (by linarith : |(x : ℝ)| ≤ 1.3001) 3
          norm_num at this ⊢; linarith
        have g1 := mul_le_mul_of_nonneg_left hx3 hu0.le
        have g2 := mul_le_mul_of_nonneg_left (by linarith : |(x : ℝ)| ≤ 1.3001) hu0.le
        have g3 := mul_le_mul c3 hc (abs_nonneg _) (by positivity)
        have h5 := hrd0 (by linarith only [hzy, hs1, hcoarse, hu1])
        linarith only [h5, g1, g2, g3, tri, tri2, hd, hker, huw, hu0]
      · have hkb := hkb' (by linarith)
        have htl : |t| ≤ 0.2708 := by rw [_root_.abs_le]; constructor <;> linarith
        rcases le_or_gt |(z : ℝ)| 1 with hz1 | hz1
        · have g3 := mul_le_mul c3 (hcm.trans (by linarith : _ ≤ (0.271 : ℝ))) (abs_nonneg _) (by positivity)
          have h5 := hrd0 hz1
          linarith only [h5, g3, tri, tri2, hd, hkb, huw, hu0]
        · have ht3 : |t| ≤ 0.001 := by
            by_contra hcon
            have := pow_le_pow_left₀ (by norm_num) (not_le.mp hcon).le 2
            rw [sq_abs] at this
            linarith only [this, hup, hzy, hz1, hcoarse, hu1]
          have g3 := mul_le_mul c3 (hcm.trans (by linarith : _ ≤ (0.0011 : ℝ))) (abs_nonneg _) (by positivity)
          linarith only [hrd1, g3, tri, tri2, hd, hkb, huw, hu0]

end Nsimd.Sleef
