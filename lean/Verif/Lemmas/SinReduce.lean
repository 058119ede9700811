import Verif.Model.Sin
import Verif.Lemmas.PiBounds
import Verif.Lemmas.LogCombine

/-!
# Argument reduction of `sin` and `cos`
-/

namespace Nsimd.Sleef
open Nsimd.DoubleDouble Nsimd.Float Nsimd.Props.Round Nsimd.Props.Hypot Nsimd.Round Nsimd.Hypot Nsimd.Props.Ulp

variable {rnd : ℚ → ℚ}

/-- A half of `PI_A2`. Proof helper. -/
def sinH : ℚ := 7074237752028440 * 2 ^ (-52 : ℤ)

/-- A half of `PI_B2`. Proof helper. -/
def sinL : ℚ := 4967757600021511 * 2 ^ (-106 : ℤ)

theorem sinK_bounds : 6.1232e-17 ≤ Real.pi / 2 - sinH ∧ Real.pi / 2 - sinH ≤ 6.1233e-17 ∧
    |(sinL : ℝ) - (Real.pi / 2 - sinH)| ≤ 0.228 * (1 / 2 ^ 53) * (Real.pi / 2 - sinH) := by
  have h1 := pi_gt_d34
  have h2 := pi_lt_d34
  unfold sinH sinL
  rw [_root_.abs_le]
  norm_num at h1 h2 ⊢
  refine ⟨?_, ?_, ?_, ?_⟩ <;> linarith

theorem mult_ge_of_ne {e : ℤ} {x : ℚ} (h : Mult e x) (h0 : x ≠ 0) : 2 ^ e ≤ |x| := by
  obtain ⟨k, rfl⟩ := h
  have hk : k ≠ 0 := by rintro rfl; simp at h0
  have h1 : (1 : ℚ) ≤ |(k : ℚ)| := by exact_mod_cast Int.one_le_abs hk
  rw [abs_mul, abs_of_pos (two_zpow_pos e)]
  have := two_zpow_pos e
  nlinarith

theorem mult_sinH (M : ℤ) {e : ℤ} (he : e ≤ -49) : Mult e (M * sinH) := by
  refine ⟨M * 884279719003555 * 2 ^ (-49 - e).toNat, ?_⟩
  have h1 : (2 : ℚ) ^ (-49 - e).toNat = 2 ^ (-49 - e) := by rw [← zpow_natCast, Int.toNat_of_nonneg (by omega)]
  push_cast
  rw [h1, mul_assoc, ← zpow_add₀ (by norm_num), sinH, show -49 - e + e = -49 by ring]
  norm_num; ring

theorem mult_sub' {e : ℤ} {x y : ℚ} (hx : Mult e x) (hy : Mult e y) : Mult e (x - y) := by
  obtain ⟨k, rfl⟩ := hx
  obtain ⟨l, rfl⟩ := hy
  exact ⟨k - l, by push_cast; ring⟩

/-- A difference from a multiple of pi is zero or not too small. -/
theorem reduce_gap {d : ℚ} {M : ℤ} (hd : Rep 53 (-1074) d) (hM : |M| ≤ 10) (hd1 : 1 ≤ |d|) (h0 : d - M * sinH ≠ 0) :
    |(M : ℝ)| * 6.1233e-17 ≤ 0.345 * |((d - M * sinH : ℚ) : ℝ)| := by
  have hMR : |(M : ℝ)| ≤ 10 := by exact_mod_cast hM
  have hMQ : |(M : ℚ)| ≤ 10 := by exact_mod_cast hM
  rcases le_or_gt (1 / 8) |d - M * sinH| with h8 | h8
  · have : ((1 / 8 : ℚ) : ℝ) ≤ ((|d - M * sinH| : ℚ) : ℝ) := by exact_mod_cast h8
    rw [Rat.cast_abs] at this
    push_cast at this ⊢
    linarith
  · have hle : |(M : ℚ)| * sinH ≤ |d| + 1 / 8 := by
      have h1 := abs_sub_abs_le_abs_sub (M * sinH) d
      rw [abs_sub_comm _ d, abs_mul, abs_of_pos (by norm_num [sinH] : (0 : ℚ) < sinH)] at h1
      linarith
    have hH : (1.57 : ℚ) ≤ sinH := by norm_num [sinH]
    have key : ∀ (e n : ℤ), e ≤ -49 → 2 ^ 53 * 2 ^ (e - 1) ≤ |d| → |M| ≤ n → (n : ℝ) * 6.1233e-17 ≤ 0.345 * 2 ^ e →
        |(M : ℝ)| * 6.1233e-17 ≤ 0.345 * |((d - M * sinH : ℚ) : ℝ)| := by
      intro e n he hdl hn hb
      have h2 := mult_ge_of_ne (mult_sub' (mult_of_ge hd hdl) (mult_sinH M he)) h0
      have h3 : ((2 ^ e : ℚ) : ℝ) ≤ ((|d - M * sinH| : ℚ) : ℝ) := by exact_mod_cast h2
      rw [Rat.cast_abs] at h3
      push_cast at h3 ⊢
      have h4 : |(M : ℝ)| ≤ n := by exact_mod_cast hn
      linarith
    have hMn : ∀ n : ℤ, |(M : ℚ)| * sinH < (n + 1) * 1.57 → |M| ≤ n := by
      intro n hn
      have h1 : |(M : ℚ)| * 1.57 < (n + 1) * 1.57 := lt_of_le_of_lt (mul_le_mul_of_nonneg_left hH (abs_nonneg _)) hn
      have h2 : |(M : ℚ)| < n + 1 := by linarith
      have h3 : |M| < n + 1 := by exact_mod_cast h2
      omega
    rcases lt_or_ge |d| 2 with h2 | h2
    · exact key (-52) 1 (by norm_num) (by norm_num; linarith) (hMn 1 (by push_cast; linarith)) (by norm_num)
    rcases lt_or_ge |d| 4 with h4 | h4
    · exact key (-51) 2 (by norm_num) (by norm_num; linarith) (hMn 2 (by push_cast; linarith)) (by norm_num)
    rcases lt_or_ge |d| 8 with h5 | h5
    · exact key (-50) 5 (by norm_num) (by norm_num; linarith) (hMn 5 (by push_cast; linarith)) (by norm_num)
    · exact key (-49) 10 (by norm_num) (by norm_num; linarith) hM (by norm_num)

/-- The reduced argument. -/
theorem reduce_near (h : Nearest 53 (-1074) rnd) (fused : Bool) {d a b : ℚ} {q M : ℤ} (ha : q * a = M * sinH) (hb : q * b = M * sinL)
    (hd : Rep 53 (-1074) d) (hd15 : |d| < 15) (hM : |M| ≤ 10) {R : ℝ} (hR : R = d - M * (Real.pi / 2)) :
    (|R| ≤ 0.55 → |((sinReduce rnd fused a b q d : ℚ) : ℝ) - R| ≤ 1.66 * (1 / 2 ^ 53) * |R|) ∧
    (|R| ≤ 0.99 → |((sinReduce rnd fused a b q d : ℚ) : ℝ) - R| ≤ 1.001 * (1 / 2 ^ 53)) ∧
    (|R| ≤ 1.58 → |((sinReduce rnd fused a b q d : ℚ) : ℝ) - R| ≤ 2.001 * (1 / 2 ^ 53)) := by
  obtain ⟨k1, k2, k3⟩ := sinK_bounds
  set K : ℝ := Real.pi / 2 - sinH with hK
  have hMR : |(M : ℝ)| ≤ 10 := by exact_mod_cast hM
  have hMQ : |(M : ℚ)| ≤ 10 := by exact_mod_cast hM
  have hrep : Rep 53 (-1074) (-(M * sinH)) := by
    refine rep_neg (rep_of_mult (by norm_num) (e := -49) (by norm_num) (mult_sinH M le_rfl) ?_)
    rw [abs_mul, abs_of_pos (by norm_num [sinH] : (0 : ℚ) < sinH)]
    have : sinH ≤ 1.6 := by norm_num [sinH]
    have h2 : (0 : ℚ) ≤ sinH := by norm_num [sinH]
    norm_num
    nlinarith [abs_nonneg (M : ℚ)]
  -- the second summand
  obtain ⟨t, ht, hx, hx0⟩ : ∃ t : ℚ, |(t : ℝ) + M * K| ≤ 1.2281 * (1 / 2 ^ 53) * (|(M : ℝ)| * K) ∧
      sinReduce rnd fused a b q d = rnd (rnd (d - M * sinH) + t) ∧ (rnd (rnd (-(M * sinL))) = rnd t) := by
    have e1 : (q : ℚ) * -a = -(M * sinH) := by rw [mul_neg, ha]
    have e2 : (q : ℚ) * -b = -(M * sinL) := by rw [mul_neg, hb]
    have hMK : |(M : ℝ) * K - M * sinL| ≤ 0.228 * (1 / 2 ^ 53) * (|(M : ℝ)| * K) := by
      rw [← mul_sub, abs_mul, abs_sub_comm]
      have := mul_le_mul_of_nonneg_left k3 (abs_nonneg (M : ℝ))
      linarith
    have hMK' := _root_.abs_le.mp hMK
    have hMK0 : 0 ≤ |(M : ℝ)| * K := mul_nonneg (abs_nonneg _) (by linarith)
    cases fused
    · refine ⟨rnd (-(M * sinL)), ?_, ?_, rfl⟩
      · have hr : |rnd (-(M * sinL)) - -(M * sinL)| ≤ |-(M * sinL)| / 2 ^ 53 := by
          rcases eq_or_ne M 0 with rfl | hM0
          · simp [h.zero]
          · refine h.rel (by norm_num) ?_
            have : (1 : ℚ) ≤ |(M : ℚ)| := by exact_mod_cast Int.one_le_abs hM0
            rw [abs_neg, abs_mul, abs_of_pos (by norm_num [sinL] : (0 : ℚ) < sinL)]
            have h1 : (2 : ℚ) ^ 53 * 2 ^ (-1074 : ℤ) ≤ sinL := by
              have : (2 : ℚ) ^ (-1074 : ℤ) ≤ 2 ^ (-200 : ℤ) := zpow_le_zpow_right₀ (by norm_num) (by norm_num)
              refine (mul_le_mul_of_nonneg_left this (by norm_num)).trans ?_
              norm_num [sinL]
            have h2 : (0 : ℚ) < sinL := by norm_num [sinL]
            nlinarith
        have hr' : ((|rnd (-(M * sinL)) - -(M * sinL)| : ℚ) : ℝ) ≤ ((|-(M * sinL)| / 2 ^ 53 : ℚ) : ℝ) := by exact_mod_cast hr
        push_cast at hr'
        have h5 : |-((M : ℝ) * sinL)| ≤ |(M : ℝ)| * K + 0.228 * (1 / 2 ^ 53) * (|(M : ℝ)| * K) := by
          rw [abs_neg]
          have := abs_sub_abs_le_abs_sub ((M : ℝ) * sinL) (M * K)
          rw [abs_sub_comm, abs_mul (M : ℝ) K, abs_of_nonneg (by linarith : (0 : ℝ) ≤ K)] at this
          linarith
        have hr2 := _root_.abs_le.mp hr'
        rw [_root_.abs_le]
        constructor <;> linarith
      · simp only [sinReduce, flAlg, Bool.false_eq_true, if_false, add, mul, e1, e2, h.fix hrep]
        rw [show -(M * sinH) + d = d - M * sinH by ring, add_comm]
    · refine ⟨-(M * sinL), ?_, ?_, h.fix (h.rep _)⟩
      · push_cast
        rw [_root_.abs_le]
        constructor <;> linarith
      · simp only [sinReduce, flAlg, if_true, fma, e1, e2]
        rw [show -(M * sinH) + d = d - M * sinH by ring, add_comm]
  have hRD : R = ((d - M * sinH : ℚ) : ℝ) - M * K := by rw [hR, hK]; push_cast; ring
  have hMKa : |(M : ℝ) * K| = |(M : ℝ)| * K := by rw [abs_mul, abs_of_nonneg (by linarith : (0 : ℝ) ≤ K)]
  have hMK1 : |(M : ℝ)| * K ≤ 6.1233e-16 := by
    have := mul_le_mul hMR k2 (by linarith) (by norm_num : (0 : ℝ) ≤ 10)
    linarith
  have hMK0 : 0 ≤ |(M : ℝ)| * K := mul_nonneg (abs_nonneg _) (by linarith)
  have hMKb := _root_.abs_le.mp hMKa.le
  have htb := _root_.abs_le.mp ht
  have two : ∀ k : ℤ, -1000 ≤ k → |R| + 1e-10 ≤ 2 ^ k → 2 ^ k ≤ (2 : ℝ) →
      |((sinReduce rnd fused a b q d : ℚ) : ℝ) - R| ≤ (2 ^ k + 0.0001) * (1 / 2 ^ 53) := by
    intro k hk1 hk2 hk3
    have hRb := _root_.abs_le.mp (le_refl |R|)
    have r1 := half_pow h (by norm_num) k (by push_cast; omega) (x := d - M * sinH) (by rw [_root_.abs_le]; constructor <;> linarith)
    have r1' := _root_.abs_le.mp r1
    have r2 := half_pow h (by norm_num) k (by push_cast; omega) (x := rnd (d - M * sinH) + t) (by
      rw [Rat.cast_add, _root_.abs_le]; constructor <;> linarith)
    rw [← hx, Rat.cast_add] at r2
    have r2' := _root_.abs_le.mp r2
    rw [_root_.abs_le]
    constructor <;> linarith
  refine ⟨fun h55 => ?_, fun h99 => ?_, fun h158 => ?_⟩
  · rcases eq_or_ne M 0 with rfl | hM0
    · have e : sinReduce rnd fused a b q d = d := by
        rw [hx]
        have ht0 : t = 0 := by
          have : |(t : ℝ)| ≤ 0 := by simpa using ht
          exact_mod_cast abs_nonpos_iff.mp this
        rw [ht0]; simp [h.fix hd]
      rw [e, hR]; simp; positivity
    · have hM1 : (1 : ℝ) ≤ |(M : ℝ)| := by exact_mod_cast Int.one_le_abs hM0
      have hRb := _root_.abs_le.mp h55
      have hd1R : (1 : ℝ) ≤ |(d : ℝ)| := by
        have h1 := abs_sub_abs_le_abs_sub ((M : ℝ) * (Real.pi / 2)) d
        rw [abs_sub_comm, ← hR, abs_mul, abs_of_pos (by positivity : (0 : ℝ) < Real.pi / 2)] at h1
        have := Real.pi_gt_d2
        nlinarith
      have hd1 : 1 ≤ |d| := by
        have : ((1 : ℚ) : ℝ) ≤ ((|d| : ℚ) : ℝ) := by rw [Rat.cast_abs]; push_cast; exact hd1R
        exact_mod_cast this
      have hDrep : Rep 53 (-1074) (d - M * sinH) := by
        refine rep_of_mult (by norm_num) (e := -52) (by norm_num) (mult_sub' (mult_of_ge hd (by norm_num; exact hd1)) (mult_sinH M (by norm_num))) ?_
        have : ((|d - M * sinH| : ℚ) : ℝ) ≤ ((2 ^ 53 * 2 ^ (-52 : ℤ) : ℚ) : ℝ) := by
          rw [Rat.cast_abs, _root_.abs_le]
          norm_num1
          constructor <;> linarith
        exact_mod_cast this
      rw [h.fix hDrep] at hx
      rcases eq_or_ne (d - M * sinH) 0 with h0 | h0
      · rw [h0, zero_add, ← hx0, h.fix (h.rep _)] at hx
        have hr : |rnd (-(M * sinL)) - -(M * sinL)| ≤ |-(M * sinL)| / 2 ^ 53 := by
          refine h.rel (by norm_num) ?_
          have : (1 : ℚ) ≤ |(M : ℚ)| := by exact_mod_cast Int.one_le_abs hM0
          rw [abs_neg, abs_mul, abs_of_pos (by norm_num [sinL] : (0 : ℚ) < sinL)]
          have h1 : (2 : ℚ) ^ 53 * 2 ^ (-1074 : ℤ) ≤ sinL := by
            have : (2 : ℚ) ^ (-1074 : ℤ) ≤ 2 ^ (-200 : ℤ) := zpow_le_zpow_right₀ (by norm_num) (by norm_num)
            refine (mul_le_mul_of_nonneg_left this (by norm_num)).trans ?_
            norm_num [sinL]
          have h2 : (0 : ℚ) < sinL := by norm_num [sinL]
          nlinarith
        have hr' : ((|rnd (-(M * sinL)) - -(M * sinL)| : ℚ) : ℝ) ≤ ((|-(M * sinL)| / 2 ^ 53 : ℚ) : ℝ) := by exact_mod_cast hr
        push_cast at hr'
        have hMK : |(M : ℝ) * K - M * sinL| ≤ 0.228 * (1 / 2 ^ 53) * (|(M : ℝ)| * K) := by
          rw [← mul_sub, abs_mul, abs_sub_comm]
          have := mul_le_mul_of_nonneg_left k3 (abs_nonneg (M : ℝ))
          linarith
        have hMK' := _root_.abs_le.mp hMK
        have h5 : |-((M : ℝ) * sinL)| ≤ |(M : ℝ)| * K + 0.228 * (1 / 2 ^ 53) * (|(M : ℝ)| * K) := by
          rw [abs_neg]
          have := abs_sub_abs_le_abs_sub ((M : ℝ) * sinL) (M * K)
          rw [abs_sub_comm, hMKa] at this
          linarith
        have hr2 := _root_.abs_le.mp hr'
        rw [h0] at hRD
        have hRa : |R| = |(M : ℝ)| * K := by rw [hRD]; simp [hMKa]
        rw [hx, hRa, hRD, _root_.abs_le]
        push_cast
        constructor <;> linarith
      · have hg := reduce_gap hd hM hd1 h0
        have hg' : |(M : ℝ)| * K ≤ 0.345 * |((d - M * sinH : ℚ) : ℝ)| := le_trans (mul_le_mul_of_nonneg_left k2 (abs_nonneg _)) hg
        set D : ℝ := ((d - M * sinH : ℚ) : ℝ) with hD
        have hRl : |D| - |(M : ℝ)| * K ≤ |R| := by
          rw [hRD, ← hMKa]; exact abs_sub_abs_le_abs_sub _ _
        have hrr : |rnd (d - M * sinH + t) - (d - M * sinH + t)| ≤ |d - M * sinH + t| / 2 ^ 53 := by
          refine h.rel (by norm_num) ?_
          have hDpos : (2 : ℝ) ^ (-52 : ℤ) ≤ |D| := by
            have h2 := mult_ge_of_ne (mult_sub' (mult_of_ge hd (by norm_num; exact hd1) : Mult (-52) d) (mult_sinH M (by norm_num))) h0
            have h3 : ((2 ^ (-52 : ℤ) : ℚ) : ℝ) ≤ ((|d - M * sinH| : ℚ) : ℝ) := by exact_mod_cast h2
            rw [Rat.cast_abs] at h3
            push_cast at h3 
            rw [hD]; push_cast; exact h3
          have h6 : |D| - 1.1 * (|(M : ℝ)| * K) ≤ |D + t| := by
            have h7 := abs_sub_abs_le_abs_sub D (-(t : ℝ))
            rw [sub_neg_eq_add, abs_neg] at h7
            have h8 : |(t : ℝ)| ≤ 1.1 * (|(M : ℝ)| * K) := by rw [_root_.abs_le]; constructor <;> linarith
            linarith
          have h9 : (2 : ℝ) ^ 53 * 2 ^ (-1074 : ℤ) ≤ 2 * |D + t| := by
            have : (2 : ℝ) ^ (-1074 : ℤ) ≤ 2 ^ (-200 : ℤ) := zpow_le_zpow_right₀ (by norm_num) (by norm_num)
            have h10 := mul_le_mul_of_nonneg_left this (by norm_num : (0 : ℝ) ≤ 2 ^ 53)
            have h11 : (2 : ℝ) ^ 53 * 2 ^ (-200 : ℤ) ≤ 2 ^ (-60 : ℤ) := by norm_num
            have h12 : (2 : ℝ) ^ (-60 : ℤ) ≤ 0.5 * 2 ^ (-52 : ℤ) := by norm_num
            refine (h10.trans (h11.trans h12)).trans ?_
            generalize (2 : ℝ) ^ (-52 : ℤ) = E at *
            linarith
          have h13 : ((2 ^ 53 * 2 ^ (-1074 : ℤ) : ℚ) : ℝ) ≤ ((2 * |d - M * sinH + t| : ℚ) : ℝ) := by
            rw [Rat.cast_mul, Rat.cast_mul, Rat.cast_abs, Rat.cast_add, ← hD]
            push_cast
            exact h9
          exact_mod_cast h13
        have hrr' : ((|rnd (d - M * sinH + t) - (d - M * sinH + t)| : ℚ) : ℝ) ≤ ((|d - M * sinH + t| / 2 ^ 53 : ℚ) : ℝ) := by exact_mod_cast hrr
        rw [← hx, Rat.cast_div, Rat.cast_abs, Rat.cast_abs, Rat.cast_sub, Rat.cast_add, ← hD] at hrr'
        have h14 : |D + t| ≤ |R| + 1.2281 * (1 / 2 ^ 53) * (|(M : ℝ)| * K) := by
          have h15 := abs_add_le R (t + M * K)
          rw [show R + (t + M * K) = D + t by rw [hRD]; ring] at h15
          linarith
        have h16 : |((sinReduce rnd fused a b q d : ℚ) : ℝ) - R| ≤ |((sinReduce rnd fused a b q d : ℚ) : ℝ) - (D + t)| + |(t : ℝ) + M * K| := by
          have h15 := abs_add_le (((sinReduce rnd fused a b q d : ℚ) : ℝ) - (D + t)) (t + M * K)
          rw [show ((sinReduce rnd fused a b q d : ℚ) : ℝ) - (D + t) + (t + M * K) = ((sinReduce rnd fused a b q d : ℚ) : ℝ) - R by
            rw [hRD]; ring] at h15
          exact h15
        have h17 : |(M : ℝ)| * K ≤ 0.5268 * |R| := by linarith
        push_cast at hrr'
        linarith
  · have := two 0 (by norm_num) (by rw [zpow_zero]; linarith) (by norm_num)
    rw [zpow_zero] at this
    linarith
  · have := two 1 (by norm_num) (by rw [zpow_one]; linarith) (by norm_num)
    rw [zpow_one] at this
    linarith

end Nsimd.Sleef
