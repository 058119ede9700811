import Verif.Lemmas.AtanFinish
import Verif.Lemmas.ExpFinish

/-!
# The sum of `e * log 2` and the logarithm of the significand
-/

namespace Nsimd.Sleef
open Nsimd.DoubleDouble Nsimd.Float Nsimd.Props.Round Nsimd.Props.Hypot Nsimd.Round Nsimd.Hypot Nsimd.Props.Ulp

variable {p : ℕ} {emin emax : ℤ} {rnd : ℚ → ℚ}

theorem half_pow (h : Nearest p emin rnd) (hp : 1 ≤ p) (k : ℤ) (hk : emin ≤ k - p) {x : ℚ} (hx : |(x : ℝ)| ≤ 2 ^ k) :
    |((rnd x : ℚ) : ℝ) - x| ≤ 2 ^ k * (1 / 2 ^ p) / 2 := by
  have e1 : (2 : ℝ) ^ (k - p) = 2 ^ k * (1 / 2 ^ p) := by rw [zpow_sub₀ (by norm_num), zpow_natCast, mul_one_div]
  have := half_ulp_real h hp hk (x := x) (by
    rw [e1, mul_comm, mul_assoc, one_div, inv_mul_cancel₀ (by positivity), mul_one]; exact hx)
  rwa [e1] at this

theorem rep_two_mul {c : ℚ} (hc : Rep p emin c) : Rep p emin (c * 2) := by
  obtain ⟨k, j, h1, h2, rfl⟩ := hc
  exact ⟨k, j + 1, h1, by omega, by rw [zpow_add_one₀ (by norm_num)]; ring⟩

/-- Products of the constant that need no rounding. -/
theorem rnd_mul_small (h : Nearest p emin rnd) {c : ℚ} (hc : Rep p emin c) {e : ℤ} (he : e = 1 ∨ e = -1 ∨ e = 2 ∨ e = -2) :
    rnd (c * e) = c * e := by
  refine h.fix ?_
  rcases he with rfl | rfl | rfl | rfl
  · simpa using hc
  · simpa using rep_neg hc
  · exact_mod_cast rep_two_mul hc
  · have := rep_neg (rep_two_mul hc)
    push_cast
    rwa [mul_neg]

/-- The data of the sum: `Q` is the sum computed for `e = 0`, `X` is `2 x`, `P` the rounded product of `e` and the
constant, `ρ` the error of rounding `X + P`, `u` half the distance from `1` to the next number. -/
structure LogSum (u c Q X P ρ ln2 L : ℝ) (e : ℤ) : Prop where
  u0 : 0 < u
  u1 : u ≤ 0.000001
  l1 : 0.69314718 < ln2
  l2 : ln2 < 0.69314719
  L1 : -0.2879 ≤ L
  L2 : L ≤ 0.4057
  hc : |c - ln2| ≤ 0.209 * u
  hQ : |Q - L| ≤ 2.465 * (u * |L|) + 0.000001 * u
  hX : |X - L| ≤ 0.006
  hρ : ∀ k : ℤ, -20 ≤ k → |X + P| ≤ 2 ^ k → |ρ| ≤ 2 ^ k * u / 2
  hP : ∀ k : ℤ, -20 ≤ k → |c * e| ≤ 2 ^ k → |P - c * e| ≤ 2 ^ k * u / 2
  hPs : e = 1 ∨ e = -1 ∨ e = 2 ∨ e = -2 → P = c * e

namespace LogSum
variable {u c Q X P ρ ln2 L w : ℝ} {e : ℤ}

theorem tri (_ : LogSum u c Q X P ρ ln2 L e) :
    |Q + P + ρ - (e * ln2 + L)| ≤ |Q - L| + |P - e * ln2| + |ρ| := by
  have : Q + P + ρ - (e * ln2 + L) = (Q - L) + (P - e * ln2) + ρ := by ring
  rw [this]; exact abs_add_three _ _ _

theorem aL (H : LogSum u c Q X P ρ ln2 L e) : |L| ≤ 0.4057 := by
  rw [_root_.abs_le]; constructor <;> linarith [H.L1, H.L2]

theorem Qle (H : LogSum u c Q X P ρ ln2 L e) {a : ℝ} (ha : |L| ≤ a) : |Q - L| ≤ (2.465 * a + 0.000001) * u := by
  have h1 : u * |L| ≤ u * a := mul_le_mul_of_nonneg_left ha H.u0.le
  linarith [H.hQ]

/-- The exponents `1` and `-1`. -/
theorem one (H : LogSum u c Q X P ρ ln2 L e) (he1 : e = 1 ∨ e = -1)
    (hw : ∀ k : ℤ, (2 : ℝ) ^ k ≤ 2 * |e * ln2 + L| → 2 ^ k * u ≤ w) :
    |Q + P + ρ - (e * ln2 + L)| ≤ 2.5 * w ∨ (|Q + P + ρ - (e * ln2 + L)| ≤ 3 * w ∧ |Q + P + ρ| * u ≤ w) := by
  have htri := H.tri
  have hu0 := H.u0
  have hu1 := H.u1
  have hl1 := H.l1
  have hl2 := H.l2
  have hL1 := H.L1
  have hL2 := H.L2
  have haL := H.aL
  obtain ⟨hX1, hX2⟩ := _root_.abs_le.mp H.hX
  obtain ⟨hc1, hc2⟩ := _root_.abs_le.mp H.hc
  have hPe : P = c * e := H.hPs (by tauto)
  have hPerr : |P - e * ln2| ≤ 0.209 * u := by
    rw [hPe, mul_comm (e : ℝ), ← sub_mul, abs_mul]
    have : |(e : ℝ)| = 1 := by rcases he1 with rfl | rfl <;> simp
    rw [this, mul_one]; exact H.hc
  have hQ1 := H.Qle haL
  by_cases hy : 0.5 ≤ |e * ln2 + L|
  · left
    have hS : |X + P| ≤ 2 ^ (1 : ℤ) := by
      rw [hPe, _root_.abs_le, zpow_one]
      rcases he1 with rfl | rfl <;> push_cast <;> constructor <;> linarith
    have hr1 := H.hρ 1 (by norm_num) hS
    rw [zpow_one] at hr1
    have := hw 0 (by rw [zpow_zero]; linarith)
    rw [zpow_zero] at this
    linarith
  · push Not at hy
    obtain ⟨hy1, hy2⟩ := abs_lt.mp hy
    have h3 : (0.28 : ℝ) ≤ |e * ln2 + L| := by
      rcases he1 with rfl | rfl
      · rw [le_abs]; left; push_cast; linarith
      · rw [le_abs]; right; push_cast; linarith
    have hm1 : (2 : ℝ) ^ (-1 : ℤ) = 0.5 := by norm_num
    have hwh := hw (-1) (by rw [hm1]; linarith)
    rw [hm1] at hwh
    by_cases hLs : |L| ≤ 0.21
    · left
      have hS : |X + P| ≤ 2 ^ (0 : ℤ) := by
        rw [hPe, _root_.abs_le, zpow_zero]
        rcases he1 with rfl | rfl <;> push_cast at hy1 hy2 ⊢ <;> constructor <;> linarith
      have hr0 := H.hρ 0 (by norm_num) hS
      rw [zpow_zero] at hr0
      have := H.Qle hLs
      linarith
    · push Not at hLs
      have hS : |X + P| ≤ 2 ^ (-1 : ℤ) := by
        rw [hPe, _root_.abs_le, hm1]
        rcases he1 with rfl | rfl <;> push_cast at hy1 hy2 ⊢
        · have hL0 : L < 0 := by linarith
          rw [abs_of_neg hL0] at hLs
          constructor <;> linarith
        · have hL0 : 0 < L := by linarith
          rw [abs_of_pos hL0] at hLs
          constructor <;> linarith
      have hrh := H.hρ (-1) (by norm_num) hS
      rw [hm1] at hrh
      by_cases hLm : |L| ≤ 0.2879
      · left
        have := H.Qle hLm
        linarith
      · right
        push Not at hLm
        have hd : |Q + P + ρ - (e * ln2 + L)| ≤ 1.4595 * u := by linarith
        refine ⟨by linarith, ?_⟩
        have h6 : |e * ln2 + L| ≤ 0.41 := by
          rcases he1 with rfl | rfl <;> push_cast at hy1 hy2 ⊢
          · exfalso
            have hL0 : L < 0 := by linarith
            rw [abs_of_neg hL0] at hLm
            linarith
          · have hL0 : 0 < L := by linarith
            rw [abs_of_pos hL0] at hLm
            rw [_root_.abs_le]; constructor <;> linarith
        have h5 : |Q + P + ρ| ≤ |e * ln2 + L| + |Q + P + ρ - (e * ln2 + L)| := by
          have := abs_add_le (e * ln2 + L) (Q + P + ρ - (e * ln2 + L)); rwa [add_sub_cancel] at this
        have h8 : |Q + P + ρ| ≤ 0.5 := by linarith
        have := mul_le_mul_of_nonneg_right h8 hu0.le
        linarith

theorem large_basic (H : LogSum u c Q X P ρ ln2 L e) (hE : 2 ≤ |(e : ℝ)|) :
    (∃ L', |L'| = |L| ∧ |e * ln2 + L| = |(e : ℝ)| * ln2 + L') ∧ |P| ≤ |(e : ℝ)| * ln2 + |P - e * ln2| ∧
      |X + P| ≤ |P| + 0.4117 ∧ |c * e - e * ln2| ≤ 0.209 * (u * |(e : ℝ)|) ∧
      |P - e * ln2| ≤ |P - c * e| + |c * e - e * ln2| ∧ |c * e| ≤ |(e : ℝ)| * ln2 + |c * e - e * ln2| := by
  have hln : 0 < ln2 := by linarith [H.l1]
  have haL := H.aL
  have hel : |(e : ℝ) * ln2| = |(e : ℝ)| * ln2 := by rw [abs_mul, abs_of_pos hln]
  refine ⟨?_, ?_, ?_, ?_, abs_sub_le _ _ _, ?_⟩
  · have hbig : |L| < |(e : ℝ)| * ln2 := by nlinarith [H.l1]
    obtain ⟨h1, h2⟩ := abs_lt.mp hbig
    rcases abs_cases (e : ℝ) with ⟨h3, h4⟩ | ⟨h3, h4⟩
    · refine ⟨L, rfl, ?_⟩
      rw [h3] at h1 h2 ⊢
      rw [abs_of_pos (by linarith)]
    · refine ⟨-L, abs_neg _, ?_⟩
      rw [h3] at h1 h2 ⊢
      rw [abs_of_neg (by linarith)]; ring
  · have := abs_add_le (e * ln2) (P - e * ln2); rw [add_sub_cancel, hel] at this; exact this
  · have h1 := abs_add_le X P
    have h2 := abs_add_le L (X - L)
    rw [add_sub_cancel] at h2
    linarith [H.hX]
  · rw [mul_comm (e : ℝ), ← sub_mul, abs_mul, ← mul_assoc]
    exact mul_le_mul_of_nonneg_right H.hc (abs_nonneg _)
  · have := abs_add_le (e * ln2) (c * e - e * ln2); rw [add_sub_cancel, hel] at this; exact this

theorem two (H : LogSum u c Q X P ρ ln2 L e) (hE : 2 ≤ |(e : ℝ)|) (hy : |e * ln2 + L| < 1)
    (hw : ∀ k : ℤ, (2 : ℝ) ^ k ≤ 2 * |e * ln2 + L| → 2 ^ k * u ≤ w) :
    |Q + P + ρ - (e * ln2 + L)| ≤ 2.5 * w := by
  obtain ⟨⟨L', hL', hyL⟩, hPle, hXP, hce, hPe, _⟩ := H.large_basic hE
  have htri := H.tri
  have hu0 := H.u0
  have hu1 := H.u1
  have hl1 := H.l1
  have hl2 := H.l2
  have haL := H.aL
  have hL2 := _root_.abs_le.mp (hL'.trans_le haL)
  have he3 : |(e : ℝ)| < 3 := by nlinarith [hL2.1]
  have he3' : |e| < 3 := by exact_mod_cast he3
  have hE' : 2 ≤ |e| := by exact_mod_cast hE
  have he2 : |e| = 2 := by omega
  have he2' : |(e : ℝ)| = 2 := by exact_mod_cast he2
  have hP0 := H.hPs (by rcases abs_eq (by norm_num : (0 : ℤ) ≤ 2) |>.mp he2 with h1 | h1 <;> tauto)
  have hP1 : |P - c * e| = 0 := by rw [hP0, sub_self, abs_zero]
  rw [he2'] at hPle hce hyL
  have hr1 := H.hρ 1 (by norm_num) (by rw [zpow_one]; linarith)
  rw [zpow_one] at hr1
  have hw1 := hw 0 (by rw [zpow_zero, hyL]; linarith [hL2.1])
  rw [zpow_zero] at hw1
  have hQ1 := H.Qle haL
  linarith

theorem big (H : LogSum u c Q X P ρ ln2 L e) (hE : 2 ≤ |(e : ℝ)|) (hy1 : 1 ≤ |e * ln2 + L|) {j : ℤ} (hj1 : 1 ≤ j)
    (hlt : |e * ln2 + L| < 2 ^ j) (hB2 : (2 : ℝ) ^ j ≤ 2 * |e * ln2 + L|) (hw : w = 2 ^ j * u) :
    |Q + P + ρ - (e * ln2 + L)| ≤ 2.5 * w ∨ (|Q + P + ρ - (e * ln2 + L)| ≤ 3 * w ∧ |Q + P + ρ| * u ≤ w) := by
  obtain ⟨⟨L', hL', hyL⟩, hPle, hXP, hce, hPe, hcl⟩ := H.large_basic hE
  have htri := H.tri
  have hu0 := H.u0
  have hu1 := H.u1
  have hl1 := H.l1
  have hl2 := H.l2
  have haL := H.aL
  obtain ⟨hL1, hL2⟩ := _root_.abs_le.mp (hL'.trans_le haL)
  have hQ1 := H.Qle haL
  have hBge : (2 : ℝ) ≤ 2 ^ j := by
    calc (2 : ℝ) = 2 ^ (1 : ℤ) := by norm_num
      _ ≤ _ := zpow_le_zpow_right₀ (by norm_num) hj1
  have hel1 : |(e : ℝ)| * 0.69314718 ≤ |(e : ℝ)| * ln2 := mul_le_mul_of_nonneg_left hl1.le (by positivity)
  have hel2 : |(e : ℝ)| * ln2 ≤ |(e : ℝ)| * 0.69314719 := mul_le_mul_of_nonneg_left hl2.le (by positivity)
  have hyq : |Q + P + ρ| ≤ |e * ln2 + L| + |Q + P + ρ - (e * ln2 + L)| := by
    have := abs_add_le (e * ln2 + L) (Q + P + ρ - (e * ln2 + L)); rwa [add_sub_cancel] at this
  set y := |e * ln2 + L| with hyd
  set d := |Q + P + ρ - (e * ln2 + L)| with hd
  have hw2 : 2 * u ≤ w := by rw [hw]; exact mul_le_mul_of_nonneg_right hBge hu0.le
  have hw1 : w ≤ 2 ^ j * 0.000001 := by rw [hw]; exact mul_le_mul_of_nonneg_left hu1 (by positivity)
  have heu : u * |(e : ℝ)| ≤ 2.029 * w := by
    have h1 : |(e : ℝ)| ≤ 2.029 * 2 ^ j := by linarith
    have := mul_le_mul_of_nonneg_left h1 hu0.le
    rw [hw]; linarith
  have hz2 : (2 : ℝ) ^ (j + 1) = 2 ^ j * 2 := zpow_add_one₀ (by norm_num) j
  have hjP := H.hP (j + 1) (by omega) (by rw [hz2]; linarith)
  rw [hz2] at hjP
  have hr := H.hρ (j + 1) (by omega) (by rw [hz2]; linarith)
  rw [hz2] at hr
  have htot : d ≤ 2.9255 * w := by linarith
  by_cases hzB : |Q + P + ρ| ≤ 2 ^ j
  · right
    exact ⟨by linarith, by rw [hw]; exact mul_le_mul_of_nonneg_right hzB hu0.le⟩
  · left
    push Not at hzB
    by_cases hcB : |c * e| ≤ 2 ^ j
    · have hj' := H.hP j (by omega) hcB
      linarith
    · push Not at hcB
      -- the significand is small
      have hLl : 2 ^ j - 2.9255 * w - |(e : ℝ)| * ln2 ≤ L' := by linarith
      have hLu : L' ≤ 0.4242 * w := by linarith
      have hLB : |L'| ≤ 0.0714 * 2 ^ j := by
        rw [_root_.abs_le]
        have hEi : |(e : ℝ)| = ((|e| : ℤ) : ℝ) := by push_cast; rfl
        refine ⟨?_, by linarith⟩
        by_cases hj3 : 3 ≤ j
        · have : (8 : ℝ) ≤ 2 ^ j := by
            calc (8 : ℝ) = 2 ^ (3 : ℤ) := by norm_num
              _ ≤ _ := zpow_le_zpow_right₀ (by norm_num) hj3
          linarith
        · have hj12 : j = 1 ∨ j = 2 := by omega
          rcases hj12 with h1 | h1
          · have e2 : (2 : ℝ) ^ j = 2 := by rw [h1]; norm_num
            have h4 : |(e : ℝ)| < 4 := by linarith
            have h4' : |e| ≤ 3 := by
              have : |e| < 4 := by exact_mod_cast h4
              omega
            have h4r : |(e : ℝ)| ≤ 3 := by exact_mod_cast h4'
            linarith
          · have e2 : (2 : ℝ) ^ j = 4 := by rw [h1]; norm_num
            have h4 : |(e : ℝ)| < 7 := by linarith
            have h4' : |e| ≤ 6 := by
              have : |e| < 7 := by exact_mod_cast h4
              omega
            have h4r : |(e : ℝ)| ≤ 6 := by exact_mod_cast h4'
            linarith
      have hLB' : u * |L| ≤ 0.0714 * w := by
        rw [← hL', hw]
        have := mul_le_mul_of_nonneg_left hLB hu0.le
        linarith
      have hE3 : |(e : ℝ)| ≤ 1.442696 * (2 ^ j + |L|) := by
        have h1 : |(e : ℝ)| * ln2 ≤ 2 ^ j + |L| := by linarith [neg_abs_le L']
        linarith
      have heu3 : u * |(e : ℝ)| ≤ 1.442696 * (w + u * |L|) := by
        have := mul_le_mul_of_nonneg_left hE3 hu0.le
        rw [hw]; linarith
      linarith [H.hQ]

theorem main (H : LogSum u c Q X P ρ ln2 L e) (he : e ≠ 0)
    (hw : ∀ k : ℤ, (2 : ℝ) ^ k ≤ 2 * |e * ln2 + L| → 2 ^ k * u ≤ w)
    (hj : 1 ≤ |e * ln2 + L| → ∃ j : ℤ, 1 ≤ j ∧ |e * ln2 + L| < 2 ^ j ∧ (2 : ℝ) ^ j ≤ 2 * |e * ln2 + L| ∧ w = 2 ^ j * u) :
    |Q + P + ρ - (e * ln2 + L)| ≤ 2.5 * w ∨ (|Q + P + ρ - (e * ln2 + L)| ≤ 3 * w ∧ |Q + P + ρ| * u ≤ w) := by
  by_cases he1 : e = 1 ∨ e = -1
  · exact H.one he1 hw
  · have hE2 : (2 : ℤ) ≤ |e| := by
      rcases abs_cases e with ⟨h1, _⟩ | ⟨h1, _⟩ <;> rw [h1] <;> omega
    have hE2' : (2 : ℝ) ≤ |(e : ℝ)| := by exact_mod_cast hE2
    by_cases hy : |e * ln2 + L| < 1
    · exact Or.inl (H.two hE2' hy hw)
    · push Not at hy
      obtain ⟨j, h1, h2, h3, h4⟩ := hj hy
      exact H.big hE2' hy h1 h2 h3 h4

end LogSum

/-- The exponent of an ulp at values of at least one. -/
theorem ulp_exp (hmin : emin ≤ -p) {y w : ℝ} (hw : IsUlp p emin y w) (hy : 1 ≤ y) :
    ∃ j : ℤ, 1 ≤ j ∧ y < 2 ^ j ∧ (2 : ℝ) ^ j ≤ 2 * y ∧ w = 2 ^ j * (1 / 2 ^ p) := by
  obtain ⟨k, hk, rfl, hlt, hor⟩ := hw
  have hBz : (2 : ℝ) ^ p * 2 ^ k = 2 ^ ((p : ℤ) + k) := by rw [zpow_add₀ (by norm_num), zpow_natCast]
  have hj1 : 1 ≤ (p : ℤ) + k := by
    by_contra hcon
    have : (2 : ℝ) ^ ((p : ℤ) + k) ≤ 1 := zpow_le_one_of_nonpos₀ (by norm_num) (by omega)
    linarith
  refine ⟨p + k, hj1, by rwa [← hBz], ?_, by rw [← hBz]; field_simp⟩
  rcases hor with h1 | h1
  · omega
  · rwa [← hBz]

/-- Finishing with the last rounding. -/
theorem log_finish (h : Nearest p emin rnd) (hp : 3 ≤ p) {y w : ℝ} {z : ℚ} (hw : IsUlp p emin |y| w)
    (hz : |(z : ℝ) - y| ≤ 2.5 * w ∨ (|(z : ℝ) - y| ≤ 3 * w ∧ |(z : ℝ)| * (1 / 2 ^ p) ≤ w)) :
    |((rnd z : ℚ) : ℝ) - y| ≤ 3.5 * w := by
  rcases hz with h1 | ⟨h1, h2⟩
  · have := round_err' h hp hw h1 (by norm_num)
    linarith
  · have := round_err_half h (by omega) hw h1 (by
      have := mul_le_mul_of_nonneg_left h2 (show (0 : ℝ) ≤ 2 ^ p by positivity)
      rwa [mul_left_comm, mul_one_div, div_self (by positivity), mul_one] at this)
    linarith

/-- `xlog` for `e ≠ 0`: `Q` is the sum computed for `e = 0` and `X` is `2 x`. -/
theorem log_combine64 (h : Nearest p emin rnd) (hp : 20 ≤ p) (hmin : emin ≤ -100 - p) {c Q X : ℚ} {e : ℤ} {L w : ℝ} (he : e ≠ 0)
    (hc : Rep p emin c) (hcl : |(c : ℝ) - Real.log 2| ≤ 0.209 * (1 / 2 ^ p)) (hL1 : -0.2879 ≤ L) (hL2 : L ≤ 0.4057)
    (hQ : |(Q : ℝ) - L| ≤ 2.465 * (1 / 2 ^ p) * |L| + 0.000001 * (1 / 2 ^ p)) (hX : |(X : ℝ) - L| ≤ 0.006)
    (hw : IsUlp p emin |e * Real.log 2 + L| w) {z : ℚ} (hzd : z = Q + rnd (c * e) + (rnd (X + rnd (c * e)) - (X + rnd (c * e)))) :
    |((rnd z : ℚ) : ℝ) - (e * Real.log 2 + L)| ≤ 3.5 * w := by
  have h2p : (2 : ℝ) ^ 20 ≤ 2 ^ p := pow_le_pow_right₀ (by norm_num) hp
  have hu20 : (1 : ℝ) / 2 ^ p ≤ 0.000001 := (one_div_le_one_div_of_le (by norm_num) h2p).trans (by norm_num)
  obtain ⟨hl1, hl2⟩ := log_two_bounds
  refine log_finish h (by omega) hw ?_
  have hzr : (z : ℝ) = (Q : ℝ) + (rnd (c * e) : ℚ) + ((rnd (X + rnd (c * e)) - (X + rnd (c * e)) : ℚ) : ℝ) := by rw [hzd]; push_cast; ring
  rw [hzr]
  refine LogSum.main (c := c) (X := X) ⟨by positivity, hu20, hl1, hl2, hL1, hL2, hcl, by linarith, hX, ?_, ?_, ?_⟩ he
    (fun k hk => ulp_ge_of hw k hk) (fun hy => ulp_exp (by omega) hw hy)
  · intro k hk hb
    have := half_pow h (by omega) k (by omega) (x := X + rnd (c * e)) (by push_cast; exact hb)
    push_cast at this ⊢; exact this
  · intro k hk hb
    have := half_pow h (by omega) k (by omega) (x := c * e) (by push_cast; exact hb)
    push_cast at this ⊢; exact this
  · intro he'
    rw [rnd_mul_small h hc he']; push_cast; ring

/-- The data of the sum in `xlogf`: `Q` is `x * t`, `ρ` the error of rounding it. -/
structure LogSum32 (u c Q P ρ ln2 L : ℝ) (e : ℤ) : Prop where
  u0 : 0 < u
  u1 : u ≤ 0.000001
  l1 : 0.69314718 < ln2
  l2 : ln2 < 0.69314719
  L1 : -0.2879 ≤ L
  L2 : L ≤ 0.4057
  hc : |c - ln2| ≤ 0.033 * u
  hQ : |Q - L| ≤ 3.068 * (u * |L|) + 0.000001 * u
  hQ' : 0.26 ≤ L → |Q - L| ≤ 2.968 * (u * |L|) + 0.000001 * u
  hρ : |ρ| ≤ 0.25 * u
  hP : ∀ k : ℤ, -20 ≤ k → |c * e| ≤ 2 ^ k → |P - c * e| ≤ 2 ^ k * u / 2
  hPs : e = 1 ∨ e = -1 ∨ e = 2 ∨ e = -2 → P = c * e

namespace LogSum32
variable {u c Q P ρ ln2 L w : ℝ} {e : ℤ}

theorem tri (_ : LogSum32 u c Q P ρ ln2 L e) : |Q + P + ρ - (e * ln2 + L)| ≤ |Q - L| + |P - e * ln2| + |ρ| := by
  have : Q + P + ρ - (e * ln2 + L) = (Q - L) + (P - e * ln2) + ρ := by ring
  rw [this]; exact abs_add_three _ _ _

theorem aL (H : LogSum32 u c Q P ρ ln2 L e) : |L| ≤ 0.4057 := by
  rw [_root_.abs_le]; constructor <;> linarith [H.L1, H.L2]

theorem Qle (H : LogSum32 u c Q P ρ ln2 L e) {a : ℝ} (ha : |L| ≤ a) : |Q - L| ≤ (3.068 * a + 0.000001) * u := by
  have h1 : u * |L| ≤ u * a := mul_le_mul_of_nonneg_left ha H.u0.le
  linarith [H.hQ]

/-- The exponents `1` and `-1`. -/
theorem one (H : LogSum32 u c Q P ρ ln2 L e) (he1 : e = 1 ∨ e = -1)
    (hw : ∀ k : ℤ, (2 : ℝ) ^ k ≤ 2 * |e * ln2 + L| → 2 ^ k * u ≤ w) :
    |Q + P + ρ - (e * ln2 + L)| ≤ 2.5 * w ∨ (|Q + P + ρ - (e * ln2 + L)| ≤ 3 * w ∧ |Q + P + ρ| * u ≤ w) := by
  have htri := H.tri
  have hu0 := H.u0
  have hu1 := H.u1
  have hl1 := H.l1
  have hl2 := H.l2
  have hL1 := H.L1
  have hL2 := H.L2
  have haL := H.aL
  have hρ := H.hρ
  have hPe : P = c * e := H.hPs (by tauto)
  have hPerr : |P - e * ln2| ≤ 0.033 * u := by
    rw [hPe, mul_comm (e : ℝ), ← sub_mul, abs_mul]
    have : |(e : ℝ)| = 1 := by rcases he1 with rfl | rfl <;> simp
    rw [this, mul_one]; exact H.hc
  have hQ1 := H.Qle haL
  by_cases hy : 0.5 ≤ |e * ln2 + L|
  · left
    have := hw 0 (by rw [zpow_zero]; linarith)
    rw [zpow_zero] at this
    linarith
  · push Not at hy
    obtain ⟨hy1, hy2⟩ := abs_lt.mp hy
    have h3 : (0.28 : ℝ) ≤ |e * ln2 + L| := by
      rcases he1 with rfl | rfl
      · rw [le_abs]; left; push_cast; linarith
      · rw [le_abs]; right; push_cast; linarith
    have hm1 : (2 : ℝ) ^ (-1 : ℤ) = 0.5 := by norm_num
    have hwh := hw (-1) (by rw [hm1]; linarith)
    rw [hm1] at hwh
    by_cases hLs : |L| ≤ 0.2879
    · left
      have := H.Qle hLs
      linarith
    · right
      push Not at hLs
      have hL0 : 0 < L ∧ e = -1 := by
        by_cases hneg : L ≤ 0
        · rw [abs_of_nonpos hneg] at hLs; linarith
        · push Not at hneg
          refine ⟨hneg, ?_⟩
          rcases he1 with rfl | rfl
          · push_cast at hy2; linarith
          · rfl
      obtain ⟨hL0, hem⟩ := hL0
      have hec : (e : ℝ) = -1 := by rw [hem]; norm_num
      rw [abs_of_pos hL0] at hLs haL
      have hq := H.hQ' (by linarith)
      rw [abs_of_pos hL0] at hq
      have h1 : u * L ≤ u * 0.4057 := mul_le_mul_of_nonneg_left haL hu0.le
      have hd : |Q + P + ρ - (e * ln2 + L)| ≤ 1.4875 * u := by linarith
      refine ⟨by linarith, ?_⟩
      have h6 : |(e : ℝ) * ln2 + L| ≤ 0.41 := by
        rw [hec, _root_.abs_le]; constructor <;> linarith
      have h5 : |Q + P + ρ| ≤ |e * ln2 + L| + |Q + P + ρ - (e * ln2 + L)| := by
        have := abs_add_le (e * ln2 + L) (Q + P + ρ - (e * ln2 + L)); rwa [add_sub_cancel] at this
      have h8 : |Q + P + ρ| ≤ 0.5 := by linarith
      have := mul_le_mul_of_nonneg_right h8 hu0.le
      linarith

theorem large (H : LogSum32 u c Q P ρ ln2 L e) (hE : 2 ≤ |(e : ℝ)|)
    (hw : ∀ k : ℤ, (2 : ℝ) ^ k ≤ 2 * |e * ln2 + L| → 2 ^ k * u ≤ w)
    (hj : 1 ≤ |e * ln2 + L| → ∃ j : ℤ, 1 ≤ j ∧ |e * ln2 + L| < 2 ^ j ∧ (2 : ℝ) ^ j ≤ 2 * |e * ln2 + L| ∧ w = 2 ^ j * u) :
    |Q + P + ρ - (e * ln2 + L)| ≤ 2.5 * w := by
  have htri := H.tri
  have hu0 := H.u0
  have hu1 := H.u1
  have hl1 := H.l1
  have hl2 := H.l2
  have haL := H.aL
  have hρ := H.hρ
  have hQ1 := H.Qle haL
  have hln : 0 < ln2 := by linarith
  have hel : |(e : ℝ) * ln2| = |(e : ℝ)| * ln2 := by rw [abs_mul, abs_of_pos hln]
  have hel1 : |(e : ℝ)| * 0.69314718 ≤ |(e : ℝ)| * ln2 := mul_le_mul_of_nonneg_left hl1.le (by positivity)
  have hel2 : |(e : ℝ)| * ln2 ≤ |(e : ℝ)| * 0.69314719 := mul_le_mul_of_nonneg_left hl2.le (by positivity)
  have hyl : |(e : ℝ)| * ln2 - |L| ≤ |e * ln2 + L| := by
    have := abs_sub_abs_le_abs_sub (e * ln2) (-L); rw [abs_neg, sub_neg_eq_add, hel] at this; exact this
  have hce : |c * e - e * ln2| ≤ 0.033 * (u * |(e : ℝ)|) := by
    rw [mul_comm (e : ℝ), ← sub_mul, abs_mul, ← mul_assoc]
    exact mul_le_mul_of_nonneg_right H.hc (abs_nonneg _)
  have hcl : |c * e| ≤ |(e : ℝ)| * ln2 + |c * e - e * ln2| := by
    have := abs_add_le (e * ln2) (c * e - e * ln2); rw [add_sub_cancel, hel] at this; exact this
  have hPe := abs_sub_le P (c * e) (e * ln2)
  by_cases hy : |e * ln2 + L| < 1
  · have he3 : |(e : ℝ)| < 3 := by linarith
    have he3' : |e| < 3 := by exact_mod_cast he3
    have hE' : 2 ≤ |e| := by exact_mod_cast hE
    have he2 : |e| = 2 := by omega
    have he2' : |(e : ℝ)| = 2 := by exact_mod_cast he2
    have hP0 := H.hPs (by rcases abs_eq (by norm_num : (0 : ℤ) ≤ 2) |>.mp he2 with h1 | h1 <;> tauto)
    have hP1 : |P - c * e| = 0 := by rw [hP0, sub_self, abs_zero]
    rw [he2'] at hce hyl
    have hw1 := hw 0 (by rw [zpow_zero]; linarith)
    rw [zpow_zero] at hw1
    linarith
  · push Not at hy
    obtain ⟨j, hj1, hlt, hB2, hwe⟩ := hj hy
    have hBge : (2 : ℝ) ≤ 2 ^ j := by
      calc (2 : ℝ) = 2 ^ (1 : ℤ) := by norm_num
        _ ≤ _ := zpow_le_zpow_right₀ (by norm_num) hj1
    have hw2 : 2 * u ≤ w := by rw [hwe]; exact mul_le_mul_of_nonneg_right hBge hu0.le
    have hw1 : w ≤ 2 ^ j * 0.000001 := by rw [hwe]; exact mul_le_mul_of_nonneg_left hu1 (by positivity)
    have heu : u * |(e : ℝ)| ≤ 2.029 * w := by
      have h1 : |(e : ℝ)| ≤ 2.029 * 2 ^ j := by linarith
      have := mul_le_mul_of_nonneg_left h1 hu0.le
      rw [hwe]; linarith
    have hz2 : (2 : ℝ) ^ (j + 1) = 2 ^ j * 2 := zpow_add_one₀ (by norm_num) j
    have hjP := H.hP (j + 1) (by omega) (by rw [hz2]; linarith)
    rw [hz2] at hjP
    linarith

end LogSum32

/-- `xlogf` for `e ≠ 0`: `Q` is `x * t`. -/
theorem log_combine32 (h : Nearest p emin rnd) (hp : 20 ≤ p) (hmin : emin ≤ -100 - p) {c Q : ℚ} {ρ : ℝ} {e : ℤ} {L w : ℝ} (he : e ≠ 0)
    (hc : Rep p emin c) (hcl : |(c : ℝ) - Real.log 2| ≤ 0.033 * (1 / 2 ^ p)) (hL1 : -0.2879 ≤ L) (hL2 : L ≤ 0.4057)
    (hQ : |(Q : ℝ) - L| ≤ 3.068 * (1 / 2 ^ p) * |L| + 0.000001 * (1 / 2 ^ p))
    (hQ' : 0.26 ≤ L → |(Q : ℝ) - L| ≤ 2.968 * (1 / 2 ^ p) * |L| + 0.000001 * (1 / 2 ^ p)) (hρ : |ρ| ≤ 0.25 * (1 / 2 ^ p))
    (hw : IsUlp p emin |e * Real.log 2 + L| w) {z : ℚ} (hzd : (z : ℝ) = Q + (rnd (c * e) : ℚ) + ρ) :
    |((rnd z : ℚ) : ℝ) - (e * Real.log 2 + L)| ≤ 3.5 * w := by
  have h2p : (2 : ℝ) ^ 20 ≤ 2 ^ p := pow_le_pow_right₀ (by norm_num) hp
  have hu20 : (1 : ℝ) / 2 ^ p ≤ 0.000001 := (one_div_le_one_div_of_le (by norm_num) h2p).trans (by norm_num)
  obtain ⟨hl1, hl2⟩ := log_two_bounds
  refine log_finish h (by omega) hw ?_
  rw [hzd]
  have H : LogSum32 (1 / 2 ^ p) (c : ℝ) Q (rnd (c * e) : ℚ) ρ (Real.log 2) L e :=
    ⟨by positivity, hu20, hl1, hl2, hL1, hL2, hcl, by linarith, fun h26 => by linarith [hQ' h26], hρ, ?_, ?_⟩
  · by_cases he1 : e = 1 ∨ e = -1
    · exact H.one he1 (fun k hk => ulp_ge_of hw k hk)
    · have hE2 : (2 : ℤ) ≤ |e| := by
        rcases abs_cases e with ⟨h1, _⟩ | ⟨h1, _⟩ <;> rw [h1] <;> omega
      exact Or.inl (H.large (by exact_mod_cast hE2) (fun k hk => ulp_ge_of hw k hk) (fun hy => ulp_exp (by omega) hw hy))
  · intro k hk hb
    have := half_pow h (by omega) k (by omega) (x := c * e) (by push_cast; exact hb)
    push_cast at this ⊢; exact this
  · intro he'
    rw [rnd_mul_small h hc he']; push_cast; ring

end Nsimd.Sleef
