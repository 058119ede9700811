import Verif.Lemmas.FlBound
import Verif.Lemmas.LogConst
import Verif.Lemmas.PolyBound
import Verif.Model.Exp
import Verif.Props.Hypot

/-!
# Error of the exponential functions

The last rounding, the product by a power of two, the argument reduction and the conversion to an integer.
-/

namespace Nsimd.Sleef
open Nsimd.DoubleDouble Nsimd.Float Nsimd.Props.Round Nsimd.Props.Hypot Nsimd.Round Nsimd.Hypot

variable {p : ℕ} {emin emax : ℤ} {rnd : ℚ → ℚ}

theorem half_ulp_real (h : Nearest p emin rnd) (hp : 1 ≤ p) {x : ℚ} {e : ℤ} (he : emin ≤ e)
    (hx : |(x : ℝ)| ≤ 2 ^ p * 2 ^ e) : |((rnd x : ℚ) : ℝ) - x| ≤ 2 ^ e / 2 := by
  have h1 : |x| ≤ 2 ^ p * 2 ^ e := by
    have : ((|x| : ℚ) : ℝ) ≤ ((2 ^ p * 2 ^ e : ℚ) : ℝ) := by push_cast; exact hx
    exact_mod_cast this
  have h2 := h.half_ulp hp he h1
  rw [abs_sub_comm]
  have : ((|x - rnd x| : ℚ) : ℝ) ≤ ((2 ^ e / 2 : ℚ) : ℝ) := by exact_mod_cast h2
  push_cast at this
  exact this

/-- The last rounding costs half an ulp of the exact value, even if it crosses a power of two. -/
theorem round_ulp (h : Nearest p emin rnd) (hp : 2 ≤ p) {z : ℚ} {t w κ : ℝ} (ht : 0 ≤ t) (hw : IsUlp p emin t w)
    (hz : |(z : ℝ) - t| ≤ κ * w) (hκ3 : κ ≤ 3) (hκ : κ < 1 ∨ (z : ℝ) ≤ 2 ^ p * w) : |((rnd z : ℚ) : ℝ) - t| ≤ (1 / 2 + κ) * w := by
  obtain ⟨e, he, rfl, hlt, -⟩ := hw
  have hw0 : (0 : ℝ) < 2 ^ e := by positivity
  have hp2 := hp
  replace hp : 1 ≤ p := by omega
  have h1p : (4 : ℝ) ≤ 2 ^ p := by
    have : (2 : ℝ) ^ 2 ≤ 2 ^ p := pow_le_pow_right₀ (by norm_num) hp2
    norm_num at this; exact this
  have hκ3' : κ * 2 ^ e ≤ 3 * 2 ^ e := mul_le_mul_of_nonneg_right hκ3 hw0.le
  have hz' := _root_.abs_le.mp hz
  rcases le_or_gt (z : ℝ) (2 ^ p * 2 ^ e) with hc | hc
  · have h1 := half_ulp_real h hp he (x := z) (by
      rw [_root_.abs_le]; constructor
      · nlinarith
      · exact hc)
    have h2 : |((rnd z : ℚ) : ℝ) - t| ≤ |((rnd z : ℚ) : ℝ) - z| + |(z : ℝ) - t| := abs_sub_le _ _ _
    linarith
  · replace hκ : κ < 1 := hκ.resolve_right (not_le.mpr hc)
    have hκ' : κ * 2 ^ e < 2 ^ e := by nlinarith
    have hB : Rep p emin ((2 : ℚ) ^ p * 2 ^ e) := by
      have := rep_int_mul (emin := emin) hp he (k := 2 ^ p) (by rw [abs_of_pos (by positivity)])
      push_cast at this
      exact this
    have hcq : (2 : ℚ) ^ p * 2 ^ e < z := by
      have : (((2 : ℚ) ^ p * 2 ^ e : ℚ) : ℝ) < (z : ℝ) := by push_cast; exact hc
      exact_mod_cast this
    have hge : (2 : ℚ) ^ p * 2 ^ e ≤ rnd z := by
      have := h.mono hcq.le; rwa [h.fix hB] at this
    have hBpos : (0 : ℚ) < 2 ^ p * 2 ^ e := by positivity
    have hm : Mult (e + 1) (rnd z) := mult_of_ge (h.rep z) (by
      rw [add_sub_cancel_right, abs_of_pos (hBpos.trans_le hge)]; exact hge)
    obtain ⟨k, hk⟩ := hm
    have hnear := h.near z _ hB
    have hzq : z < 2 ^ p * 2 ^ e + 2 ^ e := by
      have : (z : ℝ) < (((2 : ℚ) ^ p * 2 ^ e + 2 ^ e : ℚ) : ℝ) := by push_cast; linarith
      exact_mod_cast this
    have hrnd : rnd z < 2 ^ p * 2 ^ e + 2 * 2 ^ e := by
      have h1 : |z - 2 ^ p * 2 ^ e| = z - 2 ^ p * 2 ^ e := abs_of_pos (by linarith)
      rw [h1] at hnear
      have := _root_.abs_le.mp hnear
      linarith
    have heq : rnd z = 2 ^ p * 2 ^ e := by
      have hpe : (2 : ℚ) ^ p * 2 ^ e = ((2 ^ (p - 1) : ℤ) : ℚ) * 2 ^ (e + 1) := by
        push_cast
        rw [zpow_add_one₀ (by norm_num)]
        obtain ⟨n, rfl⟩ : ∃ n, p = n + 1 := ⟨p - 1, by omega⟩
        simp only [Nat.add_sub_cancel]; rw [pow_succ]; ring
      have h2 : (2 : ℚ) * 2 ^ e = 2 ^ (e + 1) := by rw [zpow_add_one₀ (by norm_num)]; ring
      rw [hk, hpe] at hge
      rw [hk, hpe, h2] at hrnd
      have hpos := two_zpow_pos (e + 1)
      have g1 : ((2 ^ (p - 1) : ℤ) : ℚ) ≤ k := le_of_mul_le_mul_right hge hpos
      have g2 : (k : ℚ) < ((2 ^ (p - 1) : ℤ) : ℚ) + 1 := by
        have : (k : ℚ) * 2 ^ (e + 1) < (((2 ^ (p - 1) : ℤ) : ℚ) + 1) * 2 ^ (e + 1) := by rw [add_mul, one_mul]; exact hrnd
        exact lt_of_mul_lt_mul_right this hpos.le
      have g3 : (2 ^ (p - 1) : ℤ) ≤ k := by exact_mod_cast g1
      have g4 : k < (2 ^ (p - 1) : ℤ) + 1 := by exact_mod_cast g2
      rw [hk, hpe]; congr 2; omega
    rw [heq]; push_cast
    rw [_root_.abs_le]
    constructor <;> nlinarith

/-- A number of at least one half whose exponent remains in the range is multiplied by a power of two without rounding. -/
theorem rep_scale (hp : 1 ≤ p) {u : ℚ} (hu : Rep p emin u) (h1 : 1 / 2 ≤ u) (h2 : u ≤ 2) {q : ℤ} (hq : emin ≤ q - p) :
    Rep p emin (u * 2 ^ q) := by
  have hm : Mult (-(p : ℤ)) u := mult_of_ge hu (by
    rw [abs_of_nonneg (by linarith), pow_eq_zpow]
    have : (p : ℤ) + (-p - 1) = -1 := by ring
    rw [this]; norm_num at *; linarith)
  rcases lt_or_ge u 1 with h3 | h3
  · refine rep_of_mult hp hq (e := q - p) ?_ ?_
    · have := hm.mul (y := 2 ^ q) ⟨1, by simp⟩ (f := q)
      rwa [show -(p : ℤ) + q = q - p by ring] at this
    · rw [abs_of_nonneg (by positivity), pow_eq_zpow]
      have : (p : ℤ) + (q - p) = q := by ring
      rw [this]
      nlinarith [two_zpow_pos q]
  · have hm : Mult (1 - (p : ℤ)) u := mult_of_ge hu (by
      rw [abs_of_nonneg (by linarith), pow_eq_zpow]
      have : (p : ℤ) + (1 - p - 1) = 0 := by ring
      rw [this]; simpa using h3)
    refine rep_of_mult hp (e := 1 - p + q) (by omega) ?_ ?_
    · exact hm.mul (y := 2 ^ q) ⟨1, by simp⟩ (f := q)
    · rw [abs_of_nonneg (by positivity), pow_eq_zpow]
      have : (p : ℤ) + (1 - p + q) = q + 1 := by ring
      rw [this, zpow_add_one₀ (by norm_num)]
      nlinarith [two_zpow_pos q]

/-- The same with one more binary digit. -/
theorem rep_scale' (hp : 1 ≤ p) {u : ℚ} (hu : Rep p emin u) (h1 : 1 ≤ u) (h2 : u ≤ 2) {q : ℤ} (hq : emin ≤ q + 1 - p) :
    Rep p emin (u * 2 ^ q) := by
  have hm : Mult (1 - (p : ℤ)) u := mult_of_ge hu (by
    rw [abs_of_nonneg (by linarith), pow_eq_zpow]
    have : (p : ℤ) + (1 - p - 1) = 0 := by ring
    rw [this]; simpa using h1)
  refine rep_of_mult hp (e := 1 - p + q) (by omega) ?_ ?_
  · exact hm.mul (y := 2 ^ q) ⟨1, by simp⟩ (f := q)
  · rw [abs_of_nonneg (by positivity), pow_eq_zpow]
    have : (p : ℤ) + (1 - p + q) = q + 1 := by ring
    rw [this, zpow_add_one₀ (by norm_num)]
    nlinarith [two_zpow_pos q]

set_option maxHeartbeats 1000000 in
/-- A result of the kernel that is accurate before its last rounding is accurate after the product by `2 ^ q`. -/
theorem scale_error (h : Nearest p emin rnd) (hp : 8 ≤ p) (hmin : emin ≤ -p) {z : ℚ} {t w wt κ c : ℝ} {q : ℤ}
    (ht1 : 0.6 ≤ t) (ht2 : t ≤ 1.7) (hwt : wt = if t < 1 then 1 / 2 ^ p else 2 / 2 ^ p)
    (hz : |(z : ℝ) - t| ≤ κ * wt) (hκ3 : κ ≤ 3) (hκ : κ < 1 ∨ 1 ≤ t ∨ (z : ℝ) ≤ 1) (hnear : κ ≤ c - 3 / 4 ∨ t < 1 ∨ 1 + 8 / 2 ^ p ≤ t)
    (hc1 : 1 ≤ c) (hc2 : 1 / 2 + κ ≤ c) (hw : IsUlp p emin (t * 2 ^ q) w) :
    |((rnd (rnd z * 2 ^ q) : ℚ) : ℝ) - t * 2 ^ q| ≤ c * w := by
  have hp1 : 1 ≤ p := by omega
  have hu0 : (0 : ℝ) < 1 / 2 ^ p := by positivity
  have hu1 : (1 : ℝ) / 2 ^ p ≤ 1 / 256 := by
    have : (2 : ℝ) ^ 8 ≤ 2 ^ p := pow_le_pow_right₀ (by norm_num) hp
    rw [div_le_div_iff₀ (by positivity) (by norm_num)]; linarith
  have hpz : (1 : ℝ) / 2 ^ p = 2 ^ (-(p : ℤ)) := by rw [zpow_neg, zpow_natCast, one_div]
  have h2u : (2 : ℝ) / 2 ^ p = 2 * (1 / 2 ^ p) := by ring
  have h4u : (8 : ℝ) / 2 ^ p = 8 * (1 / 2 ^ p) := by ring
  rw [h2u] at hwt
  rw [h4u] at hnear
  set u := (1 : ℝ) / 2 ^ p with hu
  have hκ0 : 0 ≤ κ := by
    have h1 := (abs_nonneg _).trans hz
    have h2 : 0 < wt := by rw [hwt]; split <;> linarith
    exact nonneg_of_mul_nonneg_left h1 h2
  have hwt' : IsUlp p emin t wt := by
    have hone : (2 : ℝ) ^ p * u = 1 := by rw [hu]; field_simp
    by_cases h1 : t < 1
    · rw [if_pos h1] at hwt
      refine ⟨-p, hmin, by rw [hwt, hpz], ?_, Or.inr ?_⟩ <;> rw [← hpz, hone]
      · exact h1
      · linarith
    · rw [if_neg h1] at hwt
      have h2 : (2 : ℝ) ^ (1 - (p : ℤ)) = 2 * u := by rw [hpz, zpow_sub₀ (by norm_num), zpow_neg]; simp [div_eq_mul_inv]
      have h3 : (2 : ℝ) ^ p * (2 * u) = 2 := by rw [mul_left_comm, hone, mul_one]
      refine ⟨1 - p, by omega, by rw [hwt, h2], ?_, Or.inr ?_⟩ <;> rw [h2, h3]
      · linarith
      · linarith
  have hup1 : (2 : ℝ) ^ p * u = 1 := by rw [hu]; field_simp
  have hκw : κ * wt ≤ 6 * u := by
    have h1 : wt ≤ 2 * u := by rw [hwt]; split <;> linarith
    have h2 : 0 < wt := by rw [hwt]; split <;> linarith
    have := mul_le_mul hκ3 h1 h2.le (by norm_num)
    linarith
  have hκz : κ < 1 ∨ (z : ℝ) ≤ 2 ^ p * wt := by
    rcases hκ with h1 | h1
    · exact Or.inl h1
    right
    rw [hwt]
    split
    · rename_i h2
      rw [hup1]; exact h1.resolve_left (not_le.mpr h2)
    · rw [mul_left_comm, hup1]
      have := (_root_.abs_le.mp hz).2
      linarith
  have hr := round_ulp h (by omega) (by linarith) hwt' hz hκ3 hκz
  have hq0 : (0 : ℝ) < 2 ^ q := by positivity
  obtain ⟨e, he, rfl, hlt, -⟩ := hw
  -- the exponent of the ulp of the result
  have hlog : ∀ k : ℤ, (2 : ℝ) ^ k ≤ t → q + k - p < e := by
    intro k hk
    have h1 : (2 : ℝ) ^ (k + q) < 2 ^ ((p : ℤ) + e) := by
      rw [zpow_add₀ (by norm_num), zpow_add₀ (by norm_num), zpow_natCast]
      exact lt_of_le_of_lt (mul_le_mul_of_nonneg_right hk hq0.le) hlt
    have := (zpow_lt_zpow_iff_right₀ (by norm_num : (1 : ℝ) < 2)).mp h1
    omega
  have he1 : q - p ≤ e := by
    have := hlog (-1) (by norm_num; linarith); omega
  have hscale : ∀ k : ℤ, q - p + k ≤ e → (2 : ℝ) ^ k * (u * 2 ^ q) ≤ 2 ^ e := by
    intro k hk
    rw [hpz, ← zpow_add₀ (by norm_num), ← zpow_add₀ (by norm_num)]
    exact zpow_le_zpow_right₀ (by norm_num) (by omega)
  have hw0 : (0 : ℝ) < 2 ^ e := by positivity
  have hre : Rep p emin (rnd z) := h.rep z
  have hr' := _root_.abs_le.mp hr
  have hwt1 : wt ≤ 2 * u := by rw [hwt]; split <;> linarith
  have hwt0 : 0 < wt := by rw [hwt]; split <;> linarith
  have hlow : (1 : ℝ) / 2 ≤ (rnd z : ℚ) := by
    by_contra hcon
    push Not at hcon
    have hhalf : Rep p emin (1 / 2 : ℚ) := by
      have := rep_int_mul (p := p) (emin := emin) hp1 (e := -1) (by omega) (k := 1) (by simp; exact one_le_pow₀ (by norm_num))
      norm_num at this ⊢; exact this
    have hzlt : z < 1 / 2 := by
      by_contra hzc
      push Not at hzc
      have := h.mono hzc
      rw [h.fix hhalf] at this
      have : ((1 / 2 : ℚ) : ℝ) ≤ (rnd z : ℚ) := by exact_mod_cast this
      push_cast at this; linarith
    have hzlt' : (z : ℝ) < 1 / 2 := by
      have : (z : ℝ) < ((1 / 2 : ℚ) : ℝ) := by exact_mod_cast hzlt
      push_cast at this; exact this
    have hz' := _root_.abs_le.mp hz
    norm_num at ht1
    linarith
  have hhigh : ((rnd z : ℚ) : ℝ) ≤ 2 := by
    have : (1 / 2 + κ) * wt ≤ 7 / 2 * (2 * u) := mul_le_mul (by linarith) hwt1 hwt0.le (by norm_num)
    linarith
  have hlowq : (1 : ℚ) / 2 ≤ rnd z := by
    have : ((1 / 2 : ℚ) : ℝ) ≤ (rnd z : ℚ) := by push_cast; exact hlow
    exact_mod_cast this
  have hhighq : rnd z ≤ 2 := by exact_mod_cast hhigh
  -- error without a further rounding
  have hscaled : |((rnd z : ℚ) : ℝ) * 2 ^ q - t * 2 ^ q| ≤ (1 / 2 + κ) * (wt * 2 ^ q) := by
    rw [← sub_mul, abs_mul, abs_of_pos hq0, ← mul_assoc]
    exact mul_le_mul_of_nonneg_right hr hq0.le
  have hexact : Rep p emin (rnd z * 2 ^ q) → wt * 2 ^ q ≤ 2 ^ e →
      |((rnd (rnd z * 2 ^ q) : ℚ) : ℝ) - t * 2 ^ q| ≤ c * 2 ^ e := by
    intro h1 h2
    rw [h.fix h1]
    push_cast
    refine hscaled.trans ?_
    exact mul_le_mul hc2 h2 (by positivity) (by linarith)
  have hround : ∀ δ : ℝ, q - p < emin → |((rnd z : ℚ) : ℝ) - t| ≤ δ → δ * 2 ^ q ≤ (c - 1 / 2) * 2 ^ e →
      |((rnd (rnd z * 2 ^ q) : ℚ) : ℝ) - t * 2 ^ q| ≤ c * 2 ^ e := by
    intro δ h1 h2 h3
    have h4 := half_ulp_real h hp1 (le_refl emin) (x := rnd z * 2 ^ q) (by
      push_cast
      rw [abs_of_nonneg (mul_nonneg (by linarith) hq0.le)]
      have : (2 : ℝ) ^ p * 2 ^ emin = 2 ^ ((p : ℤ) + emin) := by rw [zpow_add₀ (by norm_num), zpow_natCast]
      rw [this]
      have : (2 : ℝ) ^ (q + 1) ≤ 2 ^ ((p : ℤ) + emin) := zpow_le_zpow_right₀ (by norm_num) (by omega)
      rw [zpow_add_one₀ (by norm_num)] at this
      nlinarith)
    have h5 : (2 : ℝ) ^ emin ≤ 2 ^ e := zpow_le_zpow_right₀ (by norm_num) he
    have h6 : |((rnd z : ℚ) : ℝ) * 2 ^ q - t * 2 ^ q| ≤ δ * 2 ^ q := by
      rw [← sub_mul, abs_mul, abs_of_pos hq0]
      exact mul_le_mul_of_nonneg_right h2 hq0.le
    have h7 := abs_sub_le (((rnd (rnd z * 2 ^ q) : ℚ) : ℝ)) (((rnd z * 2 ^ q : ℚ) : ℝ)) (t * 2 ^ q)
    push_cast at h4 h7
    linarith
  by_cases h1 : t < 1
  · rw [if_pos h1] at hwt
    rw [hwt] at hr
    rcases le_or_gt emin (q - p) with h2 | h2
    · refine hexact (rep_scale hp1 hre hlowq hhighq h2) ?_
      have := hscale 0 (by omega)
      rw [hwt]; simpa using this
    · refine hround _ h2 hr ?_
      have h3 := hscale 1 (by omega)
      rw [zpow_one] at h3
      nlinarith [mul_pos hu0 hq0]
  · rw [if_neg h1] at hwt
    have he2 : q + 1 - p ≤ e := by
      have := hlog 0 (by simp; linarith); omega
    have hle : wt * 2 ^ q ≤ 2 ^ e := by
      have := hscale 1 (by omega)
      rw [hwt, mul_assoc]; simpa using this
    rcases le_or_gt 1 (rnd z) with h5 | h5
    · rcases le_or_gt emin (q + 1 - p) with h2 | h2
      · exact hexact (rep_scale' hp1 hre h5 hhighq h2) hle
      · refine hround _ (by omega) hr ?_
        have h3 := hscale 2 (by omega)
        rw [hwt]
        norm_num at h3
        nlinarith [mul_pos hu0 hq0]
    · rcases le_or_gt emin (q - p) with h2 | h2
      · exact hexact (rep_scale hp1 hre hlowq hhighq h2) hle
      · -- the kernel rounds below 1 although the exact value is at least 1
        have hzle : (z : ℝ) ≤ 1 := by
          by_contra hcon
          push Not at hcon
          have h6 : (1 : ℚ) ≤ z := by
            have : (1 : ℝ) < (z : ℝ) := hcon
            exact_mod_cast this.le
          have hone : Rep p emin (1 : ℚ) := by
            have := rep_int_mul (p := p) (emin := emin) hp1 (e := 0) (by omega) (k := 1)
              (by simp; exact one_le_pow₀ (by norm_num))
            simpa using this
          have := h.mono h6
          rw [h.fix hone] at this
          linarith
        have hz' := _root_.abs_le.mp hz
        have hz0 : -(1 : ℝ) ≤ z := by linarith
        have hup : (2 : ℝ) ^ p * 2 ^ (-(p : ℤ)) = 1 := by rw [zpow_neg, zpow_natCast]; field_simp
        have h7 := half_ulp_real h hp1 (e := -p) hmin (x := z) (by rw [hup, _root_.abs_le]; exact ⟨hz0, hzle⟩)
        rw [← hpz] at h7
        push Not at h1
        have hu5 : ((rnd z : ℚ) : ℝ) < 1 := by exact_mod_cast h5
        have h8 : |((rnd z : ℚ) : ℝ) - t| ≤ u / 2 + κ * wt := (abs_sub_le _ (z : ℝ) _).trans (add_le_add h7 hz)
        have hsmall : κ ≤ c - 3 / 4 := by
          rcases hnear with h9 | h9 | h9
          · exact h9
          · exact absurd h9 (not_lt.mpr h1)
          · exfalso
            have := (_root_.abs_le.mp h8).1
            rw [hwt] at this
            nlinarith
        have hδ : |((rnd z : ℚ) : ℝ) - t| ≤ (c - 1 / 2) * (2 * u) := by
          rw [hwt] at h8
          refine h8.trans ?_
          nlinarith
        refine hround _ h2 hδ ?_
        have h3 := hscale 1 (by omega)
        rw [zpow_one] at h3
        nlinarith [mul_pos hu0 hq0]

/-- The result of `ldexp2k` is within `c` ulps or overflows. -/
theorem ldexp2k_error (h : Nearest p emin rnd) (hp : 8 ≤ p) (hmin : emin ≤ -p) {z : ℚ}
    {t w wt κ c : ℝ} {q : ℤ} (hq : 2 * (emin + p) ≤ q)
    (ht1 : 0.6 ≤ t) (ht2 : t ≤ 1.7) (hwt : wt = if t < 1 then 1 / 2 ^ p else 2 / 2 ^ p)
    (hz : |(z : ℝ) - t| ≤ κ * wt) (hκ3 : κ ≤ 3) (hκ : κ < 1 ∨ 1 ≤ t ∨ (z : ℝ) ≤ 1) (hnear : κ ≤ c - 3 / 4 ∨ t < 1 ∨ 1 + 8 / 2 ^ p ≤ t)
    (hc1 : 1 ≤ c) (hc2 : 1 / 2 + κ ≤ c) (hw : IsUlp p emin (t * 2 ^ q) w) :
    (∃ r : ℚ, ldexp2k rnd emax (rnd z) q = .fin r ∧ Rep p emin r ∧ |r| < 2 ^ emax ∧ |(r : ℝ) - t * 2 ^ q| ≤ c * w) ∨
      (ldexp2k rnd emax (rnd z) q = .inf false ∧ 2 ^ emax ≤ t * 2 ^ q + c * w) := by
  have herr := scale_error h hp hmin ht1 ht2 hwt hz hκ3 hκ hnear hc1 hc2 hw
  have hp1 : 1 ≤ p := by omega
  -- bounds of the kernel
  have hu1 : (1 : ℝ) / 2 ^ p ≤ 1 / 256 := by
    have : (2 : ℝ) ^ 8 ≤ 2 ^ p := pow_le_pow_right₀ (by norm_num) hp
    rw [div_le_div_iff₀ (by positivity) (by norm_num)]; linarith
  have hu0 : (0 : ℝ) < 1 / 2 ^ p := by positivity
  have h2u : (2 : ℝ) / 2 ^ p = 2 * (1 / 2 ^ p) := by ring
  rw [h2u] at hwt
  have hwt1 : wt ≤ 1 / 128 := by rw [hwt]; split <;> linarith
  have hwt0 : 0 < wt := by rw [hwt]; split <;> linarith
  have hz' := _root_.abs_le.mp hz
  have hκw : κ * wt ≤ 3 / 128 := by
    have := mul_le_mul hκ3 hwt1 hwt0.le (by norm_num)
    linarith
  have hzl : (0.4 : ℝ) ≤ z := by
    norm_num at ht1 ⊢; linarith
  have hzu : (z : ℝ) ≤ 2 := by norm_num at ht2; linarith
  have hhalf : Rep p emin (1 / 2 : ℚ) := by
    have := rep_int_mul (p := p) (emin := emin) hp1 (e := -1) (by omega) (k := 1) (by simp; exact one_le_pow₀ (by norm_num))
    norm_num at this ⊢; exact this
  have htwo : Rep p emin (2 : ℚ) := by
    have := rep_int_mul (p := p) (emin := emin) hp1 (e := 1) (by omega) (k := 1) (by simp; exact one_le_pow₀ (by norm_num))
    norm_num at this ⊢; exact this
  have hlowq : (1 : ℚ) / 2 ≤ rnd z := by
    have : (1 / 2 : ℚ) ≤ z := by
      have : ((1 / 2 : ℚ) : ℝ) ≤ (z : ℝ) := by
        push_cast; norm_num at ht1; linarith
      exact_mod_cast this
    have := h.mono this
    rwa [h.fix hhalf] at this
  have hhighq : rnd z ≤ 2 := by
    have := h.mono (show z ≤ 2 by exact_mod_cast hzu)
    rwa [h.fix htwo] at this
  have hsr : q.shiftRight 1 = q / 2 := by
    show q >>> 1 = q / 2
    rw [Int.shiftRight_eq_div_pow]; norm_num
  have hfirst : mul rnd (rnd z) (pow2i (q.shiftRight 1)) * pow2i (q - q.shiftRight 1) = rnd z * 2 ^ q := by
    unfold mul pow2i
    rw [h.fix (rep_scale hp1 (h.rep z) hlowq hhighq (by rw [hsr]; omega)), mul_assoc, ← zpow_add₀ (by norm_num)]
    congr 2; ring
  have hpos : (0 : ℚ) < rnd z * 2 ^ q := mul_pos (by linarith) (two_zpow_pos q)
  unfold ldexp2k
  rw [hfirst]
  unfold roundFl
  split
  · rename_i hlt
    exact Or.inl ⟨_, rfl, h.rep _, hlt, herr⟩
  · rename_i hbig
    right
    refine ⟨by simp [not_lt.mpr hpos.le], ?_⟩
    push Not at hbig
    rw [abs_of_nonneg (by have := h.mono hpos.le; rwa [h.zero] at this)] at hbig
    have hbig' : (2 : ℝ) ^ emax ≤ (rnd (rnd z * 2 ^ q) : ℚ) := by
      have : ((2 ^ emax : ℚ) : ℝ) ≤ (rnd (rnd z * 2 ^ q) : ℚ) := by exact_mod_cast hbig
      push_cast at this; exact this
    have herr' := (_root_.abs_le.mp herr).2
    linarith

/-! ### From the bound of the kernel to the accuracy before the last rounding -/

/-- Error of the kernel on an interval: rounding errors, approximation of the exponential by a polynomial (`εP`) and error of
the reduced argument (`εs`). Proof helper. -/
def coreErr (εP εs : ℚ) (B : Bd) : ℚ := B.a + B.b / 2 ^ 100 + εP + (B.hi + εP) * (εs * (1 + εs))

/-- Are these errors at most `κ` ulps? Proof helper. -/
def coreOk (p : ℕ) (εP εs ν κ : ℚ) (B : Bd) : Bool :=
  let e := coreErr εP εs B
  B.ok && decide (B.k = 0) && decide (0 ≤ εP) && decide (0 ≤ εs) && decide (εs ≤ 1) && decide (0.6 ≤ B.lo - e) &&
    decide (B.hi + e ≤ 1.7) && decide (0 ≤ ν ∧ ν ≤ κ) && decide (ν < 1) &&
    (decide (B.hi + e < 1 ∧ e ≤ κ / 2 ^ p) || decide (1 + 8 / 2 ^ p ≤ B.lo - e ∧ e ≤ κ * (2 / 2 ^ p)) ||
      decide (e ≤ ν / 2 ^ p))

theorem exp_near {x y ε : ℝ} (h : |x - y| ≤ ε) (h1 : ε ≤ 1) :
    |Real.exp x - Real.exp y| ≤ Real.exp x * (ε * (1 + ε)) := by
  have h2 : Real.exp y = Real.exp x * Real.exp (y - x) := by rw [← Real.exp_add]; congr 1; ring
  have h3 : Real.exp x - Real.exp y = Real.exp x * (1 - Real.exp (y - x)) := by rw [h2]; ring
  rw [h3, abs_mul, abs_of_pos (Real.exp_pos x)]
  refine mul_le_mul_of_nonneg_left ?_ (Real.exp_pos x).le
  have h4 : |y - x| ≤ ε := by rwa [abs_sub_comm]
  have h5 : |y - x| ≤ 1 := h4.trans h1
  have h6 := Real.abs_exp_sub_one_sub_id_le h5
  have h7 : |1 - Real.exp (y - x)| ≤ |Real.exp (y - x) - 1 - (y - x)| + |y - x| := by
    have : 1 - Real.exp (y - x) = -((Real.exp (y - x) - 1 - (y - x)) + (y - x)) := by ring
    rw [this, abs_neg]; exact abs_add_le _ _
  have h8 : (y - x) ^ 2 ≤ ε ^ 2 := by rw [← sq_abs]; exact pow_le_pow_left₀ (abs_nonneg _) h4 2
  nlinarith

theorem core_error' {x : ℝ} {lt : ℚ → ℚ} {xl xu : ℚ} (E : Env p emin rnd lt x xl xu) {z : ℚ} {P y y' : ℝ} {B : Bd}
    (hA : Ap (eta emin) x z P B) {εP εs ν κ : ℚ} (hB : coreOk p εP εs ν κ B = true) (hP : |P - Real.exp y'| ≤ εP)
    (hy : |y' - y| ≤ εs) :
    0.6 ≤ Real.exp y ∧ Real.exp y ≤ 1.7 ∧ ∃ κ' : ℝ, κ' ≤ κ ∧
      |(z : ℝ) - Real.exp y| ≤ κ' * (if Real.exp y < 1 then 1 / 2 ^ p else 2 / 2 ^ p) ∧
      (κ' < 1 ∨ 1 ≤ Real.exp y ∨ (z : ℝ) ≤ 1) ∧
      (κ' ≤ ν / 2 ∨ Real.exp y < 1 ∨ 1 + 8 / 2 ^ p ≤ Real.exp y) := by
  simp only [coreOk, Bool.and_eq_true, Bool.or_eq_true, decide_eq_true_eq] at hB
  obtain ⟨⟨⟨⟨⟨⟨⟨⟨⟨h1, h2⟩, h3⟩, h4⟩, h5⟩, h6⟩, h7⟩, h8⟩, hν⟩, h9⟩ := hB
  obtain ⟨a1, b1, e1, w1, q1, l1, u1⟩ := hA h1
  rw [h2, pow_zero, mul_one] at e1
  rw [h2, pow_zero, one_mul] at q1
  subst q1
  have b1' : (0 : ℝ) ≤ B.b := by exact_mod_cast b1
  have hb : B.b * eta emin ≤ B.b / 2 ^ 100 := by
    have := mul_le_mul_of_nonneg_left E.eta_le b1'
    rwa [mul_one_div] at this
  have h3' : (0 : ℝ) ≤ εP := by exact_mod_cast h3
  have h4' : (0 : ℝ) ≤ εs := by exact_mod_cast h4
  have h5' : (εs : ℝ) ≤ 1 := by exact_mod_cast h5
  have hexp := exp_near hy h5'
  have hP' := _root_.abs_le.mp hP
  have h10 : Real.exp y' * (εs * (1 + εs)) ≤ (B.hi + εP) * (εs * (1 + εs)) :=
    mul_le_mul_of_nonneg_right (by linarith) (by positivity)
  set e := coreErr εP εs B with he
  have hee : (e : ℝ) = B.a + B.b / 2 ^ 100 + εP + (B.hi + εP) * (εs * (1 + εs)) := by rw [he, coreErr]; push_cast; ring
  have a1' : (0 : ℝ) ≤ B.a := by exact_mod_cast a1
  have hrt : |P - Real.exp y| ≤ εP + (B.hi + εP) * (εs * (1 + εs)) :=
    (abs_sub_le _ (Real.exp y') _).trans (by linarith)
  have hzt : |(z : ℝ) - Real.exp y| ≤ e := (abs_sub_le _ P _).trans (by linarith)
  have hb0 : (0 : ℝ) ≤ B.b / 2 ^ 100 := by positivity
  have hrt' := _root_.abs_le.mp hrt
  have hlo : ((B.lo - e : ℚ) : ℝ) ≤ Real.exp y := by push_cast; linarith
  have hhi : Real.exp y ≤ ((B.hi + e : ℚ) : ℝ) := by push_cast; linarith
  have c1 : ((0.6 : ℚ) : ℝ) ≤ ((B.lo - e : ℚ) : ℝ) := by exact_mod_cast h6
  have c2 : ((B.hi + e : ℚ) : ℝ) ≤ ((1.7 : ℚ) : ℝ) := by exact_mod_cast h7
  have hκ : (ν : ℝ) ≤ κ := by exact_mod_cast h8.2
  have hν0 : (0 : ℝ) ≤ ν := by exact_mod_cast h8.1
  have hν1 : (ν : ℝ) < 1 := by exact_mod_cast hν
  have hu0 : (0 : ℝ) < 1 / 2 ^ p := by positivity
  refine ⟨by push_cast at *; linarith, by push_cast at *; linarith, ?_⟩
  rcases h9 with (h9 | h9) | h9
  · have g1 : ((B.hi + e : ℚ) : ℝ) < 1 := by exact_mod_cast h9.1
    have g2 : (e : ℝ) ≤ ((κ / 2 ^ p : ℚ) : ℝ) := by exact_mod_cast h9.2
    push_cast at g2
    have g3 : Real.exp y < 1 := hhi.trans_lt g1
    refine ⟨κ, le_refl _, ?_, Or.inr (Or.inr ?_), Or.inr (Or.inl g3)⟩
    swap
    · have := (_root_.abs_le.mp (hzt)).2; have := (_root_.abs_le.mp e1).2; push_cast at g1; nlinarith
    rw [if_pos g3, mul_one_div]
    exact hzt.trans g2
  · have g1 : ((1 + 8 / 2 ^ p : ℚ) : ℝ) ≤ ((B.lo - e : ℚ) : ℝ) := by exact_mod_cast h9.1
    have g2 : (e : ℝ) ≤ ((κ * (2 / 2 ^ p) : ℚ) : ℝ) := by exact_mod_cast h9.2
    push_cast at g1 g2
    have g4 : (0 : ℝ) < 8 / 2 ^ p := by positivity
    push_cast at hlo
    have g3 : ¬ Real.exp y < 1 := by linarith
    refine ⟨κ, le_refl _, ?_, Or.inr (Or.inl (by linarith)), Or.inr (Or.inr (by linarith))⟩
    rw [if_neg g3]
    exact hzt.trans g2
  · have g2 : (e : ℝ) ≤ ((ν / 2 ^ p : ℚ) : ℝ) := by exact_mod_cast h9
    push_cast at g2
    by_cases g3 : Real.exp y < 1
    · refine ⟨ν, hκ, ?_, Or.inl hν1, Or.inr (Or.inl g3)⟩
      rw [if_pos g3]
      refine (hzt.trans g2).trans (le_of_eq (by ring))
    · refine ⟨ν / 2, by linarith, ?_, Or.inl (by linarith), Or.inl (le_refl _)⟩
      rw [if_neg g3]
      refine (hzt.trans g2).trans (le_of_eq (by ring))

/-- A check on consecutive intervals. Proof helper. -/
def chain (f : ℚ → ℚ → Bool) : ℚ → List ℚ → Bool
  | _, [] => true
  | a, b :: l => f a b && chain f b l

/-- Last element. Proof helper. -/
def lastD : ℚ → List ℚ → ℚ
  | a, [] => a
  | _, b :: l => lastD b l

theorem chain_sound {f : ℚ → ℚ → Bool} {a : ℚ} {l : List ℚ} (h : chain f a l = true) (hl : l ≠ []) {x : ℝ} (h1 : a ≤ x)
    (h2 : x ≤ lastD a l) : ∃ b c : ℚ, f b c = true ∧ b ≤ x ∧ x ≤ c := by
  induction l generalizing a with
  | nil => exact absurd rfl hl
  | cons b l ih =>
    simp only [chain, Bool.and_eq_true] at h
    by_cases hx : x ≤ b
    · exact ⟨a, b, h.1, h1, hx⟩
    · push Not at hx
      cases l with
      | nil => exact absurd h2 (not_le.mpr hx)
      | cons c l => exact ih h.2 (by simp) hx.le h2

/-- A polynomial and the exponential of `a * x`. -/
theorem poly_exp {l : List ℚ} {a ε : ℚ} {n M : ℕ} {D : ℚ} {lo : ℤ} {r k : ℕ} (hn : 0 < n) (hl : l.length ≤ n)
    (h : Poly.check (Poly.diff l (fun i => a ^ i / i.factorial) n) ε M D lo r k = true) {x : ℝ} (h1 : (lo : ℝ) ≤ x * M)
    (h2 : x * M ≤ lo + 2 * r * k) {b ε' : ℚ} (hb : |(a : ℝ) * x| ≤ b) (hb1 : b ≤ 1)
    (hε : b ^ n * ((n + 1) / (n.factorial * n)) + ε ≤ ε') :
    |Poly.eval l x - Real.exp (a * x)| ≤ ε' := by
  have h3 := Poly.check_sound h h1 h2
  rw [Poly.eval_diff _ _ hl] at h3
  have hb1' : (b : ℝ) ≤ 1 := by exact_mod_cast hb1
  have h4 := Real.exp_bound (hb.trans hb1') hn
  have h5 : ∑ i ∈ Finset.range n, ((a ^ i / i.factorial : ℚ) : ℝ) * x ^ i =
      ∑ i ∈ Finset.range n, ((a : ℝ) * x) ^ i / i.factorial := by
    refine Finset.sum_congr rfl fun i _ => ?_
    push_cast; rw [mul_pow]; ring
  rw [h5] at h3
  have h6 : |(a : ℝ) * x| ^ n * ((n.succ : ℝ) / (n.factorial * n)) ≤ (b : ℝ) ^ n * ((n + 1) / (n.factorial * n)) := by
    push_cast
    exact mul_le_mul_of_nonneg_right (pow_le_pow_left₀ (abs_nonneg _) hb _) (by positivity)
  have h7 : ((b ^ n * ((n + 1) / (n.factorial * n)) + ε : ℚ) : ℝ) ≤ ε' := by exact_mod_cast hε
  push_cast at h7 h6
  rw [abs_sub_comm] at h4
  push_cast at h4
  exact (abs_sub_le _ (∑ i ∈ Finset.range n, ((a : ℝ) * x) ^ i / i.factorial) _).trans (by linarith)

/-! ### Conversion to an integer and argument reduction -/

/-- The SIMD code rounds to a nearest integer. Assumption on the instruction, not code of the repo. -/
def Mode.Ok : Mode → Prop
  | .scalar => True
  | .simd near => ∀ y : ℚ, |(near y : ℚ) - y| ≤ 1 / 2

theorem truncQ_near (y : ℚ) : |(Fmod.truncQ y : ℚ)| ≤ |y| ∧ |y - Fmod.truncQ y| < 1 ∧ (0 ≤ y → (Fmod.truncQ y : ℚ) ≤ y) ∧
    (y < 0 → y ≤ Fmod.truncQ y) := by
  unfold Fmod.truncQ
  split
  · rename_i h
    have h1 := Int.le_ceil y
    have h2 := Int.ceil_lt_add_one y
    have h3 : ((⌈y⌉ : ℤ) : ℚ) ≤ 0 := by exact_mod_cast Int.ceil_le.mpr (by simpa using h.le)
    refine ⟨by rw [abs_of_nonpos h3, abs_of_neg h]; linarith, by rw [_root_.abs_lt]; constructor <;> linarith,
      fun h' => absurd h (not_lt.mpr h'), fun _ => h1⟩
  · rename_i h
    push Not at h
    have h1 := Int.floor_le y
    have h2 := Int.lt_floor_add_one y
    have h3 : (0 : ℚ) ≤ ((⌊y⌋ : ℤ) : ℚ) := by exact_mod_cast Int.floor_nonneg.mpr h
    refine ⟨by rw [abs_of_nonneg h3, abs_of_nonneg h]; linarith, by rw [_root_.abs_lt]; constructor <;> linarith,
      fun _ => h1, fun h' => absurd h' (not_lt.mpr h)⟩

theorem rintk_near (h : Nearest p emin rnd) (hp : 1 ≤ p) (hmin : emin ≤ -p - 1) {m : Mode} (hm : m.Ok) {y : ℚ} {j : ℕ}
    (hj : j ≤ 20) (hy : |y| + 1 / 2 ≤ 2 ^ j) :
    ∃ q : ℤ, rintk rnd m y = some q ∧ |(q : ℚ) - y| ≤ 1 / 2 + 2 ^ j / 2 ^ p / 2 := by
  have hτ : (0 : ℚ) < 2 ^ j / 2 ^ p / 2 := by positivity
  cases m with
  | simd near => exact ⟨near y, rfl, (hm y).trans (by linarith)⟩
  | scalar =>
    have hhalf : rnd (1 / 2) = 1 / 2 := by
      refine h.fix ?_
      have := rep_int_mul (p := p) (emin := emin) hp (e := -1) (by omega) (k := 1) (by simp; exact one_le_pow₀ (by norm_num))
      norm_num at this ⊢; exact this
    have hj' : (2 : ℚ) ^ j ≤ 2 ^ 20 := pow_le_pow_right₀ (by norm_num) hj
    have hrep : Rep p emin ((2 : ℚ) ^ j) := by
      have := rep_int_mul (p := p) (emin := emin) hp (e := j) (by omega) (k := 1) (by simp; exact one_le_pow₀ (by norm_num))
      rw [zpow_natCast] at this
      simpa using this
    have key : ∀ x : ℚ, |x| ≤ 2 ^ j → |rnd x - x| ≤ 2 ^ j / 2 ^ p / 2 ∧ |rnd x| ≤ 2 ^ j := by
      intro x hx
      constructor
      · have h1 := h.half_ulp hp (e := (j : ℤ) - p) (x := x) (by omega) (by
          rw [pow_eq_zpow, show (p : ℤ) + (j - p) = j by ring, zpow_natCast]; exact hx)
        rw [zpow_sub₀ (by norm_num), zpow_natCast, zpow_natCast, abs_sub_comm] at h1
        exact h1
      · have := h.abs_ge hrep (x := x) (by rw [abs_of_pos (show (0 : ℚ) < 2 ^ j by positivity)]; exact hx)
        rwa [abs_of_pos (show (0 : ℚ) < 2 ^ j by positivity)] at this
    have hyb := neg_abs_le y
    have hyb' := le_abs_self y
    have fin : ∀ n : ℤ, |(n : ℚ)| ≤ 2 ^ j → (if -2 ^ 31 ≤ n ∧ n < 2 ^ 31 then some n else none) = some n := by
      intro n hn
      have h1 := _root_.abs_le.mp (hn.trans hj')
      have h2 : (-2 ^ 20 : ℤ) ≤ n := by exact_mod_cast h1.1
      have h3 : n ≤ (2 ^ 20 : ℤ) := by exact_mod_cast h1.2
      rw [if_pos ⟨by norm_num at *; omega, by norm_num at *; omega⟩]
    unfold rintk
    simp only [hhalf]
    by_cases hc : y < 0
    · simp only [hc, if_true, sub]
      obtain ⟨k1, k2⟩ := key (y - 1 / 2) (by rw [abs_of_neg (by linarith)]; rw [abs_of_neg hc] at hy; linarith)
      obtain ⟨t1, t2, -, t4⟩ := truncQ_near (rnd (y - 1 / 2))
      refine ⟨_, fin _ (t1.trans k2), ?_⟩
      have hneg : rnd (y - 1 / 2) < 0 := by
        have := h.mono (show y - 1 / 2 ≤ -(1 / 2) by linarith)
        have h2 : rnd (-(1 / 2)) = -(1 / 2) := by
          refine h.fix ?_
          have := rep_int_mul (p := p) (emin := emin) hp (e := -1) (by omega) (k := -1) (by simp; exact one_le_pow₀ (by norm_num))
          norm_num at this ⊢; exact this
        rw [h2] at this; linarith
      have t4' := t4 hneg
      rw [_root_.abs_lt] at t2
      rw [_root_.abs_le] at k1 ⊢
      constructor <;> linarith
    · simp only [hc, if_false, add]
      push Not at hc
      obtain ⟨k1, k2⟩ := key (y + 1 / 2) (by rw [abs_of_nonneg (by linarith)]; rw [abs_of_nonneg hc] at hy; linarith)
      obtain ⟨t1, t2, t3, -⟩ := truncQ_near (rnd (y + 1 / 2))
      refine ⟨_, fin _ (t1.trans k2), ?_⟩
      have hpos : 0 ≤ rnd (y + 1 / 2) := by
        have := h.mono (show (0 : ℚ) ≤ y + 1 / 2 by linarith); rwa [h.zero] at this
      have t3' := t3 hpos
      rw [_root_.abs_lt] at t2
      rw [_root_.abs_le] at k1 ⊢
      constructor <;> linarith

/-- The integer multiple of the constant is subtracted without error in the first step. -/
theorem reduce_exact (h : Nearest p emin rnd) (hp : 1 ≤ p) (fused : Bool) {d u0 : ℚ} {q e eu : ℤ} (hd : Rep p emin d)
    (hu : Mult eu u0) (heu : e ≤ eu) (he : emin ≤ e) (hqu : |(q : ℚ) * u0| ≤ 2 ^ p * 2 ^ eu)
    (hq : q = 0 ∨ 2 ^ p * 2 ^ (e - 1) ≤ |d|) (hs : |d - q * u0| ≤ 2 ^ p * 2 ^ e) :
    (flAlg rnd rnd fused).mla (q : ℚ) (-u0) d = d - q * u0 ∧ Rep p emin (d - q * u0) := by
  have hqm : Mult eu ((q : ℚ) * u0) := by
    have := (show Mult 0 (q : ℚ) from ⟨q, by simp⟩).mul hu; rwa [zero_add] at this
  have hrep : Rep p emin (d - q * u0) := by
    rcases hq with rfl | hq
    · simpa using hd
    · exact rep_of_mult hp he ((mult_of_ge hd hq).sub (hqm.le heu)) hs
  have hprod : rnd (q * -u0) = q * -u0 := by
    refine h.fix (rep_of_mult hp (he.trans heu) (e := eu) ?_ ?_)
    · rw [mul_neg]; exact hqm.neg
    · rw [mul_neg, abs_neg]; exact hqu
  have hsum : (q : ℚ) * -u0 + d = d - q * u0 := by ring
  refine ⟨?_, hrep⟩
  cases fused
  · show rnd (rnd (q * -u0) + d) = _
    rw [hprod, hsum, h.fix hrep]
  · show rnd (q * -u0 + d) = _
    rw [hsum, h.fix hrep]

/-- One more step: the error is that of one rounding of the result and one of the small product. -/
theorem reduce_step (h : Nearest p emin rnd) (hp : 1 ≤ p) (fused : Bool) {d l0 : ℚ} {q j : ℤ} (hj : emin ≤ j)
    (hb : |d - q * l0| + (|q * l0| / 2 ^ p + 2 ^ emin / 2) ≤ 2 ^ p * 2 ^ j) :
    |(flAlg rnd rnd fused).mla (q : ℚ) (-l0) d - (d - q * l0)| ≤ 2 ^ j / 2 + (|q * l0| / 2 ^ p + 2 ^ emin / 2) := by
  have hpos : (0 : ℚ) ≤ |q * l0| / 2 ^ p + 2 ^ emin / 2 := by positivity
  have h0 : (q : ℚ) * -l0 + d = d - q * l0 := by ring
  cases fused
  · show |rnd (rnd (q * -l0) + d) - _| ≤ _
    have h1 := h.err hp (q * -l0)
    rw [mul_neg, abs_neg] at h1
    have h2 : rnd (-(q * l0)) + d = (d - q * l0) + (rnd (-(q * l0)) - -(q * l0)) := by ring
    have h3 : |rnd (-(q * l0)) + d| ≤ 2 ^ p * 2 ^ j := by
      rw [h2]; exact (abs_add_le _ _).trans (by linarith)
    have h4 := h.half_ulp hp hj h3
    rw [abs_sub_comm] at h4
    rw [mul_neg]
    calc _ ≤ |rnd (rnd (-(q * l0)) + d) - (rnd (-(q * l0)) + d)| + |rnd (-(q * l0)) + d - (d - q * l0)| := abs_sub_le _ _ _
      _ ≤ _ := add_le_add h4 (by rw [h2, add_sub_cancel_left]; exact h1)
  · show |rnd (q * -l0 + d) - _| ≤ _
    rw [h0]
    have h4 := h.half_ulp hp hj (x := d - q * l0) (by linarith)
    rw [abs_sub_comm] at h4
    linarith

end Nsimd.Sleef
