import Verif.Lemmas.DoubleDouble
import Verif.Lemmas.Ieee
import Verif.Model.Fmod

/-!
Helper lemmas: neighbours of a number of the format, and one step of a long division in double-double arithmetic.
-/

namespace Nsimd.Float
open Nsimd.Props.Round

variable {p : Nat} {emin : ℤ} {rnd : ℚ → ℚ}

/-- `t` is the number of the format before `x`. Proof helper, not code of the repo. -/
structure Before (p : Nat) (emin : ℤ) (x t : ℚ) : Prop where
  rep : Rep p emin t
  lt : t < x
  max : ∀ y, Rep p emin y → y < x → y ≤ t

theorem rep_pow (hp : 1 ≤ p) {e : ℤ} (he : emin ≤ e) : Rep p emin ((2 : ℚ) ^ e) :=
  rep_of_mult hp he ⟨1, by push_cast; ring⟩ (by
    rw [abs_of_pos (two_zpow_pos e)]
    have : (1 : ℚ) ≤ 2 ^ p := one_le_pow₀ (by norm_num)
    nlinarith [two_zpow_pos e])

theorem Before.nonneg {x t : ℚ} (h : Before p emin x t) (hx : 0 < x) : 0 ≤ t := h.max 0 (rep_zero p emin) hx

/-- The distance to the number before is at least `2^-p`. -/
theorem Before.gap {x t : ℚ} (hp : 1 ≤ p) (h : Before p emin x t) (hx : Rep p emin x) (h0 : 0 < x) :
    x ≤ 2 ^ p * (x - t) := by
  obtain ⟨e, he, hm, hlt, hc⟩ := rep_canon h.rep
  have ht0 := h.nonneg h0
  rw [abs_of_nonneg ht0] at hlt hc
  have hpe : (0 : ℚ) < 2 ^ e := two_zpow_pos e
  have hxm : Mult e x := by
    rcases hc with rfl | hc
    · obtain ⟨f, hf, hm', -⟩ := rep_exp hx
      exact hm'.le hf
    · exact mult_of_ge hx (by rw [abs_of_pos h0]; linarith [h.lt])
  have hle : x ≤ 2 ^ p * 2 ^ e := by
    by_contra hcon
    rw [not_le] at hcon
    have := h.max _ (rep_of_mult hp he ⟨2 ^ p, by push_cast; ring⟩ (by rw [abs_of_pos (by positivity)])) hcon
    linarith
  obtain ⟨k, hk⟩ := hxm.sub hm
  have hlt := h.lt
  have hk1 : (1 : ℚ) ≤ k := by
    have : (0 : ℚ) < k := by
      by_contra hcon
      have : (k : ℚ) * 2 ^ e ≤ 0 := mul_nonpos_of_nonpos_of_nonneg (by linarith) hpe.le
      linarith
    have : 0 < k := by exact_mod_cast this
    exact_mod_cast this
  have : (2 : ℚ) ^ e ≤ x - t := by rw [hk]; nlinarith
  calc x ≤ 2 ^ p * 2 ^ e := hle
    _ ≤ 2 ^ p * (x - t) := by gcongr

/-- The number before a normal number. -/
theorem Before.close {x t : ℚ} (hp : 1 ≤ p) (h : Before p emin x t) (hx : Rep p emin x)
    (h0 : 2 ^ p * 2 ^ emin ≤ 2 * x) : 2 ^ p * (x - t) ≤ 2 * x := by
  have hx0 : 0 < x := by
    have : (0 : ℚ) < 2 ^ p * 2 ^ emin := by positivity
    linarith
  obtain ⟨e, he, hm, hlt, hc⟩ := rep_canon hx
  rw [abs_of_pos hx0] at hlt hc
  have hpe : (0 : ℚ) < 2 ^ e := two_zpow_pos e
  have h2 : 2 ^ p * 2 ^ e ≤ 2 * x := by
    rcases hc with rfl | hc
    · exact h0
    · rw [zpow_sub_one₀ (by norm_num)] at hc; linarith
  have hle : (2 : ℚ) ^ e ≤ x := by
    obtain ⟨k, hk⟩ := hm
    rw [hk] at hx0 ⊢
    have : (0 : ℚ) < k := pos_of_mul_pos_left hx0 hpe.le
    have : 0 < k := by exact_mod_cast this
    have : (1 : ℚ) ≤ k := by exact_mod_cast this
    nlinarith
  have := h.max (x - 2 ^ e) (rep_of_mult hp he (hm.sub ⟨1, by push_cast; ring⟩) (by
    rw [abs_of_nonneg (by linarith)]; linarith)) (by linarith)
  calc 2 ^ p * (x - t) ≤ 2 ^ p * 2 ^ e := by gcongr; linarith
    _ ≤ 2 * x := h2

/-- The number before a rounded number is below the number by a relative `2^-(p+1)`. -/
theorem Nearest.before_le (h : Nearest p emin rnd) (hp : 1 ≤ p) {z t : ℚ} (hb : Before p emin (rnd z) t)
    (h0 : 0 < rnd z) : t * (1 + 1 / 2 ^ p / 2) ≤ z := by
  have h1 := hb.gap hp (h.rep z) h0
  have h2 := h.near z t hb.rep
  have hlt := hb.lt
  have hpp : (0 : ℚ) < 2 ^ p := by positivity
  have h3 : (rnd z + t) / 2 ≤ z := by
    by_contra hc
    rw [not_le] at hc
    rw [abs_of_nonpos (by linarith : z - rnd z ≤ 0)] at h2
    rcases abs_cases (z - t) with ⟨e, _⟩ | ⟨e, _⟩ <;> linarith
  have h4 : rnd z / 2 ^ p ≤ rnd z - t := by rw [div_le_iff₀ hpp]; linarith
  have h5 : t / 2 ^ p ≤ rnd z / 2 ^ p := by gcongr
  have : t * (1 + 1 / 2 ^ p / 2) = t + t / 2 ^ p / 2 := by ring
  rw [this]; linarith

/-- The estimate of the quotient is never too large. -/
theorem Nearest.quot_le (h : Nearest p emin rnd) (hp : 1 ≤ p) (hmin : emin ≤ -(p : ℤ)) {R d t s : ℚ} (hd : 0 < d)
    (ht : 0 ≤ t) (hs : 0 ≤ s) (ht1 : t * (1 + 1 / 2 ^ p / 2) ≤ R) (hs1 : s * (1 + 1 / 2 ^ p / 2) ≤ 1 / d) :
    rnd (t * s) ≤ 1 / 2 ∨ rnd (t * s) * d ≤ R := by
  have hP : 0 ≤ t * s := mul_nonneg ht hs
  rcases le_or_gt (t * s) (1 / 2) with hc | hc
  · left
    have e : (1 / 2 : ℚ) = 2 ^ (-1 : ℤ) := by norm_num
    have hr : rnd (1 / 2) = 1 / 2 := by rw [e]; exact h.fix (rep_pow hp (by omega))
    rw [← hr]; exact h.mono hc
  · right
    have hpe : (2 : ℚ) ^ p * 2 ^ emin ≤ 1 := by
      rw [pow_eq_zpow, show (1 : ℚ) = 2 ^ (0 : ℤ) by norm_num, zpow_le_iff]; omega
    have h1 := h.rel hp (x := t * s) (by rw [abs_of_nonneg hP]; linarith)
    rw [abs_of_nonneg hP] at h1
    set ε : ℚ := 1 / 2 ^ p with hε
    have hε0 : 0 < ε := by rw [hε]; positivity
    have h2 : rnd (t * s) ≤ t * s * (1 + ε) := by
      have := le_abs_self (rnd (t * s) - t * s)
      have e : t * s / 2 ^ p = t * s * ε := by rw [hε]; ring
      rw [e] at h1; linarith
    have h3 : t * (1 + ε / 2) * (s * (1 + ε / 2)) ≤ R * (1 / d) :=
      mul_le_mul ht1 hs1 (by positivity) (le_trans (by positivity) ht1)
    have h4 : rnd (t * s) ≤ R * (1 / d) := by nlinarith [mul_nonneg hP (sq_nonneg ε)]
    calc rnd (t * s) * d ≤ R * (1 / d) * d := by gcongr
      _ = R := by field_simp

/-- The estimate of the quotient is near. -/
theorem Nearest.quot_ge (h : Nearest p emin rnd) (hp : 2 ≤ p) (hmin : emin ≤ -(p : ℤ)) {R d t s δ : ℚ} (hd : 0 < d)
    (hR : d ≤ R) (hRn : 2 ^ p * 2 ^ emin ≤ 2 * R) (ht : Before p emin (rnd R) t) (hs0 : 0 ≤ s) (hs : (1 - δ) / d ≤ s)
    (hδ : 0 ≤ δ) (hδ1 : 4 * (1 / 2 ^ p) + δ ≤ 1 / 2) :
    R * (1 - (4 * (1 / 2 ^ p) + δ)) ≤ rnd (t * s) * d := by
  have hp1 : 1 ≤ p := by omega
  have hR0 : 0 < R := hd.trans_le hR
  have hpp : (0 : ℚ) < 2 ^ p := by positivity
  set ε : ℚ := 1 / 2 ^ p with hε
  have hε0 : 0 < ε := by rw [hε]; positivity
  have hx := h.rel hp1 (x := R) (by rw [abs_of_pos hR0]; exact hRn)
  rw [abs_of_pos hR0, show R / 2 ^ p = R * ε by rw [hε]; ring] at hx
  have hx1 : R * (1 - ε) ≤ rnd R := by have := neg_abs_le (rnd R - R); linarith
  have hx0 : 0 < rnd R := by nlinarith
  have hn2 : 2 ^ p * 2 ^ emin ≤ 2 * rnd R := by
    have e : (2 : ℚ) ^ ((p : ℤ) - 1 + emin) = 2 ^ p * 2 ^ emin / 2 := by
      rw [show (p : ℤ) - 1 + emin = (p : ℤ) + emin - 1 by ring, zpow_sub_one₀ (by norm_num),
        zpow_add₀ (by norm_num), zpow_natCast]
      ring
    have := h.mono (show (2 : ℚ) ^ ((p : ℤ) - 1 + emin) ≤ R by rw [e]; linarith)
    rw [h.fix (rep_pow hp1 (by omega)), e] at this
    linarith
  have ht2 : 2 ^ p * (rnd R - t) ≤ 2 * rnd R := ht.close hp1 (h.rep R) hn2
  have ht1 : rnd R * (1 - 2 * ε) ≤ t := by
    have : rnd R - t ≤ 2 * rnd R / 2 ^ p := by rw [le_div_iff₀ hpp]; linarith
    have e : 2 * rnd R / 2 ^ p = rnd R * (2 * ε) := by rw [hε]; ring
    rw [e] at this; linarith
  have ht0 := ht.nonneg hx0
  have h1 : R * (1 - 3 * ε) ≤ t := by
    refine le_trans ?_ ht1
    have : R * (1 - ε) * (1 - 2 * ε) ≤ rnd R * (1 - 2 * ε) := by gcongr; linarith
    nlinarith [mul_pos hR0 (mul_pos hε0 hε0)]
  have h2 : R * (1 - 3 * ε) * ((1 - δ) / d) ≤ t * s :=
    mul_le_mul h1 hs (div_nonneg (by linarith) hd.le) ht0
  have h3 : R * (1 - 3 * ε - δ) ≤ t * s * d := by
    have : R * (1 - 3 * ε) * (1 - δ) ≤ t * s * d := by
      calc R * (1 - 3 * ε) * (1 - δ) = R * (1 - 3 * ε) * ((1 - δ) / d) * d := by field_simp
        _ ≤ t * s * d := by gcongr
    nlinarith [mul_nonneg (mul_nonneg hR0.le hε0.le) hδ]
  have hts : 0 ≤ t * s := mul_nonneg ht0 hs0
  have hP : 1 / 2 ≤ t * s := by
    have : d * (1 / 2) ≤ t * s * d := by nlinarith
    by_contra hc
    rw [not_le] at hc
    nlinarith
  have hpe : (2 : ℚ) ^ p * 2 ^ emin ≤ 1 := by
    rw [pow_eq_zpow, show (1 : ℚ) = 2 ^ (0 : ℤ) by norm_num, zpow_le_iff]; omega
  have h5 := h.rel hp1 (x := t * s) (by rw [abs_of_nonneg hts]; linarith)
  rw [abs_of_nonneg hts, show t * s / 2 ^ p = t * s * ε by rw [hε]; ring] at h5
  have h6 : t * s * (1 - ε) ≤ rnd (t * s) := by have := neg_abs_le (rnd (t * s) - t * s); linarith
  have h7 : t * s * d * (1 - ε) ≤ rnd (t * s) * d := by
    calc t * s * d * (1 - ε) = t * s * (1 - ε) * d := by ring
      _ ≤ _ := by gcongr
  have h8 : R * (1 - 3 * ε - δ) * (1 - ε) ≤ t * s * d * (1 - ε) := by gcongr; linarith
  nlinarith [mul_nonneg (mul_nonneg hR0.le hε0.le) (by linarith : 0 ≤ 3 * ε + δ)]

open Nsimd.DoubleDouble

/-- `normalize` is exact if the first difference is. -/
theorem Nearest.normalize_of (h : Nearest p emin rnd) (hp : 1 ≤ p) {a b : ℚ} (ha : Rep p emin a) (hb : Rep p emin b)
    (hz : Rep p emin (rnd (a + b) - a)) :
    normalize rnd (a, b) = (rnd (a + b), a + b - rnd (a + b)) := by
  have h1 := rep_neg hz
  rw [neg_sub] at h1
  simp only [normalize, add, sub]
  rw [h.fix h1, show a - rnd (a + b) + b = a + b - rnd (a + b) by ring, h.fix (h.err_add hp ha hb)]

/-- `normalize` of numbers with an exact sum. -/
theorem Nearest.normalize_exact (h : Nearest p emin rnd) (hp : 1 ≤ p) {a b : ℚ} (ha : Rep p emin a)
    (hb : Rep p emin b) (hab : Rep p emin (a + b)) :
    normalize rnd (a, b) = (rnd (a + b), a + b - rnd (a + b)) :=
  h.normalize_of hp ha hb (by rw [h.fix hab, add_sub_cancel_left]; exact hb)

/-- `normalize` of a power of two and a number of nearly the same size. -/
theorem Nearest.normalize_pow (h : Nearest p emin rnd) (hp : 2 ≤ p) {c : ℤ} (hc : emin ≤ c) {b : ℚ}
    (hb : Rep p emin b) (hb0 : 0 ≤ b) (hb1 : b < 2 * 2 ^ c) :
    normalize rnd (2 ^ c, b) = (rnd (2 ^ c + b), 2 ^ c + b - rnd (2 ^ c + b)) := by
  have hp1 : 1 ≤ p := by omega
  have hpc := two_zpow_pos c
  refine h.normalize_of hp1 (rep_pow hp1 hc) hb ?_
  obtain ⟨e, he, hm, hlt, hcan⟩ := rep_canon (h.rep (2 ^ c + b))
  have hge : (2 : ℚ) ^ c ≤ rnd (2 ^ c + b) := by
    have := h.mono (by linarith : (2 : ℚ) ^ c ≤ 2 ^ c + b)
    rwa [h.fix (rep_pow hp1 hc)] at this
  have hle : rnd (2 ^ c + b) ≤ 2 ^ p * 2 ^ c := by
    have h4 : (4 : ℚ) ≤ 2 ^ p := by
      calc (4 : ℚ) = 2 ^ 2 := by norm_num
        _ ≤ 2 ^ p := pow_le_pow_right₀ (by norm_num) hp
    have hr : Rep p emin ((2 : ℚ) ^ p * 2 ^ c) :=
      rep_of_mult hp1 hc ⟨2 ^ p, by push_cast; ring⟩ (by rw [abs_of_pos (by positivity)])
    have := h.mono (by nlinarith : (2 : ℚ) ^ c + b ≤ 2 ^ p * 2 ^ c)
    rwa [h.fix hr] at this
  have h0 : 0 ≤ rnd (2 ^ c + b) := hpc.le.trans hge
  rw [abs_of_nonneg h0] at hlt hcan
  by_cases hec : e ≤ c
  · refine rep_of_mult hp1 he (hm.sub (Mult.le ⟨1, by push_cast; ring⟩ hec)) ?_
    rw [abs_of_nonneg (by linarith)]; linarith
  · have hcc : Mult c (rnd (2 ^ c + b) - 2 ^ c) := (hm.le (by omega)).sub ⟨1, by push_cast; ring⟩
    refine rep_of_mult hp1 hc hcc ?_
    rw [abs_of_nonneg (by linarith)]; linarith

/-- A step of the division from the exactness of its parts. -/
theorem Nearest.step_of (h : Nearest p emin rnd) (hp : 1 ≤ p) {x xl y yl : ℚ} (hx : Rep p emin x)
    (hy : Rep p emin y) (hl : Rep p emin (xl - yl)) (hs : Rep p emin (x - y - rnd (x - y) + (xl - yl)))
    (hn : normalize rnd (rnd (x - y), x - y - rnd (x - y) + (xl - yl)) =
      (rnd (x + xl - (y + yl)), x + xl - (y + yl) - rnd (x + xl - (y + yl)))) :
    normalize rnd (add2_22 rnd (x, xl) (-y, -yl)) =
      (rnd (x + xl - (y + yl)), x + xl - (y + yl) - rnd (x + xl - (y + yl))) := by
  have e : add2_22 rnd (x, xl) (-y, -yl) = (rnd (x - y), x - y - rnd (x - y) + (xl - yl)) := by
    simp only [add2_22, add, sub]
    rw [h.twoSum hp hx (rep_neg hy), ← sub_eq_add_neg, ← sub_eq_add_neg, h.fix hl, h.fix hs]
  rw [e, hn]

/-- The step if the difference is much smaller than the numbers. -/
theorem Nearest.step_large (h : Nearest p emin rnd) (hp : 8 ≤ p) {R Q : ℚ} (hR : 2 ^ p * 2 ^ emin ≤ R)
    (hQ : Q ≤ R) (hc : R - Q ≤ R / 8) (hl : Rep p emin (R - rnd R - (Q - rnd Q))) :
    normalize rnd (add2_22 rnd (rnd R, R - rnd R) (-rnd Q, -(Q - rnd Q))) =
      (rnd (R - Q), R - Q - rnd (R - Q)) := by
  have hp1 : 1 ≤ p := by omega
  have hpe : (0 : ℚ) < 2 ^ p * 2 ^ emin := by positivity
  have hR0 : 0 < R := hpe.trans_le hR
  have hQ0 : 0 < Q := by linarith
  have h256 : (256 : ℚ) ≤ 2 ^ p := by
    calc (256 : ℚ) = 2 ^ 8 := by norm_num
      _ ≤ 2 ^ p := pow_le_pow_right₀ (by norm_num) hp
  have rel : ∀ z : ℚ, 0 < z → 2 ^ p * 2 ^ emin ≤ 2 * z → |rnd z - z| ≤ z / 256 := by
    intro z hz hz'
    have := h.rel hp1 (x := z) (by rwa [abs_of_pos hz])
    rw [abs_of_pos hz] at this
    exact this.trans (div_le_div_of_nonneg_left hz.le (by norm_num) h256)
  have rx := _root_.abs_le.mp (rel R hR0 (by linarith))
  have ry := _root_.abs_le.mp (rel Q hQ0 (by linarith))
  have hxy := h.mono hQ
  set x := rnd R with hx
  set y := rnd Q with hy
  have hxr : Rep p emin x := h.rep R
  have hyr : Rep p emin y := h.rep Q
  have hy0 : 0 < y := by linarith
  have hx2 : x ≤ 2 * y := by linarith
  have hst : Rep p emin (x - y) := by
    have := sterbenz hp1 hxr (rep_neg hyr) (by
      rw [← sub_eq_add_neg, abs_of_nonneg (by linarith), abs_of_pos (by linarith)]; linarith) (by
      rw [← sub_eq_add_neg, abs_of_nonneg (by linarith), abs_neg, abs_of_pos hy0]; linarith)
    rwa [← sub_eq_add_neg] at this
  have es : x + (R - x) - (y + (Q - y)) = R - Q := by ring
  rw [← es]
  have ed : rnd (x - y) = x - y := h.fix hst
  refine h.step_of hp1 hxr hyr hl ?_ ?_
  · rw [ed, sub_self, zero_add]; exact hl
  rw [ed, sub_self, zero_add]
  obtain ⟨c, hc1, hm, hlt, hcan⟩ := rep_canon hyr
  rw [abs_of_pos hy0] at hlt hcan
  have hpc := two_zpow_pos c
  have hxm : Mult c x := by
    rcases hcan with rfl | hcan
    · obtain ⟨f, hf, hm', -⟩ := rep_exp hxr
      exact hm'.le hf
    · exact mult_of_ge hxr (by rw [abs_of_pos (by linarith)]; linarith)
  have big : ∀ z : ℚ, ∀ g : ℤ, emin ≤ g → 0 < z → rnd z < 2 ^ p * 2 ^ g → |z - rnd z| ≤ 2 ^ g / 2 := by
    intro z g hg hz hzl
    refine h.half_ulp hp1 hg ?_
    rw [abs_of_pos hz]
    by_contra hcon
    have := h.neg_bound hp1 hg (x := z) (by rw [abs_of_pos hz]; linarith)
    rw [abs_of_nonneg (by rw [← h.zero]; exact h.mono hz.le)] at this
    linarith
  have e2 : (2 : ℚ) ^ (c + 1) = 2 * 2 ^ c := by rw [zpow_add_one₀ (by norm_num)]; ring
  have byl := _root_.abs_le.mp (big Q c hc1 hQ0 hlt)
  have bxl := _root_.abs_le.mp (big R (c + 1) (by omega) hR0 (by rw [e2]; linarith))
  rw [e2] at bxl
  rw [← hx] at bxl
  rw [← hy] at byl
  have fin : x - y + (R - x - (Q - y)) = x + (R - x) - (y + (Q - y)) := by ring
  rw [← fin]
  rcases le_or_gt |R - x - (Q - y)| |x - y| with hab | hab
  · exact h.normalize_of hp1 hst hl (h.sub_large hp1 hst hl hab)
  · rw [abs_of_nonneg (by linarith : 0 ≤ x - y)] at hab
    have hb0 : 0 < R - x - (Q - y) := by
      by_contra hcon
      rw [abs_of_nonpos (by linarith)] at hab
      linarith
    rw [abs_of_pos hb0] at hab
    obtain ⟨j, hj⟩ := hxm.sub hm
    have hj0 : (0 : ℚ) ≤ j := by
      by_contra hcon
      have : (j : ℚ) * 2 ^ c < 0 := mul_neg_of_neg_of_pos (by linarith) hpc
      linarith
    have hj2 : (j : ℚ) < 2 := by
      by_contra hcon
      have : 2 * 2 ^ c ≤ (j : ℚ) * 2 ^ c := mul_le_mul_of_nonneg_right (by linarith) hpc.le
      linarith
    have hj0' : 0 ≤ j := by exact_mod_cast hj0
    have hj2' : j < 2 := by exact_mod_cast hj2
    obtain rfl | rfl : j = 0 ∨ j = 1 := by omega
    · rw [hj]
      push_cast
      rw [zero_mul]
      exact h.normalize_exact hp1 (rep_zero p emin) hl (by rwa [zero_add])
    · rw [hj]
      push_cast
      rw [one_mul]
      exact h.normalize_pow (by omega) hc1 hl hb0.le (by linarith)

/-- The step if the number is at most sixteen times the divisor. -/
theorem Nearest.step_small (h : Nearest p emin rnd) (hp : 8 ≤ p) {R Q : ℚ} {f : ℤ} (hf : emin ≤ f)
    (hRm : Mult f R) (hQm : Mult f Q) (hQ0 : 0 ≤ Q) (hQ : Q ≤ R) (hR : R ≤ 16 * (2 ^ p * 2 ^ f)) :
    normalize rnd (add2_22 rnd (rnd R, R - rnd R) (-rnd Q, -(Q - rnd Q))) =
      (rnd (R - Q), R - Q - rnd (R - Q)) := by
  have hp1 : 1 ≤ p := by omega
  have hu := two_zpow_pos f
  have h256 : (256 : ℚ) ≤ 2 ^ p := by
    calc (256 : ℚ) = 2 ^ 8 := by norm_num
      _ ≤ 2 ^ p := pow_le_pow_right₀ (by norm_num) hp
  have e4 : (2 : ℚ) ^ (f + 4) = 16 * 2 ^ f := by rw [zpow_add₀ (by norm_num)]; norm_num; ring
  have half : ∀ z : ℚ, 0 ≤ z → z ≤ 16 * (2 ^ p * 2 ^ f) → |z - rnd z| ≤ 8 * 2 ^ f := by
    intro z hz hz'
    have := h.half_ulp hp1 (e := f + 4) (by omega) (x := z) (by rw [abs_of_nonneg hz, e4]; linarith)
    rw [e4] at this; linarith
  have small : ∀ z : ℚ, Mult f z → |z| ≤ 256 * 2 ^ f → Rep p emin z := fun z hz hz' =>
    rep_of_mult hp1 hf hz (hz'.trans (by gcongr))
  have hxl := half R (hQ0.trans hQ) hR
  have hyl := half Q hQ0 (hQ.trans hR)
  have hxy := h.mono hQ
  have hxm := h.mult hp1 hf hRm
  have hym := h.mult hp1 hf hQm
  have hr16 : Rep p emin (16 * (2 ^ p * 2 ^ f)) := by
    have : 16 * ((2 : ℚ) ^ p * 2 ^ f) = 2 ^ p * 2 ^ (f + 4) := by rw [e4]; ring
    rw [this]
    exact rep_of_mult hp1 (e := f + 4) (by omega) ⟨2 ^ p, by push_cast; ring⟩
      (by rw [abs_of_pos (by positivity)])
  have hxb : rnd R ≤ 16 * (2 ^ p * 2 ^ f) := by
    have := h.mono hR; rwa [h.fix hr16] at this
  have hy0 : 0 ≤ rnd Q := by rw [← h.zero]; exact h.mono hQ0
  set x := rnd R with hx
  set y := rnd Q with hy
  have hT := half (x - y) (by linarith) (by linarith)
  have hsm := h.mult hp1 hf (hxm.sub hym)
  have es : x + (R - x) - (y + (Q - y)) = R - Q := by ring
  rw [← es]
  have lm : Mult f (R - x - (Q - y)) := (hRm.sub hxm).sub (hQm.sub hym)
  have lb : |R - x - (Q - y)| ≤ 16 * 2 ^ f := by
    have := abs_sub (R - x) (Q - y); linarith
  have sm : Mult f (x - y - rnd (x - y) + (R - x - (Q - y))) := ((hxm.sub hym).sub hsm).add lm
  have sb : |x - y - rnd (x - y) + (R - x - (Q - y))| ≤ 24 * 2 ^ f := by
    have := abs_add_le (x - y - rnd (x - y)) (R - x - (Q - y)); linarith
  have sr := small _ sm (by linarith)
  refine h.step_of hp1 (h.rep R) (h.rep Q) (small _ lm (by linarith)) sr ?_
  have fin : rnd (x - y) + (x - y - rnd (x - y) + (R - x - (Q - y))) = x + (R - x) - (y + (Q - y)) := by ring
  rw [← fin]
  rcases le_or_gt (24 * 2 ^ f) |rnd (x - y)| with hc | hc
  · exact h.normalize_of hp1 (h.rep _) sr (h.sub_large hp1 (h.rep _) sr (sb.trans hc))
  · refine h.normalize_exact hp1 (h.rep _) sr (small _ (hsm.add sm) ?_)
    have := abs_add_le (rnd (x - y)) (x - y - rnd (x - y) + (R - x - (Q - y)))
    linarith

/-- The step if nothing is subtracted. -/
theorem Nearest.step_zero (h : Nearest p emin rnd) (hp : 1 ≤ p) {R : ℚ} (hl : Rep p emin (R - rnd R)) :
    normalize rnd (add2_22 rnd (rnd R, R - rnd R) (0, 0)) = (rnd R, R - rnd R) := by
  have e := h.step_of hp (x := rnd R) (xl := R - rnd R) (y := 0) (yl := 0) (h.rep R) (rep_zero p emin)
    (by rwa [sub_zero]) (by rwa [sub_zero, sub_zero, h.fix (h.rep R), sub_self, zero_add]) (by
      rw [sub_zero, sub_zero, h.fix (h.rep R), sub_self, zero_add]
      have e1 : rnd R + (R - rnd R) - (0 + 0) = R := by ring
      rw [e1]
      simp only [normalize, add, sub]
      rw [add_sub_cancel, sub_self, h.zero, zero_add, h.fix hl])
  have e1 : rnd R + (R - rnd R) - (0 + 0) = R := by ring
  rw [e1] at e
  simpa using e

/-- The low parts of a number and of a multiple of the divisor, when both have `2p` bits. -/
theorem Nearest.low_fine (h : Nearest p emin rnd) (hp : 1 ≤ p) {R Q : ℚ} {g : ℤ} (hg : emin ≤ g) (hRm : Mult g R)
    (hQm : Mult g Q) (hQ0 : 0 ≤ Q) (hQ : Q ≤ R) (hR : R ≤ 2 ^ p * 2 ^ (p + g)) :
    Rep p emin (R - rnd R - (Q - rnd Q)) := by
  refine rep_of_mult hp hg ((hRm.sub (h.mult hp hg hRm)).sub (hQm.sub (h.mult hp hg hQm))) ?_
  have h1 := h.half_ulp hp (e := p + g) (by omega) (x := R) (by rwa [abs_of_nonneg (hQ0.trans hQ)])
  have h2 := h.half_ulp hp (e := p + g) (by omega) (x := Q) (by rw [abs_of_nonneg hQ0]; linarith)
  have := abs_sub (R - rnd R) (Q - rnd Q)
  rw [pow_eq_zpow]; linarith

/-- The same when the number has one bit more and the quotient is the largest of its binade. -/
theorem Nearest.low_top (h : Nearest p emin rnd) (hp : 8 ≤ p) {R Q : ℚ} {m g : ℤ} (hg : emin ≤ g) (hm0 : 0 ≤ m)
    (hm : m < 2 ^ p) (hQ : Q = (2 ^ p - 1) * m * 2 ^ g) (hRm : Mult g R) (hx : rnd R = 2 ^ p * 2 ^ (p + g))
    (hR : 2 ^ p * 2 ^ (p + g) < R) (hR2 : R ≤ 2 ^ p * 2 ^ (p + g + 1)) (hc : 7 * R ≤ 8 * Q) :
    Rep p emin (R - rnd R - (Q - rnd Q)) := by
  have hp1 : 1 ≤ p := by omega
  have hG := two_zpow_pos g
  have hpp : (256 : ℚ) ≤ 2 ^ p := by
    calc (256 : ℚ) = 2 ^ 8 := by norm_num
      _ ≤ 2 ^ p := pow_le_pow_right₀ (by norm_num) hp
  have e1 : (2 : ℚ) ^ ((p : ℤ) + g) = 2 ^ p * 2 ^ g := (pow_eq_zpow p g).symm
  have e2 : (2 : ℚ) ^ ((p : ℤ) + g + 1) = 2 * (2 ^ p * 2 ^ g) := by rw [zpow_add_one₀ (by norm_num), e1]; ring
  have hQm : Mult g Q := ⟨(2 ^ p - 1) * m, by rw [hQ]; push_cast; ring⟩
  have hR0 : 0 < R := lt_trans (by positivity) hR
  have hQ0 : 0 < Q := by linarith
  have hm0' : (0 : ℚ) ≤ m := by exact_mod_cast hm0
  have hm' : (m : ℚ) ≤ 2 ^ p - 1 := by
    have : m ≤ 2 ^ p - 1 := by omega
    have : ((m : ℤ) : ℚ) ≤ ((2 ^ p - 1 : ℤ) : ℚ) := Int.cast_le.mpr this
    push_cast at this; exact this
  have hQle : Q ≤ 2 ^ p * 2 ^ ((p : ℤ) + g) := by
    rw [hQ, e1]
    have : (2 ^ p - 1) * (m : ℚ) ≤ 2 ^ p * 2 ^ p := by
      apply mul_le_mul <;> linarith
    nlinarith
  have hyl := h.half_ulp hp1 (e := p + g) (by omega) (x := Q) (by rw [abs_of_pos hQ0]; exact hQle)
  have hxl := h.half_ulp hp1 (e := p + g + 1) (by omega) (x := R) (by rw [abs_of_pos hR0]; exact hR2)
  rw [e2] at hxl
  rw [e1] at hyl
  -- `m` is large
  have hm2 : 3 / 4 * 2 ^ p ≤ (m : ℚ) := by
    by_contra hcon
    rw [not_le] at hcon
    rw [e1] at hR
    have : Q < 3 / 4 * (2 ^ p * (2 ^ p * 2 ^ g)) := by
      rw [hQ]
      have : (2 ^ p - 1) * (m : ℚ) < 3 / 4 * (2 ^ p * 2 ^ p) := by nlinarith
      nlinarith
    linarith
  have hylo : 0 ≤ Q - rnd Q := by
    by_contra hcon
    rw [not_le] at hcon
    set w : ℚ := (m - 1) * (2 ^ p * 2 ^ g) with hw
    have hwm : Mult (p + g) w := ⟨m - 1, by rw [hw, e1]; push_cast; ring⟩
    have hwr : Rep p emin w := by
      refine rep_of_mult hp1 (e := p + g) (by omega) hwm ?_
      rw [hw, abs_of_nonneg (mul_nonneg (by linarith) (by positivity)), e1]
      gcongr; linarith
    have hwQ : Q - w = (2 ^ p - m) * 2 ^ g := by rw [hQ, hw]; ring
    have hyge : 2 ^ p * 2 ^ ((p : ℤ) + g - 1) ≤ |rnd Q| := by
      rw [abs_of_pos (by linarith), zpow_sub_one₀ (by norm_num), e1]
      have : (2 ^ p : ℚ) * (2 ^ p * 2 ^ g * 2⁻¹) ≤ Q := by
        rw [hQ]
        have : (2 ^ p : ℚ) * 2 ^ p * 2⁻¹ ≤ (2 ^ p - 1) * m := by nlinarith
        nlinarith
      linarith
    obtain ⟨j, hj⟩ := (mult_of_ge (h.rep Q) hyge).sub hwm
    have hwlt : 0 < Q - w := by rw [hwQ]; exact mul_pos (by linarith) hG
    have hpos : (0 : ℚ) < j := by
      by_contra hc'
      have : (j : ℚ) * 2 ^ ((p : ℤ) + g) ≤ 0 := mul_nonpos_of_nonpos_of_nonneg (by linarith) (two_zpow_pos _).le
      linarith
    have hj1 : (1 : ℚ) ≤ j := by
      have : 0 < j := by exact_mod_cast hpos
      exact_mod_cast this
    have hgap : 2 ^ p * 2 ^ g ≤ rnd Q - w := by
      rw [hj, e1]
      have : (0 : ℚ) < 2 ^ p * 2 ^ g := by positivity
      nlinarith
    have hn := h.near Q w hwr
    rw [abs_of_neg hcon, abs_of_pos hwlt, hwQ] at hn
    have : 2 ^ p * 2 ^ g ≤ 2 * ((2 ^ p - m) * 2 ^ g : ℚ) := by linarith
    have : (2 ^ p : ℚ) ≤ 2 * (2 ^ p - m) := by nlinarith
    linarith
  refine rep_of_mult hp1 hg ((hRm.sub (h.mult hp1 hg hRm)).sub (hQm.sub (h.mult hp1 hg hQm))) ?_
  have a1 := _root_.abs_le.mp hxl
  have a2 := _root_.abs_le.mp hyl
  rw [_root_.abs_le]
  constructor <;> linarith

/-- With one bit more, the estimate of the quotient is the largest of its binade. -/
theorem Nearest.quot_top (h : Nearest p emin rnd) (hp : 2 ≤ p) {R d t s q : ℚ} {e f : ℤ} (he : 0 ≤ e) (hme : emin ≤ 0)
    (hf : emin ≤ f) (hbig : emin ≤ 1 - 2 * p - f) (hd0 : 0 < d) (hdm : Mult f d) (hd : d < 2 ^ p * 2 ^ f)
    (ht : Before p emin (rnd R) t) (hs : Before p emin (rnd (1 / d)) s)
    (hq : ∀ z : ℤ, (z : ℚ) ≤ rnd (t * s) → (z : ℚ) ≤ q) (hqm : Mult e q) (hqlt : q < 2 ^ p * 2 ^ e)
    (hR : 2 ^ p * 2 ^ (p + (e + f)) < R) : rnd R = 2 ^ p * 2 ^ (p + (e + f)) ∧ q = (2 ^ p - 1) * 2 ^ e := by
  have hp1 : 1 ≤ p := by omega
  have hpp : (0 : ℚ) < 2 ^ p := by positivity
  have hpf := two_zpow_pos f
  have hs1 : (2 : ℚ) ^ (-(p : ℤ) - f) ≤ s := by
    set c : ℤ := 1 - 2 * p - f with hc
    have hcp := two_zpow_pos c
    have hc2 : (2 : ℚ) ^ (-(p : ℤ) - f) = 2 ^ p * 2 ^ (c - 1) := by
      rw [pow_eq_zpow]; congr 1; omega
    have hcr : Rep p emin ((2 : ℚ) ^ (-(p : ℤ) - f)) := rep_pow hp1 (by omega)
    refine hs.max _ hcr ?_
    have hinv : (2 : ℚ) ^ (-(p : ℤ) - f) * (2 ^ p * 2 ^ f) = 1 := by
      rw [pow_eq_zpow, ← zpow_add₀ (by norm_num)]
      norm_num
    obtain ⟨m, hm⟩ := hdm
    have hm1 : (m : ℚ) ≤ 2 ^ p - 1 := by
      have : (m : ℚ) < 2 ^ p := by rw [hm] at hd; exact lt_of_mul_lt_mul_right hd hpf.le
      have : m < 2 ^ p := by exact_mod_cast this
      have : m ≤ 2 ^ p - 1 := by omega
      have : ((m : ℤ) : ℚ) ≤ ((2 ^ p - 1 : ℤ) : ℚ) := Int.cast_le.mpr this
      push_cast at this; exact this
    have hcc : (2 : ℚ) ^ c = 2 ^ (-(p : ℤ) - f) * 2 / 2 ^ p := by
      rw [eq_div_iff hpp.ne', hc2, zpow_sub_one₀ (by norm_num)]; ring
    set a : ℚ := 2 ^ (-(p : ℤ) - f) with ha
    have ha0 : 0 < a := two_zpow_pos _
    -- `1 / d` is above the middle of `a` and the next number
    have hmid : a + 2 ^ c / 2 < 1 / d := by
      rw [lt_div_iff₀ hd0, hcc, hm]
      have : (a + a * 2 / 2 ^ p / 2) * (m * 2 ^ f) ≤ (a + a * 2 / 2 ^ p / 2) * ((2 ^ p - 1) * 2 ^ f) := by
        gcongr
      refine this.trans_lt ?_
      have e1 : (a + a * 2 / 2 ^ p / 2) * ((2 ^ p - 1) * 2 ^ f) = a * (2 ^ p * 2 ^ f) - a * 2 ^ f / 2 ^ p := by
        field_simp; ring
      rw [e1, hinv]
      have : 0 < a * 2 ^ f / 2 ^ p := by positivity
      linarith
    have hge : a ≤ rnd (1 / d) := by
      have := h.mono (by linarith : a ≤ 1 / d)
      rwa [h.fix hcr] at this
    refine lt_of_le_of_ne hge fun heq => ?_
    have hnext : Rep p emin (a + 2 ^ c) := by
      refine rep_of_mult hp1 hbig (Mult.add ?_ ⟨1, by push_cast; ring⟩) ?_
      · rw [hc2]
        refine ⟨2 ^ (p - 1), ?_⟩
        rw [zpow_sub_one₀ (by norm_num)]
        push_cast
        have : (2 : ℚ) ^ p = 2 ^ (p - 1) * 2 := by rw [← pow_succ]; congr 1; omega
        rw [this]; ring
      · rw [abs_of_pos (by positivity), hc2, zpow_sub_one₀ (by norm_num)]
        have h4 : (4 : ℚ) ≤ 2 ^ p := by
          calc (4 : ℚ) = 2 ^ 2 := by norm_num
            _ ≤ 2 ^ p := pow_le_pow_right₀ (by norm_num) hp
        nlinarith
    have hn := h.near (1 / d) _ hnext
    rw [← heq, abs_of_pos (by linarith)] at hn
    rcases le_or_gt (1 / d) (a + 2 ^ c) with hle | hgt
    · rw [abs_of_nonpos (by linarith)] at hn; linarith
    · have := h.mono hgt.le
      rw [h.fix hnext, ← heq] at this; linarith
  have hs0 : 0 ≤ s := (two_zpow_pos _).le.trans hs1
  have hg : emin ≤ (p : ℤ) + (e + f) := by omega
  have hTr : Rep p emin ((2 : ℚ) ^ p * 2 ^ ((p : ℤ) + (e + f))) :=
    rep_of_mult hp1 hg ⟨2 ^ p, by push_cast; ring⟩ (by rw [abs_of_pos (by positivity)])
  have hxge : 2 ^ p * 2 ^ ((p : ℤ) + (e + f)) ≤ rnd R := by
    have := h.mono hR.le; rwa [h.fix hTr] at this
  have key : ∀ k : ℤ, 0 ≤ k → k ≤ 2 ^ p → (k : ℚ) * 2 ^ ((p : ℤ) + (e + f)) ≤ t → (k : ℚ) * 2 ^ e ≤ q := by
    intro k hk0 hk hkt
    have hk0' : (0 : ℚ) ≤ k := by exact_mod_cast hk0
    have hk' : (k : ℚ) ≤ 2 ^ p := by exact_mod_cast hk
    have h1 : (k : ℚ) * 2 ^ e ≤ t * s := by
      calc (k : ℚ) * 2 ^ e = k * 2 ^ ((p : ℤ) + (e + f)) * 2 ^ (-(p : ℤ) - f) := by
            rw [mul_assoc, ← zpow_add₀ (by norm_num)]; congr 2; ring
        _ ≤ t * s := mul_le_mul hkt hs1 (two_zpow_pos _).le (le_trans (by positivity) hkt)
    have h2 := h.mono h1
    rw [h.fix (rep_of_mult hp1 (hme.trans he) ⟨k, rfl⟩ (by
      rw [abs_of_nonneg (by positivity)]; gcongr))] at h2
    have e2 : (2 : ℚ) ^ e = ((2 ^ e.toNat : ℤ) : ℚ) := by
      push_cast; rw [← zpow_natCast, Int.toNat_of_nonneg he]
    have := hq (k * 2 ^ e.toNat) (by push_cast at e2 ⊢; rw [← e2]; exact h2)
    push_cast at this e2
    rwa [← e2] at this
  have hxeq : rnd R = 2 ^ p * 2 ^ ((p : ℤ) + (e + f)) := by
    refine le_antisymm (le_of_not_gt fun hcon => ?_) hxge
    have := key (2 ^ p) (by positivity) le_rfl (by push_cast; exact ht.max _ hTr hcon)
    push_cast at this
    linarith
  refine ⟨hxeq, ?_⟩
  have hT1 : Rep p emin ((2 ^ p - 1 : ℤ) * (2 : ℚ) ^ ((p : ℤ) + (e + f))) := by
    refine rep_of_mult hp1 hg ⟨_, rfl⟩ ?_
    have : (1 : ℚ) ≤ 2 ^ p := one_le_pow₀ (by norm_num)
    rw [abs_of_nonneg (mul_nonneg (by push_cast; linarith) (two_zpow_pos _).le)]
    gcongr
    push_cast; linarith
  have hlow := key (2 ^ p - 1) (by have : (1 : ℤ) ≤ 2 ^ p := one_le_pow₀ (by norm_num); omega) (by omega)
    (ht.max _ hT1 (by
      rw [hxeq]; push_cast
      have := two_zpow_pos ((p : ℤ) + (e + f))
      nlinarith))
  obtain ⟨k, hk⟩ := hqm
  have hpe := two_zpow_pos e
  rw [hk] at hqlt hlow ⊢
  have k1 : (k : ℚ) < 2 ^ p := lt_of_mul_lt_mul_right hqlt hpe.le
  have k2 : ((2 ^ p - 1 : ℤ) : ℚ) ≤ k := le_of_mul_le_mul_right hlow hpe
  have k1' : k < 2 ^ p := by exact_mod_cast k1
  have k2' : 2 ^ p - 1 ≤ k := by exact_mod_cast k2
  have : k = 2 ^ p - 1 := by omega
  rw [this]; push_cast; ring

/-! ### Long division -/

/-- Rounding of a number exactly between two others: the result has an even significand. Proof helper, not code of
the repo. -/
def TiesEven (p : Nat) (emin : ℤ) (rnd : ℚ → ℚ) : Prop :=
  ∀ x e, emin ≤ e → Mult e x → 2 ^ p * 2 ^ e ≤ |x| → |x| ≤ 2 * (2 ^ p * 2 ^ e) → rnd x ≠ x → Mult (e + 2) (rnd x)

/-- A normal positive number `d` with last place `2^f`. Proof helper, not code of the repo. -/
structure Divisor (p : Nat) (emin : ℤ) (d : ℚ) (f : ℤ) : Prop where
  hf : emin ≤ f
  hm : Mult f d
  lo : 2 ^ p * 2 ^ f ≤ 2 * d
  hi : d < 2 ^ p * 2 ^ f

theorem Divisor.pos {d : ℚ} {f : ℤ} (D : Divisor p emin d f) : 0 < d := by
  have : (0 : ℚ) < 2 ^ p * 2 ^ f := by positivity
  linarith [D.lo]

/-- `R` is what remains of `n` after `k` subtractions of `d`. Proof helper, not code of the repo. -/
structure Inv (p : Nat) (emin : ℤ) (rnd : ℚ → ℚ) (n d R k : ℚ) : Prop where
  eq : R = n - k * d
  int : Mult 0 k
  nonneg : 0 ≤ R
  le : R ≤ n
  low : Rep p emin (R - rnd R)
  fine : ∀ e : ℤ, 0 ≤ e → 2 ^ ((p : ℤ) - 2 + e) * d ≤ R → Mult e k

theorem Inv.start (h : Nearest p emin rnd) {n d : ℚ} (hn : Rep p emin n) (h0 : 0 ≤ n) :
    Inv p emin rnd n d n 0 where
  eq := by ring
  int := ⟨0, by simp⟩
  nonneg := h0
  le := le_rfl
  low := by rw [h.fix hn, sub_self]; exact rep_zero p emin
  fine := fun _ _ _ => ⟨0, by simp⟩

variable {n d R k : ℚ} {f : ℤ}

theorem Divisor.mult_num (hp : 2 ≤ p) (D : Divisor p emin d f) (hn : Rep p emin n) {e : ℤ} (he : 0 ≤ e)
    (hnd : d ≤ n) (h : e = 0 ∨ 2 ^ ((p : ℤ) - 2 + e) * d ≤ n) : Mult (e + f) n := by
  have hd := D.pos
  have hlo := D.lo
  refine mult_of_ge hn ?_
  rw [abs_of_pos (hd.trans_le hnd)]
  rcases h with rfl | h
  · rw [zero_add, zpow_sub_one₀ (by norm_num)]; linarith
  · refine le_trans ?_ h
    have : (2 : ℚ) ^ p * 2 ^ (e + f - 1) = 2 ^ e * (2 ^ p * 2 ^ f / 2) := by
      rw [zpow_sub_one₀ (by norm_num), zpow_add₀ (by norm_num)]; ring
    rw [this]
    have : (2 : ℚ) ^ e ≤ 2 ^ ((p : ℤ) - 2 + e) := zpow_le_iff.mpr (by omega)
    have h2 : (0 : ℚ) < 2 ^ p * 2 ^ f := by positivity
    calc (2 : ℚ) ^ e * (2 ^ p * 2 ^ f / 2) ≤ 2 ^ ((p : ℤ) - 2 + e) * (2 ^ p * 2 ^ f / 2) := by gcongr
      _ ≤ _ := by gcongr; linarith

theorem Inv.mult (hp : 2 ≤ p) (D : Divisor p emin d f) (hn : Rep p emin n) (hnd : d ≤ n)
    (I : Inv p emin rnd n d R k) {e : ℤ} (he : 0 ≤ e) (h : e = 0 ∨ 2 ^ ((p : ℤ) - 2 + e) * d ≤ R) :
    Mult (e + f) R := by
  rw [I.eq]
  refine (D.mult_num hp hn he hnd (h.imp_right fun h => h.trans I.le)).sub (Mult.mul ?_ D.hm)
  rcases h with rfl | h
  · exact I.int
  · exact I.fine e he h

theorem Inv.mult0 (hp : 2 ≤ p) (D : Divisor p emin d f) (hn : Rep p emin n) (hnd : d ≤ n)
    (I : Inv p emin rnd n d R k) : Mult f R := by
  have := I.mult hp D hn hnd le_rfl (.inl rfl)
  rwa [zero_add] at this

/-- A quotient that the division may use. Proof helper, not code of the repo. -/
structure Quot (p : Nat) (emin : ℤ) (rnd : ℚ → ℚ) (d R η q : ℚ) : Prop where
  int : Mult 0 q
  nonneg : 0 ≤ q
  rep : Rep p emin q
  le : q * d ≤ R
  contr : d ≤ R → R - q * d ≤ η * R + d
  near : R < 2 * d → R - q * d < d
  low : 0 < q → R - q * d ≤ R / 8 → Rep p emin (R - rnd R - (q * d - rnd (q * d)))

theorem Quot.eq_zero {η q : ℚ} (D : Divisor p emin d f) (Q : Quot p emin rnd d R η q) (h : R < d) : q = 0 := by
  obtain ⟨j, hj⟩ := Q.int
  rw [zpow_zero, mul_one] at hj
  have hd := D.pos
  have h1 := Q.le
  have h2 := Q.nonneg
  have h3 : q < 1 := by nlinarith
  rw [hj] at h2 h3 ⊢
  have h2' : 0 ≤ j := by exact_mod_cast h2
  have h3' : j < 1 := by exact_mod_cast h3
  have : j = 0 := by omega
  rw [this]; simp

/-- A step of the division is exact. -/
theorem Nearest.step_exact (h : Nearest p emin rnd) (hp : 8 ≤ p) (hodd : ∀ x, rnd (-x) = -rnd x)
    (D : Divisor p emin d f) (hn : Rep p emin n) (hnd : d ≤ n) (I : Inv p emin rnd n d R k) {η q : ℚ}
    (hη0 : 0 ≤ η) (hη : η ≤ 1 / 16) (Q : Quot p emin rnd d R η q) {prod : ℚ → ℚ → DD}
    (hprod : prod q (-d) = (rnd (q * -d), q * -d - rnd (q * -d))) :
    Fmod.reduce rnd prod d q (rnd R, R - rnd R) = (rnd (R - q * d), R - q * d - rnd (R - q * d)) := by
  have hp1 : 1 ≤ p := by omega
  have hd := D.pos
  rw [Fmod.reduce, hprod, mul_neg, hodd]
  rcases Q.nonneg.eq_or_lt with h0 | h0
  · rw [← h0, zero_mul, h.zero, neg_zero, sub_zero, sub_zero]
    exact h.step_zero hp1 I.low
  have hq1 : 1 ≤ q := by
    obtain ⟨j, hj⟩ := Q.int
    rw [zpow_zero, mul_one] at hj
    rw [hj] at h0 ⊢
    have : 0 < j := by exact_mod_cast h0
    exact_mod_cast this
  have hR : d ≤ R := by nlinarith [Q.le]
  have hpe : (2 : ℚ) ^ p * 2 ^ emin ≤ 2 ^ p * 2 ^ f := by
    gcongr
    · norm_num
    · exact D.hf
  have e1 : -(q * d) - -rnd (q * d) = -(q * d - rnd (q * d)) := by ring
  rw [e1]
  have hQm : Mult f (q * d) := by have := Q.int.mul D.hm; rwa [zero_add] at this
  rcases le_or_gt (R - q * d) (R / 8) with hc | hc
  · rcases le_or_gt (2 ^ p * 2 ^ emin) R with hR2 | hR2
    · exact h.step_large hp hR2 Q.le hc (Q.low h0 hc)
    · refine h.step_small hp D.hf (I.mult0 (by omega) D hn hnd) hQm (by positivity) Q.le ?_
      linarith
  · refine h.step_small hp D.hf (I.mult0 (by omega) D hn hnd) hQm (by positivity) Q.le ?_
    have := Q.contr hR
    have := D.hi
    nlinarith

/-- A step of the division keeps the invariant. -/
theorem Inv.step (hp : 8 ≤ p) (D : Divisor p emin d f)
    (I : Inv p emin rnd n d R k) {η q : ℚ} (hη : η ≤ 1 / 16) (Q : Quot p emin rnd d R η q)
    (hl : Rep p emin (R - q * d - rnd (R - q * d))) : Inv p emin rnd n d (R - q * d) (k + q) where
  eq := by rw [I.eq]; ring
  int := I.int.add Q.int
  nonneg := by linarith [Q.le]
  le := by
    have := mul_nonneg Q.nonneg D.pos.le
    linarith [I.le]
  low := hl
  fine := by
    intro e he hR'
    have hd := D.pos
    have hqd := mul_nonneg Q.nonneg hd.le
    have h64 : (64 : ℚ) * 2 ^ e ≤ 2 ^ ((p : ℤ) - 2 + e) := by
      have : (64 : ℚ) * 2 ^ e = 2 ^ (6 + e) := by rw [zpow_add₀ (by norm_num)]; norm_num
      rw [this, zpow_le_iff]; omega
    have he1 : (1 : ℚ) ≤ 2 ^ e := by
      rw [show (1 : ℚ) = 2 ^ (0 : ℤ) by norm_num, zpow_le_iff]; exact he
    have hRd : d ≤ R := by
      have : d ≤ 2 ^ ((p : ℤ) - 2 + e) * d := by nlinarith
      linarith
    refine (I.fine e he (by linarith)).add ?_
    have hc := Q.contr hRd
    have hR0 : 0 < R := hd.trans_le hRd
    -- `R` is much larger than what remains
    have h1 : 8 * (2 ^ ((p : ℤ) - 2 + e) * d) ≤ R := by
      have : (64 : ℚ) * d ≤ 2 ^ ((p : ℤ) - 2 + e) * d := by nlinarith
      nlinarith
    have h2 : 4 * (2 ^ ((p : ℤ) - 2 + e) * d) ≤ q * d := by nlinarith
    have h3 : 4 * 2 ^ ((p : ℤ) - 2 + e) ≤ q := by
      have : 4 * 2 ^ ((p : ℤ) - 2 + e) * d ≤ q * d := by linarith
      exact le_of_mul_le_mul_right this hd
    refine Mult.le (f := e + 1) (mult_of_ge Q.rep ?_) (by omega)
    rw [abs_of_nonneg Q.nonneg]
    refine le_trans (le_of_eq ?_) h3
    rw [add_sub_cancel_right, pow_eq_zpow, show (4 : ℚ) = 2 ^ (2 : ℤ) by norm_num, ← zpow_add₀ (by norm_num)]
    congr 1; ring

/-- The low parts for a quotient with an even significand, or a small one. -/
theorem Inv.low_even (h : Nearest p emin rnd) (hp : 8 ≤ p) (D : Divisor p emin d f) (hn : Rep p emin n)
    (hnd : d ≤ n) (I : Inv p emin rnd n d R k) {q : ℚ} {e : ℤ} (he : 0 ≤ e) (hq : Mult e q)
    (hq1 : 2 * q ≤ 2 ^ p * 2 ^ e) (hq2 : e = 0 ∨ 2 ^ ((p : ℤ) - 2 + e) ≤ q) (hq0 : 0 ≤ q) (hle : q * d ≤ R)
    (hc : R - q * d ≤ R / 8) : Rep p emin (R - rnd R - (q * d - rnd (q * d))) := by
  have hd := D.pos
  have hm := I.mult (by omega) D hn hnd he (hq2.imp_right fun h2 => le_trans (by gcongr) hle)
  refine h.low_fine (by omega) (g := e + f) (by have := D.hf; omega) hm (hq.mul D.hm) (by positivity) hle ?_
  have hhi := D.hi
  have hpe := two_zpow_pos e
  have e1 : (2 : ℚ) ^ ((p : ℤ) + (e + f)) = 2 ^ p * 2 ^ e * 2 ^ f := by
    rw [zpow_add₀ (by norm_num), zpow_add₀ (by norm_num), zpow_natCast]; ring
  rw [e1]
  have h1 : 2 * (q * d) ≤ 2 ^ p * 2 ^ e * (2 ^ p * 2 ^ f) := by
    calc 2 * (q * d) = 2 * q * d := by ring
      _ ≤ 2 ^ p * 2 ^ e * (2 ^ p * 2 ^ f) := mul_le_mul hq1 hhi.le hd.le (by positivity)
  have h2 : (0 : ℚ) < 2 ^ p * 2 ^ e * (2 ^ p * 2 ^ f) := by positivity
  have e2 : (2 : ℚ) ^ p * (2 ^ p * 2 ^ e * 2 ^ f) = 2 ^ p * 2 ^ e * (2 ^ p * 2 ^ f) := by ring
  rw [e2]; nlinarith

/-- The low parts for the integral part of the estimate. -/
theorem Inv.low_floor (h : Nearest p emin rnd) (hp : 8 ≤ p) (hme : emin ≤ 0) (D : Divisor p emin d f)
    (hn : Rep p emin n) (hnd : d ≤ n) (I : Inv p emin rnd n d R k) {q t s : ℚ} (hqr : Rep p emin q)
    (hqi : Mult 0 q) (hq0 : 0 ≤ q) (hle : q * d ≤ R) (hc : R - q * d ≤ R / 8)
    (ht : Before p emin (rnd R) t) (hs : Before p emin (rnd (1 / d)) s)
    (hq : ∀ z : ℤ, (z : ℚ) ≤ rnd (t * s) → (z : ℚ) ≤ q)
    (hbig : 2 ^ p * (2 ^ p * 2 ^ f) ≤ 4 * n → emin ≤ 1 - 2 * p - f) :
    Rep p emin (R - rnd R - (q * d - rnd (q * d))) := by
  have hd := D.pos
  have hlo := D.lo
  have hhi := D.hi
  have hf := D.hf
  have hpf := two_zpow_pos f
  have hpp : (256 : ℚ) ≤ 2 ^ p := by
    calc (256 : ℚ) = 2 ^ 8 := by norm_num
      _ ≤ 2 ^ p := pow_le_pow_right₀ (by norm_num) hp
  by_cases hsm : 2 * q ≤ 2 ^ p
  · exact I.low_even h hp D hn hnd le_rfl hqi (by rw [zpow_zero, mul_one]; exact hsm) (.inl rfl) hq0 hle hc
  rw [not_le] at hsm
  obtain ⟨e, -, hqm, hlt, hcan⟩ := rep_canon (p := p) (emin := 0) (x := q) (by
    obtain ⟨e, he, hm, hlt⟩ := rep_exp hqr
    rcases le_total 0 e with he' | he'
    · exact rep_of_mult (by omega) he' hm hlt.le
    · refine rep_of_mult (by omega) le_rfl hqi (hlt.le.trans ?_)
      gcongr
      norm_num)
  rw [abs_of_nonneg hq0] at hlt hcan
  have hpe := two_zpow_pos e
  have he2 : 2 ^ p * 2 ^ e ≤ 2 * q := by
    rcases hcan with rfl | hc'
    · rw [zpow_zero, mul_one]; exact hsm.le
    · rw [zpow_sub_one₀ (by norm_num)] at hc'; linarith
  have he : 0 ≤ e := by
    have : (2 : ℚ) ^ p < 2 * (2 ^ p * 2 ^ e) := by linarith
    have h1 : (1 : ℚ) < 2 * 2 ^ e := by nlinarith
    rw [show (1 : ℚ) = 2 ^ (0 : ℤ) by norm_num, ← zpow_one_add₀ (by norm_num), zpow_lt_iff] at h1
    omega
  have hpe2 : (2 : ℚ) ^ ((p : ℤ) - 2 + e) = 2 ^ p * 2 ^ e / 4 := by
    rw [zpow_add₀ (by norm_num), zpow_sub₀ (by norm_num), zpow_natCast]; norm_num; ring
  have hqd : 2 ^ p * 2 ^ e * d ≤ 2 * (q * d) := by nlinarith
  have hm := I.mult (by omega) D hn hnd he (.inr (by
    rw [hpe2]
    have : (0 : ℚ) < 2 ^ p * 2 ^ e * d := by positivity
    linarith))
  rcases le_or_gt R (2 ^ p * 2 ^ ((p : ℤ) + (e + f))) with hR | hR
  · exact h.low_fine (by omega) (g := e + f) (by omega) hm (hqm.mul D.hm) (by positivity) hle hR
  have he1 : (1 : ℚ) ≤ 2 ^ e := by
    rw [show (1 : ℚ) = 2 ^ (0 : ℤ) by norm_num, zpow_le_iff]; exact he
  have hb : emin ≤ 1 - 2 * p - f := by
    refine hbig ?_
    have h1 : 2 ^ p * d ≤ 2 * (q * d) := by nlinarith
    have h2 : (2 : ℚ) ^ p * (2 ^ p * 2 ^ f) ≤ 2 ^ p * (2 * d) := by gcongr
    have := I.le
    linarith
  obtain ⟨hx, hqe⟩ := h.quot_top (by omega) he hme hf hb hd D.hm hhi ht hs hq hqm hlt hR
  obtain ⟨m, hdm⟩ := D.hm
  have hm0 : 0 ≤ m := by
    rw [hdm] at hd
    have : (0 : ℚ) < m := pos_of_mul_pos_left hd hpf.le
    have : 0 < m := by exact_mod_cast this
    omega
  have hmp : m < 2 ^ p := by
    rw [hdm] at hhi
    have := lt_of_mul_lt_mul_right hhi hpf.le
    exact_mod_cast this
  have hQ : q * d = (2 ^ p - 1) * m * 2 ^ (e + f) := by
    rw [hqe, hdm, zpow_add₀ (by norm_num)]; ring
  refine h.low_top hp (g := e + f) (by omega) hm0 hmp hQ hm hx hR ?_ (by linarith)
  have e1 : (2 : ℚ) ^ ((p : ℤ) + (e + f) + 1) = 2 * (2 ^ p * 2 ^ e * 2 ^ f) := by
    rw [zpow_add_one₀ (by norm_num), zpow_add₀ (by norm_num), zpow_add₀ (by norm_num), zpow_natCast]; ring
  rw [e1]
  have h1 : q * d ≤ 2 ^ p * 2 ^ e * (2 ^ p * 2 ^ f) := mul_le_mul hlt.le hhi.le hd.le (by positivity)
  have e2 : (2 : ℚ) ^ p * (2 * (2 ^ p * 2 ^ e * 2 ^ f)) = 2 * (2 ^ p * 2 ^ e * (2 ^ p * 2 ^ f)) := by ring
  rw [e2]
  have h2 : (0 : ℚ) < 2 ^ p * 2 ^ e * (2 ^ p * 2 ^ f) := by positivity
  linarith

/-- A remainder below the divisor is a number of the format. -/
theorem Inv.rep_of_le (hp : 2 ≤ p) (D : Divisor p emin d f) (hn : Rep p emin n) (hnd : d ≤ n)
    (I : Inv p emin rnd n d R k) (hR : R ≤ 2 ^ p * 2 ^ f) : Rep p emin R :=
  rep_of_mult (by omega) D.hf (I.mult0 hp D hn hnd) (by rwa [abs_of_nonneg I.nonneg])

theorem Inv.lt_iff (h : Nearest p emin rnd) (hp : 2 ≤ p) (D : Divisor p emin d f) (hn : Rep p emin n)
    (hnd : d ≤ n) (I : Inv p emin rnd n d R k) : rnd R < d ↔ R < d := by
  have hdr : Rep p emin d := rep_of_mult (by omega) D.hf D.hm (by rw [abs_of_pos D.pos]; exact D.hi.le)
  constructor
  · intro hlt
    by_contra hc
    have := h.mono (not_lt.mp hc)
    rw [h.fix hdr] at this; linarith
  · intro hlt
    rwa [h.fix (I.rep_of_le hp D hn hnd (by linarith [D.hi]))]

theorem Inv.eq_of_rnd (h : Nearest p emin rnd) (hp : 2 ≤ p) (D : Divisor p emin d f) (hn : Rep p emin n)
    (hnd : d ≤ n) (I : Inv p emin rnd n d R k) (hR : rnd R = d) : R = d := by
  rcases le_or_gt R (2 ^ p * 2 ^ f) with hc | hc
  · rwa [h.fix (I.rep_of_le hp D hn hnd hc)] at hR
  · have hr : Rep p emin (2 ^ p * 2 ^ f) :=
      rep_of_mult (by omega) D.hf ⟨2 ^ p, by push_cast; ring⟩ (by rw [abs_of_pos (by positivity)])
    have := h.mono hc.le
    rw [h.fix hr, hR] at this
    linarith [D.hi]

/-- The comparison with twice the divisor is right although the remainder is rounded: when the remainder is one
place below `2d` and the tie is rounded up, the significand of `d` is even and that of `n` odd, but `n` is large. -/
theorem Inv.lt_two_iff (h : Nearest p emin rnd) (ht : TiesEven p emin rnd) (hp : 2 ≤ p) (D : Divisor p emin d f)
    (hn : Rep p emin n) (hnd : d ≤ n) (I : Inv p emin rnd n d R k) : rnd R < 2 * d ↔ R < 2 * d := by
  have hp1 : 1 ≤ p := by omega
  have hd := D.pos
  have hhi := D.hi
  have hpf := two_zpow_pos f
  have hf2 : (2 : ℚ) ^ (f + 2) = 4 * 2 ^ f := by rw [zpow_add₀ (by norm_num)]; norm_num; ring
  have hf1 : (2 : ℚ) ^ (f + 1) = 2 * 2 ^ f := by rw [zpow_add_one₀ (by norm_num)]; ring
  have h2r : Rep p emin (2 * d) := by
    have hm : Mult (f + 1) (2 * d) := by
      obtain ⟨m, hm⟩ := D.hm
      exact ⟨m, by rw [hf1, hm]; ring⟩
    refine rep_of_mult hp1 (by have := D.hf; omega) hm ?_
    rw [abs_of_pos (by linarith), hf1]; linarith
  constructor
  · intro hlt
    by_contra hc
    have := h.mono (not_lt.mp hc)
    rw [h.fix h2r] at this; linarith
  intro hlt
  have hle : rnd R ≤ 2 * d := by have := h.mono hlt.le; rwa [h.fix h2r] at this
  refine lt_of_le_of_ne hle fun heq => ?_
  have hRm := I.mult0 hp D hn hnd
  have hne : rnd R ≠ R := by rw [heq]; exact hlt.ne'
  have hbig : 2 ^ p * 2 ^ f < R := by
    by_contra hc
    exact hne (h.fix (I.rep_of_le hp D hn hnd (not_lt.mp hc)))
  have hR0 : 0 < R := lt_trans (by positivity) hbig
  have hev := ht R f D.hf hRm (by rw [abs_of_pos hR0]; exact hbig.le) (by rw [abs_of_pos hR0]; linarith) hne
  -- the significands
  obtain ⟨m, hm⟩ := D.hm
  obtain ⟨a, ha⟩ := hRm
  obtain ⟨c, hc⟩ := hev
  obtain ⟨j, hj⟩ := I.int
  have hnm : Mult (f + 1) n := mult_of_ge hn (by
    rw [add_sub_cancel_right, abs_of_pos (hd.trans_le hnd)]
    linarith [I.le])
  obtain ⟨b, hb⟩ := hnm
  have hI := I.eq
  rw [zpow_zero, mul_one] at hj
  -- `m` is even
  have h1 : (2 * m : ℤ) = 4 * c := by
    have : ((2 * m : ℤ) : ℚ) * 2 ^ f = ((4 * c : ℤ) : ℚ) * 2 ^ f := by
      push_cast
      rw [heq, hf2, hm] at hc
      linarith
    exact_mod_cast mul_right_cancel₀ hpf.ne' this
  -- `a` is even
  have h2 : a = 2 * b - j * m := by
    have : ((a : ℤ) : ℚ) * 2 ^ f = ((2 * b - j * m : ℤ) : ℚ) * 2 ^ f := by
      push_cast
      rw [ha, hb, hf1, hj, hm] at hI
      linarith
    exact_mod_cast mul_right_cancel₀ hpf.ne' this
  have h3 : m = 2 * c := by omega
  have h4 : a = 2 * (b - j * c) := by rw [h2, h3]; ring
  -- so the remainder is a number of the format
  refine hne (h.fix (rep_of_mult hp1 (e := f + 1) (by have := D.hf; omega) ⟨b - j * c, ?_⟩ ?_))
  · rw [ha, h4, hf1]; push_cast; ring
  · rw [abs_of_pos hR0, hf1]; linarith

end Nsimd.Float
