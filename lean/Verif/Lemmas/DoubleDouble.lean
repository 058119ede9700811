import Verif.Model.DoubleDouble
import Verif.Lemmas.Float

/-!
# Error-free transformations

Helper lemmas for double-double arithmetic.
-/

namespace Nsimd.Float
open Nsimd.Props.Round

variable {p : Nat} {emin : ℤ} {rnd : ℚ → ℚ}

theorem rep_zero (p : Nat) (emin : ℤ) : Rep p emin 0 := ⟨0, emin, by simp, le_rfl, by simp⟩

theorem Nearest.zero (h : Nearest p emin rnd) : rnd 0 = 0 := h.fix (rep_zero p emin)

theorem Nearest.abs_le (h : Nearest p emin rnd) {a x : ℚ} (ha : Rep p emin a) (hax : |a| ≤ |x|) :
    |a| ≤ |rnd x| := by
  have hr : Rep p emin |a| := by
    rcases abs_choice a with h | h <;> rw [h]
    · exact ha
    · exact rep_neg ha
  rcases le_total 0 x with h0 | h0
  · rw [abs_of_nonneg h0] at hax
    have := h.mono hax
    rw [h.fix hr] at this
    exact this.trans (le_abs_self _)
  · rw [abs_of_nonpos h0] at hax
    have : rnd x ≤ rnd (-|a|) := h.mono (by linarith)
    rw [h.fix (rep_neg hr)] at this
    exact le_trans (by linarith) (neg_le_abs _)

theorem Nearest.abs_ge (h : Nearest p emin rnd) {a x : ℚ} (ha : Rep p emin a) (hax : |x| ≤ |a|) :
    |rnd x| ≤ |a| := by
  have hr : Rep p emin |a| := by
    rcases abs_choice a with h | h <;> rw [h]
    · exact ha
    · exact rep_neg ha
  rw [_root_.abs_le] at hax ⊢
  have h1 := h.mono hax.1
  have h2 := h.mono hax.2
  rw [h.fix hr] at h2
  rw [h.fix (rep_neg hr)] at h1
  exact ⟨h1, h2⟩

/-- Rounding error of any number: relative `2^-p`, or half of the smallest subnormal. -/
theorem Nearest.err (h : Nearest p emin rnd) (hp : 1 ≤ p) (x : ℚ) :
    |rnd x - x| ≤ |x| / 2 ^ p + 2 ^ emin / 2 := by
  obtain ⟨e, he, hb, hm⟩ := exists_scale p emin x
  have h1 := h.half_ulp hp he hb
  rw [abs_sub_comm]
  have h0 : (0 : ℚ) ≤ |x| / 2 ^ p := by positivity
  rcases hm with rfl | hm
  · linarith
  · have h2 : (2 : ℚ) ^ (e - 1) = 2 ^ e / 2 := by rw [zpow_sub_one₀ (by norm_num)]; rfl
    have h3 : (2 : ℚ) ^ e / 2 ≤ |x| / 2 ^ p := by
      rw [le_div_iff₀ (by positivity), ← h2]; linarith
    have := two_zpow_pos emin
    linarith

/-- Rounding error of a number that is not subnormal. -/
theorem Nearest.rel (h : Nearest p emin rnd) (hp : 1 ≤ p) {x : ℚ} (hx : 2 ^ p * 2 ^ emin ≤ 2 * |x|) :
    |rnd x - x| ≤ |x| / 2 ^ p := by
  obtain ⟨e, he, hb, hm⟩ := exists_scale p emin x
  have h1 := h.half_ulp hp he hb
  rw [abs_sub_comm]
  have h2 : (2 : ℚ) ^ (e - 1) = 2 ^ e / 2 := by rw [zpow_sub_one₀ (by norm_num)]; rfl
  refine h1.trans ?_
  rw [le_div_iff₀ (by positivity)]
  rcases hm with rfl | hm
  · linarith
  · rw [← h2]; linarith

/-- `FastTwoSum`: src/dd.h:98-101. -/
theorem Nearest.fastTwoSum (h : Nearest p emin rnd) (hp : 1 ≤ p) {a b : ℚ} (ha : Rep p emin a)
    (hb : Rep p emin b) (hab : |b| ≤ |a|) :
    rnd (rnd (a - rnd (a + b)) + b) = a + b - rnd (a + b) := by
  have h1 := rep_neg (h.sub_large hp ha hb hab)
  rw [neg_sub] at h1
  rw [h.fix h1, show a - rnd (a + b) + b = a + b - rnd (a + b) by ring, h.fix (h.err_add hp ha hb)]

/-- `FastTwoSum` for differences: src/dd.h:152-157. -/
theorem Nearest.fastTwoDiff (h : Nearest p emin rnd) (hp : 1 ≤ p) {a b : ℚ} (ha : Rep p emin a)
    (hb : Rep p emin b) (hab : |b| ≤ |a|) :
    rnd (rnd (a - rnd (a - b)) - b) = a - b - rnd (a - b) := by
  have := h.fastTwoSum hp ha (rep_neg hb) (by rwa [abs_neg])
  rwa [← sub_eq_add_neg, ← sub_eq_add_neg] at this

/-- `TwoSum`: src/dd.h:103-107. -/
theorem Nearest.twoSum (h : Nearest p emin rnd) (hp : 1 ≤ p) {a b : ℚ} (ha : Rep p emin a)
    (hb : Rep p emin b) :
    rnd (rnd (a - rnd (rnd (a + b) - rnd (rnd (a + b) - a))) + rnd (b - rnd (rnd (a + b) - a)))
      = a + b - rnd (a + b) := by
  have herr := h.err_add hp ha hb
  set s := rnd (a + b) with hs
  rcases le_or_gt |b| |a| with hab | hab
  · have h1 := h.sub_large hp ha hb hab
    rw [← hs] at h1
    rw [h.fix h1, sub_sub_cancel, h.fix ha, sub_self, h.zero, zero_add,
      show b - (s - a) = a + b - s by ring, h.fix herr, h.fix herr]
  · rcases le_or_gt |a| |s| with hsa | hsa
    · have e1 := h.sub_large hp (h.rep (a + b)) (rep_neg ha) (by rw [abs_neg]; exact hsa)
      rw [← hs, ← sub_eq_add_neg] at e1
      have e2 := h.err_add hp (h.rep (a + b)) (rep_neg ha)
      rw [← hs, ← sub_eq_add_neg] at e2
      have hle : |a + b - s| ≤ |b| := by
        have := h.near (a + b) b hb
        rw [add_sub_cancel_right] at this
        exact this.trans hab.le
      have e3 := h.sub_large hp hb (rep_neg herr) (by rw [abs_neg]; exact hle)
      rw [show b + -(a + b - s) = s - a by ring] at e3
      set v := rnd (s - a) with hv
      have e1' := rep_neg e1
      rw [neg_sub] at e1'
      have e2' := rep_neg e2
      have e3' := rep_neg e3
      rw [neg_sub] at e3'
      rw [h.fix e1', show a - (s - v) = -(s - a - v) by ring, h.fix e2', h.fix e3',
        show -(s - a - v) + (b - v) = a + b - s by ring, h.fix herr]
    · have hle : |a + b| ≤ |a| := by
        by_contra hc
        exact absurd (h.abs_le ha (not_le.mp hc).le) (not_le.mpr hsa)
      have hrep := sterbenz hp ha hb hle (hle.trans hab.le)
      have hsab : s = a + b := by rw [hs, h.fix hrep]
      rw [hsab, add_sub_cancel_left, h.fix hb, add_sub_cancel_right, h.fix ha, sub_self, sub_self,
        h.zero, add_zero, h.zero, sub_self]

/-- Exponents of the factors of a product that does not underflow. -/
theorem mul_exps {x y : ℚ} (hx : Rep p emin x) (hy : Rep p emin y)
    (hxy : (2 : ℚ) ^ (2 * (p : ℤ) + emin) ≤ |x * y|) : ∃ e f, Mult e x ∧ Mult f y ∧
      |x| < 2 ^ p * 2 ^ e ∧ |y| < 2 ^ p * 2 ^ f ∧ emin ≤ e + f := by
  obtain ⟨e, -, h1, h2⟩ := rep_exp hx
  obtain ⟨f, -, h3, h4⟩ := rep_exp hy
  refine ⟨e, f, h1, h3, h2, h4, ?_⟩
  have : |x * y| < 2 ^ p * 2 ^ e * (2 ^ p * 2 ^ f) := by
    rw [abs_mul]
    exact mul_lt_mul'' h2 h4 (abs_nonneg _) (abs_nonneg _)
  rw [pow_eq_zpow, pow_eq_zpow, ← zpow_add₀ (by norm_num)] at this
  have := zpow_lt_iff.mp (hxy.trans_lt this)
  omega

/-- The rounding error of a product that does not underflow is a number of the format. -/
theorem Nearest.err_mul' (h : Nearest p emin rnd) (hp : 1 ≤ p) {x y : ℚ} (hx : Rep p emin x)
    (hy : Rep p emin y) (hxy : x * y = 0 ∨ (2 : ℚ) ^ (2 * (p : ℤ) + emin) ≤ |x * y|) :
    Rep p emin (x * y - rnd (x * y)) := by
  rcases hxy with h0 | hxy
  · rw [h0, h.zero, sub_self]; exact rep_zero p emin
  · obtain ⟨e, f, h1, h2, h3, h4, h5⟩ := mul_exps hx hy hxy
    exact h.err_mul hp h1 h2 h3 h4 h5

/-- The residual of a reciprocal is a number of the format. -/
theorem Nearest.rec_residual (h : Nearest p emin rnd) (hp : 1 ≤ p) (hmin : emin ≤ -(2 * p : ℤ))
    {d : ℚ} (hd : Rep p emin d) (h0 : d ≠ 0) (hb : 2 ^ p * 2 ^ emin ≤ |1 / d|) :
    Rep p emin (1 - d * rnd (1 / d)) := by
  obtain ⟨e, he, hm, hlt, hcan⟩ := rep_canon hd
  obtain ⟨f, hf, hfb, hfm⟩ := exists_scale p emin (1 / d)
  have hpos : 0 < |d| := abs_pos.mpr h0
  have hinv : |d| * |1 / d| = 1 := by rw [← abs_mul, mul_one_div_cancel h0, abs_one]
  have hfm' : 2 ^ p * 2 ^ (f - 1) ≤ |1 / d| := by
    rcases hfm with rfl | hfm
    · refine le_trans ?_ hb
      exact mul_le_mul_of_nonneg_left (zpow_le_iff.mpr (by omega)) (by positivity)
    · exact hfm.le
  have hms : Mult f (rnd (1 / d)) := by
    rcases eq_or_lt_of_le hf with rfl | hlt'
    · obtain ⟨g, hg, hmg, -⟩ := rep_exp (h.rep (1 / d))
      exact hmg.le hg
    · exact mult_of_ge (h.rep _) (h.neg_bound hp (by omega) hfm')
  have hge : emin ≤ e + f := by
    have : |d| * |1 / d| < 2 ^ p * 2 ^ e * (2 ^ p * 2 ^ f) :=
      mul_lt_mul hlt hfb (lt_of_lt_of_le (by positivity) hfm') (by positivity)
    rw [hinv, pow_eq_zpow, pow_eq_zpow, ← zpow_add₀ (by norm_num),
      show (1 : ℚ) = 2 ^ (0 : ℤ) by norm_num, zpow_lt_iff] at this
    omega
  have hle : e + f ≤ 0 := by
    have hdl : (2 : ℚ) ^ e ≤ |d| := by
      rcases hcan with rfl | hc
      · obtain ⟨k, rfl⟩ := hm
        have hk : k ≠ 0 := by rintro rfl; simp at h0
        have : (1 : ℚ) ≤ |(k : ℚ)| := by exact_mod_cast Int.one_le_abs hk
        rw [abs_mul, abs_of_pos (two_zpow_pos _)]
        nlinarith [two_zpow_pos e]
      · refine le_trans ?_ hc
        rw [pow_eq_zpow, zpow_le_iff]; omega
    have : (2 : ℚ) ^ e * (2 ^ p * 2 ^ (f - 1)) ≤ |d| * |1 / d| :=
      mul_le_mul hdl hfm' (by positivity) (by positivity)
    rw [hinv, pow_eq_zpow, ← zpow_add₀ (by norm_num),
      show (1 : ℚ) = 2 ^ (0 : ℤ) by norm_num, zpow_le_iff] at this
    omega
  refine rep_of_mult hp hge (Mult.sub ?_ (hm.mul hms)) ?_
  · exact Mult.le (f := 0) ⟨1, by norm_num⟩ hle
  · have e1 : 1 - d * rnd (1 / d) = d * (1 / d - rnd (1 / d)) := by field_simp
    rw [e1, abs_mul, zpow_add₀ (by norm_num), ← mul_assoc]
    have := h.half_ulp hp hf hfb
    have h3 : (2 : ℚ) ^ f / 2 ≤ 2 ^ f := by linarith [two_zpow_pos f]
    exact mul_le_mul hlt.le (this.trans h3) (abs_nonneg _) (by positivity)

theorem mult_int (k e : ℤ) : Mult e (k * 2 ^ e) := ⟨k, rfl⟩

theorem rep_int_mul (hp : 1 ≤ p) {e : ℤ} (he : emin ≤ e) {k : ℤ} (hk : |k| ≤ 2 ^ p) :
    Rep p emin (k * 2 ^ e) := by
  refine rep_of_mult hp he (mult_int k e) ?_
  rw [abs_mul, abs_of_pos (two_zpow_pos e)]
  refine mul_le_mul_of_nonneg_right ?_ (two_zpow_pos e).le
  exact_mod_cast hk

/-- Value of the sums in Dekker's product of the significands `A 2^q + B` and `C 2^q + D`. -/
theorem dekker_bounds {p q : Nat} (h1 : p ≤ 2 * q) (h2 : 2 * q ≤ p + 1) (h3 : q + 3 ≤ p)
    {A B C D s : ℤ} (hA : |A| < 2 ^ (p - q)) (hB : |B| < 2 ^ q) (hC : |C| < 2 ^ (p - q))
    (hD : |D| < 2 ^ q) (hs : 2 * |(A * 2 ^ q + B) * (C * 2 ^ q + D) - s| ≤ 2 ^ p) :
    |A * C| ≤ 2 ^ p ∧ |B * C| ≤ 2 ^ p ∧ |A * D| ≤ 2 ^ p ∧ |B * D| ≤ 2 ^ (2 * q) ∧
    |A * C * 2 ^ (2 * q) - s| ≤ 2 ^ p * 2 ^ (p - 1) ∧
    |A * C * 2 ^ (2 * q) - s + B * C * 2 ^ q| ≤ 2 ^ p * 2 ^ q ∧
    |A * C * 2 ^ (2 * q) - s + B * C * 2 ^ q + A * D * 2 ^ q| ≤ 2 ^ p * 2 ^ q := by
  obtain ⟨r, rfl⟩ : ∃ r, p = q + r := ⟨p - q, by omega⟩
  rw [Nat.add_sub_cancel_left] at hA hC
  have hq2 : (2 : ℤ) ^ (2 * q) = 2 ^ q * 2 ^ q := by rw [two_mul, pow_add]
  have hpr : (2 : ℤ) ^ (q + r) = 2 ^ q * 2 ^ r := pow_add _ _ _
  have hp1 : (2 : ℤ) ^ (q + r - 1) * 2 = 2 ^ q * 2 ^ r := by
    rw [← pow_succ, ← pow_add]; congr 1; omega
  have hr3 : (2 : ℤ) ^ r = 8 * 2 ^ (r - 3) := by
    rw [show (8 : ℤ) = 2 ^ 3 by norm_num, ← pow_add]; congr 1; omega
  have hrq : (2 : ℤ) ^ r ≤ 2 ^ q := pow_le_pow_right₀ (by norm_num) (by omega)
  have hqr : (2 : ℤ) ^ q ≤ 2 * 2 ^ r := by
    rw [← pow_succ']; exact pow_le_pow_right₀ (by norm_num) (by omega)
  have hone : (1 : ℤ) ≤ 2 ^ (r - 3) := one_le_pow₀ (by norm_num)
  rw [hpr] at hs
  rw [hq2, hpr]
  generalize (2 : ℤ) ^ q = Q at *
  generalize (2 : ℤ) ^ r = R at *
  generalize (2 : ℤ) ^ (q + r - 1) = H at *
  generalize (2 : ℤ) ^ (r - 3) = T at *
  have aA := abs_nonneg A
  have aB := abs_nonneg B
  have aC := abs_nonneg C
  have aD := abs_nonneg D
  have hR8 : 8 ≤ R := by omega
  have hQ8 : 8 ≤ Q := by omega
  have bAC : |A * C| ≤ (R - 1) * (R - 1) := by
    rw [abs_mul]; exact mul_le_mul (by omega) (by omega) aC (by omega)
  have bBC : |B * C| ≤ (Q - 1) * (R - 1) := by
    rw [abs_mul]; exact mul_le_mul (by omega) (by omega) aC (by omega)
  have bAD : |A * D| ≤ (R - 1) * (Q - 1) := by
    rw [abs_mul]; exact mul_le_mul (by omega) (by omega) aD (by omega)
  have bBD : |B * D| ≤ (Q - 1) * (Q - 1) := by
    rw [abs_mul]; exact mul_le_mul (by omega) (by omega) aD (by omega)
  have hRQ : R * R ≤ Q * R := mul_le_mul_of_nonneg_right hrq (by omega)
  have hQQ : Q * Q ≤ 2 * (Q * R) := by nlinarith
  set P := (A * Q + B) * (C * Q + D) with hP
  have hE : P = A * C * (Q * Q) + A * D * Q + B * C * Q + B * D := by rw [hP]; ring
  have absQ : |Q| = Q := abs_of_nonneg (by omega)
  have f1 : |A * D * Q| ≤ (R - 1) * (Q - 1) * Q := by
    rw [abs_mul, absQ]; exact mul_le_mul_of_nonneg_right bAD (by omega)
  have f2 : |B * C * Q| ≤ (Q - 1) * (R - 1) * Q := by
    rw [abs_mul, absQ]; exact mul_le_mul_of_nonneg_right bBC (by omega)
  have g1 : A * C * (Q * Q) - s = (P - s) - A * D * Q - B * C * Q - B * D := by rw [hE]; ring
  have g2 : A * C * (Q * Q) - s + B * C * Q = (P - s) - A * D * Q - B * D := by rw [hE]; ring
  have g3 : A * C * (Q * Q) - s + B * C * Q + A * D * Q = (P - s) - B * D := by rw [hE]; ring
  rw [g3, g2, g1]
  rw [abs_le] at f1 f2 bBD
  have hs' : |P - s| ≤ H := by omega
  rw [abs_le] at hs'
  have k1 : (R - 1) * (Q - 1) * Q = Q * R * Q - Q * Q - Q * R + Q := by ring
  have k2 : (Q - 1) * (R - 1) * Q = Q * R * Q - Q * Q - Q * R + Q := by ring
  have k3 : (Q - 1) * (Q - 1) = Q * Q - 2 * Q + 1 := by ring
  rw [k1] at f1
  rw [k2] at f2
  rw [k3] at bBD
  have hQR0 : 0 ≤ Q * R := mul_nonneg (by omega) (by omega)
  have hQH : 8 * Q ≤ Q * R := by
    have := mul_le_mul_of_nonneg_left hR8 (show 0 ≤ Q by omega)
    linarith
  have e1 : (R - 1) * (R - 1) = R * R - 2 * R + 1 := by ring
  have e2 : (R - 1) * (Q - 1) = Q * R - R - Q + 1 := by ring
  have e3 : (Q - 1) * (R - 1) = Q * R - R - Q + 1 := by ring
  have e4 : 8 * (Q * R * Q) ≤ Q * R * Q * R := by
    have := mul_le_mul_of_nonneg_left hR8 (mul_nonneg hQR0 (show 0 ≤ Q by omega))
    linarith
  have e5 : Q * R * H * 2 = Q * R * Q * R := by rw [mul_assoc, hp1]; ring
  have e6 : Q * R * 8 ≤ Q * R * Q := mul_le_mul_of_nonneg_left hQ8 hQR0
  refine ⟨by linarith, by linarith, by linarith, ?_, ?_, ?_, ?_⟩
  · rw [abs_le]; constructor <;> linarith
  · rw [abs_le]; constructor <;> linarith
  · rw [abs_le]; constructor <;> linarith
  · rw [abs_le]; constructor <;> linarith

/-- `up` clears the `q` low bits of the significand of `x`. Proof helper, not code of the repo. -/
def Splits (p q : Nat) (up : ℚ → ℚ) (x : ℚ) (X e : ℤ) : Prop :=
  x = X * 2 ^ e ∧ 2 ^ (p - 1) ≤ |X| ∧ |X| < 2 ^ p ∧ up x = (X.tdiv (2 ^ q) * 2 ^ q : ℤ) * 2 ^ e

theorem tdiv_lt {p q : Nat} (hq : q ≤ p) {X : ℤ} (h : |X| < 2 ^ p) :
    |X.tdiv (2 ^ q)| < 2 ^ (p - q) := by
  rw [Int.abs_eq_natAbs] at h ⊢
  rw [Int.natAbs_tdiv, Int.natAbs_pow]
  have h' : X.natAbs < 2 ^ p := by exact_mod_cast h
  have : X.natAbs / 2 ^ q < 2 ^ (p - q) := by
    rw [Nat.div_lt_iff_lt_mul (by positivity), ← pow_add, Nat.sub_add_cancel hq]
    exact h'
  exact_mod_cast this

theorem tmod_lt (q : Nat) (X : ℤ) : |X.tmod (2 ^ q)| < 2 ^ q := by
  rw [Int.abs_eq_natAbs, Int.natAbs_tmod, Int.natAbs_pow]
  have : X.natAbs % 2 ^ q < 2 ^ q := Nat.mod_lt _ (by positivity)
  exact_mod_cast this

/-- Dekker's product: the partial products and the sums with a number `s` near the product are
numbers of the format, except for the product of the low parts. Proof helper, not code of the repo. -/
structure SplitFacts (p q : Nat) (emin : ℤ) (rnd up : ℚ → ℚ) (x y s : ℚ) : Prop where
  upx : Rep p emin (up x)
  upy : Rep p emin (up y)
  lox : Rep p emin (x - up x)
  loy : Rep p emin (y - up y)
  hh : Rep p emin (up x * up y)
  lh : Rep p emin ((x - up x) * up y)
  hl : Rep p emin (up x * (y - up y))
  s1 : Rep p emin (up x * up y - s)
  s2 : Rep p emin (up x * up y - s + (x - up x) * up y)
  s2' : Rep p emin (up x * up y - s + up x * (y - up y))
  s3 : Rep p emin (x * y - s - (x - up x) * (y - up y))
  s4 : Rep p emin (x * y - s + (rnd ((x - up x) * (y - up y)) - (x - up x) * (y - up y)))
  δ : |rnd ((x - up x) * (y - up y)) - (x - up x) * (y - up y)| ≤ 4 * (1 / 2 ^ p) ^ 2 * |x * y|
  δ0 : 2 * q = p → rnd ((x - up x) * (y - up y)) = (x - up x) * (y - up y)

theorem Nearest.split_core (h : Nearest p emin rnd) {q : Nat} (h1 : p ≤ 2 * q) (h2 : 2 * q ≤ p + 1)
    (h3 : q + 3 ≤ p) {up : ℚ → ℚ} {x y s : ℚ} {X Y e f : ℤ} (hx : Splits p q up x X e)
    (hy : Splits p q up y Y f) (he : emin ≤ e) (hf : emin ≤ f) (hef : emin ≤ e + f)
    (hsm : Mult ((p : ℤ) - 1 + (e + f)) s) (hserr : |x * y - s| ≤ 2 ^ ((p : ℤ) + (e + f)) / 2) :
    SplitFacts p q emin rnd up x y s := by
  have hp : 1 ≤ p := by omega
  obtain ⟨rfl, hX1, hX2, hux⟩ := hx
  obtain ⟨rfl, hY1, hY2, huy⟩ := hy
  set A := X.tdiv (2 ^ q)
  set C := Y.tdiv (2 ^ q)
  have hX : X = A * 2 ^ q + X.tmod (2 ^ q) := (Int.tdiv_mul_add_tmod X (2 ^ q)).symm
  have hY : Y = C * 2 ^ q + Y.tmod (2 ^ q) := (Int.tdiv_mul_add_tmod Y (2 ^ q)).symm
  have hA : |A| < 2 ^ (p - q) := tdiv_lt (by omega) hX2
  have hC : |C| < 2 ^ (p - q) := tdiv_lt (by omega) hY2
  have hB := tmod_lt q X
  have hD := tmod_lt q Y
  set B := X.tmod (2 ^ q)
  set D := Y.tmod (2 ^ q)
  have hz : ∀ a b : ℤ, (2 : ℚ) ^ (a + b) = 2 ^ a * 2 ^ b := fun a b => zpow_add₀ (by norm_num) a b
  have hBr : |B| ≤ 2 ^ p := hB.le.trans (pow_le_pow_right₀ (by norm_num) (by omega))
  have hDr : |D| ≤ 2 ^ p := hD.le.trans (pow_le_pow_right₀ (by norm_num) (by omega))
  have hAr : |A| ≤ 2 ^ p := hA.le.trans (pow_le_pow_right₀ (by norm_num) (by omega))
  have hCr : |C| ≤ 2 ^ p := hC.le.trans (pow_le_pow_right₀ (by norm_num) (by omega))
  have ex : (X : ℚ) * 2 ^ e - (A * 2 ^ q : ℤ) * 2 ^ e = B * 2 ^ e := by
    rw [hX]; push_cast; ring
  have ey : (Y : ℚ) * 2 ^ f - (C * 2 ^ q : ℤ) * 2 ^ f = D * 2 ^ f := by
    rw [hY]; push_cast; ring
  have hxy : (X : ℚ) * 2 ^ e * (Y * 2 ^ f) = (X * Y : ℤ) * 2 ^ (e + f) := by
    rw [hz]; push_cast; ring
  have eup : ∀ (a g : ℤ), ((a * 2 ^ q : ℤ) : ℚ) * 2 ^ g = a * 2 ^ ((q : ℤ) + g) := by
    intro a g; rw [hz, zpow_natCast]; push_cast; ring
  rw [hxy] at hserr
  have hEz := hz e f
  generalize e + f = E at *
  have hXYge : 2 ^ (p - 1) * 2 ^ (p - 1) ≤ |(X * Y : ℤ)| := by
    rw [abs_mul]; exact mul_le_mul hX1 hY1 (by positivity) (abs_nonneg _)
  obtain ⟨k, hk⟩ := hsm
  have hSk : (k : ℚ) * 2 ^ ((p : ℤ) - 1 + E) = (k * 2 ^ (p - 1) : ℤ) * 2 ^ E := by
    rw [hz, show ((p : ℤ) - 1) = ((p - 1 : ℕ) : ℤ) by omega, zpow_natCast]
    push_cast; ring
  rw [hk, hSk] at hserr
  rw [hSk] at hk
  set S := k * 2 ^ (p - 1) with hS
  have hint : 2 * |X * Y - S| ≤ 2 ^ p := by
    rw [← sub_mul, abs_mul, abs_of_pos (two_zpow_pos E), hz, zpow_natCast] at hserr
    have hE0 := two_zpow_pos E
    have : 2 * |((X * Y : ℤ) : ℚ) - S| ≤ 2 ^ p := by
      by_contra hc
      have := mul_lt_mul_of_pos_right (not_le.mp hc) hE0
      linarith
    exact_mod_cast this
  have hint' := hint
  rw [hX, hY] at hint'
  obtain ⟨b1, b2, b3, b4, b5, b6, b7⟩ := dekker_bounds h1 h2 h3 hA hB hC hD hint'
  have hint2 : 2 * |(C * 2 ^ q + D) * (A * 2 ^ q + B) - S| ≤ 2 ^ p := by
    rw [mul_comm (C * 2 ^ q + D)]; exact hint'
  obtain ⟨-, -, -, -, -, b6', -⟩ := dekker_bounds h1 h2 h3 hC hD hA hB hint2
  have hXY : X * Y = A * C * 2 ^ (2 * q) + A * D * 2 ^ q + B * C * 2 ^ q + B * D := by
    rw [hX, hY]; ring
  have repm : ∀ (n : ℕ) (z : ℤ), (2 : ℤ) ^ n ∣ z → |z| ≤ 2 ^ p * 2 ^ n →
      Rep p emin ((z : ℚ) * 2 ^ E) := by
    rintro n _ ⟨w, rfl⟩ hb
    have hw : |w| ≤ 2 ^ p := by
      rw [abs_mul, abs_of_pos (by positivity : (0 : ℤ) < 2 ^ n), mul_comm] at hb
      exact le_of_mul_le_mul_right hb (by positivity)
    have : ((2 ^ n * w : ℤ) : ℚ) * 2 ^ E = w * 2 ^ ((n : ℤ) + E) := by
      rw [hz, zpow_natCast]; push_cast; ring
    rw [this]
    exact rep_int_mul hp (by omega) hw
  have dS : (2 : ℤ) ^ (p - 1) ∣ S := ⟨k, by rw [hS]; ring⟩
  have dSq : (2 : ℤ) ^ q ∣ S := (pow_dvd_pow 2 (by omega : q ≤ p - 1)).trans dS
  have d1 : (2 : ℤ) ^ (p - 1) ∣ A * C * 2 ^ (2 * q) :=
    Dvd.dvd.mul_left (pow_dvd_pow 2 (by omega)) _
  have d1q : (2 : ℤ) ^ q ∣ A * C * 2 ^ (2 * q) := Dvd.dvd.mul_left (pow_dvd_pow 2 (by omega)) _
  have eBD : (B : ℚ) * 2 ^ e * (D * 2 ^ f) = (B * D : ℤ) * 2 ^ E := by
    rw [hEz]; push_cast; ring
  have eAC : ((A * 2 ^ q : ℤ) : ℚ) * 2 ^ e * ((C * 2 ^ q : ℤ) * 2 ^ f) =
      (A * C * 2 ^ (2 * q) : ℤ) * 2 ^ E := by
    rw [hEz, pow_mul']; push_cast; ring
  have eBC : (B : ℚ) * 2 ^ e * ((C * 2 ^ q : ℤ) * 2 ^ f) = (B * C * 2 ^ q : ℤ) * 2 ^ E := by
    rw [hEz]; push_cast; ring
  have eAD : ((A * 2 ^ q : ℤ) : ℚ) * 2 ^ e * (D * 2 ^ f) = (A * D * 2 ^ q : ℤ) * 2 ^ E := by
    rw [hEz]; push_cast; ring
  -- the last product
  obtain ⟨m, hm⟩ := h.mult hp hef (mult_int (B * D) E)
  have hm1 : |B * D - m| ≤ 1 := by
    have hb : |((B * D : ℤ) : ℚ) * 2 ^ E| ≤ 2 ^ p * 2 ^ (E + 1) := by
      rw [abs_mul, abs_of_pos (two_zpow_pos E), zpow_add₀ (by norm_num), zpow_one]
      have : |B * D| ≤ 2 ^ p * 2 := by
        refine b4.trans ?_
        rw [← pow_succ]; exact pow_le_pow_right₀ (by norm_num) h2
      have : (|((B * D : ℤ) : ℚ)|) ≤ 2 ^ p * 2 := by exact_mod_cast this
      nlinarith [two_zpow_pos E]
    have := h.half_ulp hp (by omega : emin ≤ E + 1) hb
    rw [hm, zpow_add₀ (by norm_num), zpow_one, mul_div_cancel_right₀ _ (by norm_num : (2 : ℚ) ≠ 0),
      ← sub_mul, abs_mul, abs_of_pos (two_zpow_pos E)] at this
    have : |((B * D : ℤ) : ℚ) - m| ≤ 1 := by
      by_contra hc
      have := mul_lt_mul_of_pos_right (not_le.mp hc) (two_zpow_pos E)
      linarith
    exact_mod_cast this
  have hrep : |X * Y - S - B * D + m| ≤ 2 ^ p := by
    have h4 : (2 : ℤ) ≤ 2 ^ p := by
      calc (2 : ℤ) = 2 ^ 1 := by norm_num
        _ ≤ 2 ^ p := pow_le_pow_right₀ (by norm_num) hp
    have e1 := _root_.abs_le.mp hm1
    have e2 : |X * Y - S| * 2 ≤ 2 ^ p := by linarith
    have e3 := abs_nonneg (X * Y - S)
    rw [_root_.abs_le]
    have e5 := neg_abs_le (X * Y - S)
    have e6 := le_abs_self (X * Y - S)
    constructor <;> omega
  constructor
  · rw [hux, eup]; exact rep_int_mul hp (by omega) hAr
  · rw [huy, eup]; exact rep_int_mul hp (by omega) hCr
  · rw [hux, ex]; exact rep_int_mul hp he hBr
  · rw [huy, ey]; exact rep_int_mul hp hf hDr
  · rw [hux, huy, eAC]
    refine repm (2 * q) _ (Dvd.intro_left _ rfl) ?_
    rw [abs_mul, abs_of_pos (by positivity : (0 : ℤ) < 2 ^ (2 * q))]
    exact mul_le_mul_of_nonneg_right b1 (by positivity)
  · rw [hux, huy, ex, eBC]
    refine repm q _ (Dvd.intro_left _ rfl) ?_
    rw [abs_mul, abs_of_pos (by positivity : (0 : ℤ) < 2 ^ q)]
    exact mul_le_mul_of_nonneg_right b2 (by positivity)
  · rw [hux, huy, ey, eAD]
    refine repm q _ (Dvd.intro_left _ rfl) ?_
    rw [abs_mul, abs_of_pos (by positivity : (0 : ℤ) < 2 ^ q)]
    exact mul_le_mul_of_nonneg_right b3 (by positivity)
  · rw [hux, huy, eAC, hk, ← sub_mul, ← Int.cast_sub]
    exact repm (p - 1) _ (d1.sub dS) b5
  · rw [hux, huy, ex, eAC, eBC, hk, ← sub_mul, ← add_mul, ← Int.cast_sub, ← Int.cast_add]
    exact repm q _ ((d1q.sub dSq).add (Dvd.intro_left _ rfl)) b6
  · rw [hux, huy, ey, eAC, eAD, hk, ← sub_mul, ← add_mul, ← Int.cast_sub, ← Int.cast_add]
    refine repm q _ ((d1q.sub dSq).add (Dvd.intro_left _ rfl)) ?_
    rw [mul_comm A D, mul_comm A C]; exact b6'
  · rw [hux, huy, ex, ey, eBD, hxy, hk, ← sub_mul, ← sub_mul, ← Int.cast_sub, ← Int.cast_sub]
    rw [show X * Y - S - B * D =
      A * C * 2 ^ (2 * q) - S + B * C * 2 ^ q + A * D * 2 ^ q by rw [hXY]; ring]
    exact repm q _ (((d1q.sub dSq).add (Dvd.intro_left _ rfl)).add (Dvd.intro_left _ rfl)) b7
  · rw [hux, huy, ex, ey, eBD, hxy, hk, hm]
    have := rep_int_mul (emin := emin) hp hef hrep
    convert this using 1
    push_cast; ring
  · rw [hux, huy, ex, ey, eBD, hxy, hm, ← sub_mul, abs_mul, abs_mul, abs_of_pos (two_zpow_pos E),
      ← mul_assoc, ← Int.cast_sub]
    have : |((m - B * D : ℤ) : ℚ)| ≤ 1 := by rw [abs_sub_comm] at hm1; exact_mod_cast hm1
    refine mul_le_mul_of_nonneg_right (this.trans ?_) (two_zpow_pos E).le
    have hc : ((2 ^ (p - 1) * 2 ^ (p - 1) : ℤ) : ℚ) ≤ ((|X * Y| : ℤ) : ℚ) := by
      exact_mod_cast hXYge
    have hc' : ((2 : ℚ) ^ p) ^ 2 / 4 ≤ |((X * Y : ℤ) : ℚ)| := by
      rw [← Int.cast_abs]
      refine le_trans (le_of_eq ?_) hc
      obtain ⟨r, rfl⟩ : ∃ r, p = r + 1 := ⟨p - 1, by omega⟩
      push_cast
      ring
    rw [one_div, inv_pow, mul_assoc, ← div_eq_inv_mul, ← mul_div_assoc, le_div_iff₀ (by positivity)]
    linarith
  · intro hpq
    rw [hux, huy, ex, ey, eBD]
    exact h.fix (rep_int_mul hp hef (b4.trans (by rw [hpq])))

/-- The rounded product of two normal numbers is near enough for Dekker's product. -/
theorem Nearest.split_mul (h : Nearest p emin rnd) {q : Nat} (h1 : p ≤ 2 * q) (h2 : 2 * q ≤ p + 1)
    (h3 : q + 3 ≤ p) {up : ℚ → ℚ} {x y : ℚ} {X Y e f : ℤ} (hx : Splits p q up x X e)
    (hy : Splits p q up y Y f) (he : emin ≤ e) (hf : emin ≤ f) (hef : emin ≤ e + f) :
    SplitFacts p q emin rnd up x y (rnd (x * y)) := by
  have hp : 1 ≤ p := by omega
  have hxy : x * y = (X * Y : ℤ) * 2 ^ (e + f) := by
    rw [hx.1, hy.1, zpow_add₀ (by norm_num)]; push_cast; ring
  have hXYlt : |(X * Y : ℤ)| ≤ 2 ^ p * 2 ^ p := by
    rw [abs_mul]; exact mul_le_mul hx.2.2.1.le hy.2.2.1.le (abs_nonneg _) (by positivity)
  have hXYge : 2 ^ (p - 1) * 2 ^ (p - 1) ≤ |(X * Y : ℤ)| := by
    rw [abs_mul]; exact mul_le_mul hx.2.1 hy.2.1 (by positivity) (abs_nonneg _)
  refine h.split_core h1 h2 h3 hx hy he hf hef ?_ ?_
  · rw [hxy]
    refine mult_of_ge (h.rep _) ?_
    refine h.neg_bound hp (by omega) ?_
    rw [abs_mul, abs_of_pos (two_zpow_pos _), ← Int.cast_abs]
    have hc : (((2 : ℤ) ^ (p - 1) * 2 ^ (p - 1) : ℤ) : ℚ) ≤ ((|X * Y| : ℤ) : ℚ) := by
      exact_mod_cast hXYge
    refine le_trans (le_of_eq ?_) (mul_le_mul_of_nonneg_right hc (two_zpow_pos (e + f)).le)
    push_cast
    rw [← pow_add, ← zpow_natCast, ← zpow_natCast, ← zpow_add₀ (by norm_num),
      ← zpow_add₀ (by norm_num)]
    congr 1
    omega
  · refine h.half_ulp hp (by omega) ?_
    rw [hxy, abs_mul, abs_of_pos (two_zpow_pos _), ← Int.cast_abs, zpow_add₀ (by norm_num) (p : ℤ),
      zpow_natCast, ← mul_assoc]
    refine mul_le_mul_of_nonneg_right ?_ (two_zpow_pos _).le
    exact_mod_cast hXYlt

open Nsimd.DoubleDouble in
/-- The sum of Dekker's product: src/dd.h:235. -/
theorem Nearest.dekker (h : Nearest p emin rnd) {q : Nat} {up : ℚ → ℚ} {x y : ℚ}
    (F : SplitFacts p q emin rnd up x y (rnd (x * y))) :
    addN rnd (mul rnd (up x) (up y)) [-mul rnd x y, mul rnd (sub rnd x (up x)) (up y),
      mul rnd (up x) (sub rnd y (up y)), mul rnd (sub rnd x (up x)) (sub rnd y (up y))] =
    x * y - rnd (x * y) + (rnd ((x - up x) * (y - up y)) - (x - up x) * (y - up y)) := by
  simp only [addN, add, sub, mul]
  rw [h.fix F.lox, h.fix F.loy, h.fix F.hh, h.fix F.lh, h.fix F.hl, ← sub_eq_add_neg, h.fix F.s1,
    h.fix F.s2]
  rw [show up x * up y - rnd (x * y) + (x - up x) * up y + up x * (y - up y) =
    x * y - rnd (x * y) - (x - up x) * (y - up y) by ring, h.fix F.s3,
    show x * y - rnd (x * y) - (x - up x) * (y - up y) + rnd ((x - up x) * (y - up y)) =
    x * y - rnd (x * y) + (rnd ((x - up x) * (y - up y)) - (x - up x) * (y - up y)) by ring,
    h.fix F.s4]

end Nsimd.Float
