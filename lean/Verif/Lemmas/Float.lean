import Verif.Props.Round
import Mathlib.Algebra.Order.Archimedean.Basic

/-!
# Binary floating point numbers with gradual underflow and unbounded range

Helper lemmas: multiples of powers of two, nearest rounding, exactness of rounding errors.
-/

namespace Nsimd.Float
open Nsimd.Props.Round

variable {p : Nat} {emin : ℤ} {rnd : ℚ → ℚ}

/-- Round to nearest, with any rule for ties: a number of the format at least as near as every
other. Specification. -/
structure Nearest (p : Nat) (emin : ℤ) (rnd : ℚ → ℚ) : Prop where
  rep : ∀ x, Rep p emin (rnd x)
  near : ∀ x y, Rep p emin y → |x - rnd x| ≤ |x - y|

theorem Nearest.fix (h : Nearest p emin rnd) {q : ℚ} (hq : Rep p emin q) : rnd q = q := by
  have := h.near q q hq
  rw [sub_self, abs_zero] at this
  have := abs_nonpos_iff.mp this
  linarith

theorem Nearest.mono (h : Nearest p emin rnd) : Monotone rnd := by
  intro x y hxy
  by_contra hc
  rw [not_le] at hc
  rcases hxy.eq_or_lt with rfl | hlt
  · exact lt_irrefl _ hc
  have h1 := h.near x (rnd y) (h.rep y)
  have h2 := h.near y (rnd x) (h.rep x)
  have e1 : (x - rnd x) ^ 2 ≤ (x - rnd y) ^ 2 := sq_le_sq.mpr h1
  have e2 : (y - rnd y) ^ 2 ≤ (y - rnd x) ^ 2 := sq_le_sq.mpr h2
  nlinarith [mul_pos (sub_pos.mpr hc) (sub_pos.mpr hlt)]

/-- Round to nearest is a rounding. -/
theorem Nearest.rounding (h : Nearest p emin rnd) : Rounding p emin rnd :=
  ⟨h.mono, fun _ => h.fix⟩

/-- `x` is a multiple of `2^e`. Proof helper, not code of the repo. -/
def Mult (e : ℤ) (x : ℚ) : Prop := ∃ k : ℤ, x = k * 2 ^ e

theorem two_zpow_pos (e : ℤ) : (0 : ℚ) < 2 ^ e := by positivity

theorem Mult.add {e : ℤ} {x y : ℚ} (hx : Mult e x) (hy : Mult e y) : Mult e (x + y) := by
  obtain ⟨k, rfl⟩ := hx
  obtain ⟨l, rfl⟩ := hy
  exact ⟨k + l, by push_cast; ring⟩

theorem Mult.neg {e : ℤ} {x : ℚ} (hx : Mult e x) : Mult e (-x) := by
  obtain ⟨k, rfl⟩ := hx
  exact ⟨-k, by push_cast; ring⟩

theorem Mult.sub {e : ℤ} {x y : ℚ} (hx : Mult e x) (hy : Mult e y) : Mult e (x - y) := by
  rw [sub_eq_add_neg]; exact hx.add hy.neg

theorem Mult.mul {e f : ℤ} {x y : ℚ} (hx : Mult e x) (hy : Mult f y) : Mult (e + f) (x * y) := by
  obtain ⟨k, rfl⟩ := hx
  obtain ⟨l, rfl⟩ := hy
  exact ⟨k * l, by rw [zpow_add₀ (by norm_num)]; push_cast; ring⟩

theorem Mult.le {e f : ℤ} {x : ℚ} (hx : Mult f x) (h : e ≤ f) : Mult e x := by
  obtain ⟨k, rfl⟩ := hx
  refine ⟨k * 2 ^ (f - e).toNat, ?_⟩
  have : (2 : ℚ) ^ f = 2 ^ (f - e).toNat * 2 ^ e := by
    rw [← zpow_natCast, ← zpow_add₀ (by norm_num), Int.toNat_of_nonneg (by omega)]
    congr 1; omega
  rw [this]; push_cast; ring

theorem zpow_lt_iff {e f : ℤ} : (2 : ℚ) ^ e < 2 ^ f ↔ e < f :=
  zpow_lt_zpow_iff_right₀ (by norm_num)

theorem zpow_le_iff {e f : ℤ} : (2 : ℚ) ^ e ≤ 2 ^ f ↔ e ≤ f :=
  zpow_le_zpow_iff_right₀ (by norm_num)

theorem pow_eq_zpow (p : Nat) (e : ℤ) : (2 : ℚ) ^ p * 2 ^ e = 2 ^ ((p : ℤ) + e) := by
  rw [zpow_add₀ (by norm_num), zpow_natCast]

theorem rep_exp {x : ℚ} (h : Rep p emin x) : ∃ e, emin ≤ e ∧ Mult e x ∧ |x| < 2 ^ p * 2 ^ e := by
  obtain ⟨m, e, hm, he, rfl⟩ := h
  refine ⟨e, he, ⟨m, rfl⟩, ?_⟩
  rw [abs_mul, abs_of_pos (two_zpow_pos e)]
  have : |(m : ℚ)| < 2 ^ p := by
    have := (Int.cast_lt (R := ℚ)).mpr hm
    push_cast at this
    exact this
  exact mul_lt_mul_of_pos_right this (two_zpow_pos e)

/-- A multiple of `2^e` of magnitude at most `2^(p + e)` is in the format. -/
theorem rep_of_mult (hp : 1 ≤ p) {e : ℤ} (he : emin ≤ e) {x : ℚ} (hx : Mult e x)
    (hb : |x| ≤ 2 ^ p * 2 ^ e) : Rep p emin x := by
  obtain ⟨k, rfl⟩ := hx
  rw [abs_mul, abs_of_pos (two_zpow_pos e)] at hb
  have hk : |(k : ℚ)| ≤ 2 ^ p := le_of_mul_le_mul_right hb (two_zpow_pos e)
  have hk' : |k| ≤ 2 ^ p := by
    have : ((|k| : ℤ) : ℚ) ≤ ((2 ^ p : ℤ) : ℚ) := by push_cast; exact hk
    exact_mod_cast this
  rcases hk'.eq_or_lt with h | h
  · have h2 : (2 : ℤ) ^ p = 2 ^ (p - 1) * 2 := by rw [← pow_succ]; congr 1; omega
    have hlt : (2 : ℤ) ^ (p - 1) < 2 ^ p := by
      rw [h2]; have : (0 : ℤ) < 2 ^ (p - 1) := by positivity
      omega
    rcases abs_choice k with hc | hc
    · refine ⟨2 ^ (p - 1), e + 1, ?_, by omega, ?_⟩
      · rw [abs_of_pos (by positivity)]; exact hlt
      · have : k = 2 ^ (p - 1) * 2 := by omega
        rw [this, zpow_add₀ (by norm_num)]; push_cast; ring
    · refine ⟨-2 ^ (p - 1), e + 1, ?_, by omega, ?_⟩
      · rw [abs_neg, abs_of_pos (by positivity)]; exact hlt
      · have : k = -(2 ^ (p - 1) * 2) := by omega
        rw [this, zpow_add₀ (by norm_num)]; push_cast; ring
  · exact ⟨k, e, h, he, rfl⟩

/-- A number of the format of magnitude at least `2^(p - 1 + e)` is a multiple of `2^e`. -/
theorem mult_of_ge {x : ℚ} (h : Rep p emin x) {e : ℤ} (hx : 2 ^ p * 2 ^ (e - 1) ≤ |x|) :
    Mult e x := by
  obtain ⟨f, -, hm, hb⟩ := rep_exp h
  refine hm.le ?_
  have := hx.trans_lt hb
  rw [pow_eq_zpow, pow_eq_zpow, zpow_lt_iff] at this
  omega

/-- The smallest exponent under which a number of the format can be written. -/
theorem rep_canon {x : ℚ} (h : Rep p emin x) : ∃ e, emin ≤ e ∧ Mult e x ∧ |x| < 2 ^ p * 2 ^ e ∧
    (e = emin ∨ 2 ^ p * 2 ^ (e - 1) ≤ |x|) := by
  obtain ⟨e, he, hm, hb⟩ := rep_exp h
  induction hn : (e - emin).toNat generalizing e with
  | zero => exact ⟨e, he, hm, hb, Or.inl (by omega)⟩
  | succ n ih =>
    by_cases hc : 2 ^ p * 2 ^ (e - 1) ≤ |x|
    · exact ⟨e, he, hm, hb, Or.inr hc⟩
    · exact ih (e - 1) (by omega) (hm.le (by omega)) (not_le.mp hc) (by omega)

theorem Nearest.neg_bound (h : Nearest p emin rnd) (hp : 1 ≤ p) {e : ℤ} (he : emin ≤ e) {x : ℚ}
    (hx : 2 ^ p * 2 ^ e ≤ |x|) : 2 ^ p * 2 ^ e ≤ |rnd x| := by
  have hpos : (0 : ℚ) < 2 ^ p * 2 ^ e := by positivity
  have hr : Rep p emin ((2 : ℚ) ^ p * 2 ^ e) :=
    rep_of_mult hp he ⟨2 ^ p, by push_cast; ring⟩ (by rw [abs_of_pos hpos])
  rcases le_total 0 x with h0 | h0
  · rw [abs_of_nonneg h0] at hx
    have := h.mono hx
    rw [h.fix hr] at this
    exact this.trans (le_abs_self _)
  · rw [abs_of_nonpos h0] at hx
    have : rnd x ≤ rnd (-(2 ^ p * 2 ^ e)) := h.mono (by linarith)
    rw [h.fix (rep_neg hr)] at this
    exact le_trans (by linarith) (neg_le_abs _)

/-- Either a multiple of `2^e` is rounded exactly, or it exceeds `2^(p + e)` and is rounded to a
multiple of `2^(e + 1)`. -/
theorem Nearest.cases (h : Nearest p emin rnd) (hp : 1 ≤ p) {e : ℤ} (he : emin ≤ e) {x : ℚ}
    (hx : Mult e x) : rnd x = x ∨ (2 ^ p * 2 ^ e < |x| ∧ Mult (e + 1) (rnd x)) := by
  rcases le_or_gt |x| (2 ^ p * 2 ^ e) with hb | hb
  · exact Or.inl (h.fix (rep_of_mult hp he hx hb))
  · right
    refine ⟨hb, mult_of_ge (h.rep x) ?_⟩
    rw [add_sub_cancel_right]
    exact h.neg_bound hp he hb.le

theorem Nearest.mult (h : Nearest p emin rnd) (hp : 1 ≤ p) {e : ℤ} (he : emin ≤ e) {x : ℚ}
    (hx : Mult e x) : Mult e (rnd x) := by
  rcases h.cases hp he hx with hc | ⟨-, hc⟩
  · rwa [hc]
  · exact hc.le (by omega)

/-- Absolute error of rounding to nearest. -/
theorem Nearest.half_ulp (h : Nearest p emin rnd) (hp : 1 ≤ p) {e : ℤ} (he : emin ≤ e) {x : ℚ}
    (hx : |x| ≤ 2 ^ p * 2 ^ e) : |x - rnd x| ≤ 2 ^ e / 2 := by
  have hpos := two_zpow_pos e
  set y := x / 2 ^ e with hy
  have hxy : x = y * 2 ^ e := by rw [hy]; field_simp
  have hyb : |y| ≤ 2 ^ p := by
    rw [hxy, abs_mul, abs_of_pos hpos] at hx
    exact le_of_mul_le_mul_right hx hpos
  have hr := abs_sub_round y
  have hrb : |round y| ≤ 2 ^ p := by
    rw [abs_le] at hr hyb ⊢
    have h1 : (-(2 ^ p : ℤ) - 1 : ℤ) < round y := by
      have : ((-(2 ^ p : ℤ) - 1 : ℤ) : ℚ) < (round y : ℚ) := by push_cast; linarith [hr.1, hr.2]
      exact_mod_cast this
    have h2 : round y < 2 ^ p + 1 := by
      have : (round y : ℚ) < ((2 ^ p + 1 : ℤ) : ℚ) := by push_cast; linarith [hr.1, hr.2]
      exact_mod_cast this
    constructor <;> omega
  have hrep : Rep p emin (round y * 2 ^ e) := by
    refine rep_of_mult hp he ⟨round y, rfl⟩ ?_
    rw [abs_mul, abs_of_pos hpos]
    refine mul_le_mul_of_nonneg_right ?_ hpos.le
    have : ((|round y| : ℤ) : ℚ) ≤ ((2 ^ p : ℤ) : ℚ) := by exact_mod_cast hrb
    push_cast at this
    exact this
  refine (h.near x _ hrep).trans ?_
  rw [hxy, ← sub_mul, abs_mul, abs_of_pos hpos]
  calc |y - round y| * 2 ^ e ≤ 1 / 2 * 2 ^ e := mul_le_mul_of_nonneg_right hr hpos.le
    _ = 2 ^ e / 2 := by ring

/-- Adding two numbers of the format leaves an error in the format. -/
theorem Nearest.err_add (h : Nearest p emin rnd) (hp : 1 ≤ p) {a b : ℚ} (ha : Rep p emin a)
    (hb : Rep p emin b) : Rep p emin (a + b - rnd (a + b)) := by
  obtain ⟨e, he, hm, hlt⟩ := rep_exp ha
  obtain ⟨f, hf, hn, hlt'⟩ := rep_exp hb
  have e1 : |a + b - rnd (a + b)| ≤ |b| := by
    have := h.near (a + b) a ha
    rwa [add_sub_cancel_left] at this
  have e2 : |a + b - rnd (a + b)| ≤ |a| := by
    have := h.near (a + b) b hb
    rwa [add_sub_cancel_right] at this
  rcases le_total e f with hef | hef
  · have hs := hm.add (hn.le hef)
    exact rep_of_mult hp he (hs.sub (h.mult hp he hs)) (e2.trans hlt.le)
  · have hs := (hm.le hef).add hn
    exact rep_of_mult hp hf (hs.sub (h.mult hp hf hs)) (e1.trans hlt'.le)

/-- Dekker: adding a smaller number to a larger one, the rounded sum minus the larger number is
in the format. -/
theorem Nearest.sub_large (h : Nearest p emin rnd) (hp : 1 ≤ p) {a b : ℚ} (ha : Rep p emin a)
    (hb : Rep p emin b) (hab : |b| ≤ |a|) : Rep p emin (rnd (a + b) - a) := by
  obtain ⟨f, hf, hn, hlt, hcan⟩ := rep_canon hb
  have hma : Mult f a := by
    rcases hcan with rfl | hc
    · obtain ⟨e, he, hm, -⟩ := rep_exp ha
      exact hm.le he
    · exact mult_of_ge ha (hc.trans hab)
  have hs := hma.add hn
  rcases h.cases hp hf hs with hex | ⟨hbig, hm1⟩
  · rw [hex, add_sub_cancel_left]; exact hb
  · have hd : |a + b - rnd (a + b)| ≤ |b| := by
      have := h.near (a + b) a ha
      rwa [add_sub_cancel_left] at this
    have e0 : rnd (a + b) - a = b - (a + b - rnd (a + b)) := by ring
    rcases lt_or_ge |a| (2 ^ p * 2 ^ f) with hsm | hlg
    · -- both operands are below `2^(p + f)`
      refine rep_of_mult hp hf ((hm1.le (by omega)).sub hma) ?_
      have hsum : |a + b| ≤ 2 ^ p * 2 ^ (f + 1) := by
        have := abs_add_le a b
        rw [zpow_add₀ (by norm_num)]
        linarith
      have herr := h.half_ulp hp (e := f + 1) (by omega) hsum
      rw [zpow_add₀ (by norm_num), zpow_one, mul_div_assoc, div_self (by norm_num), mul_one] at herr
      have hb1 : |b| ≤ 2 ^ p * 2 ^ f - 2 ^ f := by
        obtain ⟨k, rfl⟩ := hn
        have hpos := two_zpow_pos f
        rw [abs_mul, abs_of_pos hpos] at hlt ⊢
        have hk : |(k : ℚ)| < 2 ^ p := lt_of_mul_lt_mul_right hlt hpos.le
        have hk' : |k| < 2 ^ p := by
          have : ((|k| : ℤ) : ℚ) < ((2 ^ p : ℤ) : ℚ) := by push_cast; exact hk
          exact_mod_cast this
        have hk2 : |k| ≤ 2 ^ p - 1 := by omega
        have hk3 : |(k : ℚ)| ≤ 2 ^ p - 1 := by
          have : ((|k| : ℤ) : ℚ) ≤ ((2 ^ p - 1 : ℤ) : ℚ) := by exact_mod_cast hk2
          push_cast at this
          exact this
        calc |(k : ℚ)| * 2 ^ f ≤ (2 ^ p - 1) * 2 ^ f := mul_le_mul_of_nonneg_right hk3 hpos.le
          _ = _ := by ring
      rw [e0]
      have := abs_sub b (a + b - rnd (a + b))
      linarith
    · have hma1 : Mult (f + 1) a := mult_of_ge ha (by rwa [add_sub_cancel_right])
      refine rep_of_mult hp (by omega : emin ≤ f + 1) (hm1.sub hma1) ?_
      rw [e0, zpow_add₀ (by norm_num), zpow_one]
      have := abs_sub b (a + b - rnd (a + b))
      linarith

/-- Sterbenz: the sum of numbers of opposite signs within a factor two is in the format. -/
theorem sterbenz (hp : 1 ≤ p) {a b : ℚ} (ha : Rep p emin a) (hb : Rep p emin b)
    (h1 : |a + b| ≤ |a|) (h2 : |a + b| ≤ |b|) : Rep p emin (a + b) := by
  obtain ⟨e, he, hm, hlt⟩ := rep_exp ha
  obtain ⟨f, hf, hn, hlt'⟩ := rep_exp hb
  rcases le_total e f with hef | hef
  · exact rep_of_mult hp he (hm.add (hn.le hef)) (h1.trans hlt.le)
  · exact rep_of_mult hp hf ((hm.le hef).add hn) (h2.trans hlt'.le)

/-- The product of two numbers of the format leaves an error in the format, unless the product of
their last places underflows. -/
theorem Nearest.err_mul (h : Nearest p emin rnd) (hp : 1 ≤ p) {a b : ℚ} {e f : ℤ} (ha : Mult e a)
    (hb : Mult f b) (ha' : |a| < 2 ^ p * 2 ^ e) (hb' : |b| < 2 ^ p * 2 ^ f) (hef : emin ≤ e + f) :
    Rep p emin (a * b - rnd (a * b)) := by
  have hm := ha.mul hb
  refine rep_of_mult hp hef (hm.sub (h.mult hp hef hm)) ?_
  have hab : |a * b| ≤ 2 ^ p * 2 ^ ((p : ℤ) + (e + f)) := by
    rw [abs_mul]
    have := mul_le_mul ha'.le hb'.le (abs_nonneg _) (by positivity)
    refine this.trans (le_of_eq ?_)
    rw [zpow_add₀ (by norm_num), zpow_add₀ (by norm_num) e f, zpow_natCast]; ring
  have := h.half_ulp hp (by omega) hab
  rw [zpow_add₀ (by norm_num), zpow_natCast] at this
  have hpos : (0 : ℚ) < 2 ^ p * 2 ^ (e + f) := by positivity
  linarith

/-- Relative error of adding two numbers of the format: at most half a unit of the last place,
also in the subnormal range. -/
theorem Nearest.rel_add (h : Nearest p emin rnd) (hp : 1 ≤ p) {a b : ℚ} (ha : Rep p emin a)
    (hb : Rep p emin b) : |rnd (a + b) - (a + b)| ≤ |a + b| / 2 ^ p := by
  have hpp : (0 : ℚ) < 2 ^ p := by positivity
  obtain ⟨e, he, hm, -⟩ := rep_exp ha
  obtain ⟨f, hf, hn, -⟩ := rep_exp hb
  have hs : Mult emin (a + b) := (hm.le he).add (hn.le hf)
  generalize hx : a + b = x at hs
  -- descend to an exponent where the sum has between `p` and `p + 1` bits
  have key : ∀ n : ℕ, ∀ g : ℤ, emin ≤ g → |x| ≤ 2 ^ p * 2 ^ g → (g - emin).toNat = n →
      |rnd x - x| ≤ |x| / 2 ^ p := by
    intro n
    induction n with
    | zero =>
      intro g hg hxb hn
      have : g = emin := by omega
      subst this
      rw [h.fix (rep_of_mult hp le_rfl hs hxb), sub_self, abs_zero]
      positivity
    | succ n ih =>
      intro g hg hxb hn
      rcases le_or_gt |x| (2 ^ p * 2 ^ (g - 1)) with hc | hc
      · exact ih (g - 1) (by omega) hc (by omega)
      · have := h.half_ulp hp hg hxb
        rw [abs_sub_comm]
        refine this.trans ?_
        rw [le_div_iff₀ hpp]
        rw [zpow_sub_one₀ (by norm_num)] at hc
        linarith
  obtain ⟨k, hk⟩ := hs
  refine key _ (emin + |k|.toNat) (by omega) ?_ rfl
  rw [hk, abs_mul, abs_of_pos (two_zpow_pos emin), zpow_add₀ (by norm_num), zpow_natCast]
  have hk2 : |(k : ℚ)| ≤ 2 ^ |k|.toNat := by
    have h1 : |k|.toNat < 2 ^ |k|.toNat := Nat.lt_two_pow_self
    have h2 : ((|k|.toNat : ℕ) : ℤ) = |k| := Int.toNat_of_nonneg (abs_nonneg k)
    have h3 : ((|k|.toNat : ℕ) : ℚ) = |(k : ℚ)| := by
      rw [← Int.cast_natCast, h2]; push_cast; rfl
    rw [← h3]
    exact_mod_cast h1.le
  have h1p : (1 : ℚ) ≤ 2 ^ p := one_le_pow₀ (by norm_num)
  have hpos := two_zpow_pos emin
  calc |(k : ℚ)| * 2 ^ emin ≤ 2 ^ |k|.toNat * 2 ^ emin := mul_le_mul_of_nonneg_right hk2 hpos.le
    _ = 1 * (2 ^ emin * 2 ^ |k|.toNat) := by ring
    _ ≤ 2 ^ p * (2 ^ emin * 2 ^ |k|.toNat) := mul_le_mul_of_nonneg_right h1p (by positivity)

/-- Every rational lies below `2^(p + e)` for some exponent `e`, and there is a least one. -/
theorem exists_scale (p : Nat) (emin : ℤ) (x : ℚ) : ∃ e, emin ≤ e ∧ |x| ≤ 2 ^ p * 2 ^ e ∧
    (e = emin ∨ 2 ^ p * 2 ^ (e - 1) < |x|) := by
  have big : ∃ n : ℕ, |x| ≤ 2 ^ p * 2 ^ (emin + n) := by
    obtain ⟨n, hn⟩ := pow_unbounded_of_one_lt (|x| / (2 ^ p * 2 ^ emin)) (by norm_num : (1 : ℚ) < 2)
    refine ⟨n, ?_⟩
    rw [div_lt_iff₀ (by positivity)] at hn
    rw [zpow_add₀ (by norm_num), zpow_natCast]
    linarith
  obtain ⟨n, hn⟩ := big
  induction n with
  | zero => exact ⟨emin, le_rfl, by simpa using hn, Or.inl rfl⟩
  | succ n ih =>
    by_cases hc : |x| ≤ 2 ^ p * 2 ^ (emin + n)
    · exact ih hc
    · refine ⟨emin + (n + 1 : ℕ), by omega, hn, Or.inr ?_⟩
      rw [show emin + ((n + 1 : ℕ) : ℤ) - 1 = emin + n by push_cast; ring]
      exact not_le.mp hc

/-- Rounding to nearest exists in every format. -/
theorem exists_nearest (hp : 1 ≤ p) (emin : ℤ) : ∃ rnd, Nearest p emin rnd := by
  have key : ∀ x : ℚ, ∃ r, Rep p emin r ∧ ∀ y, Rep p emin y → |x - r| ≤ |x - y| := by
    intro x
    obtain ⟨e, he, hx, hmin⟩ := exists_scale p emin x
    have hpos := two_zpow_pos e
    set z := x / 2 ^ e with hz
    have hxz : x = z * 2 ^ e := by rw [hz]; field_simp
    have hmult : ∀ y, Mult e y → |x - round z * 2 ^ e| ≤ |x - y| := by
      rintro y ⟨k, rfl⟩
      rw [hxz, ← sub_mul, ← sub_mul, abs_mul, abs_mul]
      exact mul_le_mul_of_nonneg_right (round_le z k) (abs_nonneg _)
    have hr := abs_sub_round z
    have hzb : |z| ≤ 2 ^ p := by
      rw [hxz, abs_mul, abs_of_pos hpos] at hx
      exact le_of_mul_le_mul_right hx hpos
    have hrb : |round z| ≤ 2 ^ p := by
      rw [abs_le] at hr hzb ⊢
      have h1 : (-(2 ^ p : ℤ) - 1 : ℤ) < round z := by
        have : ((-(2 ^ p : ℤ) - 1 : ℤ) : ℚ) < (round z : ℚ) := by push_cast; linarith [hr.1, hr.2]
        exact_mod_cast this
      have h2 : round z < 2 ^ p + 1 := by
        have : (round z : ℚ) < ((2 ^ p + 1 : ℤ) : ℚ) := by push_cast; linarith [hr.1, hr.2]
        exact_mod_cast this
      constructor <;> omega
    refine ⟨round z * 2 ^ e, ?_, ?_⟩
    · refine rep_of_mult hp he ⟨round z, rfl⟩ ?_
      rw [abs_mul, abs_of_pos hpos]
      refine mul_le_mul_of_nonneg_right ?_ hpos.le
      have : ((|round z| : ℤ) : ℚ) ≤ ((2 ^ p : ℤ) : ℚ) := by exact_mod_cast hrb
      push_cast at this
      exact this
    · intro y hy
      rcases le_or_gt (2 ^ p * 2 ^ (e - 1)) |y| with hc | hc
      · exact hmult y (mult_of_ge hy hc)
      · rcases hmin with rfl | hmin
        · obtain ⟨f, hf, hm, -⟩ := rep_exp hy
          exact hmult y (hm.le hf)
        · have hB : ∀ s : ℤ, Mult e (s * (2 ^ p * 2 ^ (e - 1))) := by
            intro s
            refine ⟨s * 2 ^ (p - 1), ?_⟩
            obtain ⟨q, rfl⟩ : ∃ q, p = q + 1 := ⟨p - 1, by omega⟩
            rw [zpow_sub_one₀ (by norm_num), Nat.add_sub_cancel, pow_succ]
            push_cast
            ring
          rcases le_total 0 x with h0 | h0
          · have := hmult _ (hB 1)
            rw [abs_of_nonneg h0] at hmin
            rw [Int.cast_one, one_mul, abs_of_pos (sub_pos.mpr hmin)] at this
            have h1 := (abs_lt.mp hc).2
            rw [abs_of_pos (by linarith : (0 : ℚ) < x - y)]
            linarith
          · have := hmult _ (hB (-1))
            rw [abs_of_nonpos h0] at hmin
            rw [Int.cast_neg, Int.cast_one, neg_one_mul, sub_neg_eq_add,
              abs_of_neg (by linarith : x + 2 ^ p * 2 ^ (e - 1) < 0)] at this
            have h1 := (abs_lt.mp hc).1
            rw [abs_of_neg (by linarith : x - y < 0)]
            linarith
  choose rnd h1 h2 using key
  exact ⟨rnd, h1, h2⟩

end Nsimd.Float
