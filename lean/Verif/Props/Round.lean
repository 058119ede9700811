import Verif.Model.Round
import Mathlib.Tactic.Linarith
import Mathlib.Tactic.NormNum
import Mathlib.Tactic.FieldSimp
import Mathlib.Tactic.Ring
import Mathlib.Algebra.Order.Round
import Mathlib.Algebra.Order.Field.Power

/-!
# C43: round_to_even and trunc
-/

namespace Nsimd.Props.Round

open Nsimd.Round

/-- Numbers of a binary format with `p` significant bits and smallest exponent `emin`: `f32` is
`Rep 24 (-149)`, `f64` is `Rep 53 (-1074)`, `f16` is `Rep 11 (-24)` (overflow aside). Specification. -/
def Rep (p : Nat) (emin : ℤ) (q : ℚ) : Prop :=
  ∃ (m e : ℤ), |m| < 2 ^ p ∧ emin ≤ e ∧ q = m * 2 ^ e

/-- A rounding function of the format: it is monotone and keeps the numbers of the format. All the
rounding modes of IEEE-754 qualify. Specification. -/
structure Rounding (p : Nat) (emin : ℤ) (rnd : ℚ → ℚ) : Prop where
  mono : Monotone rnd
  fix : ∀ q, Rep p emin q → rnd q = q

/-- `r` is the integer nearest to `q`, and the even one if there are two. Specification. -/
def NearestEven (q : ℚ) (r : ℤ) : Prop := |q - r| ≤ 1 / 2 ∧ (|q - r| = 1 / 2 → Even r)

/-- The specification determines the result. -/
theorem nearestEven_unique {q : ℚ} {r s : ℤ} (hr : NearestEven q r) (hs : NearestEven q s) : r = s := by
  obtain ⟨h1, h2⟩ := hr
  obtain ⟨h3, h4⟩ := hs
  by_contra hne
  have hd : (1 : ℚ) ≤ |(r : ℚ) - s| := by
    have : (1 : ℤ) ≤ |r - s| := Int.one_le_abs (sub_ne_zero.mpr hne)
    have h := (Int.cast_le (R := ℚ)).mpr this
    simpa using h
  have ht : |(r : ℚ) - s| ≤ |q - r| + |q - s| := by
    have : (r : ℚ) - s = -(q - r) + (q - s) := by ring
    rw [this]
    refine (abs_add_le _ _).trans ?_
    rw [abs_neg]
  have e1 : |q - r| = 1 / 2 := by linarith
  have e2 : |q - s| = 1 / 2 := by linarith
  have e3 : |(r : ℚ) - s| = 1 := by linarith
  have e4 : |r - s| = 1 := by
    have : ((|r - s| : ℤ) : ℚ) = 1 := by push_cast; exact e3
    exact_mod_cast this
  have ho := (h2 e1).sub (h4 e2)
  have : Even |r - s| := by
    rcases abs_choice (r - s) with h | h <;> rw [h]
    · exact ho
    · exact ho.neg
  rw [e4] at this
  exact absurd this (by decide)

theorem rep_int {p : Nat} {emin : ℤ} (he : emin ≤ 0) {r : ℤ} (h : |r| < 2 ^ p) : Rep p emin r :=
  ⟨r, 0, h, he, by simp⟩

theorem rep_half_int {p : Nat} {emin : ℤ} (he : emin ≤ -1) {r : ℤ} (h : |r| < 2 ^ p) :
    Rep p emin ((r : ℚ) * (1 / 2)) :=
  ⟨r, -1, h, he, by rw [zpow_neg_one]; norm_num⟩

/-- A number of the format is an integer, or less than `2^(p-1)` with a negative exponent. -/
theorem rep_cases {p : Nat} {emin : ℤ} {q : ℚ} (h : Rep p emin q) :
    (∃ (m : ℤ) (k : ℕ), |m| < 2 ^ p ∧ q = m * 2 ^ k) ∨
    (∃ (m : ℤ) (k : ℕ), |m| < 2 ^ p ∧ 0 < k ∧ emin ≤ -(k : ℤ) ∧ q = m / 2 ^ k) := by
  obtain ⟨m, e, hm, he, rfl⟩ := h
  rcases le_or_gt 0 e with h0 | h0
  · left
    refine ⟨m, e.toNat, hm, ?_⟩
    rw [← zpow_natCast, Int.toNat_of_nonneg h0]
  · right
    refine ⟨m, (-e).toNat, hm, by omega, by omega, ?_⟩
    rw [← zpow_natCast, Int.toNat_of_nonneg (by omega), zpow_neg, div_eq_mul_inv, inv_inv]

/-- `floor` and `ceil` keep the format. -/
theorem rep_floor {p : Nat} {emin : ℤ} (hp : 2 ≤ p) (he : emin ≤ 0) {q : ℚ} (h : Rep p emin q) :
    Rep p emin (⌊q⌋ : ℤ) := by
  rcases rep_cases h with ⟨m, k, hm, rfl⟩ | ⟨m, k, hm, hk, -, rfl⟩
  · have : ((m : ℚ) * 2 ^ k) = ((m * 2 ^ k : ℤ) : ℚ) := by push_cast; rfl
    rw [this, Int.floor_intCast, ← this]
    refine ⟨m, k, hm, by omega, ?_⟩
    rw [zpow_natCast]
  · apply rep_int he
    have hq : |(m : ℚ) / 2 ^ k| ≤ |(m : ℚ)| / 2 := by
      rw [abs_div, abs_of_pos (by positivity : (0 : ℚ) < 2 ^ k)]
      apply div_le_div_of_nonneg_left (abs_nonneg _) (by norm_num)
      calc (2 : ℚ) = 2 ^ 1 := by norm_num
        _ ≤ 2 ^ k := pow_le_pow_right₀ (by norm_num) hk
    have hm' : |(m : ℚ)| < 2 ^ p := by
      have := (Int.cast_lt (R := ℚ)).mpr hm
      push_cast at this
      exact this
    have h4 : (4 : ℚ) ≤ 2 ^ p := by
      calc (4 : ℚ) = 2 ^ 2 := by norm_num
        _ ≤ 2 ^ p := pow_le_pow_right₀ (by norm_num) hp
    have h1 := Int.floor_le ((m : ℚ) / 2 ^ k)
    have h2 := Int.lt_floor_add_one ((m : ℚ) / 2 ^ k)
    have ha := abs_le.mp (hq.trans (le_of_lt (by linarith : |(m : ℚ)| / 2 < 2 ^ p / 2)))
    have hr : |((⌊(m : ℚ) / 2 ^ k⌋ : ℤ) : ℚ)| < 2 ^ p := by
      rw [abs_lt]
      constructor <;> linarith [ha.1, ha.2]
    have : ((|⌊(m : ℚ) / 2 ^ k⌋| : ℤ) : ℚ) < ((2 ^ p : ℤ) : ℚ) := by push_cast; exact hr
    exact_mod_cast this

theorem rep_neg {p : Nat} {emin : ℤ} {q : ℚ} (h : Rep p emin q) : Rep p emin (-q) := by
  obtain ⟨m, e, hm, he, rfl⟩ := h
  exact ⟨-m, e, by rwa [abs_neg], he, by push_cast; ring⟩

theorem rep_ceil {p : Nat} {emin : ℤ} (hp : 2 ≤ p) (he : emin ≤ 0) {q : ℚ} (h : Rep p emin q) :
    Rep p emin (⌈q⌉ : ℤ) := by
  have := rep_neg (rep_floor hp he (rep_neg h))
  rw [Int.floor_neg] at this
  push_cast at this
  rwa [neg_neg] at this

/-- Half of an integral number of the format is in the format. -/
theorem rep_half {p : Nat} {emin : ℤ} (he : emin ≤ -1) {r : ℤ} (h : Rep p emin r) :
    Rep p emin ((r : ℚ) * (1 / 2)) := by
  rcases rep_cases h with ⟨m, k, hm, e⟩ | ⟨m, k, hm, hk, -, e⟩
  · rw [e]
    refine ⟨m, k - 1, hm, by omega, ?_⟩
    rw [zpow_sub₀ (by norm_num), zpow_natCast, zpow_one]
    ring
  · apply rep_half_int he
    have h1 : (1 : ℚ) ≤ 2 ^ k := one_le_pow₀ (by norm_num)
    have hle : |(r : ℚ)| ≤ |(m : ℚ)| := by
      rw [e, abs_div, abs_of_pos (by positivity : (0 : ℚ) < 2 ^ k)]
      exact div_le_self (abs_nonneg _) h1
    have : ((|r| : ℤ) : ℚ) ≤ ((|m| : ℤ) : ℚ) := by push_cast; exact hle
    have : |r| ≤ |m| := by exact_mod_cast this
    omega

theorem rep_half1 {p : Nat} {emin : ℤ} (hp : 1 ≤ p) (he : emin ≤ -1) : Rep p emin (1 / 2 : ℚ) := by
  refine ⟨1, -1, ?_, he, by norm_num⟩
  rw [abs_one]
  exact_mod_cast Nat.one_lt_two_pow (by omega)

/-- The difference to the smaller side is exact: if `x - n < 1/2` for an integer `n`, `x - n` is a number
of the format. -/
theorem rep_sub {p : Nat} {emin : ℤ} {q : ℚ} (h : Rep p emin q) {n : ℤ} (hn : |q - n| < 1 / 2)
    (hz : |q - n| ≤ |q| ∨ n ≠ 0) : Rep p emin (q - n) := by
  rcases rep_cases h with ⟨m, k, hm, e⟩ | ⟨m, k, hm, hk, hke, e⟩
  · -- an integer at distance less than 1/2 of an integer
    have : q - n = 0 := by
      have hi : q - n = ((m * 2 ^ k - n : ℤ) : ℚ) := by rw [e]; push_cast; rfl
      rw [hi] at hn ⊢
      have h1 : |((m * 2 ^ k - n : ℤ) : ℚ)| < 1 := by linarith
      have h2 : |m * 2 ^ k - n| < 1 := by exact_mod_cast h1
      rw [Int.abs_lt_one_iff.mp h2]
      rfl
    rw [this]
    exact ⟨0, emin, by simp, le_refl _, by simp⟩
  · refine ⟨m - n * 2 ^ k, -(k : ℤ), ?_, hke, ?_⟩
    · -- |m - n 2^k| ≤ |m| or < 2^(k-1) ≤ |m|
      have hkpos : (0 : ℚ) < 2 ^ k := by positivity
      have hv : ((m - n * 2 ^ k : ℤ) : ℚ) = (q - n) * 2 ^ k := by
        rw [e]; push_cast; field_simp
      have hmq : (m : ℚ) = q * 2 ^ k := by rw [e]; field_simp
      have hle : |q - n| ≤ |q| := by
        rcases hz with h | h
        · exact h
        · have h1 : (1 : ℚ) ≤ |(n : ℚ)| := by
            have : (1 : ℤ) ≤ |n| := Int.one_le_abs h
            have h := (Int.cast_le (R := ℚ)).mpr this
            simpa using h
          have h2 : |(n : ℚ)| ≤ |q| + |q - n| := by
            have : (n : ℚ) = q + -(q - n) := by ring
            calc |(n : ℚ)| = |q + -(q - n)| := by rw [← this]
              _ ≤ |q| + |-(q - n)| := abs_add_le _ _
              _ = |q| + |q - n| := by rw [abs_neg]
          linarith
      have h3 : |((m - n * 2 ^ k : ℤ) : ℚ)| ≤ |(m : ℚ)| := by
        rw [hv, hmq, abs_mul, abs_mul]
        exact mul_le_mul_of_nonneg_right hle (abs_nonneg _)
      have h4 : |m - n * 2 ^ k| ≤ |m| := by exact_mod_cast h3
      omega
    · rw [e, zpow_neg, zpow_natCast]
      push_cast
      field_simp

/-- The difference to zero is the number itself. -/
theorem rep_sub' {p : Nat} {emin : ℤ} {q : ℚ} (h : Rep p emin q) {n : ℤ} (hn : |q - n| < 1 / 2) :
    Rep p emin (q - n) := by
  refine rep_sub h hn ?_
  by_cases h0 : n = 0
  · left; rw [h0]; simp
  · exact Or.inr h0

/-- C43, `round_to_even` on finite numbers, in every format, whatever the rounding of the differences
(some of which are not exact, contrary to the comments in the code): the nearest integer, ties to even,
which is a number of every format the argument belongs to. -/
theorem roundToEven_nearest {p : Nat} {emin : ℤ} (hp : 2 ≤ p) (he : emin ≤ -1) {rnd : ℚ → ℚ}
    (hr : Rounding p emin rnd) {q : ℚ} (hq : Rep p emin q) :
    ∃ r : ℤ, roundToEven rnd (.fin q) = .fin r ∧ NearestEven q r ∧
      ∀ p' emin', 2 ≤ p' → emin' ≤ 0 → Rep p' emin' q → Rep p' emin' r := by
  have hhalf : rnd (1 / 2) = 1 / 2 := hr.fix _ (rep_half1 (by omega) he)
  have hf1 := Int.floor_le q
  have hf2 := Int.lt_floor_add_one q
  have hfl : rnd ((⌊q⌋ : ℤ) * (1 / 2)) = (⌊q⌋ : ℤ) * (1 / 2) :=
    hr.fix _ (rep_half he (rep_floor hp (by omega) hq))
  have hEven : ((⌊q⌋ : ℤ) : ℚ) * (1 / 2) = ((⌊((⌊q⌋ : ℤ) : ℚ) * (1 / 2)⌋ : ℤ) : ℚ) ↔ Even ⌊q⌋ := by
    constructor
    · intro h
      refine ⟨⌊((⌊q⌋ : ℤ) : ℚ) * (1 / 2)⌋, ?_⟩
      have : ((⌊q⌋ : ℤ) : ℚ) = ((⌊((⌊q⌋ : ℤ) : ℚ) * (1 / 2)⌋ + ⌊((⌊q⌋ : ℤ) : ℚ) * (1 / 2)⌋ : ℤ) : ℚ) := by
        push_cast
        linarith
      exact_mod_cast this
    · rintro ⟨k, hk⟩
      have : ((⌊q⌋ : ℤ) : ℚ) * (1 / 2) = (k : ℚ) := by
        rw [hk]; push_cast; ring
      rw [this, Int.floor_intCast]
  have code : roundToEven rnd (.fin q) =
      if rnd (q - ⌊q⌋) < rnd (⌈q⌉ - q) then .fin (⌊q⌋ : ℤ)
      else if rnd (⌈q⌉ - q) < rnd (q - ⌊q⌋) then .fin (⌈q⌉ : ℤ)
      else if Even ⌊q⌋ then .fin (⌊q⌋ : ℤ) else .fin (⌈q⌉ : ℤ) := by
    unfold roundToEven
    simp only [Fl.floor, Fl.ceil, Fl.sub, Fl.lt, Fl.half, Fl.eq, hfl, decide_eq_true_eq, hEven]
  rw [code]
  have repF : ∀ p' emin', 2 ≤ p' → emin' ≤ 0 → Rep p' emin' q → Rep p' emin' (⌊q⌋ : ℤ) :=
    fun _ _ a b c => rep_floor a b c
  have repC : ∀ p' emin', 2 ≤ p' → emin' ≤ 0 → Rep p' emin' q → Rep p' emin' (⌈q⌉ : ℤ) :=
    fun _ _ a b c => rep_ceil a b c
  by_cases hint : q = (⌊q⌋ : ℤ)
  · have hc : ⌈q⌉ = ⌊q⌋ := by
      conv => lhs; rw [hint]
      exact Int.ceil_intCast _
    rw [hc]
    refine ⟨⌊q⌋, ?_, ⟨?_, ?_⟩, repF⟩
    · simp
    · rw [← hint, sub_self, abs_zero]; norm_num
    · rw [← hint, sub_self, abs_zero]; norm_num
  · have hlt : ((⌊q⌋ : ℤ) : ℚ) < q := lt_of_le_of_ne hf1 (Ne.symm hint)
    have hc : ⌈q⌉ = ⌊q⌋ + 1 := by
      rw [Int.ceil_eq_iff]
      push_cast
      constructor <;> linarith
    have hcq : ((⌈q⌉ : ℤ) : ℚ) = ⌊q⌋ + 1 := by rw [hc]; push_cast; rfl
    rcases lt_trichotomy (q - ⌊q⌋) (1 / 2) with hd | hd | hd
    · have habs : |q - ⌊q⌋| < 1 / 2 := by rw [abs_of_pos (by linarith)]; exact hd
      have e1 : rnd (q - ⌊q⌋) = q - ⌊q⌋ := hr.fix _ (rep_sub' hq habs)
      have e2 : 1 / 2 ≤ rnd (⌈q⌉ - q) := by
        rw [← hhalf]; exact hr.mono (by rw [hcq]; linarith)
      rw [if_pos (by rw [e1]; linarith)]
      exact ⟨_, rfl, ⟨le_of_lt habs, fun h => absurd h (ne_of_lt habs)⟩, repF⟩
    · have e1 : q - ⌊q⌋ = 1 / 2 := hd
      have e2 : (⌈q⌉ : ℚ) - q = 1 / 2 := by rw [hcq]; linarith
      rw [e1, e2, if_neg (lt_irrefl _), if_neg (lt_irrefl _)]
      by_cases hev : Even ⌊q⌋
      · rw [if_pos hev]
        refine ⟨_, rfl, ⟨?_, fun _ => hev⟩, repF⟩
        rw [e1]; norm_num [abs_of_pos]
      · rw [if_neg hev]
        refine ⟨_, rfl, ⟨?_, fun _ => ?_⟩, repC⟩
        · rw [show q - (⌈q⌉ : ℚ) = -(1 / 2) by linarith, abs_neg]; norm_num [abs_of_pos]
        · rw [hc]
          exact (Int.not_even_iff_odd.mp hev).add_one
    · have habs : |q - ((⌈q⌉ : ℤ) : ℚ)| < 1 / 2 := by
        rw [abs_of_neg (by rw [hcq]; linarith), hcq]; linarith
      have e1 : rnd (⌈q⌉ - q) = ⌈q⌉ - q := by
        apply hr.fix
        have := rep_neg (rep_sub' hq habs)
        rwa [neg_sub] at this
      have e2 : 1 / 2 ≤ rnd (q - ⌊q⌋) := by
        rw [← hhalf]; exact hr.mono (le_of_lt hd)
      have e3 : (⌈q⌉ : ℚ) - q < 1 / 2 := by rw [hcq]; linarith
      rw [if_neg (by rw [e1]; linarith), if_pos (by rw [e1]; linarith)]
      exact ⟨_, rfl, ⟨le_of_lt habs, fun h => absurd h (ne_of_lt habs)⟩, repC⟩

/-- Infinities and NaN are returned unchanged, whatever the rounding. -/
theorem roundToEven_special (rnd : ℚ → ℚ) :
    roundToEven rnd .nan = .nan ∧ ∀ s, roundToEven rnd (.inf s) = .inf s := by
  refine ⟨rfl, fun s => ?_⟩
  cases s <;> rfl

/-- Integers are returned unchanged. -/
theorem roundToEven_int {p : Nat} {emin : ℤ} (hp : 2 ≤ p) (he : emin ≤ -1) {rnd : ℚ → ℚ}
    (hr : Rounding p emin rnd) (k : ℤ) (hq : Rep p emin k) : roundToEven rnd (.fin k) = .fin k := by
  obtain ⟨r, h1, h2, -⟩ := roundToEven_nearest hp he hr hq
  have hk : NearestEven (k : ℚ) k := by
    constructor <;> simp
  rw [h1, nearestEven_unique h2 hk]

/-- `r` is `q` rounded toward zero. Specification. -/
def TowardZero (q : ℚ) (r : ℤ) : Prop := |(r : ℚ)| ≤ |q| ∧ |q| < |(r : ℚ)| + 1 ∧ 0 ≤ q * r

theorem towardZero_floor {q : ℚ} (h : 0 ≤ q) : TowardZero q ⌊q⌋ := by
  have h0 : (0 : ℚ) ≤ (⌊q⌋ : ℤ) := by exact_mod_cast Int.floor_nonneg.mpr h
  have h1 := Int.floor_le q
  have h2 := Int.lt_floor_add_one q
  unfold TowardZero
  rw [abs_of_nonneg h0, abs_of_nonneg h]
  exact ⟨h1, h2, mul_nonneg h h0⟩

theorem towardZero_ceil {q : ℚ} (h : q ≤ 0) : TowardZero q ⌈q⌉ := by
  have h0 : ((⌈q⌉ : ℤ) : ℚ) ≤ 0 := by exact_mod_cast Int.ceil_le.mpr (by simpa using h)
  have h1 := Int.le_ceil q
  have h2 := Int.ceil_lt_add_one q
  unfold TowardZero
  rw [abs_of_nonpos h0, abs_of_nonpos h]
  exact ⟨by linarith, by linarith, mul_nonneg_of_nonpos_of_nonpos h h0⟩

/-- C43, `trunc` of the scalar (and CPU) backend and of AVX-512: toward zero. -/
theorem trunc_towardZero (q : ℚ) :
    (∃ r : ℤ, trunc (.fin q) = .fin r ∧ TowardZero q r) ∧
    (∃ r : ℤ, truncAvx512 (.fin q) = .fin r ∧ TowardZero q r) := by
  constructor
  · unfold trunc
    by_cases h : 0 ≤ q
    · rw [if_pos (show (Fl.fin q).ge0 = true from decide_eq_true h)]; exact ⟨_, rfl, towardZero_floor h⟩
    · rw [if_neg (by simpa [Fl.ge0] using h)]; exact ⟨_, rfl, towardZero_ceil (by linarith)⟩
  · unfold truncAvx512
    by_cases h : 0 < q
    · rw [if_pos (show (Fl.fin 0).lt (Fl.fin q) = true from decide_eq_true h)]
      exact ⟨_, rfl, towardZero_floor (le_of_lt h)⟩
    · rw [if_neg (by simpa [Fl.lt] using h)]; exact ⟨_, rfl, towardZero_ceil (by linarith)⟩

/-- `trunc` of special values and of integers. -/
theorem trunc_special :
    trunc .nan = .nan ∧ truncAvx512 .nan = .nan ∧ (∀ s, trunc (.inf s) = .inf s) ∧
    (∀ s, truncAvx512 (.inf s) = .inf s) ∧
    ∀ k : ℤ, trunc (.fin k) = .fin k ∧ truncAvx512 (.fin k) = .fin k := by
  refine ⟨rfl, rfl, fun s => by cases s <;> rfl, fun s => by cases s <;> rfl, fun k => ?_⟩
  constructor
  · unfold trunc
    split <;> simp [Fl.floor, Fl.ceil]
  · unfold truncAvx512
    split <;> simp [Fl.floor, Fl.ceil]

/-- Example data: rounding up between the largest f32 below 1 and 1, exact elsewhere. -/
def exRnd (q : ℚ) : ℚ := if 1 - 1 / 2 ^ 24 < q ∧ q < 1 then 1 else q

/-- There is no f32 in that gap. -/
theorem gap (q : ℚ) (h : Rep 24 (-149) q) : ¬ (1 - 1 / 2 ^ 24 < q ∧ q < 1) := by
  rintro ⟨h1, h2⟩
  rcases rep_cases h with ⟨m, k, hm, rfl⟩ | ⟨m, k, hm, hk, -, rfl⟩
  · have e : ((m : ℚ) * 2 ^ k) = ((m * 2 ^ k : ℤ) : ℚ) := by push_cast; rfl
    rw [e] at h1 h2
    have a : m * 2 ^ k < 1 := by exact_mod_cast h2
    have b : (0 : ℚ) < ((m * 2 ^ k : ℤ) : ℚ) := lt_trans (by norm_num) h1
    have b : 0 < m * 2 ^ k := by exact_mod_cast b
    omega
  · have hkpos : (0 : ℚ) < 2 ^ k := by positivity
    have a : (m : ℚ) < 2 ^ k := by rwa [div_lt_one hkpos] at h2
    have b : 2 ^ k - 2 ^ k / 2 ^ 24 < (m : ℚ) := by
      have := (lt_div_iff₀ hkpos).mp h1
      have e : (1 - 1 / 2 ^ 24) * (2 : ℚ) ^ k = 2 ^ k - 2 ^ k / 2 ^ 24 := by ring
      rwa [e] at this
    have a' : m < 2 ^ k := by exact_mod_cast a
    rcases Nat.lt_or_ge k 25 with hk' | hk'
    · have : (2 : ℚ) ^ k / 2 ^ 24 ≤ 1 := by
        rw [div_le_one (by norm_num)]
        exact pow_le_pow_right₀ (by norm_num) (by omega)
      have c : (((2 ^ k - 1 : ℤ)) : ℚ) < (m : ℚ) := by push_cast; linarith
      have c' : (2 ^ k - 1 : ℤ) < m := by exact_mod_cast c
      omega
    · obtain ⟨j, rfl⟩ := Nat.exists_eq_add_of_le hk'
      have e : (2 : ℚ) ^ (25 + j) / 2 ^ 24 = 2 * 2 ^ j := by rw [pow_add]; ring
      have e' : (2 : ℚ) ^ (25 + j) = 2 ^ 25 * 2 ^ j := by rw [pow_add]
      rw [e, e'] at b
      have hj : (1 : ℚ) ≤ 2 ^ j := one_le_pow₀ (by norm_num)
      have hm' : |(m : ℚ)| < 2 ^ 24 := by
        have := (Int.cast_lt (R := ℚ)).mpr hm
        push_cast at this
        exact this
      have := (abs_lt.mp hm').2
      linarith

/-- Such a rounding of f32 qualifies, and it is not exact on the differences the code computes: on
`-2^-149` the first difference is rounded. -/
example : Rounding 24 (-149) exRnd := by
  constructor
  · intro a b h
    unfold exRnd
    split <;> split <;> rename_i h1 h2
    · exact le_refl _
    · by_contra hc
      exact h2 ⟨lt_of_lt_of_le h1.1 h, not_le.mp hc⟩
    · exact le_trans h (le_of_lt h2.2)
    · exact h
  · intro q h
    exact if_neg (gap q h)

example : Rep 24 (-149) (-1 / 2 ^ 149) := ⟨-1, -149, by norm_num, by norm_num, by
  rw [zpow_neg, show ((149 : ℤ)) = ((149 : ℕ) : ℤ) from rfl, zpow_natCast]; norm_num⟩
example : exRnd (-1 / 2 ^ 149 - (-1)) = 1 := by
  unfold exRnd
  rw [if_pos]
  norm_num
example : Rep 24 (-149) (5 / 2) := ⟨5, -1, by norm_num, by norm_num, by norm_num⟩
example : NearestEven (5 / 2) 2 := by
  constructor
  · norm_num [abs_of_pos]
  · intro _; decide

end Nsimd.Props.Round
