import Verif.Model.FloatLane
import Verif.Model.Round
import Verif.Props.Fp16Order
import Verif.Props.Round
import Mathlib.Data.Finset.Max
import Mathlib.Data.Fintype.EquivFin

/-!
# Values of f32 and f64 patterns

The value of a pattern (specification) and its relation to the order of patterns used by the model.
-/

namespace Nsimd.Props.FloatLane
open Nsimd Nsimd.FloatLane
open Nsimd.Fp16 (mag mag_strictMono)

/-- Exponent field. Specification (IEEE-754). -/
def expo (t : FTy) (x : BitVec t.w) : Nat := x.toNat / 2 ^ t.m % 2 ^ t.e
/-- Mantissa field. Specification (IEEE-754). -/
def mant (t : FTy) (x : BitVec t.w) : Nat := x.toNat % 2 ^ t.m
/-- Exponent of the smallest positive number. Specification (IEEE-754). -/
def emin : FTy → ℤ
  | .f32 => -149
  | .f64 => -1074

/-- Value of a finite pattern. Specification (IEEE-754). -/
def value (t : FTy) (x : BitVec t.w) : ℚ :=
  if expo t x = 0 then (if x.msb then -1 else 1) * mant t x * (2 : ℚ) ^ emin t
  else (if x.msb then -1 else 1) * (2 ^ t.m + mant t x) * (2 : ℚ) ^ (expo t x + emin t - 1)

/-- The datum of a pattern: NaN, an infinity or a number. Specification (IEEE-754). -/
def fl (t : FTy) (x : BitVec t.w) : Round.Fl :=
  if expo t x = 2 ^ t.e - 1 then (if mant t x = 0 then .inf x.msb else .nan) else .fin (value t x)

theorem body_eq (t : FTy) (x : BitVec t.w) : body t x = expo t x * 2 ^ t.m + mant t x := by
  cases t
  · have := x.isLt
    simp only [body, expo, mant, FTy.w, FTy.m, FTy.e, ITy.w] at *
    omega
  · have := x.isLt
    simp only [body, expo, mant, FTy.w, FTy.m, FTy.e, ITy.w] at *
    omega

theorem mant_lt (t : FTy) (x : BitVec t.w) : mant t x < 2 ^ t.m := Nat.mod_lt _ (Nat.two_pow_pos _)
theorem expo_lt (t : FTy) (x : BitVec t.w) : expo t x < 2 ^ t.e := Nat.mod_lt _ (Nat.two_pow_pos _)

theorem value_mag (t : FTy) (x : BitVec t.w) :
    value t x = (if x.msb = true then -(mag t.m (body t x) : ℚ) else mag t.m (body t x)) * (2 : ℚ) ^ emin t := by
  have hm := mant_lt t x
  rw [value, body_eq, mag]
  by_cases he : expo t x = 0
  · simp only [he, if_true, zero_mul, zero_add, if_pos hm]
    split <;> ring
  · have h1 : ¬ expo t x * 2 ^ t.m + mant t x < 2 ^ t.m := by
      have := Nat.mul_le_mul_right (2 ^ t.m) (Nat.one_le_iff_ne_zero.mpr he)
      omega
    have h2 : (expo t x * 2 ^ t.m + mant t x) % 2 ^ t.m = mant t x := by
      rw [Nat.mul_add_mod', Nat.mod_eq_of_lt hm]
    have h3 : (expo t x * 2 ^ t.m + mant t x) / 2 ^ t.m = expo t x := by
      rw [Nat.mul_comm, Nat.mul_add_div (Nat.two_pow_pos _), Nat.div_eq_of_lt hm, Nat.add_zero]
    have h4 : (2 : ℚ) ^ (expo t x + emin t - 1) = (2 : ℚ) ^ (expo t x - 1) * (2 : ℚ) ^ emin t := by
      rw [← zpow_natCast, ← zpow_add₀ (by norm_num)]
      congr 1; omega
    rw [if_neg he, if_neg h1, h2, h3, h4]
    push_cast
    split <;> ring

theorem key_le_iff (t : FTy) (a b : BitVec t.w) : key t a ≤ key t b ↔ value t a ≤ value t b := by
  rw [value_mag, value_mag, mul_le_mul_iff_left₀ (zpow_pos (by norm_num) _), key, key,
    Props.Fp16.signed_le (mag_strictMono t.m) (by simp [mag])]

theorem key_lt_iff (t : FTy) (a b : BitVec t.w) : key t a < key t b ↔ value t a < value t b := by
  rw [← not_le, ← not_le, key_le_iff]

theorem key_eq_iff (t : FTy) (a b : BitVec t.w) : key t a = key t b ↔ value t a = value t b := by
  rw [le_antisymm_iff, le_antisymm_iff, key_le_iff, key_le_iff]

theorem isNaN_iff (t : FTy) (x : BitVec t.w) :
    isNaN t x = true ↔ expo t x = 2 ^ t.e - 1 ∧ mant t x ≠ 0 := by
  have hm := mant_lt t x
  have he := expo_lt t x
  rw [isNaN, decide_eq_true_eq, body_eq]
  cases t <;> simp only [FTy.m, FTy.e] at * <;> omega

/-- A pattern is a NaN, an infinity or a number; with what the model sees of it. -/
theorem fl_cases (t : FTy) (x : BitVec t.w) :
    (isNaN t x = true ∧ fl t x = .nan) ∨
    (isNaN t x = false ∧ fl t x = .inf x.msb ∧ body t x = (2 ^ t.e - 1) * 2 ^ t.m) ∨
    (isNaN t x = false ∧ fl t x = .fin (value t x) ∧ body t x < (2 ^ t.e - 1) * 2 ^ t.m) := by
  have hm := mant_lt t x
  have he := expo_lt t x
  have hb := body_eq t x
  by_cases h : expo t x = 2 ^ t.e - 1
  · by_cases h0 : mant t x = 0
    · refine .inr (.inl ⟨?_, by simp [fl, h, h0], by rw [hb, h, h0, Nat.add_zero]⟩)
      rw [Bool.eq_false_iff, Ne, isNaN_iff]; tauto
    · exact .inl ⟨(isNaN_iff t x).mpr ⟨h, h0⟩, by simp [fl, h, h0]⟩
  · refine .inr (.inr ⟨?_, by simp [fl, h], ?_⟩)
    · rw [Bool.eq_false_iff, Ne, isNaN_iff]; tauto
    · cases t <;> simp only [FTy.m, FTy.e] at * <;> omega

theorem expo_body (t : FTy) (x : BitVec t.w) : expo t x = body t x / 2 ^ t.m := by
  rw [body_eq, Nat.mul_comm, Nat.mul_add_div (Nat.two_pow_pos _), Nat.div_eq_of_lt (mant_lt t x), Nat.add_zero]

theorem mant_body (t : FTy) (x : BitVec t.w) : mant t x = body t x % 2 ^ t.m := by
  rw [body_eq, Nat.mul_add_mod', Nat.mod_eq_of_lt (mant_lt t x)]

theorem isNaN_body {t : FTy} {x y : BitVec t.w} (h : body t x = body t y) : isNaN t x = isNaN t y := by
  rw [isNaN, isNaN, h]

theorem msb_fneg (t : FTy) (a : BitVec t.w) : (fneg t a).msb = !a.msb := by
  cases t <;> simp [fneg, BitVec.msb_xor, BitVec.msb_twoPow]

theorem body_fneg (t : FTy) (a : BitVec t.w) : body t (fneg t a) = body t a := by
  have h : 2 ^ (t.w - 1) % 2 ^ t.w = 2 ^ (t.w - 1) := by cases t <;> decide
  rw [body, body, fneg, BitVec.toNat_xor, BitVec.toNat_twoPow, h, Nat.xor_mod_two_pow, Nat.mod_self, Nat.xor_zero]

/-- A pattern is its sign and its other fields. -/
theorem ext_body {t : FTy} {x y : BitVec t.w} (hm : x.msb = y.msb) (hb : body t x = body t y) : x = y := by
  apply BitVec.eq_of_toNat_eq
  rw [BitVec.msb_eq_decide, BitVec.msb_eq_decide, decide_eq_decide] at hm
  have hx := x.isLt
  have hy := y.isLt
  cases t <;> simp only [body, FTy.w, ITy.w] at * <;> omega

theorem key_zero (t : FTy) : key t 0#t.w = 0 := by cases t <;> decide
theorem isNaN_zero (t : FTy) : isNaN t 0#t.w = false := by cases t <;> decide

/-! ### The patterns represent the numbers of the format -/

theorem exists_mag (M : Nat) : ∀ (j μ : Nat), μ < 2 ^ (M + 1) → ∃ k, mag M k = μ * 2 ^ j := by
  intro j
  induction j with
  | zero =>
    intro μ h
    refine ⟨μ, ?_⟩
    rw [mag]
    by_cases h1 : μ < 2 ^ M
    · rw [if_pos h1]; simp
    · have h2 : μ / 2 ^ M = 1 := by
        rw [Nat.div_eq_iff (Nat.two_pow_pos M)]; rw [pow_succ] at h; omega
      have h3 : μ % 2 ^ M = μ - 2 ^ M := by
        have := Nat.div_add_mod μ (2 ^ M); rw [h2] at this; omega
      rw [if_neg h1, h2, h3]; simp; omega
  | succ j ih =>
    intro μ h
    by_cases h1 : μ < 2 ^ M
    · obtain ⟨k, hk⟩ := ih (2 * μ) (by rw [pow_succ]; omega)
      exact ⟨k, by rw [hk, pow_succ]; ring⟩
    · obtain ⟨c, rfl⟩ : ∃ c, μ = 2 ^ M + c := ⟨μ - 2 ^ M, by omega⟩
      have hc : c < 2 ^ M := by rw [pow_succ] at h; omega
      have e : (j + 2) * 2 ^ M + c = 2 ^ M * (j + 2) + c := by ring
      refine ⟨(j + 2) * 2 ^ M + c, ?_⟩
      have h4 : ¬ (j + 2) * 2 ^ M + c < 2 ^ M := by
        have : (j + 2) * 2 ^ M = j * 2 ^ M + 2 * 2 ^ M := by ring
        have := Nat.two_pow_pos M
        omega
      rw [mag, if_neg h4, e, Nat.mul_add_mod, Nat.mod_eq_of_lt hc, Nat.mul_add_div (Nat.two_pow_pos _),
        Nat.div_eq_of_lt hc]
      rfl

theorem exists_pattern (t : FTy) (s : Bool) (k : Nat) (hk : k < 2 ^ (t.w - 1)) :
    ∃ x : BitVec t.w, x.msb = s ∧ body t x = k := by
  refine ⟨BitVec.ofNat t.w (k + if s then 2 ^ (t.w - 1) else 0), ?_, ?_⟩
  · rw [BitVec.msb_eq_decide, BitVec.toNat_ofNat]
    cases t <;> cases s <;> simp only [FTy.w, ITy.w] at * <;> simp <;> omega
  · rw [body, BitVec.toNat_ofNat]
    cases t <;> cases s <;> simp only [FTy.w, ITy.w] at * <;> simp <;> omega

/-- Largest finite value. Specification (IEEE-754). -/
def maxv (t : FTy) : ℚ := mag t.m ((2 ^ t.e - 1) * 2 ^ t.m - 1) * (2 : ℚ) ^ emin t

theorem rep_value (t : FTy) (x : BitVec t.w) : Round.Rep (t.m + 1) (emin t) (value t x) := by
  have hm := mant_lt t x
  have hs : |(if x.msb then -1 else 1 : ℤ)| = 1 := by split <;> rfl
  by_cases he : expo t x = 0
  · refine ⟨(if x.msb then -1 else 1) * mant t x, emin t, ?_, le_rfl, ?_⟩
    · rw [abs_mul, hs, one_mul, Nat.abs_cast, pow_succ]
      have : (mant t x : ℤ) < 2 ^ t.m := by exact_mod_cast hm
      linarith [mant t x |>.cast_nonneg (α := ℤ)]
    · rw [value, if_pos he]; push_cast; split <;> rfl
  · refine ⟨(if x.msb then -1 else 1) * (2 ^ t.m + mant t x), expo t x + emin t - 1, ?_, by omega, ?_⟩
    · rw [abs_mul, hs, one_mul, abs_of_nonneg (by positivity), pow_succ]
      have : (mant t x : ℤ) < 2 ^ t.m := by exact_mod_cast hm
      linarith
    · rw [value, if_neg he]; push_cast; split <;> rfl

theorem exists_value (t : FTy) {q : ℚ} (hq : Round.Rep (t.m + 1) (emin t) q) (hb : |q| ≤ maxv t) :
    ∃ x : BitVec t.w, fl t x = .fin q ∧ value t x = q := by
  obtain ⟨μ, e, hμ, he, rfl⟩ := hq
  obtain ⟨k, hk⟩ := exists_mag t.m (e - emin t).toNat μ.natAbs (by zify; exact hμ)
  have hp : (0 : ℚ) < 2 ^ emin t := zpow_pos (by norm_num) _
  have habs : |(μ : ℚ) * 2 ^ e| = (mag t.m k : ℚ) * 2 ^ emin t := by
    have h2 : (2 : ℚ) ^ e = 2 ^ (e - emin t).toNat * 2 ^ emin t := by
      rw [← zpow_natCast, ← zpow_add₀ (by norm_num)]; congr 1; omega
    rw [abs_mul, abs_of_pos (zpow_pos (by norm_num : (0 : ℚ) < 2) e), hk, h2]
    push_cast
    rw [Nat.cast_natAbs]; push_cast; ring
  have hlt : k < (2 ^ t.e - 1) * 2 ^ t.m := by
    rw [habs, maxv, mul_le_mul_iff_left₀ hp, Nat.cast_le, (mag_strictMono t.m).le_iff_le] at hb
    have hpos : 0 < (2 ^ t.e - 1) * 2 ^ t.m := by cases t <;> decide
    omega
  obtain ⟨x, hx, hxb⟩ := exists_pattern t (decide (μ < 0)) k (by
    cases t <;> simp only [FTy.w, FTy.m, FTy.e, ITy.w] at * <;> omega)
  have hv : value t x = μ * 2 ^ e := by
    have hz : (0 : ℚ) < 2 ^ e := zpow_pos (by norm_num) e
    rw [value_mag, hx, hxb]
    by_cases h : μ < 0
    · have : (μ : ℚ) * 2 ^ e < 0 := mul_neg_of_neg_of_pos (by exact_mod_cast h) hz
      rw [abs_of_neg this] at habs
      simp only [h, decide_true, if_true]; linarith
    · have : (0 : ℚ) ≤ μ * 2 ^ e := mul_nonneg (by exact_mod_cast not_lt.mp h) hz.le
      rw [abs_of_nonneg this] at habs
      simp only [h, decide_false, Bool.false_eq_true, if_false]; linarith
  refine ⟨x, ?_, hv⟩
  rcases fl_cases t x with ⟨n, -⟩ | ⟨-, -, h⟩ | ⟨-, h, -⟩
  · rw [isNaN, decide_eq_true_eq] at n; omega
  · omega
  · rw [h, hv]

theorem value_le_max (t : FTy) (x : BitVec t.w) {q : ℚ} (h : fl t x = .fin q) : |q| ≤ maxv t := by
  rcases fl_cases t x with ⟨-, h'⟩ | ⟨-, h', -⟩ | ⟨-, h', hb⟩ <;> rw [h] at h'
  · cases h'
  · cases h'
  · injection h' with h'
    rw [h', value_mag, abs_mul, abs_of_pos (zpow_pos (by norm_num : (0 : ℚ) < 2) _), maxv]
    refine mul_le_mul_of_nonneg_right ?_ (zpow_pos (by norm_num) _).le
    have : (mag t.m (body t x) : ℚ) ≤ mag t.m ((2 ^ t.e - 1) * 2 ^ t.m - 1) := by
      rw [Nat.cast_le, (mag_strictMono t.m).le_iff_le]; omega
    split
    · rw [abs_neg, Nat.abs_cast]; exact this
    · rw [Nat.abs_cast]; exact this

end Nsimd.Props.FloatLane
