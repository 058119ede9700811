import Verif.Lemmas.FloatLane
import Mathlib.Data.Set.Finite.Lemmas

/-!
# C88: comparison, minimum, maximum, absolute value and negation of f32 and f64 scalars
-/

namespace Nsimd.Props.FloatLane
open Nsimd Nsimd.FloatLane

variable (t : FTy)

/-- C88: `<` on patterns is `<` on data: false if one side is a NaN, `-0` and `+0` equal, infinities at the ends. -/
theorem lt_fl (a b : BitVec t.w) : sLt a b = (fl t a).lt (fl t b) := by
  have hpos : 0 < (2 ^ t.e - 1) * 2 ^ t.m := by cases t <;> decide
  rw [sLt, flt]
  rcases fl_cases t a with ⟨na, ha⟩ | ⟨na, ha, ba⟩ | ⟨na, ha, ba⟩ <;>
  rcases fl_cases t b with ⟨nb, hb⟩ | ⟨nb, hb, bb⟩ | ⟨nb, hb, bb⟩ <;>
  rw [na, nb, ha, hb] <;>
  generalize (2 ^ t.e - 1) * 2 ^ t.m = I at * <;>
  cases hma : a.msb <;> cases hmb : b.msb <;>
  first
  | rfl
  | exact decide_eq_decide.mpr (key_lt_iff t a b)
  | (simp only [Round.Fl.lt, Bool.not_false, Bool.true_and, decide_eq_true_eq, decide_eq_false_iff_not, key,
      hma, hmb, if_true, Bool.false_eq_true, if_false]
     omega)

/-- C88: `==` on patterns is `==` on data. -/
theorem eq_fl (a b : BitVec t.w) : sEq a b = (fl t a).eq (fl t b) := by
  have hpos : 0 < (2 ^ t.e - 1) * 2 ^ t.m := by cases t <;> decide
  rw [sEq, feq]
  rcases fl_cases t a with ⟨na, ha⟩ | ⟨na, ha, ba⟩ | ⟨na, ha, ba⟩ <;>
  rcases fl_cases t b with ⟨nb, hb⟩ | ⟨nb, hb, bb⟩ | ⟨nb, hb, bb⟩ <;>
  rw [na, nb, ha, hb] <;>
  generalize (2 ^ t.e - 1) * 2 ^ t.m = I at * <;>
  cases hma : a.msb <;> cases hmb : b.msb <;>
  first
  | rfl
  | exact decide_eq_decide.mpr (key_eq_iff t a b)
  | (simp only [Round.Fl.eq, Bool.not_false, Bool.true_and, decide_eq_true_eq, decide_eq_false_iff_not, key,
      hma, hmb, if_true, Bool.false_eq_true, if_false, BEq.rfl,
      show (false == true) = false from rfl, show (true == false) = false from rfl]
     omega)

theorem fle_eq (a b : BitVec t.w) : fle t a b = (flt t a b || feq t a b) := by
  simp only [fle, flt, feq]
  cases isNaN t a <;> cases isNaN t b <;>
    simp only [Bool.not_true, Bool.not_false, Bool.true_and, Bool.false_and, Bool.or_false]
  rw [← Bool.decide_or, decide_eq_decide]; omega

/-- C88: the other comparisons: `<=` is less or equal, `>`, `>=` exchange the operands, `!=` is the negation of
`==`, so true on a NaN. -/
theorem cmp_fl (a b : BitVec t.w) :
    sLe a b = ((fl t a).lt (fl t b) || (fl t a).eq (fl t b)) ∧
    sGt a b = (fl t b).lt (fl t a) ∧
    sGe a b = ((fl t b).lt (fl t a) || (fl t b).eq (fl t a)) ∧
    sNe a b = !(fl t a).eq (fl t b) := by
  refine ⟨?_, lt_fl t b a, ?_, ?_⟩
  · rw [← lt_fl, ← eq_fl]; exact fle_eq t a b
  · rw [← lt_fl, ← eq_fl]; exact fle_eq t b a
  · rw [← eq_fl]; rfl

-- `-0 < +0` is false and `-0 == +0`; `-inf < -1`; a NaN differs from itself
example : fl .f32 0x80000000#32 = fl .f32 0#32 ∧ sLt (t := .f32) 0x80000000#32 0#32 = false ∧
    sEq (t := .f32) 0x80000000#32 0#32 = true := by
  refine ⟨?_, by decide, by decide⟩
  rw [fl, fl, if_neg (by decide), if_neg (by decide),
    (key_eq_iff .f32 0x80000000#32 0#32).mp (by decide)]
example : sLt (t := .f64) 0xfff0000000000000#64 0xbff0000000000000#64 = true ∧
    sNe (t := .f64) 0x7ff8000000000000#64 0x7ff8000000000000#64 = true := by decide

/-! ### Negation and absolute value -/

/-- Opposite of a datum. Specification. -/
def opp : Round.Fl → Round.Fl
  | .nan => .nan
  | .inf s => .inf (!s)
  | .fin q => .fin (-q)

/-- Absolute value of a datum. Specification. -/
def mod : Round.Fl → Round.Fl
  | .nan => .nan
  | .inf _ => .inf false
  | .fin q => .fin |q|

/-- C88: `neg` gives the opposite, and only the sign bit changes, also on zeros and NaN. -/
theorem neg_fl (a : BitVec t.w) :
    fl t (sNeg a) = opp (fl t a) ∧ (sNeg a).msb = !a.msb ∧ ∀ i < t.w - 1, (sNeg a).getLsbD i = a.getLsbD i := by
  refine ⟨?_, msb_fneg t a, ?_⟩
  · rw [sNeg, fl, fl, expo_body, mant_body, body_fneg, ← expo_body, ← mant_body, msb_fneg]
    split
    · split <;> rfl
    · rw [opp, value_mag, value_mag, msb_fneg, body_fneg]
      cases a.msb <;> simp
  · intro i hi
    rw [sNeg, fneg, BitVec.getLsbD_xor, BitVec.getLsbD_twoPow]
    have : ¬ t.w - 1 = i := by omega
    simp [this]

/-- C88: the value of `abs` is the absolute value. -/
theorem abs_fl (a : BitVec t.w) : fl t (sAbs a) = mod (fl t a) := by
  have hn := (neg_fl t a).1
  rw [sAbs]
  rcases fl_cases t a with ⟨na, ha⟩ | ⟨na, ha, ba⟩ | ⟨na, ha, ba⟩
  · have : fle t 0 a = false := by simp [fle, na]
    rw [this]; simp only [Bool.false_eq_true, if_false]
    rw [sNeg] at hn
    rw [hn, ha]; rfl
  all_goals
    have h0 : fle t 0#t.w a = decide (0 ≤ key t a) := by simp [fle, na, isNaN_zero, key_zero]
    have hk : 0 ≤ key t a ↔ 0 ≤ value t a := by
      rw [← key_zero t, key_le_iff, show value t 0#t.w = 0 by rw [value_mag]; cases t <;> simp [body, Fp16.mag]]
    rw [show (0 : BitVec t.w) = 0#t.w from rfl, h0]
    rw [sNeg] at hn
    by_cases h : 0 ≤ key t a
  · have : a.msb = false := by
      by_contra hc
      have hpos : 0 < (2 ^ t.e - 1) * 2 ^ t.m := by cases t <;> decide
      simp only [key, Bool.not_eq_false] at h hc
      rw [if_pos hc] at h; omega
    simp [h, ha, mod, this]
  · have : a.msb = true := by
      by_contra hc
      rw [key, if_neg hc] at h; omega
    simp [h, hn, ha, mod, opp, this]
  · simp [h, ha, mod, abs_of_nonneg (hk.mp h)]
  · simp [h, hn, ha, mod, opp, abs_of_neg (not_le.mp (fun hc => h (hk.mpr hc)))]

/-- A pattern with the sign bit cleared has the absolute value. -/
theorem fl_clear {r v : BitVec t.w} (hm : r.msb = false) (hb : body t r = body t v) : fl t r = mod (fl t v) := by
  rw [fl, fl, expo_body, mant_body, hb, ← expo_body, ← mant_body, hm]
  split
  · split <;> rfl
  · rw [mod, value_mag, value_mag, hm, hb]
    have h0 : (0 : ℚ) ≤ (Fp16.mag t.m (body t v) : ℚ) * 2 ^ emin t :=
      mul_nonneg (Nat.cast_nonneg _) (zpow_pos (by norm_num) _).le
    cases v.msb
    · simp only [Bool.false_eq_true, if_false]; rw [abs_of_nonneg h0]
    · simp only [Bool.false_eq_true, if_false, if_true]; rw [neg_mul, abs_neg, abs_of_nonneg h0]

/-- C88: the sign bit that `abs` leaves is set exactly for `-0`, which it returns unchanged, and for a NaN whose
sign was clear. -/
theorem abs_sign (a : BitVec t.w) :
    (sAbs a).msb = true ↔ a = BitVec.twoPow t.w (t.w - 1) ∨ (isNaN t a = true ∧ a.msb = false) := by
  have hz : (BitVec.twoPow t.w (t.w - 1)).msb = true ∧ body t (BitVec.twoPow t.w (t.w - 1)) = 0 ∧
    isNaN t (BitVec.twoPow t.w (t.w - 1)) = false := by cases t <;> decide
  have h0 : fle t 0 a = (!isNaN t a && decide (0 ≤ key t a)) := by
    rw [show (0 : BitVec t.w) = 0#t.w from rfl, fle, isNaN_zero, key_zero]; rfl
  rw [sAbs, h0]
  cases hn : isNaN t a
  · by_cases hk : 0 ≤ key t a
    · simp only [hk, Bool.not_false, decide_true, Bool.and_self, if_true, Bool.false_eq_true, false_and, or_false]
      constructor
      · intro hm
        rw [key, if_pos hm] at hk
        exact ext_body (hm.trans hz.1.symm) (by omega)
      · rintro rfl; exact hz.1
    · have hm : a.msb = true := by
        by_contra hc
        rw [key, if_neg hc] at hk; omega
      simp only [hk, Bool.not_false, decide_false, Bool.and_false, Bool.false_eq_true, if_false, msb_fneg, hm,
        Bool.not_true, false_and, or_false, false_iff]
      rintro rfl
      rw [key, if_pos hz.1, hz.2.1] at hk
      exact hk (by simp)
  · simp only [Bool.not_true, Bool.false_and, Bool.false_eq_true, if_false, msb_fneg, Bool.not_eq_true', true_and]
    constructor
    · exact Or.inr
    · rintro (rfl | h)
      · rw [hz.2.2] at hn; cases hn
      · exact h

example : sAbs (t := .f32) 0x80000000#32 = 0x80000000#32 ∧ sAbs (t := .f32) 0x7fc00000#32 = 0xffc00000#32 ∧
    sAbs (t := .f32) 0xbf800000#32 = 0x3f800000#32 := by decide

/-! ### Minimum and maximum -/

/-- C88: `min` returns one of its operands; without NaN no operand is less than it; with a NaN, or with operands
that compare equal (such as zeros of different signs), it is the second operand. -/
theorem min_fl (a b : BitVec t.w) :
    (sMin a b = a ∨ sMin a b = b) ∧
    (fl t a ≠ .nan → fl t b ≠ .nan → (fl t a).lt (fl t (sMin a b)) = false ∧ (fl t b).lt (fl t (sMin a b)) = false) ∧
    (fl t a = .nan ∨ fl t b = .nan ∨ (fl t a).eq (fl t b) = true → sMin a b = b) := by
  rw [← lt_fl, ← lt_fl, ← eq_fl, sMin]
  rcases fl_cases t a with ⟨na, ha⟩ | ⟨na, ha, -⟩ | ⟨na, ha, -⟩ <;>
  rcases fl_cases t b with ⟨nb, hb⟩ | ⟨nb, hb, -⟩ | ⟨nb, hb, -⟩ <;>
  rw [ha, hb] <;> simp only [sLt, sEq, flt, feq, na, nb] <;>
  by_cases h : key t a < key t b <;> simp [h, na, nb] <;> omega

/-- C88: `max`, likewise. -/
theorem max_fl (a b : BitVec t.w) :
    (sMax a b = a ∨ sMax a b = b) ∧
    (fl t a ≠ .nan → fl t b ≠ .nan → (fl t (sMax a b)).lt (fl t a) = false ∧ (fl t (sMax a b)).lt (fl t b) = false) ∧
    (fl t a = .nan ∨ fl t b = .nan ∨ (fl t a).eq (fl t b) = true → sMax a b = b) := by
  rw [← lt_fl, ← lt_fl, ← eq_fl, sMax]
  rcases fl_cases t a with ⟨na, ha⟩ | ⟨na, ha, -⟩ | ⟨na, ha, -⟩ <;>
  rcases fl_cases t b with ⟨nb, hb⟩ | ⟨nb, hb, -⟩ | ⟨nb, hb, -⟩ <;>
  rw [ha, hb] <;> simp only [sLt, sEq, flt, feq, na, nb] <;>
  by_cases h : key t b < key t a <;> simp [h, na, nb] <;> omega

-- min is not commutative: the NaN is dropped on one side only
example : sMin (t := .f32) 0x7fc00000#32 0x3f800000#32 = 0x3f800000#32 ∧
    sMin (t := .f32) 0x3f800000#32 0x7fc00000#32 = 0x7fc00000#32 ∧
    sMax (t := .f64) 0#64 0x8000000000000000#64 = 0x8000000000000000#64 := by decide

/-! ### Rounding to an integral value -/

/-- What the C standard says of `floor`, `ceil`, `trunc` and IEEE-754 of rounding to nearest, on data (the sign of
a zero is left open). Specification. -/
structure IntegralOk (C : Integral t) : Prop where
  floor : ∀ a, fl t (C.floor a) = (fl t a).floor
  ceil : ∀ a, fl t (C.ceil a) = (fl t a).ceil
  trunc : ∀ a q, fl t a = .fin q → ∃ r : ℤ, fl t (C.trunc a) = .fin r ∧ Round.TowardZero q r
  truncSpecial : ∀ a, (∀ q, fl t a ≠ .fin q) → fl t (C.trunc a) = fl t a
  near : ∀ a q, fl t a = .fin q → ∃ r : ℤ, fl t (C.near a) = .fin r ∧ Round.NearestEven q r
  nearSpecial : ∀ a, (∀ q, fl t a ≠ .fin q) → fl t (C.near a) = fl t a

/-- Differences of at most one, and halves, are rounded by some rounding of the format. Specification. -/
structure ArithOk (A : Arith t) (rnd : ℚ → ℚ) : Prop where
  rounding : Round.Rounding (t.m + 1) (emin t) rnd
  sub : ∀ a b, (∀ p q, fl t a = .fin p → fl t b = .fin q → |p - q| ≤ 1) →
    fl t (A.sub a b) = (fl t a).sub rnd (fl t b)
  half : ∀ a, fl t (A.mul a (half t)) = (fl t a).half rnd

theorem sRound_fl {A : Arith t} {C : Integral t} {rnd : ℚ → ℚ} (hA : ArithOk t A rnd) (hC : IntegralOk t C)
    (a : BitVec t.w) : fl t (sRound A C a) = Nsimd.Round.roundToEven rnd (fl t a) := by
  have hdf : fl t (A.sub a (sFloor C a)) = (fl t a).sub rnd (fl t a).floor := by
    rw [sFloor, hA.sub, hC.floor]
    intro p q hp hq
    rw [hC.floor, hp] at hq
    injection hq with hq
    rw [← hq, abs_le]
    have := Int.floor_le p
    have := Int.lt_floor_add_one p
    constructor <;> linarith
  have hdc : fl t (A.sub (sCeil C a) a) = (fl t a).ceil.sub rnd (fl t a) := by
    rw [sCeil, hA.sub, hC.ceil]
    intro p q hp hq
    rw [hC.ceil, hq] at hp
    injection hp with hp
    rw [← hp, abs_le]
    have := Int.le_ceil q
    have := Int.ceil_lt_add_one q
    constructor <;> linarith
  have hlt : ∀ x y, flt t x y = (fl t x).lt (fl t y) := lt_fl t
  have heq : ∀ x y, feq t x y = (fl t x).eq (fl t y) := eq_fl t
  simp only [sRound, Nsimd.Round.roundToEven, hlt, heq, hdf, hdc]
  rw [apply_ite (fl t), apply_ite (fl t), apply_ite (fl t), sFloor, sCeil, hC.floor, hC.ceil]
  rw [sFloor, hC.floor, hA.half, hC.floor]

/-- C88: `round_to_even`, on patterns: the nearest integer, ties to even; infinities and NaN are kept. -/
theorem round_fl {A : Arith t} {C : Integral t} {rnd : ℚ → ℚ} (hA : ArithOk t A rnd) (hC : IntegralOk t C)
    (a : BitVec t.w) :
    (∀ q, fl t a = .fin q → ∃ r : ℤ, fl t (sRound A C a) = .fin r ∧ Round.NearestEven q r) ∧
    ((∀ q, fl t a ≠ .fin q) → fl t (sRound A C a) = fl t a) := by
  rw [sRound_fl t hA hC]
  constructor
  · intro q hq
    have hr : Round.Rep (t.m + 1) (emin t) q := by
      rcases fl_cases t a with ⟨-, h⟩ | ⟨-, h, -⟩ | ⟨-, h, -⟩ <;> rw [hq] at h
      · cases h
      · cases h
      · injection h with h
        rw [h]; exact rep_value t a
    obtain ⟨r, h1, h2, -⟩ := Round.roundToEven_nearest (by cases t <;> decide) (by cases t <;> decide) hA.rounding hr
    exact ⟨r, by rw [hq]; exact h1, h2⟩
  · intro h
    cases ha : fl t a with
    | nan => exact (Round.roundToEven_special rnd).1
    | inf s => exact (Round.roundToEven_special rnd).2 s
    | fin q => exact absurd ha (h q)

theorem fl_zero : fl t 0#t.w = .fin 0 := by
  rcases fl_cases t 0#t.w with ⟨n, -⟩ | ⟨-, -, h⟩ | ⟨-, h, -⟩
  · rw [isNaN_zero] at n; cases n
  · cases t <;> exact absurd h (by decide)
  · rw [h, value_mag]; cases t <;> simp [body, Nsimd.Fp16.mag]

/-- C88: `trunc`, both codes: toward zero; infinities and NaN are kept. -/
theorem trunc_fl {C : Integral t} (hC : IntegralOk t C) (c99 : Bool) (a : BitVec t.w) :
    (∀ q, fl t a = .fin q → ∃ r : ℤ, fl t (sTrunc C c99 a) = .fin r ∧ Round.TowardZero q r) ∧
    ((∀ q, fl t a ≠ .fin q) → fl t (sTrunc C c99 a) = fl t a) := by
  cases c99
  · have h0 := fl_zero t
    have hge : fle t 0 a = (fl t a).ge0 := by
      rw [show fle t 0 a = _ from (cmp_fl t 0#t.w a).1, h0]
      cases fl t a with
      | nan => rfl
      | inf s => cases s <;> rfl
      | fin q => simp [Nsimd.Round.Fl.lt, Nsimd.Round.Fl.eq, Nsimd.Round.Fl.ge0, ← Bool.decide_or, ← le_iff_lt_or_eq]
    have : fl t (sTrunc C false a) = Nsimd.Round.trunc (fl t a) := by
      rw [sTrunc, if_neg (by simp), hge, apply_ite (fl t), sFloor, sCeil, hC.floor, hC.ceil]; rfl
    rw [this]
    constructor
    · intro q hq; rw [hq]; exact (Round.trunc_towardZero q).1
    · intro h
      cases ha : fl t a with
      | nan => rfl
      | inf s => exact Round.trunc_special.2.2.1 s
      | fin q => exact absurd ha (h q)
  · exact ⟨hC.trunc a, hC.truncSpecial a⟩

/-! ### The specifications can be met -/

theorem exists_datum (f : Nsimd.Round.Fl)
    (hf : ∀ q, f = .fin q → Round.Rep (t.m + 1) (emin t) q ∧ |q| ≤ maxv t) : ∃ x : BitVec t.w, fl t x = f := by
  cases f with
  | nan =>
    obtain ⟨x, -, hx⟩ := exists_pattern t false ((2 ^ t.e - 1) * 2 ^ t.m + 1) (by cases t <;> decide)
    refine ⟨x, ?_⟩
    rcases fl_cases t x with ⟨-, h⟩ | ⟨-, -, h⟩ | ⟨-, -, h⟩
    · exact h
    · omega
    · omega
  | inf s =>
    obtain ⟨x, hs, hx⟩ := exists_pattern t s ((2 ^ t.e - 1) * 2 ^ t.m) (by cases t <;> decide)
    refine ⟨x, ?_⟩
    rcases fl_cases t x with ⟨h, -⟩ | ⟨-, h, -⟩ | ⟨-, -, h⟩
    · rw [isNaN, decide_eq_true_eq] at h; omega
    · rw [h, hs]
    · omega
  | fin q =>
    obtain ⟨x, hx, -⟩ := exists_value t (hf q rfl).1 (hf q rfl).2
    exact ⟨x, hx⟩

theorem fl_fin {x : BitVec t.w} {q : ℚ} (h : fl t x = .fin q) :
    Round.Rep (t.m + 1) (emin t) q ∧ |q| ≤ maxv t := by
  refine ⟨?_, value_le_max t x h⟩
  rcases fl_cases t x with ⟨-, h'⟩ | ⟨-, h', -⟩ | ⟨-, h', -⟩ <;> rw [h] at h'
  · cases h'
  · cases h'
  · injection h' with h'
    rw [h']; exact rep_value t x

theorem exists_fl_max : ∃ x : BitVec t.w, fl t x = .fin (maxv t) := by
  obtain ⟨x, hs, hx⟩ := exists_pattern t false ((2 ^ t.e - 1) * 2 ^ t.m - 1) (by cases t <;> decide)
  have hpos : 0 < (2 ^ t.e - 1) * 2 ^ t.m := by cases t <;> decide
  refine ⟨x, ?_⟩
  rcases fl_cases t x with ⟨h, -⟩ | ⟨-, -, h⟩ | ⟨-, h, -⟩
  · rw [isNaN, decide_eq_true_eq] at h; omega
  · omega
  · rw [h, value_mag, hs, hx]; rfl

theorem one_le_maxv : 1 ≤ maxv t := by
  have h : Round.Rep (t.m + 1) (emin t) 1 ∧ |(1 : ℚ)| ≤ maxv t := by
    apply fl_fin t (x := one t)
    rcases fl_cases t (one t) with ⟨h, -⟩ | ⟨-, -, h⟩ | ⟨-, h, -⟩
    · cases t <;> exact absurd h (by decide)
    · cases t <;> exact absurd h (by decide)
    · rw [h, value]
      cases t
      · rw [if_neg (by decide), show expo .f32 (one .f32) = 127 by decide, show mant .f32 (one .f32) = 0 by decide,
          show (one .f32).msb = false by decide]; norm_num [emin]
      · rw [if_neg (by decide), show expo .f64 (one .f64) = 1023 by decide, show mant .f64 (one .f64) = 0 by decide,
          show (one .f64).msb = false by decide]; norm_num [emin]
  simpa using h.2

/-- There is a rounding of the format whose results in range are numbers of the format: toward minus infinity. -/
theorem exists_rounding : ∃ rnd : ℚ → ℚ, Round.Rounding (t.m + 1) (emin t) rnd ∧
    ∀ q, |q| ≤ maxv t → Round.Rep (t.m + 1) (emin t) (rnd q) ∧ |rnd q| ≤ maxv t := by
  obtain ⟨xm, hxm⟩ := exists_fl_max t
  have hneg : fl t (sNeg xm) = .fin (-maxv t) := by rw [(neg_fl t xm).1, hxm]; rfl
  have hfin : Finite (BitVec t.w) := Finite.of_injective (fun y => y.toFin) (fun a b h => by
    cases a; cases b; simpa using h)
  have hex : ∀ q, ∃ v : ℚ, -maxv t ≤ q →
      (∃ x : BitVec t.w, fl t x = .fin v) ∧ v ≤ q ∧ ∀ y u, fl t y = .fin u → u ≤ q → u ≤ v := by
    intro q
    by_cases hq : -maxv t ≤ q
    · obtain ⟨x, ⟨⟨vx, hvx, hle⟩, hmax⟩⟩ := Set.exists_max_image {x : BitVec t.w | ∃ v, fl t x = .fin v ∧ v ≤ q}
        (value t) (Set.toFinite _) ⟨sNeg xm, -maxv t, hneg, hq⟩
      have hval : ∀ z u, fl t z = .fin u → u = value t z := by
        intro z u h
        rcases fl_cases t z with ⟨-, h'⟩ | ⟨-, h', -⟩ | ⟨-, h', -⟩ <;> rw [h] at h'
        · cases h'
        · cases h'
        · injection h'
      refine ⟨vx, fun _ => ⟨⟨x, hvx⟩, hle, fun y u hy hu => ?_⟩⟩
      rw [hval y u hy, hval x vx hvx]
      exact hmax y ⟨u, hy, hu⟩
    · exact ⟨0, fun h => absurd h hq⟩
  choose g hg using hex
  have hgm : ∀ q, -maxv t ≤ q → |g q| ≤ maxv t := by
    intro q hq
    obtain ⟨x, hx⟩ := (hg q hq).1
    exact (fl_fin t hx).2
  refine ⟨fun q => if |q| ≤ maxv t then g q else q, ⟨?_, ?_⟩, ?_⟩
  · intro p q hpq
    by_cases hp : |p| ≤ maxv t <;> by_cases hq : |q| ≤ maxv t <;> simp only [hp, hq, if_true, if_false]
    · have h1 := hg p (abs_le.mp hp).1
      have h2 := hg q (abs_le.mp hq).1
      obtain ⟨x, hx⟩ := h1.1
      exact h2.2.2 x _ hx (h1.2.1.trans hpq)
    · exact (hg p (abs_le.mp hp).1).2.1.trans hpq
    · have h2 := abs_le.mp (hgm q (abs_le.mp hq).1)
      have h3 := abs_le.mp hq
      by_contra hc
      exact hp (abs_le.mpr ⟨by linarith, by linarith⟩)
    · exact hpq
  · intro q hr
    by_cases hq : |q| ≤ maxv t
    · simp only [hq, if_true]
      obtain ⟨x, hx, -⟩ := exists_value t hr hq
      have h := hg q (abs_le.mp hq).1
      exact le_antisymm h.2.1 (h.2.2 x q hx le_rfl)
    · simp only [hq, if_false]
  · intro q hq
    simp only [hq, if_true]
    obtain ⟨x, hx⟩ := (hg q (abs_le.mp hq).1).1
    exact fl_fin t hx

theorem maxv_int : ∃ N : ℤ, maxv t = N := by
  cases t
  · refine ⟨(2 ^ 24 - 1) * 2 ^ 104, ?_⟩
    rw [maxv, show Nsimd.Fp16.mag FTy.f32.m ((2 ^ FTy.f32.e - 1) * 2 ^ FTy.f32.m - 1) = (2 ^ 24 - 1) * 2 ^ 253 by
      rw [Nsimd.Fp16.mag]; norm_num [FTy.m, FTy.e]]
    norm_num [emin]
  · refine ⟨(2 ^ 53 - 1) * 2 ^ 971, ?_⟩
    rw [maxv, show Nsimd.Fp16.mag FTy.f64.m ((2 ^ FTy.f64.e - 1) * 2 ^ FTy.f64.m - 1) = (2 ^ 53 - 1) * 2 ^ 2045 by
      rw [Nsimd.Fp16.mag]; norm_num [FTy.m, FTy.e]]
    have h : (2 : ℚ) ^ 2045 * (2 : ℚ) ^ emin .f64 = 2 ^ 971 := by
      rw [← zpow_natCast, ← zpow_natCast, ← zpow_add₀ (by norm_num)]; rfl
    push_cast
    rw [mul_assoc, h]

/-- There are operations that meet the specifications. -/
theorem exists_ok : ∃ (A : Arith t) (C : Integral t) (rnd : ℚ → ℚ), ArithOk t A rnd ∧ IntegralOk t C := by
  obtain ⟨rnd, hr, hout⟩ := exists_rounding t
  have hpat : ∀ f, ∃ x : BitVec t.w,
      (∀ q, f = Nsimd.Round.Fl.fin q → Round.Rep (t.m + 1) (emin t) q ∧ |q| ≤ maxv t) → fl t x = f := by
    intro f
    by_cases hf : ∀ q, f = Nsimd.Round.Fl.fin q → Round.Rep (t.m + 1) (emin t) q ∧ |q| ≤ maxv t
    · obtain ⟨x, hx⟩ := exists_datum t f hf
      exact ⟨x, fun _ => hx⟩
    · exact ⟨0, fun h => absurd h hf⟩
  choose pat hp using hpat
  have hp2 : 2 ≤ t.m + 1 := by cases t <;> decide
  have he0 : emin t ≤ 0 := by cases t <;> decide
  have he1 : emin t ≤ -1 := by cases t <;> decide
  obtain ⟨N, hN⟩ := maxv_int t
  have hbound : ∀ (q : ℚ) (r : ℤ), |q| ≤ maxv t → |q - r| < 1 → (|(r : ℚ)| ≤ |q| ∨ |q - r| ≤ 1 / 2 ∨ r = ⌊q⌋ ∨ r = ⌈q⌉) →
      |(r : ℚ)| ≤ maxv t := by
    intro q r hq hd h
    rw [hN] at hq ⊢
    have hq' := abs_le.mp hq
    rcases h with h | h | h | h
    · exact h.trans hq
    · have h' := abs_le.mp h
      have h1 : (r : ℚ) < (N + 1 : ℤ) := by push_cast; linarith
      have h2 : ((-N - 1 : ℤ) : ℚ) < r := by push_cast; linarith
      have h1 : r < N + 1 := by exact_mod_cast h1
      have h2 : -N - 1 < r := by exact_mod_cast h2
      rw [abs_le]
      exact ⟨by exact_mod_cast (show -N ≤ r by omega), by exact_mod_cast (show r ≤ N by omega)⟩
    · have h1 : -N ≤ ⌊q⌋ := Int.le_floor.mpr (by push_cast; linarith)
      have h2 := Int.floor_le q
      rw [h, abs_le]
      exact ⟨by exact_mod_cast h1, by linarith⟩
    · have h1 : ⌈q⌉ ≤ N := Int.ceil_le.mpr (by linarith)
      have h2 := Int.le_ceil q
      rw [h, abs_le]
      exact ⟨by linarith, by exact_mod_cast h1⟩
  have hfl : ∀ a q, fl t a = .fin q →
      Round.Rep (t.m + 1) (emin t) ((⌊q⌋ : ℤ) : ℚ) ∧ |((⌊q⌋ : ℤ) : ℚ)| ≤ maxv t := by
    intro a q h
    have h1 := Int.floor_le q
    have h2 := Int.lt_floor_add_one q
    exact ⟨Round.rep_floor hp2 he0 (fl_fin t h).1, hbound q _ (fl_fin t h).2
      (abs_lt.mpr ⟨by linarith, by linarith⟩) (.inr (.inr (.inl rfl)))⟩
  have hce : ∀ a q, fl t a = .fin q →
      Round.Rep (t.m + 1) (emin t) ((⌈q⌉ : ℤ) : ℚ) ∧ |((⌈q⌉ : ℤ) : ℚ)| ≤ maxv t := by
    intro a q h
    have h1 := Int.le_ceil q
    have h2 := Int.ceil_lt_add_one q
    exact ⟨Round.rep_ceil hp2 he0 (fl_fin t h).1, hbound q _ (fl_fin t h).2
      (abs_lt.mpr ⟨by linarith, by linarith⟩) (.inr (.inr (.inr rfl)))⟩
  have hfloor : ∀ a, fl t (pat (fl t a).floor) = (fl t a).floor := by
    intro a
    apply hp
    intro q hq
    cases ha : fl t a with
    | fin u => rw [ha] at hq; injection hq with hq; rw [← hq]; exact hfl a u ha
    | nan => rw [ha] at hq; cases hq
    | inf s => rw [ha] at hq; cases hq
  have hceil : ∀ a, fl t (pat (fl t a).ceil) = (fl t a).ceil := by
    intro a
    apply hp
    intro q hq
    cases ha : fl t a with
    | fin u => rw [ha] at hq; injection hq with hq; rw [← hq]; exact hce a u ha
    | nan => rw [ha] at hq; cases hq
    | inf s => rw [ha] at hq; cases hq
  have hnear : ∀ a q, fl t a = .fin q → ∃ r : ℤ, fl t (pat (Nsimd.Round.roundToEven rnd (fl t a))) = .fin r ∧
      Round.NearestEven q r := by
    intro a q h
    obtain ⟨r, h1, h2, h3⟩ := Round.roundToEven_nearest hp2 he1 hr (fl_fin t h).1
    refine ⟨r, ?_, h2⟩
    rw [h, h1]
    apply hp
    intro u hu
    injection hu with hu
    rw [← hu]
    exact ⟨h3 _ _ hp2 he0 (fl_fin t h).1,
      hbound q r (fl_fin t h).2 (lt_of_le_of_lt h2.1 (by norm_num)) (.inr (.inl h2.1))⟩
  have htr : ∀ a, fl t (pat (Nsimd.Round.trunc (fl t a))) = Nsimd.Round.trunc (fl t a) := by
    intro a
    unfold Nsimd.Round.trunc
    split
    · exact hfloor a
    · exact hceil a
  have hspec : ∀ f, (∀ q, f ≠ Nsimd.Round.Fl.fin q) → fl t (pat f) = f :=
    fun f h => hp f (fun q hq => absurd hq (h q))
  refine ⟨{ add := fun a _ => a
            sub := fun a b => pat ((fl t a).sub rnd (fl t b))
            mul := fun a _ => pat ((fl t a).half rnd)
            div := fun a _ => a
            sqrt := fun a => a
            fma := fun a _ _ => a },
          { floor := fun a => pat (fl t a).floor
            ceil := fun a => pat (fl t a).ceil
            trunc := fun a => pat (Nsimd.Round.trunc (fl t a))
            near := fun a => pat (Nsimd.Round.roundToEven rnd (fl t a)) }, rnd, ⟨hr, ?_, ?_⟩,
          ⟨hfloor, hceil, ?_, ?_, hnear, ?_⟩⟩
  · intro a b hab
    apply hp
    intro q hq
    cases ha : fl t a with
    | fin u =>
      cases hb : fl t b with
      | fin v =>
        rw [ha, hb] at hq
        injection hq with hq
        rw [← hq]
        exact hout _ ((hab u v ha hb).trans (one_le_maxv t))
      | nan => rw [ha, hb] at hq; cases hq
      | inf s => rw [ha, hb] at hq; cases hq
    | nan => rw [ha] at hq; cases hq
    | inf s =>
      rw [ha] at hq
      cases hb : fl t b with
      | fin v => rw [hb] at hq; cases hq
      | nan => rw [hb] at hq; cases hq
      | inf s' =>
        rw [hb, Nsimd.Round.Fl.sub] at hq
        split at hq <;> cases hq
  · intro a
    apply hp
    intro q hq
    cases ha : fl t a with
    | fin u =>
      rw [ha] at hq
      injection hq with hq
      rw [← hq]
      refine hout _ ?_
      have := (fl_fin t ha).2
      rw [abs_mul, show |(1 / 2 : ℚ)| = 1 / 2 by norm_num]
      linarith [abs_nonneg u]
    | nan => rw [ha] at hq; cases hq
    | inf s => rw [ha] at hq; cases hq
  · intro a q h
    obtain ⟨r, h1, h2⟩ := (Round.trunc_towardZero q).1
    exact ⟨r, by rw [htr a, h, h1], h2⟩
  · intro a h
    rw [htr a]
    cases ha : fl t a with
    | nan => rfl
    | inf s => exact Round.trunc_special.2.2.1 s
    | fin q => exact absurd ha (h q)
  · intro a h
    have : Nsimd.Round.roundToEven rnd (fl t a) = fl t a := by
      cases ha : fl t a with
      | nan => rfl
      | inf s => exact (Round.roundToEven_special rnd).2 s
      | fin q => exact absurd ha (h q)
    dsimp only
    rw [this]
    exact hspec _ h

-- 2.5 is rounded to 2 and -2.5 truncated to -2
example : ∃ (A : Arith .f32) (C : Integral .f32) (rnd : ℚ → ℚ), ArithOk .f32 A rnd ∧ IntegralOk .f32 C ∧
    fl .f32 (sRound A C 0x40200000#32) = .fin 2 ∧ fl .f32 (sTrunc C false 0xc0200000#32) = .fin (-2) := by
  obtain ⟨A, C, rnd, hA, hC⟩ := exists_ok .f32
  have h1 : fl .f32 0x40200000#32 = .fin (5 / 2) := by
    rw [fl, if_neg (by decide), value, if_neg (by decide), show expo .f32 0x40200000#32 = 128 by decide,
      show mant .f32 0x40200000#32 = 2 ^ 21 by decide, show (0x40200000#32).msb = false by decide]
    norm_num [emin]
  have h2 : fl .f32 0xc0200000#32 = .fin (-(5 / 2)) := by
    rw [fl, if_neg (by decide), value, if_neg (by decide), show expo .f32 0xc0200000#32 = 128 by decide,
      show mant .f32 0xc0200000#32 = 2 ^ 21 by decide, show (0xc0200000#32).msb = true by decide]
    norm_num [emin]
  refine ⟨A, C, rnd, hA, hC, ?_, ?_⟩
  · obtain ⟨r, h3, h4⟩ := (round_fl .f32 hA hC _).1 _ h1
    have h5 : Round.NearestEven (5 / 2) 2 := by constructor <;> norm_num
    rw [h3, Round.nearestEven_unique h4 h5]; norm_num
  · obtain ⟨r, h3, h4, h5, h6⟩ := (trunc_fl .f32 hC false _).1 _ h2
    have e : |(-(5 / 2) : ℚ)| = 5 / 2 := by norm_num
    rw [e] at h4 h5
    have h7 : r < 0 ∨ 0 ≤ r := lt_or_ge r 0
    have h8 : r = -2 := by
      rcases h7 with h7 | h7
      · have h9 : (r : ℚ) < 0 := by exact_mod_cast h7
        rw [abs_of_neg h9] at h4 h5
        have h10 : ((-3 : ℤ) : ℚ) < r := by push_cast; linarith
        have h11 : (r : ℚ) < ((-1 : ℤ) : ℚ) := by push_cast; linarith
        have h10 : -3 < r := by exact_mod_cast h10
        have h11 : r < -1 := by exact_mod_cast h11
        omega
      · have h9 : (0 : ℚ) ≤ r := by exact_mod_cast h7
        rw [abs_of_nonneg h9] at h5
        nlinarith
    rw [h3, h8]; norm_num

end Nsimd.Props.FloatLane
