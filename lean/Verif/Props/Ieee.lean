import Verif.Lemmas.Ieee
import Verif.Props.FloatLane

/-!
# C88: scalar arithmetic of f32 and f64 on a processor that follows IEEE-754
-/

namespace Nsimd.Props.Ieee
open Nsimd Nsimd.FloatLane Nsimd.Props.FloatLane

variable {t : FTy} {A : Arith t}

theorem value_half (t : FTy) : fl t (half t) = .fin (1 / 2) := by
  rcases fl_cases t (half t) with ⟨h, -⟩ | ⟨-, -, h⟩ | ⟨-, h, -⟩
  · cases t <;> exact absurd h (by decide)
  · cases t <;> exact absurd h (by decide)
  · rw [h, value]
    cases t
    · rw [if_neg (by decide), show expo .f32 (half .f32) = 126 by decide, show mant .f32 (half .f32) = 0 by decide,
        show (half .f32).msb = false by decide]; norm_num [emin]
    · rw [if_neg (by decide), show expo .f64 (half .f64) = 1022 by decide, show mant .f64 (half .f64) = 0 by decide,
        show (half .f64).msb = false by decide]; norm_num [emin]

theorem value_one (t : FTy) : fl t (one t) = .fin 1 := by
  rcases fl_cases t (one t) with ⟨h, -⟩ | ⟨-, -, h⟩ | ⟨-, h, -⟩
  · cases t <;> exact absurd h (by decide)
  · cases t <;> exact absurd h (by decide)
  · rw [h, value]
    cases t
    · rw [if_neg (by decide), show expo .f32 (one .f32) = 127 by decide, show mant .f32 (one .f32) = 0 by decide,
        show (one .f32).msb = false by decide]; norm_num [emin]
    · rw [if_neg (by decide), show expo .f64 (one .f64) = 1023 by decide, show mant .f64 (one .f64) = 0 by decide,
        show (one .f64).msb = false by decide]; norm_num [emin]

/-- Rounding does not leave the range. -/
theorem rq_le {q : ℚ} (h : |q| ≤ maxv t) : |rq t q| ≤ maxv t := by
  have hm : Round.Rep (t.m + 1) (emin t) (maxv t) := by
    obtain ⟨x, hx⟩ := exists_fl_max t
    exact (fl_fin t hx).1
  have h' := abs_le.mp h
  have h1 := (rq_rounding t).mono h'.2
  have h2 := (rq_rounding t).mono h'.1
  rw [rq_fix hm] at h1
  rw [rq_neg, rq_fix hm] at h2
  exact abs_le.mpr ⟨h2, h1⟩

/-- IEEE-754 arithmetic meets the specification used by C88, C89. -/
theorem arithOk (hA : IsIeee A) : ArithOk t A (rq t) := by
  refine ⟨rq_rounding t, fun a b hab => ?_, fun a => ?_⟩
  · rw [(hA.sub a b).fl, sub]
    have hn := (neg_fl t b).1
    rw [sNeg] at hn
    cases ha : fl t a with
    | nan => rw [add, is_nan ha]; exact fl_qnan t
    | fin p =>
      obtain ⟨a1, a2, -⟩ := not_special ha
      cases hb : fl t b with
      | nan => rw [add, isNaN_fneg, is_nan hb, Bool.or_true, if_pos rfl]; exact fl_qnan t
      | fin q =>
        rw [hb] at hn
        rw [add_fl ha hn, ← sub_eq_add_neg, if_pos (rq_le ((hab p q ha hb).trans (one_le_maxv t)))]
        rfl
      | inf s =>
        obtain ⟨b1, b2, b3⟩ := is_inf hb
        rw [add, isNaN_fneg, a1, b1, a2, isInf_fneg, b2]
        simp only [Bool.or_self, Bool.false_eq_true, if_false, if_true]
        rw [hn, hb]; rfl
    | inf s =>
      obtain ⟨a1, a2, a3⟩ := is_inf ha
      cases hb : fl t b with
      | nan => rw [add, isNaN_fneg, is_nan hb, Bool.or_true, if_pos rfl]; exact fl_qnan t
      | fin q =>
        obtain ⟨b1, b2, -⟩ := not_special hb
        rw [add, isNaN_fneg, a1, b1, a2, isInf_fneg, b2]
        simp only [Bool.or_self, Bool.false_eq_true, if_false, if_true, Bool.false_and]
        rw [ha]; rfl
      | inf r =>
        obtain ⟨b1, b2, b3⟩ := is_inf hb
        rw [add, isNaN_fneg, a1, b1, a2, isInf_fneg, b2, msb_fneg, a3, b3]
        cases s <;> cases r <;> simp [Nsimd.Round.Fl.sub, fl_qnan, ha]
  · rw [(hA.mul a _).fl]
    obtain ⟨h1, h2, -⟩ := not_special (value_half t)
    have hm : (half t).msb = false := by cases t <;> decide
    have hz : isZero (half t) = false := by cases t <;> decide
    cases ha : fl t a with
    | nan => rw [mul, is_nan ha, Bool.true_or, if_pos rfl]; exact fl_qnan t
    | fin p =>
      by_cases h0 : p = 0
      · obtain ⟨a1, a2, -⟩ := not_special ha
        have hu : um a = 0 := by
          have hb := (fl_zero_iff ha).mpr h0
          rw [isZero, decide_eq_true_eq] at hb
          rw [um, hb]; simp [Fp16.mag]
        rw [mul, a1, h1, a2, h2, hu]
        simp only [Bool.or_self, Bool.false_eq_true, if_false]
        rw [Nat.cast_zero, zero_mul, zero_mul, rnd_zero, fl_mk, if_pos (infBody_lt t).1]
        subst h0
        simp [Nsimd.Round.Fl.half, rq, rnd_zero, Fp16.mag]
      · rw [mul_fl ha (value_half t) (mul_ne_zero h0 (by norm_num)), if_pos]
        · rfl
        · apply rq_le
          have := (fl_fin t ha).2
          rw [abs_mul, show |(1 / 2 : ℚ)| = 1 / 2 by norm_num]
          linarith [abs_nonneg p]
    | inf s =>
      obtain ⟨a1, a2, a3⟩ := is_inf ha
      have ha0 : isZero a = false := by
        rw [isInf, decide_eq_true_eq] at a2
        rw [isZero, decide_eq_false_iff_not, a2]
        exact (infBody_lt t).1.ne'
      rw [mul, a1, h1, a2, ha0, hz, hm, a3]
      simp only [Bool.or_self, Bool.false_eq_true, if_false, Bool.true_or, if_true, Bool.xor_false]
      rw [fl_mk, if_neg (lt_irrefl _)]; rfl

/-! ### The scalar operators -/

/-- The exact result `q` rounded to nearest, ties to even, an infinity if too large. Specification (IEEE-754). -/
def Rounded (t : FTy) (q : ℚ) (x : BitVec t.w) : Prop :=
  fl t x = if |rq t q| ≤ maxv t then .fin (rq t q) else .inf (decide (q < 0))

/-- What `Rounded` means: the numbers of the format are no nearer than the result. -/
theorem Rounded.nearest {q y : ℚ} {x : BitVec t.w} (h : Rounded t q x) (hx : fl t x = .fin y) :
    Round.Rep (t.m + 1) (emin t) y ∧ ∀ z, Round.Rep (t.m + 1) (emin t) z → |y - q| ≤ |z - q| := by
  refine ⟨(fl_fin t hx).1, fun z hz => ?_⟩
  rw [Rounded, hx] at h
  split at h
  · injection h with h; rw [h]; exact rq_nearest t q z hz
  · cases h

/-- C88: scalar fma, fms, fnma, fnms with a fused library function compute `±ab ± c` with one rounding. -/
theorem sFma_rounded (hA : IsIeee A) {a b c : BitVec t.w} {p q r : ℚ} (ha : fl t a = .fin p) (hb : fl t b = .fin q)
    (hc : fl t c = .fin r) :
    Rounded t (p * q + r) (sFma A true a b c) ∧ Rounded t (p * q - r) (sFms A true a b c) ∧
    Rounded t (-(p * q) + r) (sFnma A true a b c) ∧ Rounded t (-(p * q) - r) (sFnms A true a b c) := by
  have hn : ∀ {x : BitVec t.w} {u : ℚ}, fl t x = .fin u → fl t (fneg t x) = .fin (-u) := by
    intro x u hx
    have := (neg_fl t x).1
    rw [sNeg, hx] at this
    exact this
  have key : ∀ {a b c : BitVec t.w} {p q r : ℚ}, fl t a = .fin p → fl t b = .fin q → fl t c = .fin r →
      Rounded t (p * q + r) (A.fma a b c) := by
    intro a b c p q r ha hb hc
    rw [Rounded, (hA.fma a b c).fl]
    exact fma_fl ha hb hc
  refine ⟨key ha hb hc, ?_, ?_, ?_⟩
  · rw [sub_eq_add_neg]; exact key ha hb (hn hc)
  · rw [← neg_mul]; exact key (hn ha) hb hc
  · rw [← neg_mul, sub_eq_add_neg]; exact key (hn ha) hb (hn hc)

/-- C88: before C99 they round the product, then the sum. -/
theorem sFma_twice (hA : IsIeee A) {a b c : BitVec t.w} {p q r : ℚ} (ha : fl t a = .fin p) (hb : fl t b = .fin q)
    (hc : fl t c = .fin r) (h0 : p * q ≠ 0) (hm : |rq t (p * q)| ≤ maxv t) :
    Rounded t (rq t (p * q) + r) (sFma A false a b c) ∧ Rounded t (rq t (p * q) - r) (sFms A false a b c) ∧
    Rounded t (-rq t (p * q) + r) (sFnma A false a b c) ∧ Rounded t (-rq t (p * q) - r) (sFnms A false a b c) := by
  have hn : ∀ {x : BitVec t.w} {u : ℚ}, fl t x = .fin u → fl t (fneg t x) = .fin (-u) := by
    intro x u hx
    have := (neg_fl t x).1
    rw [sNeg, hx] at this
    exact this
  have key : ∀ {a b c : BitVec t.w} {p q r : ℚ}, fl t a = .fin p → fl t b = .fin q → fl t c = .fin r →
      p * q ≠ 0 → |rq t (p * q)| ≤ maxv t → Rounded t (rq t (p * q) + r) (A.add (A.mul a b) c) := by
    intro a b c p q r ha hb hc h0 hm
    rw [Rounded, (hA.add _ c).fl, add_congr (hA.mul a b) (.refl c)]
    refine add_fl ?_ hc
    rw [mul_fl ha hb h0, if_pos hm]
  have h0' : -p * q ≠ 0 := by rw [neg_mul]; exact neg_ne_zero.mpr h0
  have e : rq t (-p * q) = -rq t (p * q) := by rw [neg_mul, rq_neg]
  have hm' : |rq t (-p * q)| ≤ maxv t := by rw [e, abs_neg]; exact hm
  refine ⟨key ha hb hc h0 hm, ?_, ?_, ?_⟩
  · rw [sub_eq_add_neg]; exact key ha hb (hn hc) h0 hm
  · rw [← e]; exact key (hn ha) hb hc h0' hm'
  · rw [← e, sub_eq_add_neg]; exact key (hn ha) hb (hn hc) h0' hm'

/-- C88: `rec` is the rounded inverse. -/
theorem sRec_rounded (hA : IsIeee A) {a : BitVec t.w} {p : ℚ} (ha : fl t a = .fin p) (h0 : p ≠ 0) :
    Rounded t (1 / p) (sRec A a) := by
  rw [Rounded, sRec, (hA.div _ _).fl]
  exact div_fl (value_one t) ha one_ne_zero h0

-- one rounding and two roundings differ: (1 + 2^-12)^2 - (1 + 2^-11) is 2^-24, or 0
example : sFms (ref .f32) true 0x3f800800#32 0x3f800800#32 0x3f801000#32 = 0x33800000#32 ∧
    sFms (ref .f32) false 0x3f800800#32 0x3f800800#32 0x3f801000#32 = 0#32 := by decide +kernel
-- the reference on doubles: 1/3, the square root of 2, 0 * inf, overflow
example : sRec (ref .f64) 0x4008000000000000#64 = 0x3fd5555555555555#64 ∧
    (ref .f64).sqrt 0x4000000000000000#64 = 0x3ff6a09e667f3bcd#64 ∧
    isNaN .f64 ((ref .f64).mul 0#64 0x7ff0000000000000#64) = true ∧
    (ref .f64).add 0x7fefffffffffffff#64 0x7fefffffffffffff#64 = 0x7ff0000000000000#64 := by decide +kernel

end Nsimd.Props.Ieee
