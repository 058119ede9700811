import Verif.Model.ArmFloat
import Verif.Props.Ieee
import Verif.Props.ArmLane

/-!
# C90: floating point operators of the ARM back end against the scalar operators
-/

namespace Nsimd.Props.ArmFloat
open Nsimd Nsimd.FloatLane Nsimd.ArmFloat
open Nsimd.Cpu (Vec)
open Nsimd.Props.FloatLane (fl)
open Nsimd.Props.Ieee (Same IsIeee)
open Nsimd.Props.ArmLane (Represents)

variable {t : FTy} {n : Nat} (x : Ext)

/-! ### Flushed inputs -/

/-- Neither zero nor at least the least normal number. Specification (IEEE-754). -/
def Subnormal (a : BitVec t.w) : Prop := 0 < body t a ∧ body t a < 2 ^ t.m

/-- C90: ARMv7 instructions replace a subnormal by a zero of its sign and keep every other datum. -/
theorem flush_fl (a : BitVec t.w) :
    (Subnormal a → fl t (flush t a) = .fin 0 ∧ (flush t a).msb = a.msb) ∧ (¬ Subnormal a → flush t a = a) := by
  constructor
  · intro h
    rw [flush, if_pos (show 0 < body t a ∧ _ from h)]
    have e : (BitVec.twoPow t.w (t.w - 1)).msb = true := by cases t <;> decide
    have hm : (a &&& BitVec.twoPow t.w (t.w - 1)).msb = a.msb := by rw [BitVec.msb_and, e, Bool.and_true]
    refine ⟨?_, hm⟩
    have hb : body t (a &&& BitVec.twoPow t.w (t.w - 1)) = 0 := by
      have e1 : t.w - 1 < t.w := by cases t <;> decide
      rw [body, BitVec.toNat_and, BitVec.toNat_twoPow_of_lt e1, Nat.and_two_pow]
      cases a.toNat.testBit (t.w - 1) <;> simp
    have : a &&& BitVec.twoPow t.w (t.w - 1) = Ieee.mk t a.msb 0 :=
      FloatLane.ext_body (hm.trans (Ieee.mk_spec t a.msb 0).1.symm)
        (hb.trans (by rw [(Ieee.mk_spec t a.msb 0).2, Nat.zero_min]))
    rw [this, Ieee.fl_mk, if_pos (Ieee.infBody_lt t).1]
    simp [Fp16.mag]
  · intro h; rw [flush, if_neg (show ¬ (0 < body t a ∧ _) from h)]

/-- The lanes of the extension are used as they are: not ARMv7, or not a subnormal. Specification. -/
def Plain (a : BitVec t.w) : Prop := x = .neon128 → ¬ Subnormal a

theorem inp_plain {a : BitVec t.w} (h : Plain x a) : inp x a = a := by
  unfold inp
  split
  · exact (flush_fl a).2 (h ‹_›)
  · rfl

/-! ### Arithmetic -/

/-- The result of an operation on ARMv7 vectors is not affected by the flushing of small results: it is zero, or
larger than the least normal number. Specification (ARM). -/
def Large (r : BitVec t.w) : Prop := body t r = 0 ∨ 2 ^ t.m < body t r

/-- Sums, differences and products of ARMv7 vectors follow IEEE-754, except that subnormals may be flushed.
Specification (ARM). -/
structure NeonOk (V : Arith t) : Prop where
  add : ∀ a b, ¬ Subnormal a → ¬ Subnormal b → Large (Ieee.add a b) → Same (V.add a b) (Ieee.add a b)
  sub : ∀ a b, ¬ Subnormal a → ¬ Subnormal b → Large (Ieee.sub a b) → Same (V.sub a b) (Ieee.sub a b)
  mul : ∀ a b, ¬ Subnormal a → ¬ Subnormal b → Large (Ieee.mul a b) → Same (V.mul a b) (Ieee.mul a b)

/-- The vector instructions of an extension. Specification (ARM). -/
def VecOk (V : Arith t) : Prop := if x = .neon128 then NeonOk V else IsIeee V

/-- `a` and `b` are not subnormal, nor is the exact result `r` small; required of f32 on ARMv7 only. Specification. -/
def Safe (t : FTy) (l : List (BitVec t.w)) (rs : List (BitVec t.w)) : Prop :=
  x = .neon128 → t = .f32 → (∀ a ∈ l, ¬ Subnormal a) ∧ ∀ r ∈ rs, Large r

variable {x} {V A : Arith t}

theorem safe_f32 {l rs : List (BitVec t.w)} (h : Safe x t l rs) (hx : x = .neon128) (hs : scalar64 x t = false) :
    (∀ a ∈ l, ¬ Subnormal a) ∧ ∀ r ∈ rs, Large r := by
  refine h hx ?_
  unfold scalar64 at hs
  cases t
  · rfl
  · simp [hx] at hs

/-- C90: sums, differences and products are those of the scalar operators on every lane, up to the choice of a NaN;
on f32 of ARMv7 if neither the operands nor the result are small. -/
theorem arith_lane (hV : VecOk x V) (hA : IsIeee A) (a b : Vec n (BitVec t.w)) (i : Fin n) :
    (Safe x t [a i, b i] [Ieee.add (a i) (b i)] → Same (ArmFloat.add x V A a b i) (A.add (a i) (b i))) ∧
    (Safe x t [a i, b i] [Ieee.sub (a i) (b i)] → Same (ArmFloat.sub x V A a b i) (A.sub (a i) (b i))) ∧
    (Safe x t [a i, b i] [Ieee.mul (a i) (b i)] → Same (ArmFloat.mul x V A a b i) (A.mul (a i) (b i))) := by
  unfold ArmFloat.add ArmFloat.sub ArmFloat.mul
  cases hs : scalar64 x t
  · simp only [Bool.false_eq_true, if_false]
    unfold VecOk at hV
    split at hV
    · rename_i hx
      refine ⟨fun h => ?_, fun h => ?_, fun h => ?_⟩ <;> obtain ⟨h1, h2⟩ := safe_f32 h hx hs <;>
        simp only [List.mem_cons, List.not_mem_nil, or_false, forall_eq_or_imp, forall_eq] at h1 h2
      · exact (hV.add _ _ h1.1 h1.2 h2).trans (hA.add _ _).symm
      · exact (hV.sub _ _ h1.1 h1.2 h2).trans (hA.sub _ _).symm
      · exact (hV.mul _ _ h1.1 h1.2 h2).trans (hA.mul _ _).symm
    · exact ⟨fun _ => (hV.add _ _).trans (hA.add _ _).symm, fun _ => (hV.sub _ _).trans (hA.sub _ _).symm,
        fun _ => (hV.mul _ _).trans (hA.mul _ _).symm⟩
  · simp only [if_true]
    exact ⟨fun _ => .refl _, fun _ => .refl _, fun _ => .refl _⟩

/-- C90: quotients, square roots and the reciprocals `rec`, `rec11`, `rsqrt11` are those of the scalar operators on
every lane of every extension, with no restriction. -/
theorem div_lane (hV : VecOk x V) (hA : IsIeee A) (a b : Vec n (BitVec t.w)) (i : Fin n) :
    Same (ArmFloat.div x V A a b i) (A.div (a i) (b i)) ∧
    Same (ArmFloat.sqrt x V A a i) (A.sqrt (a i)) ∧
    Same (ArmFloat.rec1 x V A a i) (sRec A (a i)) ∧
    Same (ArmFloat.rsqrt11 x V A a i) (sRsqrt A (a i)) := by
  unfold ArmFloat.rsqrt11 ArmFloat.rec1 ArmFloat.div ArmFloat.sqrt sRec sRsqrt
  unfold VecOk at hV
  split at hV
  · rename_i hx
    simp only [hx, if_true]
    exact ⟨.refl _, .refl _, .refl _, .refl _⟩
  · rename_i hx
    simp only [hx, if_false]
    have hq := fun u v => (hV.div u v).trans (hA.div u v).symm
    have hs := fun u => (hV.sqrt u).trans (hA.sqrt u).symm
    refine ⟨hq _ _, hs _, hq _ _, ?_⟩
    refine (hV.div _ _).trans (.trans ?_ (hA.div _ _).symm)
    rw [Ieee.div_congr (.refl _) (hs (a i))]
    exact .refl _

/-! ### Sign operators -/

/-- C90: `neg` is the scalar operator on every lane of every extension. -/
theorem neg_lane (x : Ext) (a : Vec n (BitVec t.w)) (i : Fin n) : ArmFloat.neg x a i = sNeg (a i) := by
  unfold ArmFloat.neg sNeg fneg
  split <;> rfl

theorem clear_sign (v : BitVec t.w) :
    (v &&& ~~~ BitVec.twoPow t.w (t.w - 1)).msb = false ∧
    body t (v &&& ~~~ BitVec.twoPow t.w (t.w - 1)) = body t v := by
  have e : ~~~ BitVec.twoPow t.w (t.w - 1) = BitVec.ofNat t.w (2 ^ (t.w - 1) - 1) := by cases t <;> decide
  rw [e]
  constructor
  · have e : (BitVec.ofNat t.w (2 ^ (t.w - 1) - 1)).msb = false := by cases t <;> decide
    rw [BitVec.msb_and, e, Bool.and_false]
  · have e : (2 ^ (t.w - 1) - 1) % 2 ^ t.w = 2 ^ (t.w - 1) - 1 := by cases t <;> decide
    rw [body, body, BitVec.toNat_and, BitVec.toNat_ofNat, e, Nat.and_two_pow_sub_one_eq_mod, Nat.mod_mod]

theorem body_sAbs (v : BitVec t.w) : body t (sAbs v) = body t v := by
  rw [sAbs]; split
  · rfl
  · exact FloatLane.body_fneg t _

/-- C90: `abs` has the absolute value of the lane; it is the scalar operator bit for bit exactly if the lane is not
`-0` nor a NaN with a clear sign, or on f64 of ARMv7. -/
theorem abs_lane (x : Ext) (a : Vec n (BitVec t.w)) (i : Fin n) :
    fl t (ArmFloat.abs x a i) = FloatLane.mod (fl t (a i)) ∧
    (ArmFloat.abs x a i = sAbs (a i) ↔ scalar64 x t = true ∨
      ¬ (a i = BitVec.twoPow t.w (t.w - 1) ∨ (isNaN t (a i) = true ∧ (a i).msb = false))) := by
  unfold ArmFloat.abs
  cases hs : scalar64 x t
  · simp only [Bool.false_eq_true, if_false, false_or]
    obtain ⟨h1, h2⟩ := clear_sign (a i)
    constructor
    · exact FloatLane.fl_clear t h1 h2
    · rw [← FloatLane.abs_sign, Bool.not_eq_true]
      constructor
      · intro h; rw [← h]; exact h1
      · intro h
        exact FloatLane.ext_body (h1.trans h.symm) (h2.trans (body_sAbs _).symm)
  · simp only [if_true, true_or, iff_true]
    exact ⟨FloatLane.abs_fl t _, trivial⟩

/-! ### Minimum and maximum -/

/-- `-0`. Specification (IEEE-754). -/
def negZero (t : FTy) : BitVec t.w := BitVec.twoPow t.w (t.w - 1)

theorem negZero_spec (t : FTy) : (negZero t).msb = true ∧ body t (negZero t) = 0 ∧
    (0#t.w).msb = false ∧ body t 0#t.w = 0 := by cases t <;> decide

theorem zero_cases {a : BitVec t.w} (h : body t a = 0) : a = 0#t.w ∨ a = negZero t := by
  obtain ⟨h1, h2, h3, h4⟩ := negZero_spec t
  cases hm : a.msb
  · exact .inl (FloatLane.ext_body (hm.trans h3.symm) (h.trans h4.symm))
  · exact .inr (FloatLane.ext_body (hm.trans h1.symm) (h.trans h2.symm))

/-- Patterns of the same key are equal, or both are zeros. -/
theorem key_eq_cases {a b : BitVec t.w} (h : key t a = key t b) : a = b ∨ body t a = 0 ∧ body t b = 0 := by
  unfold key at h
  cases ha : a.msb <;> cases hb : b.msb <;> simp only [ha, hb, Bool.false_eq_true, if_false, if_true] at h
  · exact .inl (FloatLane.ext_body (ha.trans hb.symm) (by omega))
  · exact .inr (by omega)
  · exact .inr (by omega)
  · exact .inl (FloatLane.ext_body (ha.trans hb.symm) (by omega))

/-- What is required of the NaN an instruction returns. Specification (IEEE-754). -/
def NanOk (nan : BitVec t.w → BitVec t.w → BitVec t.w) : Prop :=
  ∀ a b, isNaN t a = true ∨ isNaN t b = true → isNaN t (nan a b) = true

theorem or_zero (t : FTy) : (0#t.w ||| 0#t.w) = 0#t.w ∧ (negZero t ||| negZero t) = negZero t ∧
    (0#t.w ||| negZero t) = negZero t ∧ (negZero t ||| 0#t.w) = negZero t ∧ negZero t ≠ 0#t.w ∧
    (0#t.w &&& 0#t.w) = 0#t.w ∧ (negZero t &&& negZero t) = negZero t ∧
    (0#t.w &&& negZero t) = 0#t.w ∧ (negZero t &&& 0#t.w) = 0#t.w ∧ isNaN t (negZero t) = false ∧
    isNaN t 0#t.w = false := by
  cases t <;> decide

theorem fmin_same {nan : BitVec t.w → BitVec t.w → BitVec t.w} (hn : NanOk nan) (a b : BitVec t.w) :
    (Same (fmin nan a b) (sMin a b) ↔
      ¬ ((isNaN t a = true ∧ isNaN t b = false) ∨ (a = negZero t ∧ b = 0#t.w))) ∧
    (Same (fmax nan a b) (sMax a b) ↔
      ¬ ((isNaN t a = true ∧ isNaN t b = false) ∨ (a = 0#t.w ∧ b = negZero t))) := by
  obtain ⟨z1, z2, z3, z4, z5, z6, z7, z8, z9, z10, z11⟩ := or_zero t
  unfold fmin fmax sMin sMax Same
  cases ha : isNaN t a
  · cases hb : isNaN t b
    · have e1 : flt t a b = decide (key t a < key t b) := by simp [flt, ha, hb]
      have e2 : flt t b a = decide (key t b < key t a) := by simp [flt, ha, hb]
      rw [e1, e2]
      rcases lt_trichotomy (key t a) (key t b) with h | h | h
      · have hz : ∀ u v : BitVec t.w, body t u = 0 → body t v = 0 → ¬ (a = u ∧ b = v) := by
          rintro u v hu hv ⟨rfl, rfl⟩
          simp [key, hu, hv] at h
        obtain ⟨-, n1, -, n2⟩ := negZero_spec t
        simp [h, h.le, hz _ _ n1 n2, hz _ _ n2 n1, not_lt.mpr h.le]
      · rcases key_eq_cases h with rfl | ⟨h1, h2⟩
        · simp only [lt_self_iff_false, decide_false, Bool.false_eq_true, if_false, Bool.or_self, BitVec.or_self,
            BitVec.and_self, true_or, true_iff, false_and, false_or]
          exact ⟨fun ⟨h, h'⟩ => z5 (h.symm.trans h'), fun ⟨h, h'⟩ => z5 (h'.symm.trans h)⟩
        · rcases zero_cases h1 with rfl | rfl <;> rcases zero_cases h2 with rfl | rfl <;>
            simp [h, z1, z2, z3, z4, z5, z5.symm, z6, z7, z8, z9, z10, z11]
      · have hz : ∀ u v : BitVec t.w, body t u = 0 → body t v = 0 → ¬ (a = u ∧ b = v) := by
          rintro u v hu hv ⟨rfl, rfl⟩
          simp [key, hu, hv] at h
        obtain ⟨-, n1, -, n2⟩ := negZero_spec t
        simp [h, h.le, hz _ _ n1 n2, hz _ _ n2 n1, not_lt.mpr h.le]
    · have hz : b ≠ 0#t.w ∧ b ≠ negZero t := by
        constructor <;> rintro rfl
        · rw [z11] at hb; cases hb
        · rw [z10] at hb; cases hb
      simp [flt, hb, hz, hn a b (.inr hb)]
  · have hz : a ≠ 0#t.w ∧ a ≠ negZero t := by
      constructor <;> rintro rfl
      · rw [z11] at ha; cases ha
      · rw [z10] at ha; cases ha
    have hr := hn a b (.inl ha)
    cases hb : isNaN t b
    · have ne : nan a b ≠ b := fun h => by rw [h, hb] at hr; cases hr
      simp [flt, ha, hb, hz, hr, ne]
    · simp [flt, ha, hb, hz, hr]

/-- C90: `min` and `max` are the scalar operators, up to the choice of a NaN, except exactly on a NaN against a number
(a NaN, while the scalar operator returns the second operand) and on zeros of opposite signs in one of the two orders. -/
theorem minmax_lane (x : Ext) {nan : BitVec t.w → BitVec t.w → BitVec t.w} (hn : NanOk nan) (a b : Vec n (BitVec t.w))
    (i : Fin n) (ha : Plain x (a i)) (hb : Plain x (b i)) :
    (Same (ArmFloat.min x nan a b i) (sMin (a i) (b i)) ↔ scalar64 x t = true ∨
      ¬ ((isNaN t (a i) = true ∧ isNaN t (b i) = false) ∨ (a i = negZero t ∧ b i = 0#t.w))) ∧
    (Same (ArmFloat.max x nan a b i) (sMax (a i) (b i)) ↔ scalar64 x t = true ∨
      ¬ ((isNaN t (a i) = true ∧ isNaN t (b i) = false) ∨ (a i = 0#t.w ∧ b i = negZero t))) := by
  unfold ArmFloat.min ArmFloat.max
  rw [inp_plain x ha, inp_plain x hb]
  cases scalar64 x t
  · simpa only [Bool.false_eq_true, if_false, false_or] using fmin_same hn (a i) (b i)
  · simp only [if_true, true_or, iff_true]
    exact ⟨.refl _, .refl _⟩

/-- C90: on numbers, `min` and `max` have the value of the scalar operators, zeros included. -/
theorem minmax_fl (x : Ext) {nan : BitVec t.w → BitVec t.w → BitVec t.w} (hn : NanOk nan) (a b : Vec n (BitVec t.w))
    (i : Fin n) (ha : Plain x (a i)) (hb : Plain x (b i)) (na : isNaN t (a i) = false) (nb : isNaN t (b i) = false) :
    fl t (ArmFloat.min x nan a b i) = fl t (sMin (a i) (b i)) ∧
    fl t (ArmFloat.max x nan a b i) = fl t (sMax (a i) (b i)) := by
  obtain ⟨h1, h2⟩ := minmax_lane x hn a b i ha hb
  obtain ⟨z1, z2, z3, z4, z5, z6, z7, z8, z9, z10, z11⟩ := or_zero t
  have fz : fl t (negZero t) = fl t 0#t.w := by
    have : negZero t = fneg t 0#t.w := by cases t <;> decide
    rw [this, show fl t (fneg t 0#t.w) = _ from (FloatLane.neg_fl t _).1, FloatLane.fl_zero]
    simp [FloatLane.opp]
  have k : ∀ u v : BitVec t.w, body t u = 0 → body t v = 0 → flt t u v = false := by
    intro u v hu hv; simp [flt, key, hu, hv]
  obtain ⟨-, n1, -, n2⟩ := negZero_spec t
  constructor
  · by_cases h : scalar64 x t = true ∨
      ¬ ((isNaN t (a i) = true ∧ isNaN t (b i) = false) ∨ (a i = negZero t ∧ b i = 0#t.w))
    · exact (h1.mpr h).fl
    · obtain ⟨hs, h⟩ := not_or.mp h
      rw [not_not, na] at h
      obtain ⟨e1, e2⟩ := h.resolve_left (by simp)
      rw [ArmFloat.min, inp_plain x ha, inp_plain x hb, if_neg hs, e1, e2, fmin, sMin, k _ _ n1 n2, k _ _ n2 n1]
      simp [z10, z11, z4, fz]
  · by_cases h : scalar64 x t = true ∨
      ¬ ((isNaN t (a i) = true ∧ isNaN t (b i) = false) ∨ (a i = 0#t.w ∧ b i = negZero t))
    · exact (h2.mpr h).fl
    · obtain ⟨hs, h⟩ := not_or.mp h
      rw [not_not, na] at h
      obtain ⟨e1, e2⟩ := h.resolve_left (by simp)
      rw [ArmFloat.max, inp_plain x ha, inp_plain x hb, if_neg hs, e1, e2, fmax, sMax, k _ _ n1 n2, k _ _ n2 n1]
      simp [z10, z11, z8, fz]

/-! ### Comparisons -/

theorem rel_plain {a b : BitVec t.w} (r : BitVec t.w → BitVec t.w → Bool) (ha : Plain x a) (hb : Plain x b) :
    rel x r a b = r a b := by rw [rel, inp_plain x ha, inp_plain x hb]

/-- C90: every comparison of NEON registers and of SVE, with registers or predicates as logicals, gives the logical
of the scalar comparisons of the lanes; on ARMv7 if the operands are not subnormal. -/
theorem cmp_lane (r : BitVec t.w → BitVec t.w → Bool) (a b : Vec n (BitVec t.w)) (ha : ∀ i, Plain x (a i))
    (hb : ∀ i, Plain x (b i)) :
    Represents (Arm.cmp t.w (rel x r) a b) (fun i => r (a i) (b i)) ∧
    Represents (Arm.cmpSveEmul t.w (rel x r) a b) (fun i => r (a i) (b i)) ∧
    (∀ i, Arm.cmpSve (rel x r) a b i = r (a i) (b i)) ∧
    Represents (Arm.ne t.w (rel x r) a b) (fun i => !r (a i) (b i)) ∧
    (∀ i, Arm.neSve (rel x r) a b i = !r (a i) (b i)) := by
  have e : ∀ i, rel x r (a i) (b i) = r (a i) (b i) := fun i => rel_plain r (ha i) (hb i)
  obtain ⟨h1, h2, h3⟩ := ArmLane.cmp_spec t.w (rel x r) a b
  obtain ⟨h4, h5⟩ := ArmLane.ne_spec t.w (rel x r) a b
  simp only [e] at h1 h2 h3 h4 h5
  exact ⟨h1, h2, h3, h4, h5⟩

/-- C90: f64 on ARMv7 is compared by scalars, subnormals included. -/
theorem cmp64_lane (r : BitVec FTy.f64.w → BitVec FTy.f64.w → Bool) (a b : Vec 2 (BitVec FTy.f64.w)) :
    Represents (Arm.cmp64 r a b) (fun i => r (a i) (b i)) ∧
    Represents (Arm.ne64 r a b) (fun i => !r (a i) (b i)) :=
  ⟨ArmLane.cmp64_spec r a b, ArmLane.ne64_spec r a b⟩

/-- C90: the vector comparison of f32 on ARMv7 orders the values with subnormals taken as zero. -/
theorem neon_cmp_fl (a b : BitVec FTy.f32.w) :
    rel .neon128 (flt .f32) a b =
      (if 0 < body .f32 a ∧ body .f32 a < 2 ^ 23 then .fin 0 else fl .f32 a : Nsimd.Round.Fl).lt
        (if 0 < body .f32 b ∧ body .f32 b < 2 ^ 23 then .fin 0 else fl .f32 b) := by
  have h : ∀ v : BitVec FTy.f32.w, fl .f32 (flush .f32 v) =
      if 0 < body .f32 v ∧ body .f32 v < 2 ^ 23 then .fin 0 else fl .f32 v := by
    intro v
    by_cases hv : Subnormal v
    · rw [((flush_fl v).1 hv).1, if_pos (show 0 < body .f32 v ∧ _ from hv)]
    · rw [(flush_fl v).2 hv, if_neg (show ¬ (0 < body .f32 v ∧ _) from hv)]
  rw [← h, ← h]
  exact FloatLane.lt_fl .f32 _ _

/-- C90: so a vector comparison on ARMv7 may differ from the scalar one: `2^-149 > 0` is false. -/
theorem neon_gt_differs : ∃ a b : Vec 4 (BitVec FTy.f32.w),
    Represents (Arm.cmp FTy.f32.w (rel .neon128 fun u v => flt .f32 v u) a b) (fun _ => false) ∧
    ∀ i, sGt (a i) (b i) = true := by
  refine ⟨fun _ => 1#32, fun _ => 0#32, ?_, fun _ => show sGt (t := .f32) 1#32 0#32 = true by decide⟩
  have h := (ArmLane.cmp_spec FTy.f32.w (rel .neon128 fun u v => flt .f32 v u) (fun _ : Fin 4 => 1#32) fun _ => 0#32).1
  have e : rel (t := .f32) .neon128 (fun u v => flt .f32 v u) 1#32 0#32 = false := by decide
  simpa only [e] using h

/-! ### Multiply-add -/

/-- C90: `fma`, `fms`, `fnma`, `fnms` of AArch64 and SVE are the fused scalar operators on every lane, up to the
choice of a NaN. -/
theorem fma_lane (hx : x ≠ .neon128) (hV : IsIeee V) (hA : IsIeee A) (c99 : Bool) (a b c : Vec n (BitVec t.w))
    (i : Fin n) :
    Same (ArmFloat.fma x V A c99 a b c i) (sFma A true (a i) (b i) (c i)) ∧
    Same (ArmFloat.fms x V A c99 a b c i) (sFms A true (a i) (b i) (c i)) ∧
    Same (ArmFloat.fnma x V A c99 a b c i) (sFnma A true (a i) (b i) (c i)) ∧
    Same (ArmFloat.fnms x V A c99 a b c i) (sFnms A true (a i) (b i) (c i)) := by
  have hs : scalar64 x t = false := by simp [scalar64, hx]
  have key : ∀ p q r, Same (V.fma q p r) (A.fma p q r) := fun p q r =>
    (hV.fma q p r).trans ((Same.of_eq (Ieee.fma_comm q p r)).trans (hA.fma p q r).symm)
  have key' : ∀ p q r, Same (V.fma (fneg t q) p r) (A.fma (fneg t p) q r) := fun p q r =>
    (hV.fma _ p r).trans ((Same.of_eq ((Ieee.fma_neg q p r).trans (Ieee.fma_comm q _ r))).trans (hA.fma _ q r).symm)
  have hm : ∀ c, ArmFloat.fma x V A c99 a b c i = V.fma (b i) (a i) (c i) := fun c => by
    simp [ArmFloat.fma, hs, hx, vfma]
  have hnm : ∀ c, ArmFloat.fnma x V A c99 a b c i = V.fma (fneg t (b i)) (a i) (c i) := fun c => by
    simp [ArmFloat.fnma, hs, hx, vfms]
  have hms : ArmFloat.fms x V A c99 a b c i = V.fma (b i) (a i) (fneg t (c i)) := by
    cases x
    · exact absurd rfl hx
    · show ArmFloat.fma .aarch64 V A c99 a b _ i = _
      rw [hm, neg_lane]; rfl
    · rfl
  have hnms : ArmFloat.fnms x V A c99 a b c i = V.fma (fneg t (b i)) (a i) (fneg t (c i)) := by
    cases x
    · exact absurd rfl hx
    · show ArmFloat.fnma .aarch64 V A c99 a b _ i = _
      rw [hnm, neg_lane]; rfl
    · rfl
  rw [hm, hms, hnm, hnms]
  exact ⟨key _ _ _, key _ _ _, key' _ _ _, key' _ _ _⟩

/-- C90: f64 on ARMv7 is computed by the scalar operators. -/
theorem fma64_lane {V A : Arith .f64} (c99 : Bool) (a b c : Vec n (BitVec FTy.f64.w)) (i : Fin n) :
    ArmFloat.fma .neon128 V A c99 a b c i = sFma A c99 (a i) (b i) (c i) ∧
    ArmFloat.fms .neon128 V A c99 a b c i = sFms A c99 (a i) (b i) (c i) ∧
    ArmFloat.fnma .neon128 V A c99 a b c i = sFnma A c99 (a i) (b i) (c i) ∧
    ArmFloat.fnms .neon128 V A c99 a b c i = sFnms A c99 (a i) (b i) (c i) := by
  have h := neg_lane .neon128 c i
  have hm : ∀ c, ArmFloat.fma .neon128 V A c99 a b c i = sFma A c99 (a i) (b i) (c i) := fun _ => rfl
  have hn : ∀ c, ArmFloat.fnma .neon128 V A c99 a b c i = sFnma A c99 (a i) (b i) (c i) := fun _ => rfl
  refine ⟨hm c, ?_, hn c, ?_⟩
  · show ArmFloat.fma .neon128 V A c99 a b _ i = _
    rw [hm, h]; rfl
  · show ArmFloat.fnma .neon128 V A c99 a b _ i = _
    rw [hn, h]; rfl

/-- C90: f32 on ARMv7 is rounded twice, as the scalar operators of a compiler without `fma`, if operands, product and
sum are not small. -/
theorem fma32_lane {V A : Arith .f32} (hV : NeonOk V) (hA : IsIeee A) (c99 : Bool) (a b c : Vec n (BitVec FTy.f32.w))
    (i : Fin n) (ha : ¬ Subnormal (t := .f32) (a i)) (hb : ¬ Subnormal (t := .f32) (b i))
    (hc : ¬ Subnormal (t := .f32) (c i)) (hp : Large (t := .f32) (Ieee.mul (t := .f32) (a i) (b i))) :
    (Large (sFma (Ieee.ref .f32) false (a i) (b i) (c i)) →
      Same (ArmFloat.fma .neon128 V A c99 a b c i) (sFma A false (a i) (b i) (c i))) ∧
    (Large (sFms (Ieee.ref .f32) false (a i) (b i) (c i)) →
      Same (ArmFloat.fms .neon128 V A c99 a b c i) (sFms A false (a i) (b i) (c i))) ∧
    (Large (sFnma (Ieee.ref .f32) false (a i) (b i) (c i)) →
      Same (ArmFloat.fnma .neon128 V A c99 a b c i) (sFnma A false (a i) (b i) (c i))) ∧
    (Large (sFnms (Ieee.ref .f32) false (a i) (b i) (c i)) →
      Same (ArmFloat.fnms .neon128 V A c99 a b c i) (sFnms A false (a i) (b i) (c i))) := by
  have hmul : Same (V.mul (b i) (a i)) (Ieee.mul (t := .f32) (a i) (b i)) := by
    have := hV.mul (b i) (a i) hb ha (by rwa [Ieee.mul_comm])
    rwa [Ieee.mul_comm] at this
  have hsub : ¬ Subnormal (V.mul (b i) (a i)) := by
    rintro ⟨h1, h2⟩
    rcases hmul with h | ⟨h, -⟩
    · rw [h] at h1 h2; rcases hp with hp | hp <;> omega
    · have : 2 ^ FTy.f32.m < (2 ^ FTy.f32.e - 1) * 2 ^ FTy.f32.m := by decide
      simp only [isNaN, decide_eq_true_eq] at h; omega
  have hneg : ∀ v : BitVec FTy.f32.w, ¬ Subnormal v → ¬ Subnormal (fneg .f32 v) := by
    intro v h; unfold Subnormal; rwa [FloatLane.body_fneg]
  -- the scalar operators add `c` to the product
  have scalar : ∀ p q r, Same (sFma A false p q r) (Ieee.add (t := .f32) (Ieee.mul p q) r) := fun p q r =>
    (hA.add _ _).trans (Same.of_eq (Ieee.add_congr (hA.mul p q) (.refl r)))
  have plus : ∀ d : BitVec FTy.f32.w, ¬ Subnormal d → Large (Ieee.add (t := .f32) (Ieee.mul (a i) (b i)) d) →
      Same (V.add d (V.mul (b i) (a i))) (sFma A false (a i) (b i) d) := by
    intro d hd hl
    have e : Ieee.add d (V.mul (b i) (a i)) = Ieee.add (t := .f32) (Ieee.mul (a i) (b i)) d :=
      (Ieee.add_congr (.refl d) hmul).trans (Ieee.add_comm _ _)
    have := hV.add d _ hd hsub (by rwa [e])
    rw [e] at this
    exact this.trans (scalar _ _ _).symm
  have minus : ∀ d : BitVec FTy.f32.w, ¬ Subnormal d →
      Large (Ieee.add (t := .f32) (Ieee.mul (fneg .f32 (a i)) (b i)) d) →
      Same (V.add d (fneg .f32 (V.mul (b i) (a i)))) (sFma A false (fneg .f32 (a i)) (b i) d) := by
    intro d hd hl
    have e : Ieee.add d (fneg .f32 (V.mul (b i) (a i))) = Ieee.add (t := .f32) (Ieee.mul (fneg .f32 (a i)) (b i)) d :=
      (Ieee.add_congr (.refl d) (hmul.fneg.trans (Ieee.mul_neg _ _).symm)).trans (Ieee.add_comm _ _)
    have := hV.add d _ hd (hneg _ hsub) (by rwa [e])
    rw [e] at this
    exact this.trans (scalar _ _ _).symm
  have hn := neg_lane .neon128 c i
  refine ⟨plus _ hc, fun h => ?_, minus _ hc, fun h => ?_⟩
  · have := plus _ (hneg _ hc) h
    rw [← sNeg, ← hn] at this; exact this
  · have := minus _ (hneg _ hc) h
    rw [show fneg .f32 (c i) = ArmFloat.neg .neon128 c i from hn.symm] at this; exact this

/-! ### Rounding to an integral value -/

variable {C W : Integral t} {rnd : ℚ → ℚ}

/-- C90: `floor` and `ceil` are exact on every lane of every extension. -/
theorem floor_lane (hC : FloatLane.IntegralOk t C) (hW : FloatLane.IntegralOk t W) (a : Vec n (BitVec t.w))
    (i : Fin n) :
    fl t (ArmFloat.floor x W C a i) = (fl t (a i)).floor ∧ fl t (ArmFloat.ceil x W C a i) = (fl t (a i)).ceil := by
  unfold ArmFloat.floor ArmFloat.ceil
  split
  · exact ⟨hC.floor _, hC.ceil _⟩
  · exact ⟨hW.floor _, hW.ceil _⟩

/-- C90: `trunc` rounds every lane toward zero, `round_to_even` to the nearest integer, ties to even; infinities and
NaN are kept. -/
theorem trunc_round_lane (hA : FloatLane.ArithOk t A rnd) (hC : FloatLane.IntegralOk t C)
    (hW : FloatLane.IntegralOk t W) (c99 : Bool) (a : Vec n (BitVec t.w)) (i : Fin n) :
    (∀ q, fl t (a i) = .fin q →
      (∃ k : ℤ, fl t (ArmFloat.trunc x W C c99 a i) = .fin k ∧ Round.TowardZero q k) ∧
      ∃ k : ℤ, fl t (ArmFloat.roundToEven x A W C a i) = .fin k ∧ Round.NearestEven q k) ∧
    ((∀ q, fl t (a i) ≠ .fin q) →
      fl t (ArmFloat.trunc x W C c99 a i) = fl t (a i) ∧ fl t (ArmFloat.roundToEven x A W C a i) = fl t (a i)) := by
  unfold ArmFloat.trunc ArmFloat.roundToEven
  split
  · have h1 := FloatLane.trunc_fl t hC c99 (a i)
    have h2 := FloatLane.round_fl t hA hC (a i)
    exact ⟨fun q hq => ⟨h1.1 q hq, h2.1 q hq⟩, fun h => ⟨h1.2 h, h2.2 h⟩⟩
  · exact ⟨fun q hq => ⟨hW.trunc _ q hq, hW.near _ q hq⟩, fun h => ⟨hW.truncSpecial _ h, hW.nearSpecial _ h⟩⟩

/-! ### f16 -/

/-- C90: without half precision instructions the operators of f16 apply the f32 operator to all lanes of both
registers, so every theorem above holds of each lane. -/
theorem f16_lane {α : Type} {f1 : Vec n α → Vec n α} {f2 : Vec n α → Vec n α → Vec n α}
    {f3 : Vec n α → Vec n α → Vec n α → Vec n α} (P1 : α → α → Prop) (P2 : α → α → α → Prop)
    (P3 : α → α → α → α → Prop) (h1 : ∀ a i, P1 (f1 a i) (a i)) (h2 : ∀ a b i, P2 (f2 a b i) (a i) (b i))
    (h3 : ∀ a b c i, P3 (f3 a b c i) (a i) (b i) (c i)) (a b c : Vec n α × Vec n α) (i : Fin (n + n)) :
    P1 (X86.cat (f16op1 f1 a).1 (f16op1 f1 a).2 i) (X86.cat a.1 a.2 i) ∧
    P2 (X86.cat (f16op2 f2 a b).1 (f16op2 f2 a b).2 i) (X86.cat a.1 a.2 i) (X86.cat b.1 b.2 i) ∧
    P3 (X86.cat (f16op3 f3 a b c).1 (f16op3 f3 a b c).2 i) (X86.cat a.1 a.2 i) (X86.cat b.1 b.2 i)
      (X86.cat c.1 c.2 i) := by
  revert i
  rw [X86Mem.forall_halves]
  simp only [X86Mem.cat_lo, X86Mem.cat_hi]
  exact ⟨fun i => ⟨h1 _ i, h2 _ _ i, h3 _ _ _ i⟩, fun i => ⟨h1 _ i, h2 _ _ i, h3 _ _ _ i⟩⟩

/-! ### The hypotheses can be met -/

/-- Instructions that flush operands and results, as ARMv7 does. Example data. -/
def exNeon (t : FTy) : Arith t where
  add a b := flush t (Ieee.add (flush t a) (flush t b))
  sub a b := flush t (Ieee.sub (flush t a) (flush t b))
  mul a b := flush t (Ieee.mul (flush t a) (flush t b))
  div a b := flush t (Ieee.div (flush t a) (flush t b))
  sqrt a := flush t (Ieee.sqrt (flush t a))
  fma a b c := flush t (Ieee.fma (flush t a) (flush t b) (flush t c))

theorem exNeon_ok (t : FTy) : NeonOk (exNeon t) := by
  have large : ∀ r : BitVec t.w, Large r → ¬ Subnormal r := fun r h ⟨h1, h2⟩ => by
    rcases h with h | h <;> omega
  constructor <;> intro a b ha hb hr <;> refine Same.of_eq ?_ <;>
    simp only [exNeon, (flush_fl a).2 ha, (flush_fl b).2 hb] <;> exact (flush_fl _).2 (large _ hr)

-- all hypotheses together, with lanes 1.5 and 3
example : ∃ C : Integral .f32, VecOk .neon128 (exNeon .f32) ∧ VecOk .sve (Ieee.ref .f32) ∧ IsIeee (Ieee.ref .f32) ∧
    FloatLane.ArithOk .f32 (Ieee.ref .f32) (Ieee.rq .f32) ∧ FloatLane.IntegralOk .f32 C ∧
    NanOk (t := .f32) (fun _ _ => Ieee.qnan .f32) ∧
    Safe .neon128 .f32 [0x3fc00000#32, 0x40400000#32] [Ieee.add (t := .f32) 0x3fc00000#32 0x40400000#32] ∧
    Large (t := .f32) (Ieee.mul (t := .f32) 0x3fc00000#32 0x40400000#32) := by
  obtain ⟨_, C, _, _, h⟩ := FloatLane.exists_ok .f32
  have e1 : Ieee.add (t := .f32) 0x3fc00000#32 0x40400000#32 = 0x40900000#32 := by decide +kernel
  have e2 : Ieee.mul (t := .f32) 0x3fc00000#32 0x40400000#32 = 0x40900000#32 := by decide +kernel
  rw [e1, e2]
  refine ⟨C, exNeon_ok _, Ieee.ref_isIeee _, Ieee.ref_isIeee _, Ieee.arithOk (Ieee.ref_isIeee _), h,
    fun _ _ _ => Ieee.isNaN_qnan _, fun _ _ => ?_, ?_⟩
  · unfold Subnormal Large
    simp only [List.mem_cons, List.not_mem_nil, or_false, forall_eq_or_imp, forall_eq]
    decide +kernel
  · unfold Large; decide +kernel

/-- C90: on ARMv7 the restriction is needed: `2^-126 - 1.5 * 2^-126` is flushed. -/
theorem neon_sub_differs : ArmFloat.sub (n := 4) .neon128 (exNeon .f32) (Ieee.ref .f32) (fun _ => 0x00800000#32)
      (fun _ => 0x00c00000#32) 0 = 0x80000000#32 ∧
    Ieee.sub (t := .f32) 0x00800000#32 0x00c00000#32 = 0x80400000#32 := by
  have e : flush .f32 0x00800000#32 = 0x00800000#32 := by decide +kernel
  have e' : flush .f32 0x00c00000#32 = 0x00c00000#32 := by decide +kernel
  have e2 : Ieee.sub (t := .f32) 0x00800000#32 0x00c00000#32 = 0x80400000#32 := by decide +kernel
  refine ⟨?_, e2⟩
  show (exNeon .f32).sub _ _ = _
  simp only [exNeon, e, e', e2]
  decide +kernel

/-- C90: the multiply-add of f32 on ARMv7 is not fused, that of AArch64 is: `(1 + 2^-12)^2 - (1 + 2^-11)`. -/
theorem neon_fms_not_fused : ArmFloat.fms (n := 4) .neon128 (exNeon .f32) (Ieee.ref .f32) true
      (fun _ => 0x3f800800#32) (fun _ => 0x3f800800#32) (fun _ => 0x3f801000#32) 0 = 0#32 ∧
    ArmFloat.fms (n := 4) .aarch64 (Ieee.ref .f32) (Ieee.ref .f32) true (fun _ => 0x3f800800#32)
      (fun _ => 0x3f800800#32) (fun _ => 0x3f801000#32) 0 = 0x33800000#32 := by
  constructor
  · show (exNeon .f32).add (0x3f801000#32 ^^^ BitVec.twoPow 32 31) ((exNeon .f32).mul 0x3f800800#32 0x3f800800#32) = _
    have e1 : flush .f32 0x3f800800#32 = 0x3f800800#32 := by decide +kernel
    have e2 : Ieee.mul (t := .f32) 0x3f800800#32 0x3f800800#32 = 0x3f801000#32 := by decide +kernel
    have e3 : flush .f32 0x3f801000#32 = 0x3f801000#32 := by decide +kernel
    have e4 : flush .f32 (0x3f801000#32 ^^^ BitVec.twoPow 32 31) = 0xbf801000#32 := by decide +kernel
    have e5 : Ieee.add (t := .f32) 0xbf801000#32 0x3f801000#32 = 0#32 := by decide +kernel
    simp only [exNeon, e1, e2, e3, e4, e5]
    decide +kernel
  · decide +kernel

-- `min(NaN, 1)` is a NaN, and 1 for scalars; `min(-0, 0)` is -0, and 0 for scalars
example : ArmFloat.min (t := .f32) (n := 4) .aarch64 (fun _ _ => 0x7fc00000#32) (fun _ => 0x7fc00000#32)
      (fun _ => 0x3f800000#32) 0 = 0x7fc00000#32 ∧ sMin (t := .f32) 0x7fc00000#32 0x3f800000#32 = 0x3f800000#32 ∧
    ArmFloat.min (t := .f32) (n := 4) .aarch64 (fun _ _ => 0x7fc00000#32) (fun _ => 0x80000000#32)
      (fun _ => 0#32) 0 = 0x80000000#32 ∧ sMin (t := .f32) 0x80000000#32 0#32 = 0#32 := by decide

end Nsimd.Props.ArmFloat
