import Verif.Model.PpcFloat
import Verif.Props.ArmFloat
import Verif.Props.PpcLane

/-!
# C91: floating point operators of the POWER back end against the scalar operators
-/

namespace Nsimd.Props.PpcFloat
open Nsimd Nsimd.FloatLane Nsimd.PpcFloat
open Nsimd.Cpu (Vec)
open Nsimd.Ppc (Ext)
open Nsimd.Props.FloatLane (fl)
open Nsimd.Props.Ieee (Same IsIeee)
open Nsimd.Props.ArmLane (Represents)
open Nsimd.Props.ArmFloat (negZero NanOk)

variable {t : FTy} {n : Nat} {x : Ext} {V A : Arith t}

/-- C91: add, sub, mul, div, sqrt and rec are the scalar operators on every lane, up to the choice of a NaN. -/
theorem arith_lane (hV : IsIeee V) (hA : IsIeee A) (a b : Vec n (BitVec t.w)) (i : Fin n) :
    Same (PpcFloat.add x V A a b i) (A.add (a i) (b i)) ∧ Same (PpcFloat.sub x V A a b i) (A.sub (a i) (b i)) ∧
    Same (PpcFloat.mul x V A a b i) (A.mul (a i) (b i)) ∧ Same (PpcFloat.div x V A a b i) (A.div (a i) (b i)) ∧
    Same (PpcFloat.sqrt x V A a i) (A.sqrt (a i)) ∧ Same (PpcFloat.rec1 x V A a i) (sRec A (a i)) := by
  unfold PpcFloat.add PpcFloat.sub PpcFloat.mul PpcFloat.div PpcFloat.sqrt PpcFloat.rec1 sRec
  cases emulated x t
  · simp only [Bool.false_eq_true, if_false]
    exact ⟨(hV.add _ _).trans (hA.add _ _).symm, (hV.sub _ _).trans (hA.sub _ _).symm,
      (hV.mul _ _).trans (hA.mul _ _).symm, (hV.div _ _).trans (hA.div _ _).symm,
      (hV.sqrt _).trans (hA.sqrt _).symm, (hV.div _ _).trans (hA.div _ _).symm⟩
  · simp only [if_true]
    exact ⟨.refl _, .refl _, .refl _, .refl _, .refl _, .refl _⟩

/-- C91: `neg` is the scalar operator. -/
theorem neg_lane (a : Vec n (BitVec t.w)) (i : Fin n) : PpcFloat.neg x a i = sNeg (a i) := by
  unfold PpcFloat.neg sNeg fneg
  split <;> rfl

/-- C91: `abs` has the absolute value of the lane; it is the scalar operator bit for bit exactly if the lane is not
`-0` nor a NaN with a clear sign, or on f64 of VMX. -/
theorem abs_lane (a : Vec n (BitVec t.w)) (i : Fin n) :
    fl t (PpcFloat.abs x a i) = FloatLane.mod (fl t (a i)) ∧
    (PpcFloat.abs x a i = sAbs (a i) ↔ emulated x t = true ∨
      ¬ (a i = negZero t ∨ (isNaN t (a i) = true ∧ (a i).msb = false))) := by
  unfold PpcFloat.abs
  cases hs : emulated x t
  · simp only [Bool.false_eq_true, if_false, false_or]
    obtain ⟨h1, h2⟩ := ArmFloat.clear_sign (a i)
    refine ⟨FloatLane.fl_clear t h1 h2, ?_⟩
    rw [negZero, ← FloatLane.abs_sign, Bool.not_eq_true]
    constructor
    · intro h; rw [← h]; exact h1
    · intro h
      exact FloatLane.ext_body (h1.trans h.symm) (h2.trans (ArmFloat.body_sAbs _).symm)
  · simp only [if_true, true_or, iff_true]
    exact ⟨FloatLane.abs_fl t _, trivial⟩

/-! ### Minimum and maximum -/

/-- C91: `min` and `max` of VMX (f32) are the scalar operators, up to the choice of a NaN, except exactly on a NaN
against a number and on zeros of opposite signs in one order. -/
theorem minmax_vmx {nan : BitVec t.w → BitVec t.w → BitVec t.w} (hn : NanOk nan) (a b : Vec n (BitVec t.w)) (i : Fin n) :
    (Same (PpcFloat.min .vmx nan a b i) (sMin (a i) (b i)) ↔ t = .f64 ∨
      ¬ ((isNaN t (a i) = true ∧ isNaN t (b i) = false) ∨ (a i = negZero t ∧ b i = 0#t.w))) ∧
    (Same (PpcFloat.max .vmx nan a b i) (sMax (a i) (b i)) ↔ t = .f64 ∨
      ¬ ((isNaN t (a i) = true ∧ isNaN t (b i) = false) ∨ (a i = 0#t.w ∧ b i = negZero t))) := by
  unfold PpcFloat.min PpcFloat.max
  cases t
  · have := ArmFloat.fmin_same hn (a i) (b i)
    simpa [emulated, vecMin, vecMax] using this
  · simp only [emulated, Same.refl, and_self, decide_true, if_true, true_or]

/-- C91: `min` and `max` of VSX are the scalar operators, up to the choice of a NaN, except exactly on a signaling NaN
against a number, on a number against a quiet NaN, and on zeros of opposite signs in one order. -/
theorem minmax_vsx {nan : BitVec t.w → BitVec t.w → BitVec t.w} (hn : NanOk nan) (a b : Vec n (BitVec t.w)) (i : Fin n) :
    (Same (PpcFloat.min .vsx nan a b i) (sMin (a i) (b i)) ↔
      ¬ ((isSNaN (a i) = true ∧ isNaN t (b i) = false) ∨
        (isNaN t (a i) = false ∧ isNaN t (b i) = true ∧ isSNaN (b i) = false) ∨ (a i = negZero t ∧ b i = 0#t.w))) ∧
    (Same (PpcFloat.max .vsx nan a b i) (sMax (a i) (b i)) ↔
      ¬ ((isSNaN (a i) = true ∧ isNaN t (b i) = false) ∨
        (isNaN t (a i) = false ∧ isNaN t (b i) = true ∧ isSNaN (b i) = false) ∨ (a i = 0#t.w ∧ b i = negZero t))) := by
  have he : emulated .vsx t = false := rfl
  unfold PpcFloat.min PpcFloat.max
  simp only [he, Bool.false_eq_true, if_false, vecMin, vecMax, num]
  generalize a i = u
  generalize b i = v
  obtain ⟨-, -, -, -, -, -, -, -, -, z10, z11⟩ := ArmFloat.or_zero t
  have key := ArmFloat.fmin_same hn u v
  have hs : ∀ w : BitVec t.w, isNaN t w = false → isSNaN w = false := fun w h => by simp [isSNaN, h]
  have nz : ∀ w : BitVec t.w, isNaN t w = true → w ≠ 0#t.w ∧ w ≠ negZero t := by
    intro w hw
    constructor <;> rintro rfl
    · rw [z11] at hw; cases hw
    · rw [z10] at hw; cases hw
  cases hu : isNaN t u
  · cases hv : isNaN t v
    · simpa [hs u hu, hs v hv, hu, hv] using key
    · have hr := hn u v (.inr hv)
      have e : sMin u v = v ∧ sMax u v = v := by simp [sMin, sMax, flt, hv]
      have ne : u ≠ v := by rintro rfl; rw [hu] at hv; cases hv
      rw [e.1, e.2]
      cases hsv : isSNaN v
      · simp [hs u hu, hu, hv, Same, ne, nz v hv]
      · simp [hs u hu, hv, Same, hr, nz v hv]
  · cases hv : isNaN t v
    · have hr := hn u v (.inl hu)
      have e : sMin u v = v ∧ sMax u v = v := by simp [sMin, sMax, flt, hu]
      have ne : nan u v ≠ v := fun h => by rw [h, hv] at hr; cases hr
      rw [e.1, e.2]
      cases hsu : isSNaN u
      · simp [hs v hv, hu, hv, Same, nz u hu]
      · simp [hv, Same, ne, nz u hu]
    · have hr := hn u v (.inl hu)
      have e : sMin u v = v ∧ sMax u v = v := by simp [sMin, sMax, flt, hu]
      rw [e.1, e.2]
      have : isSNaN u = false ∨ isSNaN u = true := by cases isSNaN u <;> simp
      split <;> simp [Same, hu, hv, hr, nz u hu]

/-! ### Comparisons and selection -/

/-- C91: every comparison gives the logical of the scalar comparisons of the lanes and is defined; the second form is
f64 on VMX. -/
theorem cmp_lane (r : BitVec t.w → BitVec t.w → Bool) (a b : Vec (n + 1) (BitVec t.w)) :
    (∃ l, Ppc.cmpF t.w r a b = some l ∧ Represents l fun i => r (a i) (b i)) ∧
    Represents (Ppc.cmp64 r a b) (fun i => r (a i) (b i)) := by
  refine ⟨PpcLane.cmpF_spec t.w r a b, fun i => ?_⟩
  unfold Ppc.cmp64 Ppc.emulateCmp
  rw [PpcLane.boolLane64_eq]

/-! ### Multiply-add -/

/-- The exact sum of the addends `p = ± a b` (given by its sign and value) and `c` is zero, and they have opposite
signs. Specification. -/
def Cancels (a b c : BitVec t.w) : Prop :=
  (∃ p q r : ℚ, fl t a = .fin p ∧ fl t b = .fin q ∧ fl t c = .fin r ∧ p * q + r = 0) ∧ (a.msb ^^ b.msb) ≠ c.msb

/-- A datum is a NaN, infinite, or has the value of its units. -/
theorem fl_split (a : BitVec t.w) :
    (isNaN t a = true ∧ fl t a = .nan) ∨ (isNaN t a = false ∧ Ieee.isInf a = true ∧ ∃ s, fl t a = .inf s) ∨
    (isNaN t a = false ∧ Ieee.isInf a = false ∧ fl t a = .fin (Ieee.uv a * Ieee.ulp t)) := by
  rcases FloatLane.fl_cases t a with ⟨h, h'⟩ | ⟨h, h', hb⟩ | ⟨h, h', hb⟩
  · exact .inl ⟨h, h'⟩
  · exact .inr (.inl ⟨h, by simp [Ieee.isInf, Ieee.infBody, hb], _, h'⟩)
  · refine .inr (.inr ⟨h, ?_, ?_⟩)
    · rw [Ieee.isInf, decide_eq_false_iff_not]; exact hb.ne
    · rw [h', Ieee.value_uv]

theorem neg_fma (a b c : BitVec t.w) :
    Same (fneg t (Ieee.fma a b c)) (Ieee.fma (fneg t a) b (fneg t c)) ↔ ¬ Cancels a b c := by
  have hq : Same (fneg t (Ieee.qnan t)) (Ieee.qnan t) := .inr ⟨by rw [Ieee.isNaN_fneg, Ieee.isNaN_qnan], Ieee.isNaN_qnan t⟩
  have hx : ((!a.msb) ^^ b.msb) = !(a.msb ^^ b.msb) := by simp
  unfold Ieee.fma
  rw [Ieee.isNaN_fneg, Ieee.isNaN_fneg, Ieee.isInf_fneg, Ieee.isInf_fneg, Ieee.isZero_fneg, Ieee.uv_fneg, Ieee.uv_fneg,
    FloatLane.msb_fneg, FloatLane.msb_fneg, hx]
  have hb : ((!(a.msb ^^ b.msb)) != !c.msb) = ((a.msb ^^ b.msb) != c.msb) := by simp
  rw [hb]
  rcases fl_split a with ⟨na, fa⟩ | ⟨na, ia, _, fa⟩ | ⟨na, ia, fa⟩
  · simp [na, hq, Cancels, fa]
  · have hc : ¬ Cancels a b c := by simp [Cancels, fa]
    simp only [hc, not_false_iff, iff_true, ia, Bool.true_or, if_true]
    split
    · exact hq
    · split
      · exact hq
      · exact .of_eq (Ieee.fneg_mk _ _)
  rcases fl_split b with ⟨nb, fb⟩ | ⟨nb, ib, _, fb⟩ | ⟨nb, ib, fb⟩
  · simp [nb, hq, Cancels, fb]
  · have hc : ¬ Cancels a b c := by simp [Cancels, fb]
    simp only [hc, not_false_iff, iff_true, ib, Bool.or_true, if_true]
    split
    · exact hq
    · split
      · exact hq
      · exact .of_eq (Ieee.fneg_mk _ _)
  rcases fl_split c with ⟨nc, fc⟩ | ⟨nc, ic, _, fc⟩ | ⟨nc, ic, fc⟩
  · simp [nc, hq, Cancels, fc]
  · have hc : ¬ Cancels a b c := by simp [Cancels, fc]
    simp [hc, na, nb, nc, ia, ib, ic, Same.refl]
  simp only [na, nb, nc, ia, ib, ic, Bool.or_false, Bool.false_eq_true, if_false]
  have hu := Ieee.ulp_pos t
  have hc : Cancels a b c ↔ (Ieee.uv a * Ieee.uv b * Ieee.ulp t + Ieee.uv c : ℚ) = 0 ∧ (a.msb ^^ b.msb) ≠ c.msb := by
    unfold Cancels
    refine and_congr_left fun _ => ?_
    constructor
    · rintro ⟨p, q, r, hp, hq, hr, h⟩
      rw [fa, Round.Fl.fin.injEq] at hp; rw [fb, Round.Fl.fin.injEq] at hq; rw [fc, Round.Fl.fin.injEq] at hr
      rw [← hp, ← hq, ← hr] at h
      have : ((Ieee.uv a * Ieee.uv b * Ieee.ulp t + Ieee.uv c : ℚ)) * Ieee.ulp t = 0 := by rw [← h]; ring
      exact (mul_eq_zero.mp this).resolve_right hu.ne'
    · intro h
      refine ⟨_, _, _, fa, fb, fc, ?_⟩
      rw [show (Ieee.uv a * Ieee.ulp t * (Ieee.uv b * Ieee.ulp t) + Ieee.uv c * Ieee.ulp t : ℚ) =
        (Ieee.uv a * Ieee.uv b * Ieee.ulp t + Ieee.uv c) * Ieee.ulp t by ring, h, zero_mul]
  rw [hc]
  push_cast
  rw [show (-(Ieee.uv a : ℚ) * Ieee.uv b * Ieee.ulp t + -Ieee.uv c) = -(Ieee.uv a * Ieee.uv b * Ieee.ulp t + Ieee.uv c) by ring]
  generalize (Ieee.uv a * Ieee.uv b * Ieee.ulp t + Ieee.uv c : ℚ) = q
  generalize (a.msb ^^ b.msb) = s
  generalize c.msb = s'
  unfold Ieee.signed
  by_cases h0 : q = 0
  · subst h0
    simp only [neg_zero, if_true, Ieee.fneg_mk, true_and, not_not]
    constructor
    · intro h
      have := h.eq (Ieee.isNaN_mk _ _)
      have := congrArg BitVec.msb this
      rw [(Ieee.mk_spec t _ _).1, (Ieee.mk_spec t _ _).1] at this
      cases s <;> cases s' <;> simp_all
    · rintro rfl
      cases s <;> exact .refl _
  · rw [if_neg h0, if_neg (by simpa using h0), Ieee.fneg_mk, abs_neg]
    simp only [h0, false_and, not_false_iff, iff_true]
    refine .of_eq ?_
    congr 1
    rcases lt_or_gt_of_ne h0 with h | h
    · simp [h, not_lt.mpr h.le]
    · simp [h, not_lt.mpr h.le]

/-- C91: `fma` and `fms` are the fused scalar operators, up to the choice of a NaN; `fnma` and `fnms` of native types
are, except exactly if the exact result is zero with addends of opposite signs. -/
theorem fma_lane (hV : IsIeee V) (hA : IsIeee A) (hx : emulated x t = false) (c99 : Bool)
    (a b c : Vec n (BitVec t.w)) (i : Fin n) :
    Same (PpcFloat.fma x V A .fma c99 a b c i) (sFma A true (a i) (b i) (c i)) ∧
    Same (PpcFloat.fma x V A .fms c99 a b c i) (sFms A true (a i) (b i) (c i)) ∧
    (Same (PpcFloat.fma x V A .fnma c99 a b c i) (sFnma A true (a i) (b i) (c i)) ↔
      ¬ Cancels (a i) (b i) (fneg t (c i))) ∧
    (Same (PpcFloat.fma x V A .fnms c99 a b c i) (sFnms A true (a i) (b i) (c i)) ↔
      ¬ Cancels (a i) (b i) (c i)) := by
  have same : ∀ {u u' v v' : BitVec t.w}, Same u u' → Same v v' → (Same u v ↔ Same u' v') := fun h h' =>
    ⟨fun k => h.symm.trans (k.trans h'), fun k => h.trans (k.trans h'.symm)⟩
  unfold PpcFloat.fma
  simp only [hx, Bool.false_eq_true, if_false]
  refine ⟨(hV.fma _ _ _).trans (hA.fma _ _ _).symm, (hV.fma _ _ _).trans (hA.fma _ _ _).symm, ?_, ?_⟩
  · refine (same (hV.fma (a i) (b i) (fneg t (c i))).fneg (hA.fma (fneg t (a i)) (b i) (c i))).trans ?_
    have := neg_fma (a i) (b i) (fneg t (c i))
    rwa [Ieee.fneg_fneg] at this
  · exact (same (hV.fma (a i) (b i) (c i)).fneg (hA.fma (fneg t (a i)) (b i) (fneg t (c i)))).trans
      (neg_fma (a i) (b i) (c i))

theorem fma_cancels {a b c : BitVec t.w} (h : Cancels a b c) : Ieee.fma a b c = 0#t.w := by
  obtain ⟨⟨p, q, r, hp, hq, hr, h0⟩, hs⟩ := h
  obtain ⟨a1, a2, a3⟩ := Ieee.not_special hp
  obtain ⟨b1, b2, b3⟩ := Ieee.not_special hq
  obtain ⟨c1, c2, c3⟩ := Ieee.not_special hr
  have e : (Ieee.uv a * Ieee.uv b * Ieee.ulp t + Ieee.uv c : ℚ) = 0 := by
    have : ((Ieee.uv a * Ieee.uv b * Ieee.ulp t + Ieee.uv c : ℚ)) * Ieee.ulp t = 0 := by
      rw [← h0, a3, b3, c3]; ring
    exact (mul_eq_zero.mp this).resolve_right (Ieee.ulp_pos t).ne'
  have z : ((a.msb ^^ b.msb) && c.msb) = false := by
    revert hs; generalize (a.msb ^^ b.msb) = s; generalize c.msb = s'
    cases s <;> cases s' <;> simp
  rw [Ieee.fma, a1, a2, b1, b2, c1, c2]
  simp only [Bool.or_self, Bool.false_eq_true, if_false]
  rw [e, z, Ieee.signed, if_pos rfl]
  cases t <;> decide

theorem cancels_neg {a b c : BitVec t.w} (h : Cancels a b c) : Cancels (fneg t a) b (fneg t c) := by
  obtain ⟨⟨p, q, r, hp, hq, hr, h0⟩, hs⟩ := h
  refine ⟨⟨-p, q, -r, ?_, hq, ?_, by linarith⟩, ?_⟩
  · rw [show fl t (fneg t a) = _ from (FloatLane.neg_fl t a).1, hp]; rfl
  · rw [show fl t (fneg t c) = _ from (FloatLane.neg_fl t c).1, hr]; rfl
  · rw [FloatLane.msb_fneg, FloatLane.msb_fneg]
    revert hs
    cases a.msb <;> cases b.msb <;> cases c.msb <;> simp

/-- C91: where they differ, `fnma` and `fnms` give -0 and the scalar operators +0: a difference of sign only. -/
theorem fnma_cancels (hV : IsIeee V) (hA : IsIeee A) (hx : emulated x t = false) (c99 : Bool)
    (a b c : Vec n (BitVec t.w)) (i : Fin n) :
    (Cancels (a i) (b i) (fneg t (c i)) →
      PpcFloat.fma x V A .fnma c99 a b c i = negZero t ∧ sFnma A true (a i) (b i) (c i) = 0#t.w) ∧
    (Cancels (a i) (b i) (c i) →
      PpcFloat.fma x V A .fnms c99 a b c i = negZero t ∧ sFnms A true (a i) (b i) (c i) = 0#t.w) := by
  unfold PpcFloat.fma
  simp only [hx, Bool.false_eq_true, if_false]
  have nz : isNaN t 0#t.w = false := FloatLane.isNaN_zero t
  have hz : fneg t 0#t.w = negZero t := by cases t <;> decide
  have one : ∀ (B : Arith t) (p q r : BitVec t.w), IsIeee B → Cancels p q r → B.fma p q r = 0#t.w := by
    intro B p q r hB h
    have k := hB.fma p q r
    rw [fma_cancels h] at k
    exact (k.symm.eq nz).symm
  refine ⟨fun h => ⟨?_, ?_⟩, fun h => ⟨?_, ?_⟩⟩
  · show fneg t (V.fma _ _ _) = _
    rw [one V _ _ _ hV h, hz]
  · have := cancels_neg h
    rw [Ieee.fneg_fneg] at this
    exact one A _ _ _ hA this
  · show fneg t (V.fma _ _ _) = _
    rw [one V _ _ _ hV h, hz]
  · exact one A _ _ _ hA (cancels_neg h)

/-- C91: f64 on VMX is computed by the scalar operators, `rec11` and `rsqrt11` included. -/
theorem emulated_lane (hx : emulated x t = true) (f : Fma) (c99 : Bool) (re rsqrte : BitVec t.w → BitVec t.w)
    (a b c : Vec n (BitVec t.w)) (i : Fin n) :
    PpcFloat.fma x V A f c99 a b c i = scalarFma A f c99 (a i) (b i) (c i) ∧
    PpcFloat.rec11 x A re a i = sRec A (a i) ∧ PpcFloat.rsqrt11 x A rsqrte a i = sRsqrt A (a i) := by
  unfold PpcFloat.fma PpcFloat.rec11 PpcFloat.rsqrt11
  simp only [hx, if_true, and_self]

/-! ### Rounding to an integral value -/

variable {C W : Integral t} {rnd : ℚ → ℚ}

/-- C91: `floor` and `ceil` are exact on every lane. -/
theorem floor_lane (hC : FloatLane.IntegralOk t C) (hW : FloatLane.IntegralOk t W) (a : Vec n (BitVec t.w))
    (i : Fin n) :
    fl t (PpcFloat.floor x W C a i) = (fl t (a i)).floor ∧ fl t (PpcFloat.ceil x W C a i) = (fl t (a i)).ceil := by
  unfold PpcFloat.floor PpcFloat.ceil
  split
  · exact ⟨hC.floor _, hC.ceil _⟩
  · exact ⟨hW.floor _, hW.ceil _⟩

/-- C91: `trunc` rounds every lane toward zero; infinities and NaN are kept. -/
theorem trunc_lane (hC : FloatLane.IntegralOk t C) (hW : FloatLane.IntegralOk t W) (c99 : Bool)
    (a : Vec n (BitVec t.w)) (i : Fin n) :
    (∀ q, fl t (a i) = .fin q →
      ∃ k : ℤ, fl t (PpcFloat.trunc x W C c99 a i) = .fin k ∧ Round.TowardZero q k) ∧
    ((∀ q, fl t (a i) ≠ .fin q) → fl t (PpcFloat.trunc x W C c99 a i) = fl t (a i)) := by
  unfold PpcFloat.trunc
  split
  · exact FloatLane.trunc_fl t hC c99 (a i)
  · exact ⟨hW.trunc _, hW.truncSpecial _⟩

/-- C91: `round_to_even` is defined and rounds every lane to the nearest integer, ties to even; infinities and NaN
are kept. -/
theorem round_lane (hA : FloatLane.ArithOk t A rnd) (hC : FloatLane.IntegralOk t C) (a : Vec (n + 1) (BitVec t.w)) :
    ∃ r, PpcFloat.roundToEven x A C a = some r ∧ ∀ i,
      (∀ q, fl t (a i) = .fin q → ∃ k : ℤ, fl t (r i) = .fin k ∧ Round.NearestEven q k) ∧
      ((∀ q, fl t (a i) ≠ .fin q) → fl t (r i) = fl t (a i)) := by
  refine ⟨fun i => sRound A C (a i), ?_, fun i => FloatLane.round_fl t hA hC (a i)⟩
  unfold PpcFloat.roundToEven
  split
  · rfl
  · rw [Ppc.fromLanes_eq_some]; exact fun i => rfl

/-! ### f16 -/

/-- C91: the operators of f16 apply the f32 operator to all lanes of both registers, so every theorem above holds of
each lane. -/
theorem f16_lane {α : Type} {f1 : Vec n α → Vec n α} {f2 : Vec n α → Vec n α → Vec n α}
    {f3 : Vec n α → Vec n α → Vec n α → Vec n α} (P1 : α → α → Prop) (P2 : α → α → α → Prop)
    (P3 : α → α → α → α → Prop) (h1 : ∀ a i, P1 (f1 a i) (a i)) (h2 : ∀ a b i, P2 (f2 a b i) (a i) (b i))
    (h3 : ∀ a b c i, P3 (f3 a b c i) (a i) (b i) (c i)) (a b c : Vec n α × Vec n α) (i : Fin (n + n)) :
    P1 (X86.cat (f16op1 f1 a).1 (f16op1 f1 a).2 i) (X86.cat a.1 a.2 i) ∧
    P2 (X86.cat (f16op2 f2 a b).1 (f16op2 f2 a b).2 i) (X86.cat a.1 a.2 i) (X86.cat b.1 b.2 i) ∧
    P3 (X86.cat (f16op3 f3 a b c).1 (f16op3 f3 a b c).2 i) (X86.cat a.1 a.2 i) (X86.cat b.1 b.2 i)
      (X86.cat c.1 c.2 i) :=
  ArmFloat.f16_lane P1 P2 P3 h1 h2 h3 a b c i

/-! ### The hypotheses can be met -/

-- `-(1 * 1) + 1` is +0 for scalars, -0 on POWER; `1 * 1 - 1` is `Cancels`
example : PpcFloat.fma (n := 4) .vsx (Ieee.ref .f32) (Ieee.ref .f32) .fnma true (fun _ => one .f32) (fun _ => one .f32)
      (fun _ => one .f32) 0 = negZero .f32 ∧
    sFnma (Ieee.ref .f32) true (one .f32) (one .f32) (one .f32) = 0#32 := by decide +kernel

example : Cancels (one .f32) (one .f32) (fneg .f32 (one .f32)) := by
  refine ⟨⟨1, 1, -1, Ieee.value_one _, Ieee.value_one _, ?_, by norm_num⟩, by decide⟩
  rw [show fl .f32 (fneg .f32 (one .f32)) = _ from (FloatLane.neg_fl .f32 _).1, Ieee.value_one]
  rfl

-- a NaN and a number: NaN on VMX, the number on VSX, the second operand for scalars
example : PpcFloat.min (t := .f32) (n := 4) .vmx (fun _ _ => 0x7fc00000#32) (fun _ => 0x3f800000#32)
      (fun _ => 0x7fc00000#32) 0 = 0x7fc00000#32 ∧
    PpcFloat.min (t := .f32) (n := 4) .vsx (fun _ _ => 0x7fc00000#32) (fun _ => 0x3f800000#32)
      (fun _ => 0x7fc00000#32) 0 = 0x3f800000#32 ∧
    sMin (t := .f32) 0x3f800000#32 0x7fc00000#32 = 0x7fc00000#32 := by decide

-- all hypotheses together
example : ∃ C : Integral .f64, IsIeee (Ieee.ref .f64) ∧ FloatLane.ArithOk .f64 (Ieee.ref .f64) (Ieee.rq .f64) ∧
    FloatLane.IntegralOk .f64 C ∧ NanOk (t := .f64) (fun _ _ => Ieee.qnan .f64) ∧ emulated .vmx .f64 = true ∧
    emulated .vsx .f64 = false := by
  obtain ⟨_, C, _, _, h⟩ := FloatLane.exists_ok .f64
  exact ⟨C, Ieee.ref_isIeee _, Ieee.arithOk (Ieee.ref_isIeee _), h, fun _ _ _ => Ieee.isNaN_qnan _, by decide, by decide⟩

end Nsimd.Props.PpcFloat
