import Verif.Model.X86Float
import Verif.Props.Ieee
import Verif.Props.X86OpsLogic
import Verif.Props.X86Lane

/-!
# C89: floating point operators of the x86 back end compute the scalar operators lane by lane
-/

namespace Nsimd.Props.X86Float
open Nsimd Nsimd.X86 Nsimd.X86Ops Nsimd.FloatLane Nsimd.X86Float
open Nsimd.Props.FloatLane (fl)
open Nsimd.Props.Ieee (Same IsIeee)
open Nsimd.Props.X86Ops (Repr)

variable {t : FTy} (I : Instr t) (x : Simd)

/-- C89: add, sub, mul, div, sqrt and rec are the scalar operation on every lane, on every extension. -/
theorem arith_lane (a b : BitVec (bits x)) (i : Nat) (hi : i < le x t.u) :
    lane t.w (X86Float.add I x a b) i = I.add (lane t.w a i) (lane t.w b i) ∧
    lane t.w (X86Float.sub I x a b) i = I.sub (lane t.w a i) (lane t.w b i) ∧
    lane t.w (X86Float.mul I x a b) i = I.mul (lane t.w a i) (lane t.w b i) ∧
    lane t.w (X86Float.div I x a b) i = I.div (lane t.w a i) (lane t.w b i) ∧
    lane t.w (X86Float.sqrt I x a) i = I.sqrt (lane t.w a i) ∧
    lane t.w (X86Float.rec1 I x a) i = sRec I.toArith (lane t.w a i) := by
  refine ⟨lane_vmap2 _ _ _ _ (fits hi), lane_vmap2 _ _ _ _ (fits hi), lane_vmap2 _ _ _ _ (fits hi),
    lane_vmap2 _ _ _ _ (fits hi), lane_vmap1 _ _ _ (fits hi), ?_⟩
  refine (lane_vmap2 _ _ _ _ (fits hi)).trans ?_
  rw [lane_set1 x t.u _ i hi]; rfl

/-- C89: `neg` is the scalar operator on every lane. -/
theorem neg_lane (a : BitVec (bits x)) (i : Nat) (hi : i < le x t.u) :
    lane t.w (X86Float.neg t x a) i = sNeg (lane t.w a i) := by
  rw [X86Float.neg, xorb, lane_xor, lane_set1 x t.u _ i hi, sNeg, fneg, BitVec.xor_comm]

/-- C89: `abs` clears the sign bit and keeps the others; it has the absolute value of the lane. -/
theorem abs_lane (a : BitVec (bits x)) (i : Nat) (hi : i < le x t.u) :
    (lane t.w (X86Float.abs t x a) i).msb = false ∧
    body t (lane t.w (X86Float.abs t x a) i) = body t (lane t.w a i) ∧
    fl t (lane t.w (X86Float.abs t x a) i) = FloatLane.mod (fl t (lane t.w a i)) := by
  have h : lane t.w (X86Float.abs t x a) i = lane t.w a i &&& BitVec.ofNat t.w (2 ^ (t.w - 1) - 1) := by
    rw [X86Float.abs, andb, lane_and, lane_set1 x t.u _ i hi]
  rw [h]
  generalize lane t.w a i = v
  have hm : (v &&& BitVec.ofNat t.w (2 ^ (t.w - 1) - 1)).msb = false := by
    have e : (BitVec.ofNat t.w (2 ^ (t.w - 1) - 1)).msb = false := by cases t <;> decide
    rw [BitVec.msb_and, e, Bool.and_false]
  have hb : body t (v &&& BitVec.ofNat t.w (2 ^ (t.w - 1) - 1)) = body t v := by
    have e : (2 ^ (t.w - 1) - 1) % 2 ^ t.w = 2 ^ (t.w - 1) - 1 := by cases t <;> decide
    rw [body, body, BitVec.toNat_and, BitVec.toNat_ofNat, e, Nat.and_two_pow_sub_one_eq_mod, Nat.mod_mod]
  exact ⟨hm, hb, FloatLane.fl_clear t hm hb⟩

/-- C89: the vector `abs` differs from the scalar one exactly on `-0` and on a NaN with a clear sign. -/
theorem abs_scalar (a : BitVec (bits x)) (i : Nat) (hi : i < le x t.u) :
    lane t.w (X86Float.abs t x a) i = sAbs (lane t.w a i) ↔
      ¬ (lane t.w a i = BitVec.twoPow t.w (t.w - 1) ∨
        (isNaN t (lane t.w a i) = true ∧ (lane t.w a i).msb = false)) := by
  obtain ⟨h1, h2, -⟩ := abs_lane x a i hi
  rw [← FloatLane.abs_sign, Bool.not_eq_true]
  constructor
  · intro h; rw [← h]; exact h1
  · intro h
    refine FloatLane.ext_body (h1.trans h.symm) (h2.trans ?_)
    rw [sAbs]; split
    · rfl
    · exact (FloatLane.body_fneg t _).symm

/-- C89: `min` and `max` are the scalar operators on every lane, bit for bit, also on NaN and zeros. -/
theorem minmax_lane (a b : BitVec (bits x)) (i : Nat) (hi : i < le x t.u) :
    lane t.w (X86Float.min t x a b) i = sMin (lane t.w a i) (lane t.w b i) ∧
    lane t.w (X86Float.max t x a b) i = sMax (lane t.w a i) (lane t.w b i) :=
  ⟨lane_vmap2 _ _ _ _ (fits hi), lane_vmap2 _ _ _ _ (fits hi)⟩

theorem cmpReg_lane {N : Nat} (p : BitVec t.w → BitVec t.w → Bool) (a b : BitVec N) (i : Nat)
    (hi : t.w * (i + 1) ≤ N) :
    lane t.w (cmpReg p a b) i = if p (lane t.w a i) (lane t.w b i) then BitVec.allOnes t.w else 0 :=
  lane_vmap2 (fun u v => if p u v then BitVec.allOnes t.w else 0) a b i hi

theorem cmp_repr (p : BitVec t.w → BitVec t.w → Bool) (a b : BitVec (bits x)) :
    Repr x t.u (X86Float.cmp x p a b) fun i => p (lane t.w a i) (lane t.w b i) := by
  cases x
  · exact fun i hi => cmpReg_lane p a b i (fits (x := .sse2) hi)
  · exact fun i hi => cmpReg_lane p a b i (fits (x := .sse42) hi)
  · exact fun i hi => cmpReg_lane p a b i (fits (x := .avx) hi)
  · exact fun i hi => cmpReg_lane p a b i (fits (x := .avx2) hi)
  · exact fun i hi => X86Ops.cmpMask_bit t.u p a b i hi
  · exact fun i hi => X86Ops.cmpMask_bit t.u p a b i hi

/-- C89: every comparison gives the logical of the scalar comparisons of the lanes. -/
theorem cmps_repr (a b : BitVec (bits x)) :
    Repr x t.u (X86Float.eq t x a b) (fun i => sEq (lane t.w a i) (lane t.w b i)) ∧
    Repr x t.u (X86Float.ne t x a b) (fun i => sNe (lane t.w a i) (lane t.w b i)) ∧
    Repr x t.u (X86Float.lt t x a b) (fun i => sLt (lane t.w a i) (lane t.w b i)) ∧
    Repr x t.u (X86Float.gt t x a b) (fun i => sGt (lane t.w a i) (lane t.w b i)) ∧
    Repr x t.u (X86Float.leq t x a b) (fun i => sLe (lane t.w a i) (lane t.w b i)) ∧
    Repr x t.u (X86Float.ge t x a b) (fun i => sGe (lane t.w a i) (lane t.w b i)) :=
  ⟨cmp_repr x _ a b, cmp_repr x _ a b, cmp_repr x _ b a, cmp_repr x _ a b, cmp_repr x _ a b, cmp_repr x _ a b⟩

/-- C89: `if_else1` selects by lane. -/
theorem ifElse_lane {l : BitVec (lbits x t.u)} {p : Nat → Bool} (h : Repr x t.u l p) (a b : BitVec (bits x))
    (i : Nat) (hi : i < le x t.u) :
    lane t.w (X86Float.ifElse t x l a b) i = if p i then lane t.w a i else lane t.w b i := by
  have key : ∀ m u v : BitVec t.w, m = (if p i then BitVec.allOnes t.w else 0) →
      X86Float.blendv t m u v = if p i then u else v := by
    rintro m u v rfl
    have h1 : (BitVec.allOnes t.w).msb = true := by cases t <;> decide
    cases p i
    · simp [X86Float.blendv]
    · simp [X86Float.blendv, h1]
  cases x
  · exact X86Ops.manual_lane' .sse2 t.u l a b _ i hi (h i hi)
  · exact (lane_vmap3 (N := 128) (X86Float.blendv t) l a b i (fits (x := .sse42) hi)).trans (key _ _ _ (h i hi))
  · exact (lane_vmap3 (N := 256) (X86Float.blendv t) l a b i (fits (x := .avx) hi)).trans (key _ _ _ (h i hi))
  · exact (lane_vmap3 (N := 256) (X86Float.blendv t) l a b i (fits (x := .avx2) hi)).trans (key _ _ _ (h i hi))
  · exact (X86Ops.maskBlend_lane t.u l b a i hi).trans (by rw [h i hi])
  · exact (X86Ops.maskBlend_lane t.u l b a i hi).trans (by rw [h i hi])

/-! ### Multiply-add -/

/-- The arithmetic instructions follow IEEE-754, and the other fused ones compute `±ab ± c` as `fma` does.
Specification (IEEE-754, Intel). -/
structure InstrOk : Prop where
  ieee : IsIeee I.toArith
  fmsub : ∀ a b c, Same (I.fmsub a b c) (Ieee.fma a b (fneg t c))
  fnmadd : ∀ a b c, Same (I.fnmadd a b c) (Ieee.fma (fneg t a) b c)
  fnmsub : ∀ a b c, Same (I.fnmsub a b c) (Ieee.fma (fneg t a) b (fneg t c))

/-- The scalar operator of the same name. Specification. -/
def scalarFma (f : Fma) (c99 : Bool) (a b c : BitVec t.w) : BitVec t.w :=
  match f with
  | .fma => sFma I.toArith c99 a b c
  | .fms => sFms I.toArith c99 a b c
  | .fnma => sFnma I.toArith c99 a b c
  | .fnms => sFnms I.toArith c99 a b c

/-- C89: a multiply-add gives on each lane the result of the scalar operator, up to the choice of a NaN: of the fused
one with `NSIMD_FMA` or on AVX-512, of the C89 one, with two roundings, otherwise. -/
theorem fma_lane (hI : InstrOk I) (f : Fma) (hasFma : Bool) (a b c : BitVec (bits x)) (i : Nat)
    (hi : i < le x t.u) :
    Same (lane t.w (X86Float.fma I x f hasFma a b c) i)
      (scalarFma I f (fused x hasFma) (lane t.w a i) (lane t.w b i) (lane t.w c i)) := by
  have hsub : ∀ u v, Same (I.sub u v) (I.add u (fneg t v)) := fun u v =>
    (hI.ieee.sub u v).trans (hI.ieee.add u (fneg t v)).symm
  unfold X86Float.fma
  cases hf : fused x hasFma
  · simp only [Bool.false_eq_true, if_false]
    have hn := neg_lane (t := t) x a i hi
    have hm := fun u => (arith_lane I x u b i hi).2.2.1
    have ha := fun u => (arith_lane I x u c i hi).1
    have hs := fun u => (arith_lane I x u c i hi).2.1
    cases f
    · simp [Fma.negs, Fma.adds, ha, hm, scalarFma, sFma, Same.refl]
    · simp [Fma.negs, Fma.adds, hs, hm, scalarFma, sFms, sFma, hsub]
    · simp [Fma.negs, Fma.adds, ha, hm, hn, scalarFma, sFnma, sFma, sNeg, Same.refl]
    · simp [Fma.negs, Fma.adds, hs, hm, hn, scalarFma, sFnms, sFma, sNeg, hsub]
  · simp only [if_true]
    rw [lane_vmap3 _ a b c i (fits hi)]
    cases f
    · exact .refl _
    · exact (hI.fmsub _ _ _).trans (hI.ieee.fma _ _ _).symm
    · exact (hI.fnmadd _ _ _).trans (hI.ieee.fma _ _ _).symm
    · exact (hI.fnmsub _ _ _).trans (hI.ieee.fma _ _ _).symm

/-! ### Rounding to an integral value -/

theorem emulate1_lane (undef : BitVec (bits x)) (f : BitVec t.w → BitVec t.w) (a : BitVec (bits x)) :
    ∃ r, emulate1 x undef f a = some r ∧ ∀ i, i < le x t.u → lane t.w r i = f (lane t.w a i) := by
  refine ⟨vmap1 t.w f a, ?_, fun i hi => lane_vmap1 f a i (fits hi)⟩
  rw [emulate1, X86Lane.emulTrick_spec]
  intro i hi
  exact congrArg some (lane_vmap1 f a i (fits (x := x) (t := t.u) hi)).symm

variable {C V : Integral t} {A : Arith t} {rnd : ℚ → ℚ}

/-- C89: `floor` and `ceil` are defined and exact on every lane, emulated or not. -/
theorem floor_lane (hC : FloatLane.IntegralOk t C) (hV : FloatLane.IntegralOk t V) (undef a : BitVec (bits x)) :
    (∃ r, X86Float.floor C x V undef a = some r ∧ ∀ i, i < le x t.u →
      fl t (lane t.w r i) = (fl t (lane t.w a i)).floor) ∧
    (∃ r, X86Float.ceil C x V undef a = some r ∧ ∀ i, i < le x t.u →
      fl t (lane t.w r i) = (fl t (lane t.w a i)).ceil) := by
  constructor
  · unfold X86Float.floor
    split
    · obtain ⟨r, h1, h2⟩ := emulate1_lane x undef (sFloor C) a
      exact ⟨r, h1, fun i hi => by rw [h2 i hi]; exact hC.floor _⟩
    · exact ⟨_, rfl, fun i hi => by rw [lane_vmap1 _ a i (fits hi)]; exact hV.floor _⟩
  · unfold X86Float.ceil
    split
    · obtain ⟨r, h1, h2⟩ := emulate1_lane x undef (sCeil C) a
      exact ⟨r, h1, fun i hi => by rw [h2 i hi]; exact hC.ceil _⟩
    · exact ⟨_, rfl, fun i hi => by rw [lane_vmap1 _ a i (fits hi)]; exact hV.ceil _⟩

/-- C89: `round_to_even` is defined and gives on each lane the nearest integer, ties to even; infinities and NaN
are kept. -/
theorem round_lane (hA : FloatLane.ArithOk t A rnd) (hC : FloatLane.IntegralOk t C)
    (hV : FloatLane.IntegralOk t V) (undef a : BitVec (bits x)) :
    ∃ r, X86Float.roundToEven C x A V undef a = some r ∧ ∀ i, i < le x t.u →
      (∀ q, fl t (lane t.w a i) = .fin q →
        ∃ k : ℤ, fl t (lane t.w r i) = .fin k ∧ Round.NearestEven q k) ∧
      ((∀ q, fl t (lane t.w a i) ≠ .fin q) → fl t (lane t.w r i) = fl t (lane t.w a i)) := by
  unfold X86Float.roundToEven
  split
  · obtain ⟨r, h1, h2⟩ := emulate1_lane x undef (sRound A C) a
    exact ⟨r, h1, fun i hi => by rw [h2 i hi]; exact FloatLane.round_fl t hA hC _⟩
  · exact ⟨_, rfl, fun i hi => by
      rw [lane_vmap1 _ a i (fits hi)]; exact ⟨hV.near _, hV.nearSpecial _⟩⟩

/-- C89: `trunc` is defined and rounds each lane toward zero on every extension: emulated on SSE 2 (C99 and C89
code), an instruction, or a selection between floor and ceil on AVX-512; infinities and NaN are kept. -/
theorem trunc_lane (c99 : Bool) (hC : FloatLane.IntegralOk t C) (hV : FloatLane.IntegralOk t V)
    (undef a : BitVec (bits x)) :
    ∃ r, X86Float.trunc C x c99 V undef a = some r ∧ ∀ i, i < le x t.u →
      (∀ q, fl t (lane t.w a i) = .fin q →
        ∃ k : ℤ, fl t (lane t.w r i) = .fin k ∧ Round.TowardZero q k) ∧
      ((∀ q, fl t (lane t.w a i) ≠ .fin q) → fl t (lane t.w r i) = fl t (lane t.w a i)) := by
  have direct : ∀ (y : Simd) (a : BitVec (bits y)) (i : Nat), i < le y t.u →
      (∀ q, fl t (lane t.w a i) = .fin q →
        ∃ k : ℤ, fl t (lane t.w (vmap1 t.w V.trunc a) i) = .fin k ∧ Round.TowardZero q k) ∧
      ((∀ q, fl t (lane t.w a i) ≠ .fin q) →
        fl t (lane t.w (vmap1 t.w V.trunc a) i) = fl t (lane t.w a i)) := by
    intro y a i hi
    rw [lane_vmap1 _ a i (fits hi)]
    exact ⟨hV.trunc _, hV.truncSpecial _⟩
  have select : ∀ (y : Simd) (a : BitVec (bits y)) (i : Nat), i < le y t.u →
      let r := X86Float.ifElse t y (X86Float.gt t y a 0) (vmap1 t.w V.floor a) (vmap1 t.w V.ceil a)
      (∀ q, fl t (lane t.w a i) = .fin q → ∃ k : ℤ, fl t (lane t.w r i) = .fin k ∧ Round.TowardZero q k) ∧
      ((∀ q, fl t (lane t.w a i) ≠ .fin q) → fl t (lane t.w r i) = fl t (lane t.w a i)) := by
    intro y a i hi r
    have h : fl t (lane t.w r i) = Nsimd.Round.truncAvx512 (fl t (lane t.w a i)) := by
      have e := ifElse_lane y (cmps_repr (t := t) y a 0).2.2.2.1 (vmap1 t.w V.floor a) (vmap1 t.w V.ceil a) i hi
      have g : sGt (lane t.w a i) (lane t.w (0 : BitVec (bits y)) i) =
          (Nsimd.Round.Fl.fin 0).lt (fl t (lane t.w a i)) := by
        rw [(FloatLane.cmp_fl t _ _).2.1, lane_zero, show (0 : BitVec t.w) = 0#t.w from rfl, FloatLane.fl_zero]
      rw [g] at e
      rw [show lane t.w r i = _ from e, apply_ite (fl t), lane_vmap1 _ a i (fits hi), lane_vmap1 _ a i (fits hi),
        hV.floor, hV.ceil]
      rfl
    rw [h]
    constructor
    · intro q hq; rw [hq]; exact (Round.trunc_towardZero q).2
    · intro hs
      cases ha : fl t (lane t.w a i) with
      | nan => rfl
      | inf s => exact Round.trunc_special.2.2.2.1 s
      | fin q => exact absurd ha (hs q)
  cases x
  · obtain ⟨r, h1, h2⟩ := emulate1_lane .sse2 undef (sTrunc C c99) a
    exact ⟨r, h1, fun i hi => by rw [h2 i hi]; exact FloatLane.trunc_fl t hC c99 _⟩
  · exact ⟨_, rfl, fun i hi => direct .sse42 a i hi⟩
  · exact ⟨_, rfl, fun i hi => direct .avx a i hi⟩
  · exact ⟨_, rfl, fun i hi => direct .avx2 a i hi⟩
  · exact ⟨_, rfl, fun i hi => select .knl a i hi⟩
  · exact ⟨_, rfl, fun i hi => select .skylake a i hi⟩

/-! ### f16 -/

/-- Lane `i` of a vector of f16, held as f32. Specification. -/
def lane16 {x : Simd} (a : F16 x) (i : Nat) : BitVec 32 :=
  if i < le x .u32 then lane 32 a.v0 i else lane 32 a.v1 (i - le x .u32)

/-- Operators of f16 apply the f32 operator to every lane of both halves. -/
theorem f16_lane {x : Simd} (g1 : BitVec 32 → BitVec 32) (g2 : BitVec 32 → BitVec 32 → BitVec 32)
    (g3 : BitVec 32 → BitVec 32 → BitVec 32 → BitVec 32)
    {f1 : BitVec (bits x) → BitVec (bits x)} {f2 : BitVec (bits x) → BitVec (bits x) → BitVec (bits x)}
    {f3 : BitVec (bits x) → BitVec (bits x) → BitVec (bits x) → BitVec (bits x)}
    (h1 : ∀ a i, i < le x .u32 → lane 32 (f1 a) i = g1 (lane 32 a i))
    (h2 : ∀ a b i, i < le x .u32 → lane 32 (f2 a b) i = g2 (lane 32 a i) (lane 32 b i))
    (h3 : ∀ a b c i, i < le x .u32 → lane 32 (f3 a b c) i = g3 (lane 32 a i) (lane 32 b i) (lane 32 c i))
    (a b c : F16 x) (i : Nat) (hi : i < 2 * le x .u32) :
    lane16 (f16op1 f1 a) i = g1 (lane16 a i) ∧
    lane16 (f16op2 f2 a b) i = g2 (lane16 a i) (lane16 b i) ∧
    lane16 (f16op3 f3 a b c) i = g3 (lane16 a i) (lane16 b i) (lane16 c i) := by
  unfold lane16
  by_cases h : i < le x .u32
  · simp only [h, if_true]
    exact ⟨h1 _ _ h, h2 _ _ _ h, h3 _ _ _ _ h⟩
  · simp only [h, if_false]
    have h' : i - le x .u32 < le x .u32 := by omega
    exact ⟨h1 _ _ h', h2 _ _ _ h', h3 _ _ _ _ h'⟩

/-- C89: the f16 operators, on all lanes of both registers, are the f32 scalar operators. -/
theorem f16_ops (I : Instr .f32) {x : Simd} (a b : F16 x) (i : Nat) (hi : i < 2 * le x .u32) :
    lane16 (f16op2 (X86Float.add I x) a b) i = I.add (lane16 a i) (lane16 b i) ∧
    lane16 (f16op2 (X86Float.sub I x) a b) i = I.sub (lane16 a i) (lane16 b i) ∧
    lane16 (f16op2 (X86Float.mul I x) a b) i = I.mul (lane16 a i) (lane16 b i) ∧
    lane16 (f16op2 (X86Float.div I x) a b) i = I.div (lane16 a i) (lane16 b i) ∧
    lane16 (f16op2 (X86Float.min .f32 x) a b) i = sMin (t := .f32) (lane16 a i) (lane16 b i) ∧
    lane16 (f16op2 (X86Float.max .f32 x) a b) i = sMax (t := .f32) (lane16 a i) (lane16 b i) ∧
    lane16 (f16op1 (X86Float.sqrt I x) a) i = I.sqrt (lane16 a i) ∧
    lane16 (f16op1 (X86Float.rec1 I x) a) i = sRec (t := .f32) I.toArith (lane16 a i) ∧
    lane16 (f16op1 (X86Float.neg .f32 x) a) i = sNeg (t := .f32) (lane16 a i) := by
  have two : ∀ (g : BitVec 32 → BitVec 32 → BitVec 32) (f : BitVec (bits x) → BitVec (bits x) → BitVec (bits x)),
      (∀ a b i, i < le x .u32 → lane 32 (f a b) i = g (lane 32 a i) (lane 32 b i)) →
      lane16 (f16op2 f a b) i = g (lane16 a i) (lane16 b i) := fun g f h =>
    (f16_lane (fun v => v) g (fun v _ _ => v) (f1 := fun v => v) (f3 := fun v _ _ => v)
      (fun _ _ _ => rfl) h (fun _ _ _ _ _ => rfl) a b a i hi).2.1
  have one : ∀ (g : BitVec 32 → BitVec 32) (f : BitVec (bits x) → BitVec (bits x)),
      (∀ a i, i < le x .u32 → lane 32 (f a) i = g (lane 32 a i)) →
      lane16 (f16op1 f a) i = g (lane16 a i) := fun g f h =>
    (f16_lane g (fun v _ => v) (fun v _ _ => v) (f2 := fun v _ => v) (f3 := fun v _ _ => v)
      h (fun _ _ _ _ => rfl) (fun _ _ _ _ _ => rfl) a b a i hi).1
  exact ⟨two _ _ fun a b i h => (arith_lane I x a b i h).1, two _ _ fun a b i h => (arith_lane I x a b i h).2.1,
    two _ _ fun a b i h => (arith_lane I x a b i h).2.2.1, two _ _ fun a b i h => (arith_lane I x a b i h).2.2.2.1,
    two _ _ fun a b i h => (minmax_lane (t := .f32) x a b i h).1,
    two _ _ fun a b i h => (minmax_lane (t := .f32) x a b i h).2,
    one _ _ fun a i h => (arith_lane I x a a i h).2.2.2.2.1, one _ _ fun a i h => (arith_lane I x a a i h).2.2.2.2.2,
    one _ _ fun a i h => neg_lane (t := .f32) x a i h⟩

/-- C89: before AVX-512, `rec11` and `rsqrt11` of f64 are the IEEE quotients of the scalar operators; otherwise
they are the approximation instructions. -/
theorem rec11_lane (I : Instr t) (x : Simd) (a : BitVec (bits x)) (i : Nat) (hi : i < le x t.u) :
    (t = .f64 ∧ x ≠ .knl ∧ x ≠ .skylake →
      lane t.w (X86Float.rec11 I x a) i = sRec I.toArith (lane t.w a i) ∧
      lane t.w (X86Float.rsqrt11 I x a) i = sRsqrt I.toArith (lane t.w a i)) ∧
    (t = .f32 ∨ x = .knl ∨ x = .skylake →
      lane t.w (X86Float.rec11 I x a) i = I.rcp (lane t.w a i) ∧
      lane t.w (X86Float.rsqrt11 I x a) i = I.rsqrt (lane t.w a i)) := by
  constructor
  · intro h
    have h1 := (arith_lane I x a a i hi).2.2.2.2.2
    have h2 := (arith_lane I x (X86Float.sqrt I x a) a i hi).2.2.2.2.2
    rw [(arith_lane I x a a i hi).2.2.2.2.1] at h2
    unfold X86Float.rec11 X86Float.rsqrt11
    rw [if_pos h, if_pos h]
    exact ⟨h1, h2⟩
  · intro h
    have n : ¬ (t = .f64 ∧ x ≠ .knl ∧ x ≠ .skylake) := by
      rintro ⟨rfl, h1, h2⟩
      rcases h with h | h | h
      · cases h
      · exact h1 h
      · exact h2 h
    unfold X86Float.rec11 X86Float.rsqrt11
    rw [if_neg n, if_neg n, lane_vmap1 _ a i (fits hi), lane_vmap1 _ a i (fits hi)]
    exact ⟨rfl, rfl⟩

/-! ### The hypotheses can be met -/

/-- The IEEE-754 reference as x86 instructions. Example data. -/
def exInstr (t : FTy) : Instr t where
  toArith := Ieee.ref t
  fmsub a b c := Ieee.fma a b (fneg t c)
  fnmadd a b c := Ieee.fma (fneg t a) b c
  fnmsub a b c := Ieee.fma (fneg t a) b (fneg t c)
  rcp a := Ieee.div (one t) a
  rsqrt a := Ieee.div (one t) (Ieee.sqrt a)

theorem exInstr_ok (t : FTy) : InstrOk (exInstr t) :=
  ⟨Ieee.ref_isIeee t, fun _ _ _ => .refl _, fun _ _ _ => .refl _, fun _ _ _ => .refl _⟩

/-- C89: without `NSIMD_FMA`, `fms` is not the fused scalar operator: `(1 + 2^-12)^2 - (1 + 2^-11)` gives 0 instead of
`2^-24`. -/
theorem fms_not_fused : ∃ a b c : BitVec (bits .avx2),
    lane 32 (X86Float.fma (exInstr .f32) .avx2 .fms false a b c) 0 = 0#32 ∧
    sFms (t := .f32) (Ieee.ref .f32) true (lane 32 a 0) (lane 32 b 0) (lane 32 c 0) = 0x33800000#32 := by
  refine ⟨set1 .avx2 .u32 0x3f800800#32, set1 .avx2 .u32 0x3f800800#32, set1 .avx2 .u32 0x3f801000#32, ?_, ?_⟩
  · have h := fma_lane (exInstr .f32) .avx2 (exInstr_ok .f32) .fms false (set1 .avx2 .u32 0x3f800800#32)
      (set1 .avx2 .u32 0x3f800800#32) (set1 .avx2 .u32 0x3f801000#32) 0 (by decide)
    rw [lane_set1 .avx2 FTy.f32.u _ 0 (by decide), lane_set1 .avx2 FTy.f32.u _ 0 (by decide)] at h
    exact (h.symm.eq (by decide +kernel)).symm.trans (by decide +kernel)
  · rw [lane_set1 .avx2 .u32 _ 0 (by decide), lane_set1 .avx2 .u32 _ 0 (by decide)]
    decide +kernel

-- lane 5 of a Skylake register of f32, and the data of every hypothesis together
example : ∃ C : Integral .f32, FloatLane.ArithOk .f32 (Ieee.ref .f32) (Ieee.rq .f32) ∧
    FloatLane.IntegralOk .f32 C ∧ InstrOk (exInstr .f32) ∧ 5 < le .skylake FTy.f32.u := by
  obtain ⟨_, C, _, _, h⟩ := FloatLane.exists_ok .f32
  exact ⟨C, Ieee.arithOk (Ieee.ref_isIeee _), h, exInstr_ok _, by decide⟩

-- the absolute value of -0 has a clear sign in vectors
example : lane 32 (X86Float.abs .f32 .sse2 (set1 .sse2 .u32 0x80000000#32)) 3 = 0 ∧
    sAbs (t := .f32) 0x80000000#32 = 0x80000000#32 := by
  constructor
  · rw [X86Float.abs, andb, lane_and, lane_set1 .sse2 .u32 _ 3 (by decide), lane_set1 .sse2 FTy.f32.u _ 3 (by decide)]
    decide
  · decide

end Nsimd.Props.X86Float
