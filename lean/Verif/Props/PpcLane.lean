import Verif.Model.PpcLane
import Verif.Props.ArmLane

/-!
# C82, C83, C54: integer operators, comparisons and logicals on POWER
-/

namespace Nsimd.Props.PpcLane
open Nsimd.Ppc
open Nsimd.X86 (Reg cat)
open Nsimd.Cpu (Vec LBin body_eq_some)
open Nsimd.Props.X86Mem (truth)
open Nsimd.Props.ArmLane (IsMod Represents isMod_of represents_inj ones_eq)
open Nsimd.ITy

variable {n w : Nat} {α : Type}

/-! ### C82: arithmetic -/

/-- Specification of an operator with exact results `v`: each lane is `v` modulo `2^w`, except for `i64` on
VMX where the lanes are exact and the operator is undefined if one does not fit.
Specification, not code of the repo. -/
def Wraps (x : Ext) (t : ITy) (v : Fin n → Int) (o : Option (Reg n t.w)) : Prop :=
  if x = .vmx ∧ t = .i64 then
    if ∀ i, t.minv ≤ v i ∧ v i ≤ t.maxv then ∃ r, o = some r ∧ ∀ i, t.val (r i) = v i
    else o = none
  else ∃ r, o = some r ∧ ∀ i, IsMod t (r i) (v i)

theorem body_none {f : Fin n → Option α} {i : Fin n} (h : f i = none) : Cpu.body f = none := by
  cases hb : Cpu.body f with
  | none => rfl
  | some r =>
    have := (body_eq_some ..).mp hb i
    rw [h] at this
    cases this

theorem wraps_body (x : Ext) (t : ITy) (he : emulated x t = true) (v : Fin n → Int)
    (f : Fin n → Option (BitVec t.w)) (h : ∀ i, WrapsOrUB t (v i) (f i)) :
    Wraps x t v (Cpu.body f) := by
  have hx : x = .vmx ∧ t.w = 64 := by simpa [emulated] using he
  have ht : t = .i64 ∨ t = .u64 := by
    cases t <;> first | exact absurd hx.2 (by decide) | exact Or.inl rfl | exact Or.inr rfl
  unfold Wraps
  rcases ht with rfl | rfl
  · rw [if_pos ⟨hx.1, rfl⟩]
    have h' : ∀ i, if ITy.i64.minv ≤ v i ∧ v i ≤ ITy.i64.maxv then
        ∃ r, f i = some r ∧ ITy.i64.val r = v i else f i = none := fun i => by
      have := h i
      unfold WrapsOrUB at this
      rwa [if_pos (Or.inr rfl)] at this
    split
    · rename_i hv
      have : ∀ i, ∃ r, f i = some r ∧ ITy.i64.val r = v i := fun i => by
        have := h' i; rwa [if_pos (hv i)] at this
      choose r hr using this
      exact ⟨r, (body_eq_some ..).mpr fun i => (hr i).1, fun i => (hr i).2⟩
    · rename_i hv
      rw [not_forall] at hv
      obtain ⟨i, hi⟩ := hv
      have := h' i
      rw [if_neg hi] at this
      exact body_none this
  · rw [if_neg (by rintro ⟨_, h⟩; cases h)]
    have h' : ∀ i, ∃ r, f i = some r ∧ ITy.u64.val r % 2 ^ ITy.u64.w = v i % 2 ^ ITy.u64.w := fun i => by
      have := h i
      unfold WrapsOrUB at this
      rwa [if_neg (by decide)] at this
    choose r hr using h'
    exact ⟨r, (body_eq_some ..).mpr fun i => (hr i).1, fun i => ⟨val_lb _ _, val_ub _ _, (hr i).2⟩⟩

theorem wraps_native (x : Ext) (t : ITy) (he : ¬ emulated x t = true) (v : Fin n → Int)
    (r : Reg n t.w) (h : ∀ i, t.cast (v i) = r i) : Wraps x t v (some r) := by
  unfold Wraps
  rw [if_neg (by rintro ⟨rfl, rfl⟩; exact he rfl)]
  exact ⟨r, rfl, fun i => isMod_of (h i)⟩

/-- Sums, differences, products and opposites wrap, but for `i64` on VMX, where overflow is undefined. -/
theorem wrap_spec (x : Ext) (t : ITy) (a b : Reg n t.w) :
    Wraps x t (fun i => t.val (a i) + t.val (b i)) (Ppc.add x t a b) ∧
    Wraps x t (fun i => t.val (a i) - t.val (b i)) (Ppc.sub x t a b) ∧
    Wraps x t (fun i => t.val (a i) * t.val (b i)) (Ppc.mul x t a b) ∧
    Wraps x t (fun i => - t.val (a i)) (Ppc.neg x t a) := by
  by_cases he : emulated x t = true
  · have ht : t ≠ .u16 := by rintro rfl; simp [emulated, ITy.w] at he
    refine ⟨?_, ?_, ?_, ?_⟩
    · rw [Ppc.add, if_pos he]; exact wraps_body x t he _ _ fun i => add_wraps_or_ub t _ _
    · rw [Ppc.sub, if_pos he]; exact wraps_body x t he _ _ fun i => sub_wraps_or_ub t _ _
    · rw [Ppc.mul, if_pos he]; exact wraps_body x t he _ _ fun i => mul_wraps_or_ub t ht _ _
    · rw [Ppc.neg, if_pos he]; exact wraps_body x t he _ _ fun i => neg_wraps_or_ub t _
  · refine ⟨?_, ?_, ?_, ?_⟩
    · rw [Ppc.add, if_neg he]; exact wraps_native x t he _ _ fun i => ArmLane.cast_add ..
    · rw [Ppc.sub, if_neg he]; exact wraps_native x t he _ _ fun i => ArmLane.cast_sub ..
    · rw [Ppc.mul, if_neg he]; exact wraps_native x t he _ _ fun i => ArmLane.cast_mul ..
    · rw [Ppc.neg, if_neg he]
      split
      · exact wraps_native x t he _ _ fun i => ArmLane.cast_neg ..
      · exact wraps_native x t he _ _ fun i => by
          rw [ArmLane.cast_neg, BitVec.zero_sub]

example : Ppc.add .vsx .i64 (n := 1) ![0x7fffffffffffffff#64] ![1#64] =
    some ![0x8000000000000000#64] := by
  rw [Ppc.add, if_neg (by decide)]; congr 1; funext i; match i with | 0 => decide
example : ¬ ∀ i : Fin 1, ITy.i64.minv ≤ (fun _ : Fin 1 => (2 : Int) ^ 63) i ∧
    (fun _ : Fin 1 => (2 : Int) ^ 63) i ≤ ITy.i64.maxv := by decide

/-- Quotients: every lane is the scalar quotient (truncated), and the operator is undefined as soon as one
lane is. -/
theorem div_spec (x : Ext) (t : ITy) (a b r : Reg (n + 1) t.w) :
    Ppc.div x t a b = some r ↔ ∀ i, Scalar.div t (a i) (b i) = some (r i) := by
  unfold Ppc.div
  split
  · unfold emulate2; exact body_eq_some ..
  · cases h0 : Scalar.div t (a 0) (b 0) with
    | none =>
      refine ⟨fun h => (by cases h), fun h => ?_⟩
      rw [h 0] at h0; cases h0
    | some q =>
      show List.foldlM _ (fun _ => q) _ = some r ↔ _
      rw [Ppc.foldlM_insert]
      exact ⟨fun h i => h.1 i (List.mem_finRange i), fun h => ⟨fun i _ => h i,
        fun i hi => absurd (List.mem_finRange i) hi⟩⟩

/-- Value of the quotients: lanes are the quotient rounded towards zero modulo `2^w`; undefined iff some
divisor is zero or some 32- or 64-bit signed quotient does not fit. -/
theorem div_value (x : Ext) (t : ITy) (a b : Reg (n + 1) t.w) :
    (∀ r, Ppc.div x t a b = some r →
      ∀ i, t.val (b i) ≠ 0 ∧ IsMod t (r i) (Int.tdiv (t.val (a i)) (t.val (b i)))) ∧
    (Ppc.div x t a b = none ↔ ∃ i, t.val (b i) = 0 ∨
      (t = .i32 ∨ t = .i64) ∧ t.maxv < Int.tdiv (t.val (a i)) (t.val (b i))) := by
  have tlow : ∀ i, t.val (b i) ≠ 0 → t.minv ≤ Int.tdiv (t.val (a i)) (t.val (b i)) := by
    intro i hb
    have hn : (Int.tdiv (t.val (a i)) (t.val (b i))).natAbs ≤ (t.val (a i)).natAbs := by
      rw [Int.natAbs_tdiv]; exact Nat.div_le_self _ _
    have h1 := val_lb t (a i); have h2 := val_ub t (a i)
    have hp : t.sgn = false → 0 ≤ Int.tdiv (t.val (a i)) (t.val (b i)) := by
      intro hs
      have hz : ∀ c : BitVec t.w, 0 ≤ t.val c := fun c => by
        have := val_lb t c
        cases t <;> simp_all [ITy.minv, ITy.sgn]
      exact Int.tdiv_nonneg (hz _) (hz _)
    cases t <;> simp only [ITy.minv, ITy.maxv, ITy.sgn] at * <;> first | omega | exact hp trivial
  have lane : ∀ i, (∃ r, Scalar.div t (a i) (b i) = some r) ↔ ¬ (t.val (b i) = 0 ∨
      (t = .i32 ∨ t = .i64) ∧ t.maxv < Int.tdiv (t.val (a i)) (t.val (b i))) := by
    intro i
    obtain ⟨d0, d1⟩ := div_wraps_or_ub t (a i) (b i)
    by_cases hb : t.val (b i) = 0
    · simp [d0 hb, hb]
    · have := d1 hb
      unfold WrapsOrUB at this
      split at this
      · rename_i ht
        split at this
        · rename_i hr
          obtain ⟨r, hr', _⟩ := this
          refine ⟨fun _ => ?_, fun _ => ⟨r, hr'⟩⟩
          rintro (h | h)
          · exact hb h
          · omega
        · rename_i hr
          have := tlow i hb
          simp only [*]
          refine ⟨fun ⟨r, h⟩ => (by cases h), fun h => ?_⟩
          exact absurd (Or.inr ⟨trivial, by omega⟩) h
      · rename_i ht
        obtain ⟨r, hr', _⟩ := this
        refine ⟨fun _ => ?_, fun _ => ⟨r, hr'⟩⟩
        rintro (h | h)
        · exact hb h
        · exact ht h.1
  constructor
  · intro r h i
    have hi := (div_spec x t a b r).mp h i
    obtain ⟨d0, d1⟩ := div_wraps_or_ub t (a i) (b i)
    have hb : t.val (b i) ≠ 0 := fun hb => by rw [d0 hb] at hi; cases hi
    refine ⟨hb, val_lb _ _, val_ub _ _, ?_⟩
    have := d1 hb
    unfold WrapsOrUB at this
    rw [hi] at this
    split at this
    · split at this
      · obtain ⟨r', e, h⟩ := this
        obtain rfl := Option.some.inj e
        rw [h]
      · cases this
    · obtain ⟨r', e, h⟩ := this
      obtain rfl := Option.some.inj e
      exact h
  · constructor
    · intro h
      by_contra hc
      rw [not_exists] at hc
      have : ∀ i, ∃ r, Scalar.div t (a i) (b i) = some r := fun i => (lane i).mpr (hc i)
      choose r hr using this
      rw [(div_spec x t a b r).mpr hr] at h
      cases h
    · rintro ⟨i, hi⟩
      cases h : Ppc.div x t a b with
      | none => rfl
      | some r => exact absurd hi ((lane i).mp ⟨_, (div_spec x t a b r).mp h i⟩)

example : Scalar.div .i8 0x80#8 0xff#8 = some 0x80#8 ∧ Scalar.div .i64 (-7#64) 2#64 = some (-3#64) := by decide
example : Ppc.div .vsx .i32 (n := 0) ![7#32] ![0#32] = none :=
  ((div_value .vsx .i32 _ _).2).mpr ⟨0, Or.inl (by decide)⟩

/-- Absolute values: exact, modulo `2^w` for the smallest signed value, which is undefined for `i64` on
VMX. -/
theorem abs_spec (x : Ext) (t : ITy) (a : Reg n t.w) :
    Wraps x t (fun i => |t.val (a i)|) (Ppc.abs x t a) := by
  have uval : t.sgn = false → ∀ i, |t.val (a i)| = t.val (a i) := fun h i => by
    rw [abs_of_nonneg]
    have := val_lb t (a i)
    cases t <;> simp_all [ITy.minv, ITy.sgn]
  unfold Ppc.abs
  by_cases hs : t.sgn = false
  · rw [if_pos hs]
    unfold Wraps
    rw [if_neg (by rintro ⟨rfl, rfl⟩; cases hs)]
    refine ⟨a, rfl, fun i => ?_⟩
    dsimp only
    rw [uval hs]
    exact ⟨val_lb _ _, val_ub _ _, rfl⟩
  · rw [if_neg hs]
    have hs' : t.sgn = true := by simpa using hs
    by_cases he : emulated x t = true
    · rw [if_pos he]
      refine wraps_body x t he _ _ fun i => ?_
      have hx : x = .vmx ∧ t.w = 64 := by simpa [emulated] using he
      have ht : t = .i64 := by
        cases t <;> first | rfl | exact absurd hx.2 (by decide) | exact absurd hs' (by decide)
      subst ht
      by_cases h0 : ITy.i64.val (a i) ≥ 0
      · unfold WrapsOrUB Scalar.abs
        have h1 := val_lb .i64 (a i); have h2 := val_ub .i64 (a i)
        rw [if_pos (Or.inr rfl), abs_of_nonneg h0, if_pos ⟨h1, h2⟩]
        simp only [if_pos h0, if_pos hs']
        exact ⟨_, rfl, by rw [cast_val]⟩
      · have := neg_wraps_or_ub .i64 (a i)
        rw [abs_of_neg (by omega)]
        convert this using 1
        unfold Scalar.abs
        simp only [if_neg h0, if_pos hs']
        rfl
    · rw [if_neg he]
      refine wraps_native x t he _ _ fun i => ?_
      unfold vecAbs vecMax
      rw [BitVec.zero_sub]
      have hb := val_lb t (a i); have hb2 := val_ub t (a i)
      have hm := val_cast_mod t (- t.val (a i))
      rw [ArmLane.cast_neg] at hm
      have hl := val_lb t (- a i); have hu := val_ub t (- a i)
      by_cases h0 : t.val (a i) < 0
      · rw [abs_of_neg h0, ArmLane.cast_neg]
        by_cases hmin : t.val (a i) = t.minv
        · have e : a i = - a i := by
            rw [← ArmLane.cast_neg]
            conv_lhs => rw [← cast_val t (a i)]
            apply cast_eq_of_mod
            rw [hmin]
            cases t <;> simp_all [ITy.minv, ITy.sgn, ITy.w]
          rw [← e, if_neg (by omega)]
        · rw [if_pos]
          have : t.val (- a i) = - t.val (a i) := by
            rw [← ArmLane.cast_neg, val_cast t _ _ _]
            all_goals cases t <;> simp_all [ITy.minv, ITy.maxv, ITy.sgn] <;> omega
          omega
      · rw [abs_of_nonneg (by omega), cast_val]
        have : t.val (- a i) = - t.val (a i) := by
          rw [← ArmLane.cast_neg, val_cast t _ _ _]
          all_goals cases t <;> simp_all [ITy.minv, ITy.maxv, ITy.sgn] <;> omega
        rw [if_neg (by omega)]

example : vecAbs .i8 0x80#8 = 0x80#8 ∧ vecAbs .i16 (-5#16) = 5#16 := by decide

/-- Minima and maxima on both extensions. -/
theorem minmax_spec (x : Ext) (t : ITy) (a b : Reg n t.w) (i : Fin n) :
    t.val (Ppc.min x t a b i) = Min.min (t.val (a i)) (t.val (b i)) ∧
    t.val (Ppc.max x t a b i) = Max.max (t.val (a i)) (t.val (b i)) := by
  constructor
  · unfold Ppc.min Scalar.min vecMin
    split <;> split <;> omega
  · unfold Ppc.max Scalar.max vecMax
    split <;> split <;> omega

example : Ppc.min (n := 1) .vmx .u64 ![-1#64] ![1#64] 0 = 1#64 ∧
    Ppc.max (n := 1) .vsx .i8 ![0xff#8] ![1#8] 0 = 1#8 := by decide

theorem vecSat_val (t : ITy) (v : Int) : t.val (vecSat t v) = clampTo t.minv t.maxv v := by
  have h0 : t.minv ≤ t.maxv := by cases t <;> decide
  unfold vecSat
  have hc : clampTo t.minv t.maxv v =
      if v < t.minv then t.minv else if t.maxv < v then t.maxv else v := by
    unfold clampTo
    split <;> [skip; split] <;> omega
  rw [hc, val_cast]
  all_goals split <;> [skip; split] <;> omega

/-- Saturated sums: always defined, the exact sum clamped to the range of the type. -/
theorem adds_spec (x : Ext) (t : ITy) (a b : Reg (n + 1) t.w) :
    ∃ r, Ppc.adds x t a b = some r ∧
      ∀ i, t.val (r i) = clampTo t.minv t.maxv (t.val (a i) + t.val (b i)) := by
  have h := fun i => adds_saturates t (a i) (b i)
  choose r hr using h
  unfold Ppc.adds
  split
  · exact ⟨r, by unfold emulate2; exact (body_eq_some ..).mpr fun i => (hr i).1, fun i => (hr i).2⟩
  · split
    · exact ⟨r, (Ppc.fromLanes_eq_some ..).mpr fun i => (hr i).1, fun i => (hr i).2⟩
    · exact ⟨_, rfl, fun i => vecSat_val t _⟩

example : Ppc.adds .vsx .i64 (n := 0) ![0x7fffffffffffffff#64] ![1#64] =
    some ![0x7fffffffffffffff#64] := by
  obtain ⟨r, h, hr⟩ := adds_spec .vsx .i64 (n := 0) ![0x7fffffffffffffff#64] ![1#64]
  rw [h]; congr 1; funext i
  match i with
  | 0 => exact val_inj .i64 ((hr 0).trans (by decide))

/-- Saturated differences: the exact difference clamped to the range of the type, if and only if it is not
a difference of `i64` with the smallest value as subtrahend in some lane. -/
theorem subs_partial (x : Ext) (t : ITy) (a b : Reg (n + 1) t.w) :
    (∃ r, Ppc.subs x t a b = some r ∧
      ∀ i, t.val (r i) = clampTo t.minv t.maxv (t.val (a i) - t.val (b i))) ↔
    ¬ (t = .i64 ∧ ∃ i, t.val (b i) = t.minv) := by
  have key : ∀ o : Option (Reg (n + 1) t.w),
      (∀ r, o = some r ↔ ∀ i, Scalar.subs t (a i) (b i) = some (r i)) →
      t.w = 64 →
      ((∃ r, o = some r ∧
        ∀ i, t.val (r i) = clampTo t.minv t.maxv (t.val (a i) - t.val (b i))) ↔
      ¬ (t = .i64 ∧ ∃ i, t.val (b i) = t.minv)) := by
    intro o ho hw
    have hs : t.sgn = true ↔ t = .i64 := by
      cases t <;> first | exact absurd hw (by decide) | decide
    constructor
    · rintro ⟨r, h1, h2⟩ ⟨h3, i, h4⟩
      exact (subs_correct_iff t (a i) (b i)).mp ⟨r i, (ho r).mp h1 i, h2 i⟩ ⟨hs.mpr h3, h4⟩
    · intro h
      have : ∀ i, ∃ r, Scalar.subs t (a i) (b i) = some r ∧
          t.val r = clampTo t.minv t.maxv (t.val (a i) - t.val (b i)) := fun i =>
        (subs_correct_iff t (a i) (b i)).mpr fun ⟨h3, h4⟩ => h ⟨hs.mp h3, i, h4⟩
      choose r hr using this
      exact ⟨r, (ho r).mpr fun i => (hr i).1, fun i => (hr i).2⟩
  unfold Ppc.subs
  split
  · rename_i he
    refine key _ (fun r => ?_) (by simp [emulated] at he; exact he.2)
    unfold emulate2; exact body_eq_some ..
  · split
    · rename_i hw
      exact key _ (fun r => Ppc.fromLanes_eq_some ..) hw
    · rename_i hw
      refine ⟨fun _ => ?_, fun _ => ⟨_, rfl, fun i => vecSat_val t _⟩⟩
      rintro ⟨rfl, _⟩
      exact hw rfl

example : ¬ (ITy.i64 = .i64 ∧ ∃ i : Fin 1, ITy.i64.val (![5#64] i) = ITy.i64.minv) := by decide

/-- On POWER `subs(0, INT64_MIN)` of `i64` is undefined. -/
theorem subs_counterexample (x : Ext) :
    Ppc.subs x .i64 (n := 0) ![0#64] ![0x8000000000000000#64] = none := by
  have : Scalar.subs .i64 0#64 0x8000000000000000#64 = none := by decide
  cases x
  · rw [Ppc.subs, if_pos (by decide), emulate2]
    exact body_none (i := 0) this
  · rw [Ppc.subs, if_neg (by decide), if_pos (by decide), fromLanes]
    show (Scalar.subs .i64 0#64 0x8000000000000000#64).bind _ = none
    rw [this]; rfl

/-- Fused operators: whenever defined, every lane is the exact value modulo `2^w`; they are always defined
but for 64-bit types on VMX. -/
theorem fma_spec (x : Ext) (t : ITy) (a b c : Reg n t.w) :
    (∀ r, fmaV x t a b c = some r → ∀ i, IsMod t (r i) (t.val (a i) * t.val (b i) + t.val (c i))) ∧
    (∀ r, fmsV x t a b c = some r → ∀ i, IsMod t (r i) (t.val (a i) * t.val (b i) - t.val (c i))) ∧
    (∀ r, fnmaV x t a b c = some r →
      ∀ i, IsMod t (r i) (-(t.val (a i) * t.val (b i)) + t.val (c i))) ∧
    (∀ r, fnmsV x t a b c = some r →
      ∀ i, IsMod t (r i) (-(t.val (a i) * t.val (b i)) - t.val (c i))) ∧
    (¬ (x = .vmx ∧ t.w = 64) → (fmaV x t a b c).isSome ∧ (fmsV x t a b c).isSome ∧
      (fnmaV x t a b c).isSome ∧ (fnmsV x t a b c).isSome) := by
  have hm : ∀ {r : BitVec t.w} {v : Int}, r = t.cast v → IsMod t r v := fun h => isMod_of h.symm
  by_cases he : emulated x t = true
  · have hx : x = .vmx ∧ t.w = 64 := by simpa [emulated] using he
    unfold fmaV fmsV fnmaV fnmsV
    simp only [if_pos he, emulate3, body_eq_some]
    exact ⟨fun r h i => hm ((fma_mod t _ _ _ _).1 (h i)), fun r h i => hm ((fma_mod t _ _ _ _).2.1 (h i)),
      fun r h i => hm ((fma_mod t _ _ _ _).2.2.1 (h i)), fun r h i => hm ((fma_mod t _ _ _ _).2.2.2 (h i)),
      fun h => absurd hx h⟩
  · have e : ∀ i, t.cast (t.val (a i) * t.val (b i)) = a i * b i := fun i => ArmLane.cast_mul ..
    have cadd : ∀ u v : Int, t.cast (u + v) = t.cast u + t.cast v := fun u v => BitVec.ofInt_add ..
    have cneg : ∀ u : Int, t.cast (-u) = - t.cast u := fun u => BitVec.ofInt_neg ..
    unfold fmaV fmsV fnmaV fnmsV
    simp only [if_neg he, Option.some.injEq, Option.isSome_some, and_self, implies_true, and_true]
    refine ⟨?_, ?_, ?_, ?_⟩ <;> rintro r rfl i <;> apply hm
    · rw [cadd, e, cast_val]; rfl
    · rw [Int.sub_eq_add_neg, cadd, cneg, e, cast_val, ← BitVec.sub_eq_add_neg]; rfl
    · rw [cadd, cneg, e, cast_val, BitVec.add_comm, ← BitVec.sub_eq_add_neg]; rfl
    · rw [Int.sub_eq_add_neg, cadd, cneg, cneg, e, cast_val, BitVec.add_comm, ← BitVec.sub_eq_add_neg]; rfl

example : fmaV .vsx .i8 (n := 1) ![7#8] ![-3#8] ![1#8] = some ![-20#8] := by
  rw [fmaV, if_neg (by decide)]; congr 1; funext i; match i with | 0 => decide

/-- The bitwise operators on every lane. Specification, not code of the repo. -/
def bitMeaning : BBin → Bool → Bool → Bool
  | .andb, p, q => p && q
  | .orb, p, q => p || q
  | .xorb, p, q => p != q
  | .andnotb, p, q => p && !q

/-- Bit `k` of every lane of a bitwise operator is the operator on the bits `k`. -/
theorem bitwise_spec (x : Ext) (t : ITy) (o : BBin) (a b : Reg n t.w) (i : Fin n) (k : Nat) (hk : k < t.w) :
    (bop2 x t o a b i)[k] = bitMeaning o (a i)[k] (b i)[k] ∧
    (Ppc.notb x t a i)[k] = !(a i)[k] := by
  constructor
  · unfold bop2
    have e : scalarB t o (a i) (b i) = vecB t.w o (a i) (b i) := by cases o <;> rfl
    rw [e, ite_self]
    cases o <;> simp [vecB, bitMeaning]
  · unfold Ppc.notb Scalar.notb
    rw [BitVec.or_self, ite_self]
    simp

example : bop2 .vmx .u64 .andnotb (n := 1) ![0xff#64] ![0x0f#64] 0 = 0xf0#64 := by decide

/-- `iota` holds the lane numbers modulo `2^w`. -/
theorem iota_spec (t : ITy) (i : Fin (n + 1)) (j : Fin 2) :
    IsMod t (Ppc.iota t n i) i.val ∧ IsMod t (iota64 t j) j.val := by
  constructor
  · have key : ∀ (l : List (Fin (n + 1))) (v : Vec (n + 1) (BitVec t.w)),
        l.foldl (fun v i => insertLane v i (t.cast (i.val : Int))) v i =
          if i ∈ l then t.cast (i.val : Int) else v i := by
      intro l
      induction l with
      | nil => intro v; simp
      | cons j l ih =>
        intro v
        rw [List.foldl_cons, ih]
        by_cases hl : i ∈ l
        · simp [hl]
        · by_cases hj : i = j
          · subst hj; simp [insertLane]
          · simp [hl, hj, insertLane]
    unfold Ppc.iota
    rw [key]
    split
    · exact isMod_of rfl
    · rename_i h
      have : i = 0 := by
        by_contra hi
        apply h
        obtain ⟨j, rfl⟩ := Fin.exists_succ_eq.mpr hi
        rw [List.finRange_succ]
        exact List.mem_map.mpr ⟨j, List.mem_finRange j, rfl⟩
      subst this
      exact isMod_of rfl
  · match j with
    | 0 => exact isMod_of rfl
    | 1 => exact isMod_of rfl

example : Ppc.iota .u8 15 9 = 9#8 := by decide

/-- `cvt` between integer types of the same width keeps the value modulo `2^w`. -/
theorem cvt_spec (x : Ext) (s d : ITy) (h : s.w = d.w) (a : Reg n s.w) (i : Fin n) :
    IsMod d (cvt x s d h a i) (s.val (a i)) := by
  unfold cvt
  split
  · exact isMod_of rfl
  · apply isMod_of
    have : (a i) = s.cast (s.val (a i)) := (cast_val s _).symm
    conv_rhs => rw [this]
    unfold ITy.cast
    apply BitVec.eq_of_toNat_eq
    rw [BitVec.toNat_cast]
    simp only [BitVec.toNat_ofInt, h]

example : cvt .vsx .i32 .u32 rfl (n := 1) ![-1#32] 0 = 0xffffffff#32 := by decide

/-! ### C83: comparisons and logicals -/

/-- The order of the values. Specification, not code of the repo. -/
def holds : Cmp → Int → Int → Bool
  | .eq, a, b => a = b
  | .lt, a, b => a < b
  | .le, a, b => a ≤ b
  | .gt, a, b => b < a
  | .ge, a, b => b ≤ a

theorem scalarCmp_holds (t : ITy) (o : Cmp) (a b : BitVec t.w) :
    scalarCmp t o a b = holds o (t.val a) (t.val b) := by
  cases o <;> rfl

theorem boolLane64_eq (p : Bool) : boolLane64 p = if p then BitVec.allOnes 64 else 0#64 := by
  cases p <;> decide

theorem represents_lnot {l : Reg n w} {v : Fin n → Bool} (h : Represents l v) :
    Represents (lnot1 l) fun i => !(v i) := by
  intro i
  show ~~~ (l i ||| l i) = _
  rw [BitVec.or_self, h i]
  by_cases hv : v i = true <;> simp [hv]

/-- Comparisons of integers: lane `i` is all ones iff the relation holds between the values of lanes `i`,
zero otherwise; native types and 64-bit types on VMX. -/
theorem cmp_spec (t : ITy) (o : Cmp) (a b : Reg n t.w) :
    Represents (Ppc.cmp t o a b) (fun i => holds o (t.val (a i)) (t.val (b i))) ∧
    Represents (Ppc.cmp64 (scalarCmp t o) a b) (fun i => holds o (t.val (a i)) (t.val (b i))) ∧
    Represents (Ppc.ne t a b) (fun i => decide (t.val (a i) ≠ t.val (b i))) ∧
    Represents (Ppc.cmp64 (Scalar.ne t) a b) (fun i => decide (t.val (a i) ≠ t.val (b i))) := by
  have h1 : ∀ o, Represents (Ppc.cmp t o a b) (fun i => holds o (t.val (a i)) (t.val (b i))) := by
    intro o i
    unfold Ppc.cmp vecCmp
    rw [scalarCmp_holds]
  refine ⟨h1 o, fun i => ?_, ?_, fun i => ?_⟩
  · unfold Ppc.cmp64 emulateCmp
    rw [boolLane64_eq, scalarCmp_holds]
  · have := represents_lnot (h1 .eq)
    intro i
    have := this i
    simp only [holds] at this
    rw [show Ppc.ne t a b i = lnot1 (Ppc.cmp t .eq a b) i from rfl, this]
    by_cases h : t.val (a i) = t.val (b i) <;> simp [h]
  · unfold Ppc.cmp64 emulateCmp
    rw [boolLane64_eq]; rfl

example : Ppc.cmp .u8 .lt (n := 1) ![1#8] ![0xff#8] 0 = 0xff#8 ∧
    Ppc.cmp .i8 .lt (n := 1) ![1#8] ![0xff#8] 0 = 0#8 ∧ Ppc.ne .i8 (n := 1) ![1#8] ![0xff#8] 0 = 0xff#8 := by
  decide

/-- Comparisons of floats, for any relation (IEEE or not): always defined, lane `i` all ones iff it holds;
`ne` of f32 and f64 is the relation `!(a == b)` of the scalar code. -/
theorem cmpF_spec (w : Nat) (rel : α → α → Bool) (a b : Vec (n + 1) α) :
    ∃ l, cmpF w rel a b = some l ∧ Represents l fun i => rel (a i) (b i) := by
  refine ⟨fun i => BitVec.ofInt w (if rel (a i) (b i) then -1 else 0), ?_, fun i => ?_⟩
  · unfold cmpF
    rw [Ppc.fromLanes_eq_some]
    exact fun i => rfl
  · dsimp only
    by_cases h : rel (a i) (b i) = true
    · simp only [h, if_true, ones_eq]
    · simp [h]

theorem cmpF16_spec (rel : α → α → Bool) (a b : Vec 4 α × Vec 4 α) :
    ∃ l, cmpF16 rel a b = some l ∧
      Represents (cat l.1 l.2) fun i => rel (cat a.1 a.2 i) (cat b.1 b.2 i) := by
  obtain ⟨l0, h0, r0⟩ := cmpF_spec (n := 3) 32 rel a.1 b.1
  obtain ⟨l1, h1, r1⟩ := cmpF_spec (n := 3) 32 rel a.2 b.2
  refine ⟨(l0, l1), by unfold cmpF16; rw [h0, h1]; rfl, ?_⟩
  rw [Represents, X86Mem.forall_halves]
  refine ⟨fun i => ?_, fun i => ?_⟩
  · simp only [X86Mem.cat_lo]; exact r0 i
  · simp only [X86Mem.cat_hi]; exact r1 i

example : (cmpF (n := 1) 8 (fun x y : Int => decide (x < y)) ![1, 5] ![2, 3]).map (fun l => (l 0, l 1)) =
    some (0xff#8, 0#8) := by decide

/-- Masks: `to_mask` gives all ones in true lanes and `to_logical` brings it back. -/
theorem toLogical_toMask (hw : 0 < w) {l : Reg n w} {v : Fin n → Bool} (h : Represents l v)
    {l' : Reg n 64} (h' : Represents l' v) :
    Represents (Ppc.toMask l) v ∧ Ppc.toLogical (Ppc.toMask l) = l ∧
    toLogical_64 (Ppc.toMask l') = l' := by
  have ne : BitVec.allOnes w ≠ 0#w := Ppc.allOnes_ne hw
  refine ⟨h, funext fun i => ?_, funext fun i => ?_⟩
  · unfold Ppc.toLogical Ppc.toMask
    rw [h i]
    by_cases hv : v i = true <;> simp [hv, ne]
  · unfold toLogical_64 Ppc.toMask
    rw [h' i]
    by_cases hv : v i = true
    · simp only [hv, if_true]; decide
    · simp only [hv]; decide

example : Represents (n := 2) (w := 8) ![0xff#8, 0#8] ![true, false] := by
  intro i; match i with | 0 => rfl | 1 => rfl

/-- `reinterpretl` between f16 and the 16-bit integers keeps the truth values. -/
theorem reinterpretl_spec {l : Reg 8 16} {v : Fin 8 → Bool} (h : Represents l v)
    {l' : Reg 4 32 × Reg 4 32} (h' : Represents (n := 8) (cat l'.1 l'.2) v) :
    Represents (n := 8) (cat (Ppc.reinterpretlToF16 l).1 (Ppc.reinterpretlToF16 l).2) v ∧
    Represents (Ppc.reinterpretlFromF16 l') v := by
  have h0 : ∀ (i : Fin 4), l'.1 i = if v ⟨i, by omega⟩ then BitVec.allOnes 32 else 0#32 := fun i => by
    rw [← h' ⟨i, by omega⟩]; exact (X86Mem.cat_lo _ _ i).symm
  have h1 : ∀ (i : Fin 4), l'.2 i = if v ⟨4 + i, by omega⟩ then BitVec.allOnes 32 else 0#32 := fun i => by
    rw [← h' ⟨4 + i, by omega⟩]; exact (X86Mem.cat_hi _ _ i).symm
  have hb : ∀ p : Bool, boolLane32 (if p then BitVec.allOnes 16 else 0#16) =
      if p then BitVec.allOnes 32 else 0#32 := by decide
  have hs : ∀ p : Bool, (if p then BitVec.allOnes 32 else 0#32).setWidth 16 =
      if p then BitVec.allOnes 16 else 0#16 := by decide
  constructor
  · refine (X86Mem.forall_halves (n := 4)).mpr ⟨fun i => ?_, fun i => ?_⟩
    · rw [X86Mem.cat_lo]
      match i with
      | 0 => exact (congrArg boolLane32 (h 0)).trans (hb _)
      | 1 => exact (congrArg boolLane32 (h 1)).trans (hb _)
      | 2 => exact (congrArg boolLane32 (h 2)).trans (hb _)
      | 3 => exact (congrArg boolLane32 (h 3)).trans (hb _)
    · rw [X86Mem.cat_hi]
      match i with
      | 0 => exact (congrArg boolLane32 (h 4)).trans (hb _)
      | 1 => exact (congrArg boolLane32 (h 5)).trans (hb _)
      | 2 => exact (congrArg boolLane32 (h 6)).trans (hb _)
      | 3 => exact (congrArg boolLane32 (h 7)).trans (hb _)
  · intro i
    match i with
    | 0 => exact (congrArg (BitVec.setWidth 16) (h0 0)).trans (hs _)
    | 1 => exact (congrArg (BitVec.setWidth 16) (h0 1)).trans (hs _)
    | 2 => exact (congrArg (BitVec.setWidth 16) (h0 2)).trans (hs _)
    | 3 => exact (congrArg (BitVec.setWidth 16) (h0 3)).trans (hs _)
    | 4 => exact (congrArg (BitVec.setWidth 16) (h1 0)).trans (hs _)
    | 5 => exact (congrArg (BitVec.setWidth 16) (h1 1)).trans (hs _)
    | 6 => exact (congrArg (BitVec.setWidth 16) (h1 2)).trans (hs _)
    | 7 => exact (congrArg (BitVec.setWidth 16) (h1 3)).trans (hs _)

example : Ppc.reinterpretlFromF16 (![0#32, 0xffffffff#32, 0#32, 0#32], fun _ => 0#32) 1 = 0xffff#16 := by decide

/-- Logical vectors in memory: the vector stored for a logical holds one in true lanes and zero in false
lanes; a loaded lane is true unless it equals zero; storing then loading gives the logical back. -/
theorem logMem_spec {l : Reg n w} {v : Fin n → Bool} (h : Represents l v) (one zero : BitVec w)
    (eq : BitVec w → BitVec w → Bool) (h1 : eq one zero = false) (h0 : eq zero zero = true) :
    (∀ i, Ppc.storel one zero l i = if v i then one else zero) ∧
    (∀ a : Reg n w, Represents (Ppc.loadl eq zero a) fun i => !(eq (a i) zero)) ∧
    Ppc.loadl eq zero (Ppc.storel one zero l) = l := by
  have hs : ∀ i, Ppc.storel one zero l i = if v i then one else zero := fun i => by
    unfold Ppc.storel Ppc.ifElse1 set1
    rw [h i]
    by_cases hv : v i = true <;> simp [hv]
  have hl : ∀ a : Reg n w, Represents (Ppc.loadl eq zero a) fun i => !(eq (a i) zero) := fun a =>
    represents_lnot (l := vecCmp w eq a (set1 n zero)) (v := fun i => eq (a i) zero) fun i => rfl
  refine ⟨hs, hl, funext fun i => ?_⟩
  rw [hl _ i]
  beta_reduce
  rw [hs i, h i]
  cases v i <;> simp [h1, h0]

/-- The same for 64-bit types on VMX. -/
theorem logMem64_spec {l : Reg n 64} {v : Fin n → Bool} (h : Represents l v) (one zero : BitVec 64)
    (eq : BitVec 64 → BitVec 64 → Bool) (h1 : eq one zero = false) (h0 : eq zero zero = true) :
    (∀ i, storel64 one zero l i = if v i then one else zero) ∧
    (∀ a : Reg n 64, Represents (loadl64 eq zero a) fun i => !(eq (a i) zero)) ∧
    loadl64 eq zero (storel64 one zero l) = l := by
  have hs : ∀ i, storel64 one zero l i = if v i then one else zero := fun i => by
    unfold storel64 ifElse1_64 set1
    rw [h i]
    by_cases hv : v i = true <;> simp [hv]
  have hl : ∀ a : Reg n 64, Represents (loadl64 eq zero a) fun i => !(eq (a i) zero) := fun a i => by
    unfold loadl64 lnot1_64 Ppc.cmp64 emulateCmp set1
    beta_reduce
    generalize eq (a i) zero = p
    revert p
    decide
  refine ⟨hs, hl, funext fun i => ?_⟩
  rw [hl _ i]
  beta_reduce
  rw [hs i, h i]
  cases v i <;> simp [h1, h0]

example : Scalar.eq .i64 1#64 0#64 = false ∧ Scalar.eq .i64 0#64 0#64 = true := by decide

/-! ### C54: reversal -/

/-- `reverse` of 64-bit types on VMX exchanges the lanes. -/
theorem reverse64_spec (v : Vec 2 α) (i : Fin 2) : Ppc.reverse64 v i = v i.rev := by
  match i with
  | 0 => rfl
  | 1 => rfl

/-- `reverse` of f16 reverses each of the two registers but keeps their order: lane `i` of the result is
lane `n - 1 - i` of the same register. -/
theorem reverseF16_partial (rev : Vec n α → Vec n α) (hr : ∀ v i, rev v i = v i.rev)
    (v : Vec n α × Vec n α) (i : Fin n) :
    (Ppc.reverseF16 rev v).1 i = v.1 i.rev ∧ (Ppc.reverseF16 rev v).2 i = v.2 i.rev :=
  ⟨hr _ _, hr _ _⟩

/-- The lanes of an f16 vector are reversed iff its two registers are equal. -/
theorem reverseF16_iff (rev : Vec n α → Vec n α) (hr : ∀ v i, rev v i = v i.rev)
    (v : Vec n α × Vec n α) :
    (∀ i : Fin (n + n), cat (Ppc.reverseF16 rev v).1 (Ppc.reverseF16 rev v).2 i = cat v.1 v.2 i.rev) ↔
      v.1 = v.2 := by
  have hlo : ∀ i : Fin n, cat v.1 v.2 (Fin.rev (⟨i, by omega⟩ : Fin (n + n))) = v.2 i.rev := fun i => by
    have : Fin.rev (⟨i, by omega⟩ : Fin (n + n)) = ⟨n + i.rev, by omega⟩ := by
      apply Fin.ext; simp [Fin.rev]; omega
    rw [this]; exact X86Mem.cat_hi _ _ i.rev
  have hhi : ∀ i : Fin n, cat v.1 v.2 (Fin.rev (⟨n + i, by omega⟩ : Fin (n + n))) = v.1 i.rev := fun i => by
    have : Fin.rev (⟨n + i, by omega⟩ : Fin (n + n)) = ⟨i.rev, by omega⟩ := by
      apply Fin.ext; simp [Fin.rev]; omega
    rw [this]; exact X86Mem.cat_lo _ _ i.rev
  rw [X86Mem.forall_halves]
  simp only [X86Mem.cat_lo, X86Mem.cat_hi, hlo, hhi, (reverseF16_partial rev hr v _).1,
    (reverseF16_partial rev hr v _).2]
  constructor
  · rintro ⟨h, _⟩
    funext i
    have := h i.rev
    rwa [Fin.rev_rev] at this
  · intro h
    rw [h]
    exact ⟨fun _ => rfl, fun _ => rfl⟩

example : (Ppc.reverseF16 (fun v => fun i => v i.rev) (![1, 2, 3, 4], ![5, 6, 7, 8])).1 0 = (4 : Nat) := by decide

end Nsimd.Props.PpcLane
