import Verif.Model.CpuExpr
import Verif.Lemmas.Cpu
import Mathlib.Data.Fin.VecNotation

/-!
# C47: CPU vector expressions agree with scalar expressions lane by lane
-/

namespace Nsimd.Props.Cpu
open Nsimd.Cpu

variable {n : Nat} {t : ITy}

/-- A logical lane and a scalar truth value mean the same: all ones against 1, zero
against 0. Specification, not code of the repo. -/
def SameL (l s : BitVec 32) : Prop := (l = 0xffffffff#32 ∧ s = 1#32) ∨ (l = 0#32 ∧ s = 0#32)

/-- A lane of a vector value and a scalar value mean the same: equal integers, or the
same truth value. Specification, not code of the repo. -/
def Same : {b : Bool} → VTy n t b → Fin n → STy t b → Prop
  | false, v, i, s => v i = s
  | true, l, i, s => SameL (l i) s

theorem SameL.ne_zero {l s : BitVec 32} (h : SameL l s) : l ≠ 0#32 ↔ s ≠ 0#32 := by
  rcases h with ⟨rfl, rfl⟩ | ⟨rfl, rfl⟩ <;> decide

theorem SameL.lbin (o : LBin) {l l' s s' : BitVec 32} (h : SameL l s) (h' : SameL l' s') :
    SameL (o.vec (n := 1) (fun _ => l) (fun _ => l') 0) (o.scalar s s') := by
  unfold SameL
  rcases h with ⟨rfl, rfl⟩ | ⟨rfl, rfl⟩ <;> rcases h' with ⟨rfl, rfl⟩ | ⟨rfl, rfl⟩ <;> cases o <;>
    decide

theorem SameL.lnot {l s : BitVec 32} (h : SameL l s) : SameL (~~~ l) (Scalar.notl s) := by
  unfold SameL
  rcases h with ⟨rfl, rfl⟩ | ⟨rfl, rfl⟩ <;> decide

/-- One result of a vector evaluation against the family of scalar evaluations:
undefined exactly when one of the lanes is, otherwise the same in each lane.
Specification, not code of the repo. -/
def Agree {b : Bool} (r : Option (VTy n t b)) (s : Fin n → Option (STy t b)) : Prop :=
  (r = none → ∃ i, s i = none) ∧ ∀ v, r = some v → ∀ i, ∃ x, s i = some x ∧ Same v i x

theorem agree_body (f : Fin n → Option (BitVec t.w)) : Agree (b := false) (body f) f := by
  constructor
  · intro h
    rw [← Option.not_isSome_iff_eq_none, body_isSome, not_forall] at h
    obtain ⟨i, hi⟩ := h
    exact ⟨i, Option.not_isSome_iff_eq_none.mp hi⟩
  · intro v hv i
    exact ⟨v i, body_eq_some.mp hv i, rfl⟩

theorem agree_some {b : Bool} (v : VTy n t b) (s : Fin n → STy t b) (h : ∀ i, Same v i (s i)) :
    Agree (some v) (fun i => some (s i)) :=
  ⟨fun h => (nomatch h), fun w hw i => ⟨s i, rfl, by cases hw; exact h i⟩⟩

theorem agree_bind {b c : Bool} {r : Option (VTy n t b)} {s : Fin n → Option (STy t b)}
    (h : Agree r s) {f : VTy n t b → Option (VTy n t c)} {g : STy t b → Fin n → Option (STy t c)}
    (hfg : ∀ v (x : Fin n → STy t b), (∀ i, Same v i (x i)) → Agree (f v) (fun i => g (x i) i)) :
    Agree (r.bind f) (fun i => (s i).bind fun x => g x i) := by
  cases r with
  | none =>
    obtain ⟨i, hi⟩ := h.1 rfl
    refine ⟨fun _ => ⟨i, by simp only [hi, Option.bind_none]⟩, fun v hv => (nomatch hv)⟩
  | some v =>
    have h2 := h.2 v rfl
    choose x hx hs using h2
    have h3 := hfg v x hs
    rw [Option.bind_some]
    have : (fun i => (s i).bind fun x => g x i) = fun i => g (x i) i := by
      funext i; rw [hx i, Option.bind_some]
    rw [this]
    exact h3

theorem bin_lane (o : Bin) (a b : Vec n (BitVec t.w)) :
    o.vec t a b = body fun i => o.scalar t (a i) (b i) := by
  cases o <;> try rfl
  all_goals
    refine body_congr fun i => ?_
    simp only [Bin.scalar, Scalar.add, Scalar.sub, Scalar.mul, Scalar.div]
    first
      | rfl
      | (split <;> rfl)
      | (cases t.prom _ <;> rfl)

theorem same_true {l : VTy n t true} {i : Fin n} {s : STy t true} (h : Same l i s) :
    (l i ≠ 0#32 ↔ s ≠ 0#32) := SameL.ne_zero h

theorem cmp_same (c : Cmp) (a b : Vec n (BitVec t.w)) (i : Fin n) :
    Same (b := true) (t := t) (cmp2 (c.op t) a b) i (Scalar.ofBool (c.scalar t (a i) (b i))) := by
  have hop : c.op t (a i) (b i) = c.scalar t (a i) (b i) := by cases c <;> rfl
  show SameL (ITy.u32.cast (if c.op t (a i) (b i) then -1 else 0)) _
  rw [hop]
  cases c.scalar t (a i) (b i)
  · exact Or.inr ⟨by decide, rfl⟩
  · exact Or.inl ⟨by decide, rfl⟩

/-- C47: for every expression, of any size, over the integer operators, comparisons,
logical operators, `if_else1`, `to_mask` and `to_logical`: the vector expression is
undefined exactly when the scalar expression is undefined in one of the lanes, and
otherwise has in each lane the value of the scalar expression on that lane. -/
theorem vector_scalar_agree {b : Bool} (e : Ex t b) (env : Nat → Vec n (BitVec t.w)) :
    Agree (evalV env e) (fun i => evalS (fun k => env k i) e) := by
  induction e with
  | var k => exact agree_some _ _ fun i => rfl
  | bin o x y hx hy =>
    refine agree_bind hx fun a a' ha => agree_bind hy fun b b' hb => ?_
    rw [bin_lane]
    have : (fun i => o.scalar t (a' i) (b' i)) = fun i => o.scalar t (a i) (b i) := by
      funext i; rw [← show a i = a' i from ha i, ← show b i = b' i from hb i]
    rw [this]
    exact agree_body _
  | un o x hx =>
    refine agree_bind hx fun a a' ha => ?_
    have : (fun i => o.scalar t (a' i)) = fun i => o.scalar t (a i) := by
      funext i; rw [← show a i = a' i from ha i]
    rw [this]
    exact agree_body _
  | ter o x y z hx hy hz =>
    refine agree_bind hx fun a a' ha => agree_bind hy fun b b' hb => agree_bind hz fun c c' hc => ?_
    have : (fun i => o.scalar t (a' i) (b' i) (c' i)) = fun i => o.scalar t (a i) (b i) (c i) := by
      funext i
      rw [← show a i = a' i from ha i, ← show b i = b' i from hb i, ← show c i = c' i from hc i]
    rw [this]
    exact agree_body _
  | shift o x s hx =>
    refine agree_bind hx fun a a' ha => ?_
    have : (fun i => o.scalar t (a' i) s) = fun i => o.scalar t (a i) s := by
      funext i; rw [← show a i = a' i from ha i]
    rw [this]
    exact agree_body _
  | ifElse c x y hc hx hy =>
    refine agree_bind hc fun m m' hm => agree_bind hx fun a a' ha => agree_bind hy fun b b' hb => ?_
    refine agree_some _ _ fun i => ?_
    show ifElse1 m a b i = _
    unfold ifElse1
    rw [show a i = a' i from ha i, show b i = b' i from hb i]
    have := same_true (hm i)
    by_cases h : m i ≠ 0#32
    · rw [if_pos h, if_pos (this.mp h)]
    · rw [if_neg h, if_neg (fun h' => h (this.mpr h'))]
  | toMask x hx =>
    refine agree_bind hx fun a a' ha => ?_
    have : toMask (intElem t) a = some fun i => Scalar.toMask t (a' i ≠ 0#32) := by
      unfold toMask
      rw [body_eq_some]
      intro i
      show some _ = _
      rw [Option.some_inj]
      have h := same_true (ha i)
      unfold Scalar.toMask
      by_cases h0 : a i ≠ 0#32
      · rw [if_pos h0, if_pos (decide_eq_true (h.mp h0))]
        cases t <;> rfl
      · rw [if_neg h0, if_neg (fun h' => h0 (h.mpr (of_decide_eq_true h')))]
        cases t <;> rfl
    rw [this]
    exact agree_some _ _ fun i => rfl
  | cmp c x y hx hy =>
    refine agree_bind hx fun a a' ha => agree_bind hy fun b b' hb => ?_
    refine agree_some _ _ fun i => ?_
    rw [← show a i = a' i from ha i, ← show b i = b' i from hb i]
    exact cmp_same c a b i
  | lbin o x y hx hy =>
    refine agree_bind hx fun a a' ha => agree_bind hy fun b b' hb => ?_
    refine agree_some _ _ fun i => ?_
    have := SameL.lbin o (ha i) (hb i)
    cases o <;> exact this
  | lnot x hx =>
    refine agree_bind hx fun a a' ha => ?_
    refine agree_some _ _ fun i => ?_
    exact SameL.lnot (ha i)
  | toLogical x hx =>
    refine agree_bind hx fun a a' ha => ?_
    refine agree_some _ _ fun i => ?_
    rw [← show a i = a' i from ha i]
    show SameL (toLogical (intElem t) a i) _
    unfold toLogical Scalar.toLogical
    have hz : (intElem t).enc (a i) = 0#t.w ↔ t.val (a i) = 0 := by
      show a i = _ ↔ _
      generalize a i = x
      unfold ITy.val
      split
      · constructor
        · rintro rfl; simp
        · intro h; exact BitVec.toInt_inj.mp (by simpa using h)
      · constructor
        · rintro rfl; simp
        · intro h; exact BitVec.eq_of_toNat_eq (by simpa using h)
    by_cases h : t.val (a i) = 0
    · rw [if_pos (hz.mpr h)]
      exact Or.inr ⟨rfl, by simp [h, Scalar.ofBool]⟩
    · rw [if_neg (fun h' => h (hz.mp h'))]
      exact Or.inl ⟨rfl, by simp [h, Scalar.ofBool]⟩

/-- The scalar `xorl` is a bitwise xor of `int`s (egg/scalar.py:468), so the agreement
needs truth values 0 and 1, which is what `Same` records: on two different nonzero
truth values it returns true. -/
theorem scalar_xorl_counterexample : Scalar.xorl 1#32 2#32 ≠ 0#32 := by decide

-- if_else(a < b, a + b, shra(a, 1)) on two lanes
example : (evalV (t := .i8) (n := 2) (fun k => if k = 0 then ![0x80#8, 5#8] else ![1#8, 2#8])
    (.ifElse (.cmp .lt (.var 0) (.var 1)) (.bin .add (.var 0) (.var 1)) (.shift .shra (.var 0) 1))).map
      (fun v => (v 0, v 1)) = some (0x81#8, 2#8) := by decide

end Nsimd.Props.Cpu
