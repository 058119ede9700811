import Verif.Props.CpuLoop
import Mathlib.Data.Fintype.Card

/-!
# C13, C14, C26: logical vectors of the CPU backend
-/

namespace Nsimd.Props.Cpu
open Nsimd.Cpu Nsimd.Fp16 Nsimd.Props.Fp16

variable {n : Nat} {M α : Type}

/-- The logical vector `l` stands for the predicate `P` on lanes: true lanes are all
ones, false lanes are zero. Specification, not code of the repo. -/
def Rep (l : LVec n) (P : Fin n → Prop) : Prop :=
  ∀ i, (P i → l i = 0xffffffff#32) ∧ (¬ P i → l i = 0#32)

theorem Rep.ne_zero {l : LVec n} {P : Fin n → Prop} (h : Rep l P) (i : Fin n) :
    l i ≠ 0#32 ↔ P i := by
  by_cases hp : P i
  · simp [(h i).1 hp, hp]
  · simp [(h i).2 hp, hp]

theorem Rep.eq_ones {l : LVec n} {P : Fin n → Prop} (h : Rep l P) (i : Fin n) :
    l i = BitVec.allOnes 32 ↔ P i := by
  by_cases hp : P i
  · simp only [hp, iff_true]; rw [(h i).1 hp]; rfl
  · simp only [hp, iff_false]; rw [(h i).2 hp]; decide

/-! ## C13 -/

/-- Sources of logical vectors. -/
theorem cmp_rep (t : ITy) (a b : Vec n (BitVec t.w)) :
    Rep (cmp2 (Cmp.op t .eq) a b) (fun i => a i = b i) ∧
    Rep (cmp2 (Cmp.op t .ne) a b) (fun i => a i ≠ b i) ∧
    Rep (cmp2 (Cmp.op t .gt) a b) (fun i => t.val (a i) > t.val (b i)) ∧
    Rep (cmp2 (Cmp.op t .ge) a b) (fun i => t.val (a i) ≥ t.val (b i)) ∧
    Rep (cmp2 (Cmp.op t .lt) a b) (fun i => t.val (a i) < t.val (b i)) ∧
    Rep (cmp2 (Cmp.op t .le) a b) (fun i => t.val (a i) ≤ t.val (b i)) := by
  have hv : ∀ x y : BitVec t.w, t.val x = t.val y ↔ x = y := by
    intro x y
    unfold ITy.val
    split
    · exact BitVec.toInt_inj
    · rw [← BitVec.toNat_inj]; omega
  have key : ∀ (p : Prop) [Decidable p],
      (p → ITy.u32.cast (if decide p = true then -1 else 0) = 0xffffffff#32) ∧
      (¬ p → ITy.u32.cast (if decide p = true then -1 else 0) = 0#32) := by
    intro p _
    by_cases hp : p <;> simp [hp] <;> rfl
  refine ⟨?_, ?_, ?_, ?_, ?_, ?_⟩ <;> intro i <;> simp only [← hv, ne_eq] <;> exact key _

theorem set1l_rep (n : Nat) (b : Int) : Rep (set1l n b) (fun _ => b ≠ 0) := by
  intro i
  constructor <;> intro h <;> simp [set1l] <;> simp_all <;> rfl

theorem loadl_rep (e : Elem M α) (m : Mem M) (p : Int) (l : LVec n) (h : loadl e n m p = some l) :
    ∃ v, load e n m p = some v ∧ Rep l (fun i => e.isZero (v i) = false) := by
  unfold loadl at h
  rw [body_eq_some] at h
  have hs : (load e n m p).isSome := by
    unfold load
    rw [body_isSome]
    intro i
    have := h i
    cases hx : (m (p + (i : Nat))).bind e.dec with
    | none => rw [hx] at this; cases this
    | some x => rfl
  obtain ⟨v, hv⟩ := Option.isSome_iff_exists.mp hs
  refine ⟨v, hv, ?_⟩
  unfold load at hv
  rw [body_eq_some] at hv
  intro i
  have h1 := h i
  rw [hv i, Option.map_some, Option.some_inj] at h1
  rw [← h1]
  constructor <;> intro h2
  · rw [h2]; rfl
  · simp only [Bool.not_eq_false] at h2; rw [h2]; rfl

theorem mask_tail_rep (n : Nat) (i N : Int) (l : LVec n) (h : maskForLoopTail n i N = some l) :
    Rep l (fun k => i + (k : Nat) < N) :=
  (maskForLoopTail_spec n i N).2 l h

theorem toLogical_rep {w : Nat} (e : Elem (BitVec w) α) (v : Vec n α) :
    Rep (toLogical e v) (fun i => e.enc (v i) ≠ 0#w) := by
  intro i
  constructor <;> intro h <;> simp [toLogical] <;> simp_all

/-- Boolean operators act lane by lane as the connectives. -/
theorem logical_ops_rep {a b : LVec n} {P Q : Fin n → Prop} (ha : Rep a P) (hb : Rep b Q) :
    Rep (andl a b) (fun i => P i ∧ Q i) ∧ Rep (orl a b) (fun i => P i ∨ Q i) ∧
    Rep (xorl a b) (fun i => ¬ (P i ↔ Q i)) ∧ Rep (andnotl a b) (fun i => P i ∧ ¬ Q i) ∧
    Rep (notl a) (fun i => ¬ P i) ∧ Rep (reinterpretl a) P := by
  refine ⟨?_, ?_, ?_, ?_, ?_, ha⟩ <;> intro i <;> by_cases hp : P i <;> by_cases hq : Q i <;>
    simp only [andl, orl, xorl, andnotl, notl, hp, hq, (ha i).1, (ha i).2, (hb i).1, (hb i).2,
      not_true_eq_false, not_false_eq_true] <;> simp <;> decide

/-- Every logical vector that an operator can produce, as a closed set.
Specification, not code of the repo. -/
inductive Produced {n : Nat} : LVec n → Prop
  | cmp (t : ITy) (c : Cmp) (a b : Vec n (BitVec t.w)) : Produced (cmp2 (c.op t) a b)
  | set1l (b : Int) : Produced (set1l n b)
  | loadl {M α : Type} (e : Elem M α) (m : Mem M) (p : Int) (l : LVec n) :
      loadl e n m p = some l → Produced l
  | tail (i N : Int) (l : LVec n) : maskForLoopTail n i N = some l → Produced l
  | toLogical {w : Nat} {α : Type} (e : Elem (BitVec w) α) (v : Vec n α) :
      Produced (toLogical e v)
  | andl {a b : LVec n} : Produced a → Produced b → Produced (andl a b)
  | orl {a b : LVec n} : Produced a → Produced b → Produced (orl a b)
  | xorl {a b : LVec n} : Produced a → Produced b → Produced (xorl a b)
  | andnotl {a b : LVec n} : Produced a → Produced b → Produced (andnotl a b)
  | notl {a : LVec n} : Produced a → Produced (notl a)
  | reinterpretl {a : LVec n} : Produced a → Produced (reinterpretl a)

/-- C13: whatever the sequence of operators that produced it, each lane of a logical
vector is all ones or zero. -/
theorem produced_canonical {l : LVec n} (h : Produced l) (i : Fin n) :
    l i = 0#32 ∨ l i = 0xffffffff#32 := by
  suffices ∃ P, Rep l P by
    obtain ⟨P, hP⟩ := this
    by_cases hp : P i
    · exact Or.inr ((hP i).1 hp)
    · exact Or.inl ((hP i).2 hp)
  induction h with
  | cmp t c a b =>
    have := cmp_rep t a b
    cases c
    exacts [⟨_, this.1⟩, ⟨_, this.2.1⟩, ⟨_, this.2.2.1⟩, ⟨_, this.2.2.2.1⟩, ⟨_, this.2.2.2.2.1⟩,
      ⟨_, this.2.2.2.2.2⟩]
  | set1l b => exact ⟨_, set1l_rep n b⟩
  | loadl e m p l hl => obtain ⟨v, -, hr⟩ := loadl_rep e m p l hl; exact ⟨_, hr⟩
  | tail i N l hl => exact ⟨_, mask_tail_rep n i N l hl⟩
  | toLogical e v => exact ⟨_, toLogical_rep e v⟩
  | andl _ _ ha hb =>
    obtain ⟨P, hP⟩ := ha; obtain ⟨Q, hQ⟩ := hb; exact ⟨_, (logical_ops_rep hP hQ).1⟩
  | orl _ _ ha hb =>
    obtain ⟨P, hP⟩ := ha; obtain ⟨Q, hQ⟩ := hb; exact ⟨_, (logical_ops_rep hP hQ).2.1⟩
  | xorl _ _ ha hb =>
    obtain ⟨P, hP⟩ := ha; obtain ⟨Q, hQ⟩ := hb; exact ⟨_, (logical_ops_rep hP hQ).2.2.1⟩
  | andnotl _ _ ha hb =>
    obtain ⟨P, hP⟩ := ha; obtain ⟨Q, hQ⟩ := hb; exact ⟨_, (logical_ops_rep hP hQ).2.2.2.1⟩
  | notl _ ha => obtain ⟨P, hP⟩ := ha; exact ⟨_, (logical_ops_rep hP hP).2.2.2.2.1⟩
  | reinterpretl _ ha => exact ha

example : Rep (cmp2 (Cmp.op .i8 .lt) (n := 2) ![0x80#8, 1#8] ![0x7f#8, 0xff#8]) (fun i => i = 0) := by
  have h := (cmp_rep .i8 (n := 2) ![0x80#8, 1#8] ![0x7f#8, 0xff#8]).2.2.2.2.1
  intro i
  have := h i
  constructor <;> intro hi
  · subst hi; exact this.1 (by decide)
  · have : i = 1 := by omega
    subst this
    exact (h 1).2 (by decide)

/-! ## C14 -/

theorem foldl_count (l : List (Fin n)) (p : Fin n → Prop) [DecidablePred p] (acc : Int) :
    l.foldl (fun acc i => acc + if p i then 1 else 0) acc = acc + (l.countP (fun i => p i) : Int) := by
  induction l generalizing acc with
  | nil => simp
  | cons x l ih =>
    rw [List.foldl_cons, ih, List.countP_cons]
    by_cases h : p x <;> (simp [h]; try omega)

/-- C14: `nbtrue` counts the true lanes; `all` and `any` are nonzero exactly when all,
respectively some, lanes are true. -/
theorem all_any_nbtrue (l : LVec n) (P : Fin n → Prop) [DecidablePred P] (h : Rep l P) :
    nbtrue l = Fintype.card {i // P i} ∧ (all l ≠ 0 ↔ ∀ i, P i) ∧ (any l ≠ 0 ↔ ∃ i, P i) := by
  refine ⟨?_, ?_, ?_⟩
  · unfold nbtrue
    rw [foldl_count _ (fun i => l i = BitVec.allOnes 32), Fintype.card_subtype]
    simp only [h.eq_ones, zero_add]
    congr 1
    rw [List.countP_eq_length_filter]
    have : (Finset.univ.filter P).card = ((List.finRange n).filter (fun i => decide (P i))).length := by
      rw [← List.toFinset_card_of_nodup ((List.nodup_finRange n).filter _)]
      congr 1
      ext i; simp
    rw [this]
  · unfold all
    by_cases hp : ∀ i, P i
    · have : ((List.finRange n).all fun i => decide (l i = BitVec.allOnes 32)) = true := by
        rw [List.all_eq_true]; intro i _; exact decide_eq_true ((h.eq_ones i).mpr (hp i))
      rw [this]; simp [hp]
    · have : ¬ ((List.finRange n).all fun i => decide (l i = BitVec.allOnes 32)) = true := by
        rw [List.all_eq_true]; intro hall; exact hp fun i => by
          exact (h.eq_ones i).mp (of_decide_eq_true (hall i (List.mem_finRange i)))
      rw [if_neg this]; simp [hp]
  · unfold any
    by_cases hp : ∃ i, P i
    · have : ((List.finRange n).any fun i => decide (l i = BitVec.allOnes 32)) = true := by
        rw [List.any_eq_true]; obtain ⟨i, hi⟩ := hp
        exact ⟨i, List.mem_finRange i, decide_eq_true ((h.eq_ones i).mpr hi)⟩
      rw [if_pos this]; simp [hp]
    · have : ¬ ((List.finRange n).any fun i => decide (l i = BitVec.allOnes 32)) = true := by
        rw [List.any_eq_true]; rintro ⟨i, -, hi⟩
        exact hp ⟨i, (h.eq_ones i).mp (of_decide_eq_true hi)⟩
      rw [if_neg this]; simp [hp]

/-- Consequences relating the three and `notl`. -/
theorem all_any_laws (l : LVec n) (hl : ∀ i, l i = 0#32 ∨ l i = 0xffffffff#32) :
    (all l ≠ 0 ↔ nbtrue l = n) ∧ (any l ≠ 0 ↔ nbtrue l > 0) ∧
    (all l ≠ 0 ↔ any (notl l) = 0) ∧ nbtrue l + nbtrue (notl l) = n := by
  have hr : Rep l (fun i => l i = 0xffffffff#32) := by
    intro i
    exact ⟨id, fun h => (hl i).resolve_right h⟩
  obtain ⟨h1, h2, h3⟩ := all_any_nbtrue l _ hr
  have hr' := (logical_ops_rep hr hr).2.2.2.2.1
  obtain ⟨g1, g2, g3⟩ := all_any_nbtrue (notl l) _ hr'
  have hc := Fintype.card_subtype_compl (fun i => l i = 0xffffffff#32)
  have hle := Fintype.card_subtype_le (fun i => l i = 0xffffffff#32)
  rw [Fintype.card_fin] at hc hle
  refine ⟨?_, ?_, ?_, ?_⟩
  · rw [h2, h1]
    constructor
    · intro h
      have : Fintype.card {i // l i = 0xffffffff#32} = n := by
        rw [Fintype.card_of_subtype Finset.univ (by simpa using h)]; simp
      exact_mod_cast this
    · intro h
      have h' : Fintype.card {i // l i = 0xffffffff#32} = n := by exact_mod_cast h
      by_contra hcon
      rw [not_forall] at hcon
      obtain ⟨i, hi⟩ := hcon
      have := Fintype.card_subtype_lt (p := fun i => l i = 0xffffffff#32) hi
      rw [Fintype.card_fin] at this
      omega
  · rw [h3, h1]
    constructor
    · rintro ⟨i, hi⟩
      have : 0 < Fintype.card {i // l i = 0xffffffff#32} := Fintype.card_pos_iff.mpr ⟨⟨i, hi⟩⟩
      exact_mod_cast this
    · intro h
      have h' : 0 < Fintype.card {i // l i = 0xffffffff#32} := by exact_mod_cast h
      obtain ⟨i⟩ := Fintype.card_pos_iff.mp h'
      exact ⟨i.1, i.2⟩
  · rw [h2]
    constructor
    · intro h
      by_contra hcon
      obtain ⟨i, hi⟩ := g3.mp hcon
      exact hi (h i)
    · intro h i
      by_contra hcon
      exact g3.mpr ⟨i, hcon⟩ h
  · rw [h1, g1, hc]; omega

example : nbtrue (n := 4) ![0xffffffff#32, 0#32, 0xffffffff#32, 0#32] = 2 := by decide

/-! ## C26 -/

/-- `to_logical(to_mask l) = l`, and `to_mask` gives all-ones / all-zeros lanes: every
type but `f16`. -/
theorem toLogical_toMask {w : Nat} (hw : 0 < w) {e : Elem (BitVec w) α} (he : Exact e)
    (hdec : ∀ y, (e.dec y).isSome) (l : LVec n) (P : Fin n → Prop) (h : Rep l P) :
    ∃ v, toMask e l = some v ∧ toLogical e v = l ∧
      ∀ i, (P i → e.enc (v i) = BitVec.allOnes w) ∧ (¬ P i → e.enc (v i) = 0#w) := by
  have hs : (toMask e l).isSome := by
    unfold toMask; rw [body_isSome]; intro i; exact hdec _
  obtain ⟨v, hv⟩ := Option.isSome_iff_exists.mp hs
  have hv' := hv
  unfold toMask at hv'
  rw [body_eq_some] at hv'
  have hb : ∀ i, (P i → e.enc (v i) = BitVec.allOnes w) ∧ (¬ P i → e.enc (v i) = 0#w) := by
    intro i
    have := he.enc_dec _ _ (hv' i)
    constructor
    · intro hp; rw [if_pos ((h.ne_zero i).mpr hp)] at this; exact this
    · intro hp; rw [if_neg (fun hc => hp ((h.ne_zero i).mp hc))] at this; exact this
  refine ⟨v, hv, ?_, hb⟩
  funext i
  unfold toLogical
  by_cases hp : P i
  · rw [(hb i).1 hp, if_neg, (h i).1 hp]; · rfl
    intro hc
    have := congrArg (fun x : BitVec w => x.getLsbD 0) hc
    simp [hw] at this
  · rw [(hb i).2 hp, if_pos rfl, (h i).2 hp]

/-- The same for `f16`, where the mask lane is an `f32` that stores as `0xffff` / `0`. -/
theorem toLogical_toMask_f16 (l : LVec n) (P : Fin n → Prop) (h : Rep l P) :
    toLogical f16Elem (toMaskF16 l) = l ∧
      ∀ i, (P i → f16Elem.enc (toMaskF16 l i) = 0xffff#16) ∧
        (¬ P i → f16Elem.enc (toMaskF16 l i) = 0#16) := by
  have e1 : f32ToU16 0xffffffff#32 = 0xffff#16 := (f32ToU16_special _).2 (by unfold NaN32 e32 m32; decide)
  have e0 : f32ToU16 0#32 = 0#16 := by decide +kernel
  have hb : ∀ i, (P i → f16Elem.enc (toMaskF16 l i) = 0xffff#16) ∧
        (¬ P i → f16Elem.enc (toMaskF16 l i) = 0#16) := by
    intro i
    constructor <;> intro hp <;> unfold toMaskF16
    · rw [(h i).1 hp]; exact e1
    · rw [(h i).2 hp]; exact e0
  refine ⟨?_, hb⟩
  funext i
  unfold toLogical
  by_cases hp : P i
  · rw [(hb i).1 hp, if_neg (by decide), (h i).1 hp]; rfl
  · rw [(hb i).2 hp, if_pos rfl, (h i).2 hp]

/-- `if_else1` selects by lane, and equals the bitwise blend with the mask. -/
theorem ifElse1_selects {w : Nat} (l : LVec n) (P : Fin n → Prop) [DecidablePred P] (h : Rep l P)
    (a b v : Vec n (BitVec w)) (e : Elem (BitVec w) (BitVec w)) (he : Exact e)
    (henc : ∀ x, e.enc x = x) (hv : toMask e l = some v) :
    (∀ i, ifElse1 l a b i = if P i then a i else b i) ∧
    ∀ i, ifElse1 l a b i = (a i &&& v i) ||| (b i &&& ~~~ (v i)) := by
  have h1 : ∀ i, ifElse1 l a b i = if P i then a i else b i := by
    intro i
    unfold ifElse1
    simp only [h.ne_zero]
  refine ⟨h1, ?_⟩
  intro i
  unfold toMask at hv
  rw [body_eq_some] at hv
  have hd := he.enc_dec _ _ (hv i)
  rw [henc] at hd
  rw [h1 i, hd]
  by_cases hp : P i
  · rw [if_pos hp, if_pos ((h.ne_zero i).mpr hp)]; simp
  · rw [if_neg hp, if_neg (fun hc => hp ((h.ne_zero i).mp hc))]; simp

example : ifElse1 (n := 2) ![0xffffffff#32, 0#32] ![1#8, 2#8] ![3#8, 4#8] = ![1#8, 4#8] := by decide

end Nsimd.Props.Cpu
