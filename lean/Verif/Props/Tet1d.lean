import Verif.Lemmas.Tet1d

/-!
# C30, C31, C32: the tet1d module
-/

namespace Nsimd.Props.Tet1d
open Nsimd.Cpu Nsimd.Tet1d Nsimd.Props.Cpu

variable {t : ITy} {L : Nat}

/-! ## Specification -/

/-- Value of an expression: an element, or a truth value. Specification, not code of the repo. -/
abbrev Val (t : ITy) : Bool → Type
  | false => BitVec t.w
  | true => Bool

/-- Truth table of the operators on logicals. Specification. -/
def truth : LBin → Bool → Bool → Bool
  | .andl, a, b => a && b
  | .orl, a, b => a || b
  | .xorl, a, b => a != b
  | .andnotl, a, b => a && !b

/-- The six comparisons. Specification. -/
def compare (t : ITy) : Cmp → BitVec t.w → BitVec t.w → Bool
  | .eq, a, b => t.val a = t.val b
  | .ne, a, b => t.val a ≠ t.val b
  | .gt, a, b => t.val a > t.val b
  | .ge, a, b => t.val a ≥ t.val b
  | .lt, a, b => t.val a < t.val b
  | .le, a, b => t.val a ≤ t.val b

/-- Value of an expression at index `i`: the inputs are read at `i`, the scalar operators
applied to the values of the arguments; undefined (`none`) if an input is not mapped there or an
operator is undefined on its arguments. Specification. -/
def valueAt (m : Mem (BitVec t.w)) (i : Int) : {b : Bool} → Node t b → Option (Val t b)
  | _, .scalar v => some v
  | _, .inp p _ => m (p + i)
  | _, .bin o l r => (valueAt m i l).bind fun a => (valueAt m i r).bind fun b => o.scalar t a b
  | _, .un o l => (valueAt m i l).bind fun a => o.scalar t a
  | _, .ter o l r x => (valueAt m i l).bind fun a => (valueAt m i r).bind fun b =>
      (valueAt m i x).bind fun c => o.scalar t a b c
  | _, .shift o l s => (valueAt m i l).bind fun a => o.scalar t a s
  | _, .ifElse l r x => (valueAt m i l).bind fun c => (valueAt m i r).bind fun a =>
      (valueAt m i x).bind fun b => some (if c then a else b)
  | _, .toMask l => (valueAt m i l).bind fun a => some (if a then BitVec.allOnes t.w else 0#t.w)
  | _, .cmp c l r => (valueAt m i l).bind fun a => (valueAt m i r).bind fun b =>
      some (compare t c a b)
  | _, .lbin o l r => (valueAt m i l).bind fun a => (valueAt m i r).bind fun b => some (truth o a b)
  | _, .lnot l => (valueAt m i l).bind fun a => some (!a)
  | _, .toLogical l => (valueAt m i l).bind fun a => some (decide (a ≠ 0#t.w))

/-- Addresses of the arrays an expression reads. Specification. -/
def inputs : {b : Bool} → Node t b → List Int
  | _, .scalar _ => []
  | _, .inp p _ => [p]
  | _, .bin _ l r => inputs l ++ inputs r
  | _, .un _ l => inputs l
  | _, .ter _ l r x => inputs l ++ inputs r ++ inputs x
  | _, .shift _ l _ => inputs l
  | _, .ifElse l r x => inputs l ++ inputs r ++ inputs x
  | _, .toMask l => inputs l
  | _, .cmp _ l r => inputs l ++ inputs r
  | _, .lbin _ l r => inputs l ++ inputs r
  | _, .lnot l => inputs l
  | _, .toLogical l => inputs l

/-- No input array starts strictly before the destination while overlapping its `n` elements.
An input may be the destination itself, or start after it. Specification. -/
def NoOverlap (dst n : Int) {b : Bool} (e : Node t b) : Prop :=
  ∀ p ∈ inputs e, dst ≤ p ∨ p + n ≤ dst

/-! ## Scalar evaluation -/

/-- Representation of a truth value by `bool`. Specification, not code of the repo. -/
def emb : {b : Bool} → Val t b → STy t b
  | false, x => x
  | true, x => if x then 1#32 else 0#32

theorem emb_bind {b c : Bool} {x : Option (STy t b)} {y : Option (Val t b)}
    (h : x = y.map emb) {f : STy t b → Option (STy t c)} {g : Val t b → Option (Val t c)}
    (hf : ∀ v, f (emb v) = (g v).map emb) : x.bind f = (y.bind g).map emb := by
  subst h
  cases y with
  | none => rfl
  | some v => exact hf v

theorem scalar_cmp (c : Cmp) (a b : BitVec t.w) : c.scalar t a b = compare t c a b := by
  cases c <;> rfl

theorem truth_bits (o : LBin) (a b : Bool) :
    Tet1d.toBool (o.scalar (if a then 1#32 else 0#32) (if b then 1#32 else 0#32)) =
      if truth o a b then 1#32 else 0#32 := by
  cases o <;> cases a <;> cases b <;> decide

theorem truth_scalar (o : LBin) (a b : Bool) :
    Tet1d.toBool (o.scalar (emb (t := t) (b := true) a) (emb (t := t) (b := true) b)) =
      emb (t := t) (b := true) (truth o a b) := by
  exact truth_bits o a b

theorem scalarGet_value (m : Mem (BitVec t.w)) (i : Int) {b : Bool} (e : Node t b) :
    e.scalarGet m i = (valueAt m i e).map emb := by
  induction e with
  | scalar v => rfl
  | inp p sz =>
    show m (p + i) = (m (p + i)).map _
    cases m (p + i) <;> rfl
  | bin o l r hl hr =>
    refine emb_bind hl fun a => emb_bind hr fun b => ?_
    show o.scalar t a b = (o.scalar t a b).map _
    cases o.scalar t a b <;> rfl
  | un o l hl =>
    refine emb_bind hl fun a => ?_
    show o.scalar t a = (o.scalar t a).map _
    cases o.scalar t a <;> rfl
  | ter o l r x hl hr hx =>
    refine emb_bind hl fun a => emb_bind hr fun b => emb_bind hx fun c => ?_
    show o.scalar t a b c = (o.scalar t a b c).map _
    cases o.scalar t a b c <;> rfl
  | shift o l s hl =>
    refine emb_bind hl fun a => ?_
    show o.scalar t a s = (o.scalar t a s).map _
    cases o.scalar t a s <;> rfl
  | ifElse l r x hl hr hx =>
    refine emb_bind hl fun c => emb_bind hr fun a => emb_bind hx fun b => ?_
    cases c <;> rfl
  | toMask l hl =>
    refine emb_bind hl fun a => ?_
    cases a
    · show some (Scalar.toMask t false) = some _
      cases t <;> rfl
    · show some (Scalar.toMask t true) = some _
      cases t <;> rfl
  | cmp c l r hl hr =>
    refine emb_bind hl fun a => emb_bind hr fun b => ?_
    show some (Tet1d.toBool (Scalar.ofBool (c.scalar t a b))) = some (emb (t := t) (b := true) (compare t c a b))
    rw [scalar_cmp]
    cases compare t c a b <;> rfl
  | lbin o l r hl hr =>
    refine emb_bind hl fun a => emb_bind hr fun b => ?_
    exact congrArg some (truth_scalar o a b)
  | lnot l hl =>
    refine emb_bind hl fun a => ?_
    cases a <;> rfl
  | toLogical l hl =>
    refine emb_bind hl fun a => ?_
    show some (Tet1d.toBool (Scalar.ofBool (Scalar.toLogical t a))) =
      some (emb (t := t) (b := true) (decide (a ≠ 0#t.w)))
    have : Scalar.toLogical t a = decide (a ≠ 0#t.w) := by
      unfold Scalar.toLogical
      have hz : t.val a = 0 ↔ a = 0#t.w := by
        unfold ITy.val
        split
        · constructor
          · intro h; exact BitVec.toInt_inj.mp (by simpa using h)
          · rintro rfl; simp
        · constructor
          · intro h; exact BitVec.eq_of_toNat_eq (by simpa using h)
          · rintro rfl; simp
      simp only [ne_eq, hz]
    rw [this]
    by_cases h : a = 0#t.w <;> simp [h, emb, Scalar.ofBool, Tet1d.toBool]

theorem valueAt_congr {m m' : Mem (BitVec t.w)} {i : Int} {b : Bool} (e : Node t b)
    (h : ∀ p ∈ inputs e, m' (p + i) = m (p + i)) : valueAt m' i e = valueAt m i e := by
  induction e with
  | scalar v => rfl
  | inp p sz => exact h p (List.mem_singleton.mpr rfl)
  | bin o l r hl hr | cmp o l r hl hr | lbin o l r hl hr =>
    simp only [inputs, List.mem_append] at h
    simp only [valueAt, hl fun p hp => h p (Or.inl hp), hr fun p hp => h p (Or.inr hp)]
  | un o l hl | shift o l s hl | toMask l hl | lnot l hl | toLogical l hl =>
    simp only [valueAt, hl h]
  | ter o l r x hl hr hx =>
    simp only [inputs, List.mem_append] at h
    simp only [valueAt, hl fun p hp => h p (Or.inl (Or.inl hp)),
      hr fun p hp => h p (Or.inl (Or.inr hp)), hx fun p hp => h p (Or.inr hp)]
  | ifElse l r x hl hr hx =>
    simp only [inputs, List.mem_append] at h
    simp only [valueAt, hl fun p hp => h p (Or.inl (Or.inl hp)),
      hr fun p hp => h p (Or.inl (Or.inr hp)), hx fun p hp => h p (Or.inr hp)]

theorem valueAt_stable {dst n : Int} {b : Bool} {e : Node t b} (h : NoOverlap dst n e)
    {m m1 : Mem (BitVec t.w)} {lo mid j : Int} (h0 : 0 ≤ lo) (h1 : mid ≤ j) (h2 : j < n)
    (hm : ∀ a, ¬ (dst + lo ≤ a ∧ a < dst + mid) → m1 a = m a) : valueAt m1 j e = valueAt m j e := by
  refine valueAt_congr e fun p hp => hm _ ?_
  rcases h p hp with h | h <;> omega

/-! ## C30 -/

theorem step_does (dst : Int) (e : Node t false) (i : Int) (m : Mem (BitVec t.w)) :
    Does dst (fun m j => (valueAt m j e).isSome ∧ (m (dst + j)).isSome) (fun m j => valueAt m j e) m
      ((e.simdGet L m i).bind fun v => store (intElem t) m (dst + i) v) i (i + L) := by
  have hag := simdGet_agree (L := L) m i e
  have hval : ∀ j, e.scalarGet m j = valueAt m j e := by
    intro j
    rw [scalarGet_value]
    cases valueAt m j e <;> rfl
  simp only [hval] at hag
  have hsome := Agree.isSome hag
  constructor
  · cases hr : e.simdGet L m i with
    | none =>
      rw [hr] at hsome
      refine ⟨fun h => (nomatch h), fun h => ?_⟩
      exact (nomatch hsome.mpr fun k => (h (i + (k : Nat)) (by omega) (by omega)).1)
    | some v =>
      rw [hr] at hsome
      rw [Option.bind_some, store_defined]
      constructor
      · intro h j h1 h2
        refine ⟨?_, ?_⟩
        · have := hsome.mp rfl ⟨(j - i).toNat, by omega⟩
          rwa [show i + (((j - i).toNat : Nat) : Int) = j by omega] at this
        · have := h (j - i) (by omega) (by omega)
          rwa [show dst + i + (j - i) = dst + j by omega] at this
      · intro h k h1 h2
        have := (h (i + k) (by omega) (by omega)).2
        rwa [← add_assoc] at this
  · intro m' hm'
    obtain ⟨v, hv, hst⟩ := Option.bind_eq_some_iff.mp hm'
    obtain ⟨hw, hf⟩ := store_writes _ _ _ _ _ hst
    refine ⟨fun j h1 h2 => ?_, fun a ha => hf a (by omega)⟩
    obtain ⟨x, hx, hs⟩ := hag.2 v hv ⟨(j - i).toNat, by omega⟩
    have := hw ⟨(j - i).toNat, by omega⟩
    simp only [show i + (((j - i).toNat : Nat) : Int) = j by omega] at hx
    simp only [show dst + i + (((j - i).toNat : Nat) : Int) = dst + j by omega] at this
    show m' (dst + j) = valueAt m j e
    rw [this, hx, ← show v _ = x from hs]
    rfl

theorem tail_does (dst : Int) (e : Node t false) (i : Int) (m : Mem (BitVec t.w)) :
    Does dst (fun m j => (valueAt m j e).isSome ∧ (m (dst + j)).isSome) (fun m j => valueAt m j e) m
      ((e.scalarGet m i).bind fun x => write m (dst + i) x) i (i + 1) := by
  have hval : e.scalarGet m i = valueAt m i e := by
    rw [scalarGet_value]
    cases valueAt m i e <;> rfl
  rw [hval]
  have hj : ∀ j, i ≤ j → j < i + 1 → j = i := fun j _ _ => by omega
  cases hv : valueAt m i e with
  | none =>
    refine ⟨⟨fun h => (nomatch h), fun h => ?_⟩, fun m' h => (nomatch h)⟩
    have := (h i (by omega) (by omega)).1
    rw [hv] at this
    exact (nomatch this)
  | some x =>
    rw [Option.bind_some]
    refine ⟨?_, fun m' hm => ⟨fun j h1 h2 => ?_, fun a ha => write_other hm (by omega)⟩⟩
    · rw [write_isSome]
      constructor
      · intro h j h1 h2
        rw [hj j h1 h2, hv]
        exact ⟨rfl, h⟩
      · intro h; exact (h i (by omega) (by omega)).2
    · show m' (dst + j) = valueAt m j e
      rw [hj j h1 h2, write_same hm, hv]

theorem simdLoop_eq (dst : Int) (e : Node t false) (n : Int) (fuel : Nat) :
    ∀ i m, simdLoop L dst e n fuel i m = vecLoop L (fun i m =>
      (e.simdGet L m i).bind fun v => store (intElem t) m (dst + i) v) n fuel i m := by
  induction fuel with
  | zero => intro i m; rfl
  | succ fuel ih =>
    intro i m
    unfold simdLoop vecLoop
    simp only [ih, Option.bind_assoc]

theorem scalarLoop_eq (dst : Int) (e : Node t false) (n : Int) (fuel : Nat) :
    ∀ i m, scalarLoop dst e n fuel i m = tailLoop (fun i m =>
      (e.scalarGet m i).bind fun x => write m (dst + i) x) n fuel i m := by
  induction fuel with
  | zero => intro i m; rfl
  | succ fuel ih =>
    intro i m
    unfold scalarLoop tailLoop
    simp only [ih, Option.bind_assoc]

/-- C30: `out(dst) = expr` is defined exactly when the expression is defined and `dst` is mapped
at each index `0 ≤ j < n`, where `n` is the size of the expression; then `dst[j]` becomes the
value of the expression at `j` (on the memory before the assignment) for each of them, and
nothing else changes. `L` is the length of the pack. -/
theorem assign_correct (dst : Int) (e : Node t false) (m : Mem (BitVec t.w)) (n : Int)
    (hsize : e.size = some n) (hL : 0 < L) (hL63 : (L : Int) < 2 ^ 63) (hn : n + L ≤ 2 ^ 63)
    (hov : NoOverlap dst n e) :
    ((assign L dst e m).isSome ↔
      ∀ j, 0 ≤ j → j < n → (valueAt m j e).isSome ∧ (m (dst + j)).isSome) ∧
    ∀ m', assign L dst e m = some m' →
      (∀ j, 0 ≤ j → j < n → m' (dst + j) = valueAt m j e) ∧
      ∀ a, ¬ (dst ≤ a ∧ a < dst + n) → m' a = m a := by
  have hst : Stable dst n (fun m j => (valueAt m j e).isSome ∧ (m (dst + j)).isSome)
      (fun m j => valueAt m j e) := by
    intro m m1 lo mid j h0 h1 h2 hm
    beta_reduce
    rw [valueAt_stable hov h0 h1 h2 hm, hm (dst + j) (by omega)]
    exact ⟨Iff.rfl, rfl⟩
  have h := loops_does hst hL hL63 hn (fun i m _ _ => step_does (L := L) dst e i m)
    (fun i m _ _ => tail_does dst e i m) m
  have heq : assign L dst e m = (vecLoop L (fun i m =>
      (e.simdGet L m i).bind fun v => store (intElem t) m (dst + i) v) n (n.toNat + 1) 0 m).bind
      fun im => tailLoop (fun i m =>
      (e.scalarGet m i).bind fun x => write m (dst + i) x) n (n.toNat + 1) im.1 im.2 := by
    unfold assign kernel
    rw [hsize, Option.bind_some, simdLoop_eq]
    simp only [scalarLoop_eq]
  rw [heq]
  refine ⟨h.1, fun m' hm => ⟨(h.2 m' hm).1, fun a ha => (h.2 m' hm).2 a (by omega)⟩⟩

/-- `dst = a + dst` on 7 elements with 4 lanes, `dst` at 0 and `a` at 10. -/
example : ∃ m', assign 4 0 (.bin .add (.inp 10 7) (.inp 0 7) : Node .u8 false)
      (fun a => some (BitVec.ofInt 8 a)) = some m' ∧ m' 6 = some 22#8 ∧ m' 7 = some 7#8 := by
  have h := assign_correct (L := 4) 0 (.bin .add (.inp 10 7) (.inp 0 7) : Node .u8 false)
    (fun a => some (BitVec.ofInt 8 a)) 7 (by decide) (by omega) (by omega) (by omega)
    (by intro p hp; simp [inputs] at hp; omega)
  have hs : (assign 4 0 (.bin .add (.inp 10 7) (.inp 0 7) : Node .u8 false)
      (fun a => some (BitVec.ofInt 8 a))).isSome := by decide
  obtain ⟨m', hm⟩ := Option.isSome_iff_exists.mp hs
  refine ⟨m', hm, ?_, ?_⟩
  · have := (h.2 m' hm).1 6 (by omega) (by omega)
    rw [Int.zero_add] at this; rw [this]; decide
  · rw [(h.2 m' hm).2 7 (by omega)]; decide

/-! ## C31 -/

/-- The value the masked assignment gives to `dst[j]`. Specification. -/
def selected (dst : Int) (mask : Node t true) (e : Node t false) (m : Mem (BitVec t.w)) (j : Int) :
    Option (BitVec t.w) :=
  (valueAt m j mask).bind fun c => if c then valueAt m j e else m (dst + j)

/-- Definedness at index `j`: the mask must be defined; where it is true, or in the vector part
(`j` below the last multiple of `L` smaller than `n`) the expression must be defined and `dst[j]`
mapped. Specification, not code of the repo. -/
def maskOk (L : Nat) (n dst : Int) (mask : Node t true) (e : Node t false) (m : Mem (BitVec t.w))
    (j : Int) : Prop :=
  (valueAt m j mask).isSome ∧
  (valueAt m j mask = some true ∨ j < (n - 1) / L * L →
    (valueAt m j e).isSome ∧ (m (dst + j)).isSome)

theorem scalarGet_mask (m : Mem (BitVec t.w)) (j : Int) (e : Node t true) :
    e.scalarGet m j = (valueAt m j e).map fun c => if c then 1#32 else 0#32 := scalarGet_value m j e

theorem maskTail_does (n dst : Int) (mask : Node t true) (e : Node t false) (i : Int)
    (hi : (n - 1) / L * L ≤ i) (m : Mem (BitVec t.w)) :
    Does dst (maskOk L n dst mask e) (selected dst mask e) m
      ((mask.scalarGet m i).bind fun c =>
        if c ≠ 0#32 then (e.scalarGet m i).bind fun x => write m (dst + i) x else some m)
      i (i + 1) := by
  have hval : e.scalarGet m i = valueAt m i e := by
    rw [scalarGet_value]
    cases valueAt m i e <;> rfl
  have hj : ∀ j, i ≤ j → j < i + 1 → j = i := fun j _ _ => by omega
  rw [scalarGet_mask, hval]
  cases hc : valueAt m i mask with
  | none =>
    refine ⟨⟨fun h => (nomatch h), fun h => ?_⟩, fun m' h => (nomatch h)⟩
    have := (h i (by omega) (by omega)).1
    rw [hc] at this
    exact (nomatch this)
  | some c =>
    cases c with
    | false =>
      show Does _ _ _ m (some m) _ _
      refine ⟨⟨fun _ j h1 h2 => ?_, fun _ => rfl⟩, fun m' hm => ⟨fun j h1 h2 => ?_, fun a _ => ?_⟩⟩
      · rw [hj j h1 h2]
        refine ⟨by rw [hc]; rfl, fun h => ?_⟩
        rcases h with h | h
        · rw [hc] at h; exact absurd (Option.some_inj.mp h) Bool.false_ne_true
        · omega
      · cases hm
        rw [hj j h1 h2]
        unfold selected
        rw [hc]
        rfl
      · cases hm; rfl
    | true =>
      show Does _ _ _ m ((valueAt m i e).bind fun x => write m (dst + i) x) _ _
      have hsel : selected dst mask e m i = valueAt m i e := by
        unfold selected; rw [hc]; rfl
      cases hv : valueAt m i e with
      | none =>
        refine ⟨⟨fun h => (nomatch h), fun h => ?_⟩, fun m' h => (nomatch h)⟩
        have := ((h i (by omega) (by omega)).2 (Or.inl hc)).1
        rw [hv] at this
        exact (nomatch this)
      | some x =>
        rw [Option.bind_some]
        refine ⟨?_, fun m' hm => ⟨fun j h1 h2 => ?_, fun a ha => write_other hm (by omega)⟩⟩
        · rw [write_isSome]
          constructor
          · intro h j h1 h2
            rw [hj j h1 h2]
            exact ⟨by rw [hc]; rfl, fun _ => ⟨by rw [hv]; rfl, h⟩⟩
          · intro h; exact ((h i (by omega) (by omega)).2 (Or.inl hc)).2
        · rw [hj j h1 h2, write_same hm, hsel, hv]

theorem maskStep_does (n dst : Int) (mask : Node t true) (e : Node t false) (i : Int)
    (hi : i + L ≤ (n - 1) / L * L) (m : Mem (BitVec t.w)) :
    Does dst (maskOk L n dst mask e) (selected dst mask e) m
      ((mask.simdGet L m i).bind fun c => (e.simdGet L m i).bind fun v =>
        (load (intElem t) L m (dst + i)).bind fun d =>
        store (intElem t) m (dst + i) (ifElse1 c v d)) i (i + L) := by
  have hval : ∀ j, e.scalarGet m j = valueAt m j e := by
    intro j
    rw [scalarGet_value]
    cases valueAt m j e <;> rfl
  have hag := simdGet_agree (L := L) m i e
  simp only [hval] at hag
  have hagm := simdGet_agree (L := L) m i mask
  simp only [scalarGet_mask] at hagm
  have hsome := Agree.isSome hag
  have hsomem := Agree.isSome hagm
  simp only [Option.isSome_map] at hsomem
  have hidx : ∀ j, i ≤ j → j < i + L → i + (((j - i).toNat : Nat) : Int) = j := fun j _ _ => by omega
  constructor
  · cases hc : mask.simdGet L m i with
    | none =>
      rw [hc] at hsomem
      refine ⟨fun h => (nomatch h), fun h => ?_⟩
      exact (nomatch hsomem.mpr fun k => (h (i + (k : Nat)) (by omega) (by omega)).1)
    | some c =>
      rw [hc] at hsomem
      rw [Option.bind_some]
      cases hr : e.simdGet L m i with
      | none =>
        rw [hr] at hsome
        refine ⟨fun h => (nomatch h), fun h => ?_⟩
        exact (nomatch hsome.mpr fun k =>
          ((h (i + (k : Nat)) (by omega) (by omega)).2 (Or.inr (by omega))).1)
      | some v =>
        rw [hr] at hsome
        rw [Option.bind_some]
        cases hd : load (intElem t) L m (dst + i) with
        | none =>
          refine ⟨fun h => (nomatch h), fun h => ?_⟩
          unfold load at hd
          have := body_isSome.mpr (fun k : Fin L => by
            have := ((h (i + (k : Nat)) (by omega) (by omega)).2 (Or.inr (by omega))).2
            rw [← add_assoc] at this
            obtain ⟨x, hx⟩ := Option.isSome_iff_exists.mp this
            show ((m (dst + i + (k : Nat))).bind (intElem t).dec).isSome = true
            rw [hx]; rfl)
          rw [hd] at this
          exact (nomatch this)
        | some d =>
          rw [Option.bind_some, store_defined]
          constructor
          · intro h j h1 h2
            refine ⟨?_, fun _ => ⟨?_, ?_⟩⟩
            · have := hsomem.mp rfl ⟨(j - i).toNat, by omega⟩
              rwa [hidx j h1 h2] at this
            · have := hsome.mp rfl ⟨(j - i).toNat, by omega⟩
              rwa [hidx j h1 h2] at this
            · have := h (j - i) (by omega) (by omega)
              rwa [show dst + i + (j - i) = dst + j by omega] at this
          · intro h k h1 h2
            have := ((h (i + k) (by omega) (by omega)).2 (Or.inr (by omega))).2
            rwa [← add_assoc] at this
  · intro m' hm'
    obtain ⟨c, hc, hm'⟩ := Option.bind_eq_some_iff.mp hm'
    obtain ⟨v, hv, hm'⟩ := Option.bind_eq_some_iff.mp hm'
    obtain ⟨d, hd, hst⟩ := Option.bind_eq_some_iff.mp hm'
    obtain ⟨hw, hf⟩ := store_writes _ _ _ _ _ hst
    rw [load_reads] at hd
    refine ⟨fun j h1 h2 => ?_, fun a ha => hf a (by omega)⟩
    obtain ⟨x, hx, hs⟩ := hag.2 v hv ⟨(j - i).toNat, by omega⟩
    obtain ⟨y, hy, hs'⟩ := hagm.2 c hc ⟨(j - i).toNat, by omega⟩
    obtain ⟨z, hz, hzd⟩ := hd ⟨(j - i).toNat, by omega⟩
    have := hw ⟨(j - i).toNat, by omega⟩
    have hdj : dst + i + (((j - i).toNat : Nat) : Int) = dst + j := by omega
    simp only [hidx j h1 h2] at hx hy
    simp only [hdj] at this hz
    obtain ⟨b, hb, rfl⟩ := Option.map_eq_some_iff.mp hy
    rw [this]
    unfold selected
    rw [hb, Option.bind_some]
    have hne := SameL.ne_zero hs'
    cases b with
    | false =>
      have : ifElse1 c v d ⟨(j - i).toNat, by omega⟩ = d ⟨(j - i).toNat, by omega⟩ := by
        unfold ifElse1
        exact if_neg fun h => hne.mp h rfl
      rw [this, if_neg (by decide), hz]
      exact hzd.symm
    | true =>
      have : ifElse1 c v d ⟨(j - i).toNat, by omega⟩ = v ⟨(j - i).toNat, by omega⟩ := by
        unfold ifElse1
        exact if_pos (hne.mpr (by decide))
      rw [this, if_pos rfl, hx, ← show v _ = x from hs]
      rfl

theorem maskSimdLoop_eq (dst : Int) (mask : Node t true) (e : Node t false) (n : Int) (fuel : Nat) :
    ∀ i m, maskSimdLoop L dst mask e n fuel i m = vecLoop L (fun i m =>
      ((mask.simdGet L m i).bind fun c => (e.simdGet L m i).bind fun v =>
        (load (intElem t) L m (dst + i)).bind fun d =>
        store (intElem t) m (dst + i) (ifElse1 c v d))) n fuel i m := by
  induction fuel with
  | zero => intro i m; rfl
  | succ fuel ih =>
    intro i m
    unfold maskSimdLoop vecLoop
    simp only [ih, Option.bind_assoc]

theorem maskScalarLoop_eq (dst : Int) (mask : Node t true) (e : Node t false) (n : Int) (fuel : Nat) :
    ∀ i m, maskScalarLoop dst mask e n fuel i m = tailLoop (fun i m =>
      ((mask.scalarGet m i).bind fun c =>
        if c ≠ 0#32 then (e.scalarGet m i).bind fun x => write m (dst + i) x else some m))
      n fuel i m := by
  induction fuel with
  | zero => intro i m; rfl
  | succ fuel ih =>
    intro i m
    unfold maskScalarLoop tailLoop
    simp only [ih, Option.bind_assoc]

/-- C31: when `out(dst)(mask) = expr` is defined, `dst[j]` becomes the value of the expression
at each index `0 ≤ j < n` where the mask is true and keeps its value at each index where the
mask is false; nothing else changes. It is defined exactly when `maskOk` holds at each index; in
particular when mask and expression are defined and `dst` is mapped at each index. -/
theorem maskAssign_correct (dst : Int) (mask : Node t true) (e : Node t false)
    (m : Mem (BitVec t.w)) (a b n : Int)
    (hsm : mask.size = some a) (hse : e.size = some b) (hsize : computeSize a b = some n)
    (hL : 0 < L) (hL63 : (L : Int) < 2 ^ 63) (hn : n + L ≤ 2 ^ 63)
    (hovm : NoOverlap dst n mask) (hov : NoOverlap dst n e) :
    ((maskAssign L dst mask e m).isSome ↔ ∀ j, 0 ≤ j → j < n → maskOk L n dst mask e m j) ∧
    ∀ m', maskAssign L dst mask e m = some m' →
      (∀ j, 0 ≤ j → j < n → valueAt m j mask = some true → m' (dst + j) = valueAt m j e) ∧
      (∀ j, 0 ≤ j → j < n → valueAt m j mask = some false → m' (dst + j) = m (dst + j)) ∧
      ∀ a, ¬ (dst ≤ a ∧ a < dst + n) → m' a = m a := by
  have hst : Stable dst n (maskOk L n dst mask e) (selected dst mask e) := by
    intro m m1 lo mid j h0 h1 h2 hm
    unfold maskOk selected
    rw [valueAt_stable hov h0 h1 h2 hm, valueAt_stable hovm h0 h1 h2 hm, hm (dst + j) (by omega)]
    exact ⟨Iff.rfl, rfl⟩
  have hve : 0 < n → vecEnd L n = (n - 1) / L * L := by
    intro h; unfold vecEnd; rw [if_neg (by omega)]
  have hve0 : n ≤ 0 → vecEnd L n = 0 := by intro h; unfold vecEnd; rw [if_pos h]
  have h := loops_does hst hL hL63 hn
    (fun i m h0 h1 => maskStep_does (L := L) n dst mask e i (by
      by_cases hp : 0 < n
      · rw [hve hp] at h1; exact h1
      · rw [hve0 (by omega)] at h1; omega) m)
    (fun i m h0 h1 => maskTail_does (L := L) n dst mask e i (by
      by_cases hp : 0 < n
      · rw [hve hp] at h0; exact h0
      · rw [hve0 (by omega)] at h0; omega) m) m
  have heq : maskAssign L dst mask e m = (vecLoop L (fun i m =>
      ((mask.simdGet L m i).bind fun c => (e.simdGet L m i).bind fun v =>
        (load (intElem t) L m (dst + i)).bind fun d =>
        store (intElem t) m (dst + i) (ifElse1 c v d))) n (n.toNat + 1) 0 m).bind
      fun im => tailLoop (fun i m => ((mask.scalarGet m i).bind fun c =>
        if c ≠ 0#32 then (e.scalarGet m i).bind fun x => write m (dst + i) x else some m))
        n (n.toNat + 1) im.1 im.2 := by
    unfold maskAssign maskKernel
    rw [hsm, Option.bind_some, hse, Option.bind_some, hsize, Option.bind_some, maskSimdLoop_eq]
    simp only [maskScalarLoop_eq]
  rw [heq]
  refine ⟨h.1, fun m' hm => ?_⟩
  obtain ⟨hv, hf⟩ := h.2 m' hm
  refine ⟨fun j h0 h1 hc => ?_, fun j h0 h1 hc => ?_, fun a ha => hf a (by omega)⟩
  · rw [hv j h0 h1]; unfold selected; rw [hc]; rfl
  · rw [hv j h0 h1]; unfold selected; rw [hc]; rfl

/-- Defined everywhere: the assignment is defined. -/
theorem maskOk_of_defined (n dst : Int) (mask : Node t true) (e : Node t false)
    (m : Mem (BitVec t.w)) (j : Int) (h1 : (valueAt m j mask).isSome) (h2 : (valueAt m j e).isSome)
    (h3 : (m (dst + j)).isSome) : maskOk L n dst mask e m j := ⟨h1, fun _ => ⟨h2, h3⟩⟩

/-- `dst(a < 13) = a` on 7 elements with 4 lanes, `dst` at 0 and `a` at 10. -/
example : ∃ m', maskAssign 4 0 (.cmp .lt (.inp 10 7) (.scalar 13)) (.inp 10 7 : Node .u8 false)
      (fun a => some (BitVec.ofInt 8 a)) = some m' ∧ m' 2 = some 12#8 ∧ m' 3 = some 3#8 := by
  have h := maskAssign_correct (L := 4) 0 (.cmp .lt (.inp 10 7) (.scalar 13)) (.inp 10 7 : Node .u8 false)
    (fun a => some (BitVec.ofInt 8 a)) 7 7 7 (by decide) (by decide) (by decide) (by omega) (by omega)
    (by omega) (by intro p hp; simp [inputs] at hp; omega) (by intro p hp; simp [inputs] at hp; omega)
  have hs := h.1.mpr fun j _ _ => maskOk_of_defined _ _ _ _ _ _ rfl rfl rfl
  obtain ⟨m', hm⟩ := Option.isSome_iff_exists.mp hs
  refine ⟨m', hm, ?_, ?_⟩
  · have := (h.2 m' hm).1 2 (by omega) (by omega) (by decide)
    rw [Int.zero_add] at this; rw [this]; decide
  · have := (h.2 m' hm).2.1 3 (by omega) (by omega) (by decide)
    rw [Int.zero_add] at this; rw [this]; decide

/-- Unselected elements are evaluated in the vector part but not in the tail: with
`dst(b != 0) = a / b`, a zero divisor at index 0 is undefined behaviour for 5 elements and harmless
for 4 (4 lanes, `a` at 10, `b` at 20 with `b[0] = 0`). -/
theorem maskAssign_evaluates_unselected :
    let m : Mem (BitVec 8) := fun a => some (BitVec.ofInt 8 (if a < 20 then a else a - 20))
    let mask (n : Int) : Node .u8 true := .cmp .ne (.inp 20 n) (.scalar 0)
    let e (n : Int) : Node .u8 false := .bin .div (.inp 10 n) (.inp 20 n)
    maskAssign 4 0 (mask 5) (e 5) m = none ∧ (maskAssign 4 0 (mask 4) (e 4) m).isSome := by
  decide

/-! ## C32 -/

/-- `compute_size` accepts two sizes exactly when they are the same or one of them belongs to a
scalar (negative size), and not both do; the result is the size of the one that is not a
scalar. -/
theorem computeSize_spec (s1 s2 n : Int) :
    computeSize s1 s2 = some n ↔
      (0 ≤ n ∧ (s1 = n ∨ s1 < 0) ∧ (s2 = n ∨ s2 < 0) ∧ ¬ (s1 < 0 ∧ s2 < 0)) := by
  unfold computeSize
  split
  · split
    · split <;> rw [Option.some_inj] <;> omega
    · simp only [reduceCtorEq, false_iff]; omega
  · simp only [reduceCtorEq, false_iff]; omega

example : computeSize 5 (-1) = some 5 := by decide

/-- Three sizes: accepted exactly when at least one of the first two is not a scalar and all
non-scalar sizes are the same. -/
theorem computeSize3_spec (s1 s2 s3 n : Int) :
    computeSize3 s1 s2 s3 = some n ↔
      (0 ≤ n ∧ (s1 = n ∨ s1 < 0) ∧ (s2 = n ∨ s2 < 0) ∧ (s3 = n ∨ s3 < 0) ∧
        ¬ (s1 < 0 ∧ s2 < 0)) := by
  unfold computeSize3
  rw [Option.bind_eq_some_iff]
  simp only [computeSize_spec]
  constructor
  · rintro ⟨s, h, h'⟩; omega
  · intro h; exact ⟨n, by omega, by omega⟩

/-- `fma(x, 2, 3)` has the size of `x`, but `fma(2, 3, x)` fails the assertion. -/
theorem computeSize3_order : computeSize3 5 (-1) (-1) = some 5 ∧ computeSize3 (-1) (-1) 5 = none := by
  decide

/-- In an accepted expression all inputs have the size of the expression.
Specification, not code of the repo. -/
def sizes : {b : Bool} → Node t b → List Int
  | _, .scalar _ => []
  | _, .inp _ sz => [sz]
  | _, .bin _ l r => sizes l ++ sizes r
  | _, .un _ l => sizes l
  | _, .ter _ l r x => sizes l ++ sizes r ++ sizes x
  | _, .shift _ l _ => sizes l
  | _, .ifElse l r x => sizes l ++ sizes r ++ sizes x
  | _, .toMask l => sizes l
  | _, .cmp _ l r => sizes l ++ sizes r
  | _, .lbin _ l r => sizes l ++ sizes r
  | _, .lnot l => sizes l
  | _, .toLogical l => sizes l

/-- Every input array of an accepted expression (with nonnegative sizes) has as many elements as
the expression has; so the assignment reads each input inside its bounds. -/
theorem size_inputs {b : Bool} (e : Node t b) (n : Int) (h : e.size = some n)
    (hpos : ∀ s ∈ sizes e, 0 ≤ s) : ∀ s ∈ sizes e, s = n := by
  have two : ∀ {l r : Option Int} {ll lr : List Int} {n : Int},
      (∀ n, l = some n → (∀ s ∈ ll, 0 ≤ s) → ∀ s ∈ ll, s = n) →
      (∀ n, r = some n → (∀ s ∈ lr, 0 ≤ s) → ∀ s ∈ lr, s = n) →
      (l.bind fun a => r.bind fun b => computeSize a b) = some n →
      (∀ s ∈ ll ++ lr, 0 ≤ s) → ∀ s ∈ ll ++ lr, s = n := by
    intro l r ll lr n hl hr h hp s hs
    obtain ⟨a, ha, h⟩ := Option.bind_eq_some_iff.mp h
    obtain ⟨b, hb, h⟩ := Option.bind_eq_some_iff.mp h
    rw [computeSize_spec] at h
    have h0 := hp s hs
    rcases List.mem_append.mp hs with hs | hs
    · have := hl a ha (fun s hs => hp s (List.mem_append.mpr (Or.inl hs))) s hs
      omega
    · have := hr b hb (fun s hs => hp s (List.mem_append.mpr (Or.inr hs))) s hs
      omega
  have three : ∀ {l r x : Option Int} {ll lr lx : List Int} {n : Int},
      (∀ n, l = some n → (∀ s ∈ ll, 0 ≤ s) → ∀ s ∈ ll, s = n) →
      (∀ n, r = some n → (∀ s ∈ lr, 0 ≤ s) → ∀ s ∈ lr, s = n) →
      (∀ n, x = some n → (∀ s ∈ lx, 0 ≤ s) → ∀ s ∈ lx, s = n) →
      (l.bind fun a => r.bind fun b => x.bind fun c => computeSize3 a b c) = some n →
      (∀ s ∈ ll ++ lr ++ lx, 0 ≤ s) → ∀ s ∈ ll ++ lr ++ lx, s = n := by
    intro l r x ll lr lx n hl hr hx h hp s hs
    obtain ⟨a, ha, h⟩ := Option.bind_eq_some_iff.mp h
    obtain ⟨b, hb, h⟩ := Option.bind_eq_some_iff.mp h
    obtain ⟨c, hc, h⟩ := Option.bind_eq_some_iff.mp h
    rw [computeSize3_spec] at h
    have h0 := hp s hs
    simp only [List.mem_append] at hs hp
    rcases hs with (hs | hs) | hs
    · have := hl a ha (fun s hs => hp s (Or.inl (Or.inl hs))) s hs
      omega
    · have := hr b hb (fun s hs => hp s (Or.inl (Or.inr hs))) s hs
      omega
    · have := hx c hc (fun s hs => hp s (Or.inr hs)) s hs
      omega
  induction e generalizing n with
  | scalar v => intro s hs; exact (nomatch hs)
  | inp p sz =>
    intro s hs
    rw [List.mem_singleton.mp hs]
    exact Option.some_inj.mp h
  | bin o l r hl hr | cmp o l r hl hr | lbin o l r hl hr => exact two hl hr h hpos
  | un o l hl | shift o l s hl | toMask l hl | lnot l hl | toLogical l hl => exact hl n h hpos
  | ter o l r x hl hr hx => exact three hl hr hx h hpos
  | ifElse l r x hl hr hx => exact three hl hr hx h hpos

example : (Node.ter .fma (.inp 0 5) (.scalar 2#8) (.un .neg (.inp 9 5)) : Node .u8 false).size = some 5 := by
  decide

/-- Python index: negative counts from the end. Specification. -/
def pyIndex (sz i : Int) : Int := if i < 0 then sz + i else i

/-- `in(data, sz)(i0, i1)` is accepted exactly when the two indices, read as in Python, satisfy
`0 ≤ i0 < i1 < sz`; element `k` of the result is element `i0 + k` of the parent, its last element
is element `i1`, and all its elements lie inside the parent. -/
theorem subrange_spec (data sz i0 i1 p n : Int) :
    (subrange data sz i0 i1 = some (p, n) →
      p = data + pyIndex sz i0 ∧ p + (n - 1) = data + pyIndex sz i1 ∧ 2 ≤ n ∧
      ∀ k, 0 ≤ k → k < n → data ≤ p + k ∧ p + k < data + sz) ∧
    ((subrange data sz i0 i1).isSome ↔
      0 ≤ pyIndex sz i0 ∧ pyIndex sz i0 < pyIndex sz i1 ∧ pyIndex sz i1 < sz) := by
  unfold subrange pyIndex
  simp only []
  have h0 : (if i0 ≥ 0 then i0 else sz + i0) = if i0 < 0 then sz + i0 else i0 := by
    split <;> split <;> omega
  have h1 : (if i1 ≥ 0 then i1 else sz + i1) = if i1 < 0 then sz + i1 else i1 := by
    split <;> split <;> omega
  rw [h0, h1]
  generalize (if i0 < 0 then sz + i0 else i0) = j0
  generalize (if i1 < 0 then sz + i1 else i1) = j1
  by_cases h : 0 ≤ j0 ∧ j0 < j1 ∧ j1 < sz
  · rw [if_pos h]
    refine ⟨fun hs => ?_, by simp [h]⟩
    rw [Option.some_inj, Prod.mk.injEq] at hs
    refine ⟨by omega, by omega, by omega, fun k _ _ => ?_⟩
    omega
  · rw [if_neg h]
    exact ⟨fun hs => (nomatch hs), by simp [h]⟩

example : subrange 100 10 2 (-1) = some (102, 8) := by decide

/-- A range of one element is refused. -/
theorem subrange_single (data sz i : Int) : subrange data sz i i = none := by
  unfold subrange
  simp only []
  rw [if_neg (by omega)]

end Nsimd.Props.Tet1d
