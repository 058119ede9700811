import Verif.Model.Spmd
import Mathlib.Tactic.DefEqTransformations

/-!
# One lane alone, and the simulation between masked and scalar execution

`run` is the specification: the control flow of C++ (`if`, `else if`, `else`, `while`, `break`,
`continue`, `return`), which is also what the macros expand to on GPUs
(include/nsimd/modules/spmd.hpp:221-274).
-/

namespace Nsimd.Spmd

variable {V : Type} {n : Nat}

/-- How a statement of C++ ends. Specification. -/
inductive Out
  | normal | brk | cont | ret
  deriving Repr, DecidableEq

/-- `while (c) body` in C++, at most `fuel` evaluations of `c`. Specification. -/
def runLoop (c : Lane V → Bool) (body : Lane V → Option (Out × Lane V)) :
    Nat → Lane V → Option (Out × Lane V)
  | 0, _ => none
  | fuel + 1, x =>
    if c x then (body x).bind fun r =>
      match r.1 with
      | .normal => runLoop c body fuel r.2
      | .cont => runLoop c body fuel r.2
      | .brk => some (.normal, r.2)
      | .ret => some (.ret, r.2)
    else some (.normal, x)

/-- The variables after an assignment to variable `x`. Specification. -/
def upd {A : Type} (f : Nat → A) (x : Nat) (v : A) : Nat → A := fun y => if y = x then v else f y

/-- One lane executing the kernel text as ordinary C++. Specification. -/
def run (F : Nat) : {b : Bool} → Stmt V b → Lane V → Option (Out × Lane V)
  | _, .skip, x => some (.normal, x)
  | _, .set v e, x => some (.normal, { x with num := upd x.num v (e x) })
  | _, .setl v e, x => some (.normal, { x with log := upd x.log v (e x) })
  | _, .store a e, x => some (.normal, { x with cell := upd x.cell a (e x) })
  | _, .load v a, x => some (.normal, { x with num := upd x.num v (x.cell a) })
  | _, .seq s t, x => (run F s x).bind fun r =>
      if r.1 = .normal then run F t r.2 else some r
  | _, .ifs c s t, x => if c x then run F s x else run F t x
  | _, .elif c s t, x => if c x then run F s x else run F t x
  | _, .els s, x => run F s x
  | _, .endif, x => some (.normal, x)
  | _, .whil c s, x => runLoop c (run F s) F x
  | _, .brk, x => some (.brk, x)
  | _, .cont, x => some (.cont, x)
  | _, .ret, x => some (.ret, x)
  | _, .call s, x => (run F s x).bind fun r => some (.normal, r.2)

/-- No `k_continue`, and, unless `scalar`, no `k_set` on a `k_bool` variable. Specification. -/
def Plain (scalar : Bool) : {b : Bool} → Stmt V b → Prop
  | _, .setl _ _ => scalar = true
  | _, .cont => False
  | _, .seq s t => Plain scalar s ∧ Plain scalar t
  | _, .ifs _ s t => Plain scalar s ∧ Plain scalar t
  | _, .elif _ s t => Plain scalar s ∧ Plain scalar t
  | _, .els s => Plain scalar s
  | _, .whil _ s => Plain scalar s
  | _, .call s => Plain scalar s
  | _, _ => True

/-- Lane `l` is the same before and after. Proof device. -/
def Keep (st st' : St V n) (l : Fin n) : Prop :=
  st'.lanes l = st.lanes l ∧ st'.offB l = st.offB l ∧ st'.offR l = st.offR l

/-- Lane `l` did what the lane alone does. Proof device. -/
def Sim (st' : St V n) (l : Fin n) (r : Option (Out × Lane V)) : Prop :=
  ∃ o x, r = some (o, x) ∧ st'.lanes l = x ∧
    ((o = .normal ∧ st'.mask l = true ∧ st'.offB l = false ∧ st'.offR l = false) ∨
     (o = .brk ∧ st'.mask l = false ∧ st'.offB l = true ∧ st'.offR l = false) ∨
     (o = .ret ∧ st'.mask l = false ∧ st'.offB l = false ∧ st'.offR l = true))

/-- Statement. Proof device. -/
def StmtSim (z : V) (sc : Bool) (F : Nat) (n : Nat) (s : Stmt V false) : Prop :=
  ∀ (cond mid : Mask n) (st st' : St V n), exec z sc F s cond mid st = some st' →
    (∀ l, st.offC l = false) →
    (∀ l, st'.offC l = false) ∧ ∀ l,
      (st.mask l = false → Keep st st' l ∧ st'.mask l = false) ∧
      (st.mask l = true → st.offB l = false → st.offR l = false →
        Sim st' l (run F s (st.lanes l)))

/-- Chain. Proof device. -/
def ChainSim (z : V) (sc : Bool) (F : Nat) (n : Nat) (s : Stmt V true) : Prop :=
  ∀ (cond mid : Mask n) (st st' : St V n), exec z sc F s cond mid st = some st' →
    (∀ l, st.offC l = false) →
    (∀ l, st'.offC l = false) ∧ ∀ l,
      ((mid l && !cond l) = false → Keep st st' l ∧
        st'.mask l = (st.mask l && !st.offR l && !st.offB l)) ∧
      ((mid l && !cond l) = true → st.mask l = true → st.offB l = false → st.offR l = false →
        Sim st' l (run F s (st.lanes l)))

theorem clearOff_eq (st : St V n) (h : ∀ l, st.offC l = false) (l : Fin n) :
    clearOff st l = (st.mask l && !st.offR l && !st.offB l) := by
  simp [clearOff, clearLanes, h l]

/-- After a block run under `cond && mid`, the outer mask is cleared. -/
theorem after_block {z : V} {sc F} {s : Stmt V false} (hs : StmtSim z sc F n s)
    (cond mid inner : Mask n) (st st1 : St V n)
    (he : exec z sc F s cond mid { st with mask := inner } = some st1)
    (hC : ∀ l, st.offC l = false) :
    (∀ l, st1.offC l = false) ∧ ∀ l,
      (inner l = false → Keep st st1 l) ∧
      (inner l = true → st.offB l = false → st.offR l = false →
        Sim st1 l (run F s (st.lanes l))) := by
  obtain ⟨h1, h2⟩ := hs _ _ _ _ he hC
  exact ⟨h1, fun l => ⟨fun h => ((h2 l).1 h).1, fun h => (h2 l).2 h⟩⟩

theorem any_false {a : Mask n} (h : any a = false) (l : Fin n) : a l = false := by
  unfold any at h
  rw [List.any_eq_false] at h
  have := h l (List.mem_finRange l)
  simpa using this

theorem any_true {a : Mask n} (h : any a = true) : ∃ l, a l = true := by
  unfold any at h
  rw [List.any_eq_true] at h
  obtain ⟨l, -, hl⟩ := h
  exact ⟨l, hl⟩

theorem whileLoop_sim {z : V} {sc F} {c : Lane V → Bool} {s : Stmt V false}
    (hs : StmtSim z sc F n s) (cond mid : Mask n) (k : Nat) (st st' : St V n)
    (he : whileLoop c (exec z sc F s cond mid) mid k st = some st')
    (hC : ∀ l, st.offC l = false) :
    (∀ l, st'.offC l = false) ∧ ∀ l,
      ((mid l && !st.offB l && !st.offR l) = false → Keep st st' l) ∧
      ((mid l && !st.offB l && !st.offR l) = true →
        ∃ o x, runLoop c (run F s) k (st.lanes l) = some (o, x) ∧ st'.lanes l = x ∧
          ((o = .normal ∧ st'.offR l = false) ∨ (o = .ret ∧ st'.offR l = true))) := by
  induction k generalizing st with
  | zero => simp [whileLoop] at he
  | succ k ih =>
    unfold whileLoop at he
    split at he
    · rename_i hany
      obtain ⟨st1, he1, he2⟩ := Option.bind_eq_some_iff.mp he
      obtain ⟨hC1, h1⟩ := after_block hs _ _ _ _ _ he1 hC
      obtain ⟨hC2, h2⟩ := ih st1 he2 hC1
      refine ⟨hC2, fun l => ⟨fun hl => ?_, fun hl => ?_⟩⟩
      · have hin : clearLanes (clearLanes (fun l => c (st.lanes l) && mid l) st.offB) st.offR l
            = false := by
          simp only [clearLanes]
          revert hl
          cases mid l <;> cases st.offB l <;> cases st.offR l <;> simp
        obtain ⟨k1, k2, k3⟩ := (h1 l).1 hin
        have := (h2 l).1 (by rw [k2, k3]; exact hl)
        exact ⟨this.1.trans k1, this.2.1.trans k2, this.2.2.trans k3⟩
      · have hB : st.offB l = false := by revert hl; cases mid l <;> cases st.offB l <;> simp
        have hR : st.offR l = false := by
          revert hl; cases mid l <;> cases st.offB l <;> cases st.offR l <;> simp
        have hm : mid l = true := by revert hl; cases mid l <;> simp
        by_cases hc : c (st.lanes l) = true
        · have hin : clearLanes (clearLanes (fun l => c (st.lanes l) && mid l) st.offB) st.offR l
              = true := by
            simp only [clearLanes, hc, hm, hB, hR]; rfl
          obtain ⟨o, x, hr, hx, ho⟩ := (h1 l).2 hin hB hR
          rcases ho with ⟨rfl, -, b, r⟩ | ⟨rfl, -, b, r⟩ | ⟨rfl, -, b, r⟩
          · obtain ⟨o', x', hr', hx', ho'⟩ := (h2 l).2 (by rw [hm, b, r]; rfl)
            refine ⟨o', x', ?_, hx', ho'⟩
            rw [runLoop, if_pos hc, hr, Option.bind_some]
            rw [hx] at hr'
            exact hr'
          · obtain ⟨k1, k2, k3⟩ := (h2 l).1 (by rw [hm, b, r]; rfl)
            refine ⟨.normal, x, ?_, k1.trans hx, .inl ⟨rfl, k3.trans r⟩⟩
            rw [runLoop, if_pos hc, hr, Option.bind_some]
          · obtain ⟨k1, k2, k3⟩ := (h2 l).1 (by rw [hm, b, r]; rfl)
            refine ⟨.ret, x, ?_, k1.trans hx, .inr ⟨rfl, k3.trans r⟩⟩
            rw [runLoop, if_pos hc, hr, Option.bind_some]
        · have hc' : c (st.lanes l) = false := by simpa using hc
          have hin : clearLanes (clearLanes (fun l => c (st.lanes l) && mid l) st.offB) st.offR l
              = false := by
            simp only [clearLanes, hc']; rfl
          obtain ⟨k1, k2, k3⟩ := (h1 l).1 hin
          obtain ⟨o', x', hr', hx', ho'⟩ := (h2 l).2 (by rw [k2, k3]; exact hl)
          rw [k1] at hr'
          refine ⟨o', x', ?_, hx', ho'⟩
          rw [runLoop, if_neg hc]
          cases k with
          | zero => simp [whileLoop] at he2
          | succ k => rw [runLoop, if_neg hc] at hr'; exact hr'
    · rename_i hany
      have he := Option.some.inj he
      subst he
      refine ⟨hC, fun l => ⟨fun _ => ⟨rfl, rfl, rfl⟩, fun hl => ?_⟩⟩
      have hany' : any (fun l => c (st.lanes l)) = false := by simpa using hany
      have hc : c (st.lanes l) = false := any_false hany' l
      refine ⟨.normal, st.lanes l, ?_, rfl, .inl ⟨rfl, ?_⟩⟩
      · rw [runLoop, if_neg (by beta_reduce; rw [hc]; exact Bool.false_ne_true)]
      · revert hl; cases mid l <;> cases st.offB l <;> cases st.offR l <;> simp

theorem setNum_self (x : Lane V) (v : Nat) : x.setNum v (x.num v) = x := by
  cases x; unfold Lane.setNum; congr 1; funext y; split <;> simp_all
theorem setLog_self (x : Lane V) (v : Nat) : x.setLog v (x.log v) = x := by
  cases x; unfold Lane.setLog; congr 1; funext y; split <;> simp_all

/-- A statement that only changes lanes. -/
theorem on_sim (st : St V n) (f : Mask n → (Fin n → Lane V) → Fin n → Lane V)
    (g : Lane V → Lane V) (hC : ∀ l, st.offC l = false)
    (hf : ∀ l, f st.mask st.lanes l = if st.mask l then g (st.lanes l) else st.lanes l) :
    (∀ l, (st.on f).offC l = false) ∧ ∀ l,
      (st.mask l = false → Keep st (st.on f) l ∧ (st.on f).mask l = false) ∧
      (st.mask l = true → st.offB l = false → st.offR l = false →
        Sim (st.on f) l (some (.normal, g (st.lanes l)))) := by
  refine ⟨hC, fun l => ⟨fun h => ⟨⟨?_, rfl, rfl⟩, h⟩, fun h hB hR => ?_⟩⟩
  · show f st.mask st.lanes l = _
    rw [hf, h]; rfl
  · refine ⟨.normal, _, rfl, ?_, .inl ⟨rfl, h, hB, hR⟩⟩
    show f st.mask st.lanes l = _
    rw [hf, h]; rfl

/-- The simulation, by induction on the kernel text. -/
theorem sim (z : V) (sc : Bool) (F n : Nat) : {b : Bool} → (s : Stmt V b) → Plain sc s →
    (match b, s with | false, s => StmtSim z sc F n s | true, s => ChainSim z sc F n s)
  | _, .skip, _ => by
    intro cond mid st st' he hC
    cases he
    exact ⟨hC, fun l => ⟨fun h => ⟨⟨rfl, rfl, rfl⟩, h⟩,
      fun h hB hR => ⟨.normal, _, rfl, rfl, .inl ⟨rfl, h, hB, hR⟩⟩⟩⟩
  | _, .set x e, _ => by
    intro cond mid st st' he hC
    cases he
    refine on_sim st _ (fun y => y.setNum x (e y)) hC fun l => ?_
    unfold setNum
    split
    · rfl
    · exact setNum_self _ _
  | _, .setl x e, hp => by
    intro cond mid st st' he hC
    cases he
    have hp : sc = true := hp
    subst hp
    refine on_sim st _ (fun y => y.setLog x (e y)) hC fun l => ?_
    unfold setLog
    rw [if_pos rfl]
    split
    · rfl
    · exact setLog_self _ _
  | _, .store a e, _ => by
    intro cond mid st st' he hC
    cases he
    exact on_sim st _ (fun y => y.setCell a (e y)) hC fun l => rfl
  | _, .load x a, _ => by
    intro cond mid st st' he hC
    cases he
    refine on_sim st _ (fun y => y.setNum x (y.cell a)) hC fun l => ?_
    unfold loadNum loadCell
    split
    · rfl
    · exact setNum_self _ _
  | _, .seq s t, hp => by
    have hs : StmtSim z sc F n s := sim z sc F n s hp.1
    have ht : StmtSim z sc F n t := sim z sc F n t hp.2
    intro cond mid st st' he hC
    obtain ⟨st1, he1, he2⟩ := Option.bind_eq_some_iff.mp he
    obtain ⟨hC1, h1⟩ := hs _ _ _ _ he1 hC
    obtain ⟨hC2, h2⟩ := ht _ _ _ _ he2 hC1
    refine ⟨hC2, fun l => ⟨fun h => ?_, fun h hB hR => ?_⟩⟩
    · obtain ⟨⟨a1, a2, a3⟩, m1⟩ := (h1 l).1 h
      obtain ⟨⟨b1, b2, b3⟩, m2⟩ := (h2 l).1 m1
      exact ⟨⟨b1.trans a1, b2.trans a2, b3.trans a3⟩, m2⟩
    · obtain ⟨o, x, hr, hx, ho⟩ := (h1 l).2 h hB hR
      show Sim st' l ((run F s (st.lanes l)).bind _)
      rw [hr, Option.bind_some]
      rcases ho with ⟨rfl, m, b, r⟩ | ⟨rfl, m, b, r⟩ | ⟨rfl, m, b, r⟩
      · rw [if_pos rfl, ← hx]
        exact (h2 l).2 m b r
      · rw [if_neg (by simp)]
        obtain ⟨⟨b1, b2, b3⟩, m2⟩ := (h2 l).1 m
        exact ⟨_, _, rfl, b1.trans hx, .inr (.inl ⟨rfl, m2, b2.trans b, b3.trans r⟩)⟩
      · rw [if_neg (by simp)]
        obtain ⟨⟨b1, b2, b3⟩, m2⟩ := (h2 l).1 m
        exact ⟨_, _, rfl, b1.trans hx, .inr (.inr ⟨rfl, m2, b2.trans b, b3.trans r⟩)⟩
  | _, .ifs c s t, hp => by
    have hs : StmtSim z sc F n s := sim z sc F n s hp.1
    have ht : ChainSim z sc F n t := sim z sc F n t hp.2
    intro cond mid st st' he hC
    obtain ⟨st1, he1, he2⟩ := Option.bind_eq_some_iff.mp he
    obtain ⟨hC1, h1⟩ := after_block hs _ _ _ _ _ he1 hC
    obtain ⟨hC2, h2⟩ := ht _ _ _ _ he2 hC1
    refine ⟨hC2, fun l => ⟨fun h => ?_, fun h hB hR => ?_⟩⟩
    · obtain ⟨a1, a2, a3⟩ := (h1 l).1 (by rw [h, Bool.and_false])
      obtain ⟨⟨b1, b2, b3⟩, m2⟩ := (h2 l).1 (by rw [h, Bool.false_and])
      refine ⟨⟨b1.trans a1, b2.trans a2, b3.trans a3⟩, m2.trans ?_⟩
      show (st.mask l && _ && _) = false
      rw [h, Bool.false_and, Bool.false_and]
    · show Sim st' l (if c (st.lanes l) then run F s (st.lanes l) else run F t (st.lanes l))
      by_cases hc : c (st.lanes l) = true
      · rw [if_pos hc]
        obtain ⟨⟨b1, b2, b3⟩, m2⟩ := (h2 l).1 (by beta_reduce; rw [hc]; simp)
        obtain ⟨o, x, hr, hx, ho⟩ := (h1 l).2 (by beta_reduce; rw [hc, h]; rfl) hB hR
        have m3 : st'.mask l = (true && !st1.offR l && !st1.offB l) := by
          rw [m2]; show (st.mask l && _ && _) = _; rw [h]
        refine ⟨o, x, hr, b1.trans hx, ?_⟩
        rcases ho with ⟨rfl, m, b, r⟩ | ⟨rfl, m, b, r⟩ | ⟨rfl, m, b, r⟩
        · exact .inl ⟨rfl, by rw [m3, b, r]; rfl, b2.trans b, b3.trans r⟩
        · exact .inr (.inl ⟨rfl, by rw [m3, b, r]; rfl, b2.trans b, b3.trans r⟩)
        · exact .inr (.inr ⟨rfl, by rw [m3, b, r]; rfl, b2.trans b, b3.trans r⟩)
      · have hc' : c (st.lanes l) = false := by simpa using hc
        rw [if_neg hc]
        obtain ⟨a1, a2, a3⟩ := (h1 l).1 (by beta_reduce; rw [hc', Bool.false_and])
        have := (h2 l).2 (by beta_reduce; rw [hc', h]; rfl) h (a2.trans hB) (a3.trans hR)
        rw [show st1.lanes l = _ from a1] at this
        exact this
  | _, .elif c s t, hp => by
    have hs : StmtSim z sc F n s := sim z sc F n s hp.1
    have ht : ChainSim z sc F n t := sim z sc F n t hp.2
    intro cond mid st st' he hC
    obtain ⟨st1, he1, he2⟩ := Option.bind_eq_some_iff.mp he
    obtain ⟨hC1, h1⟩ := after_block hs _ _ _ _ _ he1 hC
    obtain ⟨hC2, h2⟩ := ht _ _ _ _ he2 hC1
    refine ⟨hC2, fun l => ⟨fun h => ?_, fun h hm hB hR => ?_⟩⟩
    · have h' : clearLanes mid cond l = false := h
      obtain ⟨a1, a2, a3⟩ := (h1 l).1 (by rw [h', Bool.and_false])
      obtain ⟨⟨b1, b2, b3⟩, m2⟩ := (h2 l).1 (by rw [h', Bool.false_and])
      refine ⟨⟨b1.trans a1, b2.trans a2, b3.trans a3⟩, m2.trans ?_⟩
      show (clearOff st l && !st1.offR l && !st1.offB l) = _
      rw [clearOff_eq st hC, a2, a3]
      cases st.mask l <;> cases st.offR l <;> cases st.offB l <;> rfl
    · have h' : clearLanes mid cond l = true := h
      have hcl : clearOff st l = true := by rw [clearOff_eq st hC, hm, hB, hR]; rfl
      show Sim st' l (if c (st.lanes l) then run F s (st.lanes l) else run F t (st.lanes l))
      by_cases hc : c (st.lanes l) = true
      · rw [if_pos hc]
        obtain ⟨⟨b1, b2, b3⟩, m2⟩ := (h2 l).1 (by beta_reduce; rw [hc]; simp)
        obtain ⟨o, x, hr, hx, ho⟩ := (h1 l).2 (by beta_reduce; rw [hc, h']; rfl) hB hR
        have m3 : st'.mask l = (true && !st1.offR l && !st1.offB l) := by
          rw [m2]; show (clearOff st l && _ && _) = _; rw [hcl]
        refine ⟨o, x, hr, b1.trans hx, ?_⟩
        rcases ho with ⟨rfl, m, b, r⟩ | ⟨rfl, m, b, r⟩ | ⟨rfl, m, b, r⟩
        · exact .inl ⟨rfl, by rw [m3, b, r]; rfl, b2.trans b, b3.trans r⟩
        · exact .inr (.inl ⟨rfl, by rw [m3, b, r]; rfl, b2.trans b, b3.trans r⟩)
        · exact .inr (.inr ⟨rfl, by rw [m3, b, r]; rfl, b2.trans b, b3.trans r⟩)
      · have hc' : c (st.lanes l) = false := by simpa using hc
        rw [if_neg hc]
        obtain ⟨a1, a2, a3⟩ := (h1 l).1 (by beta_reduce; rw [hc', Bool.false_and])
        have := (h2 l).2 (by beta_reduce; rw [hc', h']; rfl) hcl (a2.trans hB) (a3.trans hR)
        rw [show st1.lanes l = _ from a1] at this
        exact this
  | _, .els s, hp => by
    have hs : StmtSim z sc F n s := sim z sc F n s hp
    intro cond mid st st' he hC
    obtain ⟨st1, he1, he2⟩ := Option.bind_eq_some_iff.mp he
    cases he2
    obtain ⟨hC1, h1⟩ := after_block hs _ _ _ _ _ he1 hC
    refine ⟨hC1, fun l => ⟨fun h => ?_, fun h hm hB hR => ?_⟩⟩
    · obtain ⟨a1, a2, a3⟩ := (h1 l).1 h
      refine ⟨⟨a1, a2, a3⟩, ?_⟩
      show clearOff { st1 with mask := clearOff st } l = _
      rw [clearOff_eq { st1 with mask := clearOff st } hC1]
      show (clearOff st l && !st1.offR l && !st1.offB l) = _
      rw [clearOff_eq st hC, a2, a3]
      cases st.mask l <;> cases st.offR l <;> cases st.offB l <;> rfl
    · have hcl : clearOff st l = true := by rw [clearOff_eq st hC, hm, hB, hR]; rfl
      obtain ⟨o, x, hr, hx, ho⟩ := (h1 l).2 h hB hR
      have m3 : clearOff { st1 with mask := clearOff st } l = (true && !st1.offR l && !st1.offB l) := by
        rw [clearOff_eq { st1 with mask := clearOff st } hC1]; show (clearOff st l && _ && _) = _; rw [hcl]
      refine ⟨o, x, hr, hx, ?_⟩
      rcases ho with ⟨rfl, m, b, r⟩ | ⟨rfl, m, b, r⟩ | ⟨rfl, m, b, r⟩
      · exact .inl ⟨rfl, m3.trans (by rw [b, r]; rfl), b, r⟩
      · exact .inr (.inl ⟨rfl, m3.trans (by rw [b, r]; rfl), b, r⟩)
      · exact .inr (.inr ⟨rfl, m3.trans (by rw [b, r]; rfl), b, r⟩)
  | _, .endif, _ => by
    intro cond mid st st' he hC
    cases he
    refine ⟨hC, fun l => ⟨fun h => ⟨⟨rfl, rfl, rfl⟩, clearOff_eq st hC l⟩, fun h hm hB hR => ?_⟩⟩
    refine ⟨.normal, _, rfl, rfl, .inl ⟨rfl, ?_, hB, hR⟩⟩
    show clearOff st l = true
    rw [clearOff_eq st hC, hm, hB, hR]; rfl
  | _, .whil c s, hp => by
    have hs : StmtSim z sc F n s := sim z sc F n s hp
    intro cond mid st st' he hC
    obtain ⟨st1, he1, he2⟩ := Option.bind_eq_some_iff.mp he
    cases he2
    obtain ⟨hC1, h1⟩ := whileLoop_sim hs _ _ _ _ _ he1 (fun _ => rfl)
    refine ⟨hC, fun l => ⟨fun h => ?_, fun h hB hR => ?_⟩⟩
    · obtain ⟨a1, a2, a3⟩ := (h1 l).1 (by rw [h]; rfl)
      refine ⟨⟨a1, rfl, a3⟩, ?_⟩
      show clearLanes st.mask st1.offR l = false
      simp [clearLanes, h]
    · obtain ⟨o, x, hr, hx, ho⟩ := (h1 l).2 (by show (st.mask l && _ && !st.offR l) = true; rw [h, hR]; rfl)
      refine ⟨o, x, hr, hx, ?_⟩
      rcases ho with ⟨rfl, r⟩ | ⟨rfl, r⟩
      · refine .inl ⟨rfl, ?_, hB, r⟩
        show clearLanes st.mask st1.offR l = true
        simp [clearLanes, h, r]
      · refine .inr (.inr ⟨rfl, ?_, hB, r⟩)
        show clearLanes st.mask st1.offR l = false
        simp [clearLanes, r]
  | _, .brk, _ => by
    intro cond mid st st' he hC
    cases he
    refine ⟨hC, fun l => ⟨fun h => ⟨⟨rfl, ?_, rfl⟩, rfl⟩, fun h hB hR => ?_⟩⟩
    · show (st.offB l || st.mask l) = _
      rw [h, Bool.or_false]
    · refine ⟨.brk, _, rfl, rfl, .inr (.inl ⟨rfl, rfl, ?_, hR⟩)⟩
      show (st.offB l || st.mask l) = _
      rw [h, Bool.or_true]
  | _, .cont, hp => hp.elim
  | _, .ret, _ => by
    intro cond mid st st' he hC
    cases he
    refine ⟨hC, fun l => ⟨fun h => ⟨⟨rfl, rfl, ?_⟩, rfl⟩, fun h hB hR => ?_⟩⟩
    · show (st.offR l || st.mask l) = _
      rw [h, Bool.or_false]
    · refine ⟨.ret, _, rfl, rfl, .inr (.inr ⟨rfl, rfl, hB, ?_⟩)⟩
      show (st.offR l || st.mask l) = _
      rw [h, Bool.or_true]
  | _, .call s, hp => by
    have hs : StmtSim z sc F n s := sim z sc F n s hp
    intro cond mid st st' he hC
    obtain ⟨st1, he1, he2⟩ := Option.bind_eq_some_iff.mp he
    cases he2
    obtain ⟨hC1, h1⟩ := hs _ _ _ _ he1 (fun _ => rfl)
    refine ⟨hC, fun l => ⟨fun h => ?_, fun h hB hR => ?_⟩⟩
    · exact ⟨⟨((h1 l).1 h).1.1, rfl, rfl⟩, h⟩
    · obtain ⟨o, x, hr, hx, ho⟩ := (h1 l).2 h rfl rfl
      refine ⟨.normal, x, ?_, hx, .inl ⟨rfl, h, hB, hR⟩⟩
      show (run F s (st.lanes l)).bind _ = _
      rw [show run F s (st.lanes l) = _ from hr]; rfl

end Nsimd.Spmd
