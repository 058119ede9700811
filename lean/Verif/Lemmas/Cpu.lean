import Verif.Model.Cpu
import Mathlib.Data.List.FinRange

/-! Helper lemmas about the CPU model: statement sequences. -/

namespace Nsimd.Cpu

variable {n : Nat} {M α ι : Type}

theorem body_eq_some {f : Fin n → Option α} {v : Vec n α} :
    body f = some v ↔ ∀ i, f i = some (v i) := by
  unfold body
  constructor
  · intro h i
    split at h
    · rename_i hs
      rw [← Option.some_inj.mp h]; simp
    · cases h
  · intro h
    have hs : ∀ i, (f i).isSome := fun i => by rw [h i]; rfl
    rw [dif_pos hs]
    congr 1; funext i
    simp [h i]

theorem body_isSome {f : Fin n → Option α} : (body f).isSome ↔ ∀ i, (f i).isSome := by
  unfold body
  split
  · rename_i h; simp [h]
  · rename_i h; simp only [Option.isSome_none]; simp at h ⊢; exact h

theorem body_some (g : Fin n → α) : (body fun i => some (g i)) = some g :=
  body_eq_some.mpr fun _ => rfl

theorem body_congr {f g : Fin n → Option α} (h : ∀ i, f i = g i) : body f = body g := by
  rw [show f = g from funext h]

theorem stores_cons (x : ι) (l : List ι) (act : ι → Option (Int × M)) (m : Mem M) :
    stores (x :: l) act m =
      (match act x with | none => some m | some (a, v) => write m a v).bind (stores l act) := rfl

theorem write_isSome {m : Mem M} {a : Int} {v : M} : (write m a v).isSome ↔ (m a).isSome := by
  unfold write; split <;> simp_all

/-- Mapped addresses stay mapped. -/
theorem write_mapped {m m' : Mem M} {a : Int} {v : M} (h : write m a v = some m') (x : Int) :
    (m' x).isSome ↔ (m x).isSome := by
  unfold write at h
  split at h
  · rename_i hs
    rw [← Option.some_inj.mp h]
    by_cases hx : x = a
    · subst hx; simp [hs]
    · simp [hx]
  · cases h

theorem write_other {m m' : Mem M} {a : Int} {v : M} (h : write m a v = some m') {x : Int}
    (hx : x ≠ a) : m' x = m x := by
  unfold write at h
  split at h
  · rw [← Option.some_inj.mp h]; simp [hx]
  · cases h

theorem write_same {m m' : Mem M} {a : Int} {v : M} (h : write m a v = some m') :
    m' a = some v := by
  unfold write at h
  split at h
  · rw [← Option.some_inj.mp h]; simp
  · cases h

theorem stores_isSome {l : List ι} {act : ι → Option (Int × M)} {m : Mem M} :
    (stores l act m).isSome ↔ ∀ x ∈ l, ∀ a v, act x = some (a, v) → (m a).isSome := by
  induction l generalizing m with
  | nil => simp [stores]
  | cons x l ih =>
    rw [stores_cons]
    cases hx : act x with
    | none =>
      simp only [Option.bind_some]
      rw [ih]
      constructor
      · intro h y hy a v hv
        rcases List.mem_cons.mp hy with rfl | hy
        · rw [hx] at hv; cases hv
        · exact h y hy a v hv
      · intro h y hy; exact h y (List.mem_cons_of_mem _ hy)
    | some p =>
      obtain ⟨a, v⟩ := p
      simp only
      cases hw : write m a v with
      | none =>
        simp only [Option.bind_none, Option.isSome_none]
        constructor
        · intro h; cases h
        · intro h
          have := h x List.mem_cons_self a v hx
          rw [← write_isSome (v := v), hw] at this
          cases this
      | some m' =>
        simp only [Option.bind_some]
        rw [ih]
        have ha : (m a).isSome := by rw [← write_isSome (v := v), hw]; rfl
        constructor
        · intro h y hy b u hb
          rcases List.mem_cons.mp hy with rfl | hy
          · rw [hx] at hb; cases hb; exact ha
          · exact (write_mapped hw b).mp (h y hy b u hb)
        · intro h y hy b u hb
          exact (write_mapped hw b).mpr (h y (List.mem_cons_of_mem _ hy) b u hb)

theorem stores_mapped {l : List ι} {act : ι → Option (Int × M)} {m m' : Mem M}
    (h : stores l act m = some m') (x : Int) : (m' x).isSome ↔ (m x).isSome := by
  induction l generalizing m with
  | nil => cases h; rfl
  | cons y l ih =>
    rw [stores_cons] at h
    cases hy : act y with
    | none => rw [hy] at h; exact ih h
    | some p =>
      rw [hy] at h
      simp only at h
      cases hw : write m p.1 p.2 with
      | none => rw [hw] at h; cases h
      | some m1 => rw [hw] at h; rw [ih h]; exact write_mapped hw x

theorem stores_frame {l : List ι} {act : ι → Option (Int × M)} {m m' : Mem M}
    (h : stores l act m = some m') {x : Int} (hx : ∀ y ∈ l, ∀ v, act y ≠ some (x, v)) :
    m' x = m x := by
  induction l generalizing m with
  | nil => cases h; rfl
  | cons y l ih =>
    rw [stores_cons] at h
    have hx' := fun z hz => hx z (List.mem_cons_of_mem y hz)
    cases hy : act y with
    | none => rw [hy] at h; exact ih h hx'
    | some p =>
      rw [hy] at h
      simp only at h
      cases hw : write m p.1 p.2 with
      | none => rw [hw] at h; cases h
      | some m1 =>
        rw [hw] at h; rw [ih h hx']
        refine write_other hw ?_
        rintro rfl
        exact hx y List.mem_cons_self p.2 hy

theorem stores_last {R : ι → ι → Prop} {l : List ι} (hl : l.Pairwise R)
    {act : ι → Option (Int × M)} {m m' : Mem M} (h : stores l act m = some m')
    {x : ι} (hx : x ∈ l) {a : Int} {v : M} (ha : act x = some (a, v))
    (hlast : ∀ y ∈ l, R x y → ∀ u, act y ≠ some (a, u)) : m' a = some v := by
  induction l generalizing m with
  | nil => cases hx
  | cons y l ih =>
    rw [stores_cons] at h
    rw [List.pairwise_cons] at hl
    rcases List.mem_cons.mp hx with rfl | hx
    · rw [ha] at h
      simp only at h
      cases hw : write m a v with
      | none => rw [hw] at h; cases h
      | some m1 =>
        rw [hw] at h
        rw [stores_frame h, write_same hw]
        intro z hz
        exact hlast z (List.mem_cons_of_mem _ hz) (hl.1 z hz)
    · have hl' := fun z hz => hlast z (List.mem_cons_of_mem y hz)
      cases hy : act y with
      | none => rw [hy] at h; exact ih hl.2 h hx hl'
      | some p =>
        rw [hy] at h
        simp only at h
        cases hw : write m p.1 p.2 with
        | none => rw [hw] at h; cases h
        | some m1 => rw [hw] at h; exact ih hl.2 h hx hl'

theorem finRange_lt (n : Nat) : (List.finRange n).Pairwise (· < ·) := by
  exact List.pairwise_lt_finRange n

end Nsimd.Cpu
