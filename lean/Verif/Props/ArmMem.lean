import Verif.Model.ArmMem
import Verif.Props.X86Mem
import Verif.Props.Ppc

/-!
# Memory operators and permutations of the ARM back end (C70, C71, C72)

`ReadsAt`, `ReadsHalves` and `WritesAt` are the specifications of Verif/Props/X86Mem.lean: what a
(masked, indexed) load returns and what a (masked, indexed) store does to memory.  `ReadsDeg` and
`WritesDeg` below are their counterparts for the loads and stores of degree 2, 3 and 4.
-/

namespace Nsimd.Props.ArmMem
open Nsimd Nsimd.Arm
open Nsimd.Cpu (Vec Mem Elem)
open Nsimd.X86 (Reg cat halves)
open Nsimd.Props.X86Mem

variable {n w deg : Nat} {M α : Type}

/-- `res` is defined exactly when the `deg * n` elements at `p` are mapped (and can be converted);
lane `i` of register `j` is the element `deg * i + j`.
Specification, not code of the repo. -/
def ReadsDeg (e : Elem M α) (m : Mem M) (p : Int) (res : Option (Vec deg (Vec n α))) : Prop :=
  ∀ v, res = some v ↔
    ∀ (j : Fin deg) (i : Fin n), ∃ y, m (p + (deg * i + j : Nat)) = some y ∧ e.dec y = some (v j i)

/-- `res` is defined exactly when the `deg * n` elements at `p` are mapped; the element
`deg * i + j` becomes lane `i` of register `j`; no other element changes.
Specification, not code of the repo. -/
def WritesDeg (e : Elem M α) (m : Mem M) (p : Int) (v : Vec deg (Vec n α)) (res : Option (Mem M)) :
    Prop :=
  (res.isSome ↔ ∀ (j : Fin deg) (i : Fin n), (m (p + (deg * i + j : Nat))).isSome) ∧
  ∀ m', res = some m' →
    (∀ (j : Fin deg) (i : Fin n), m' (p + (deg * i + j : Nat)) = some (e.enc (v j i))) ∧
    ∀ a, (∀ (j : Fin deg) (i : Fin n), a ≠ p + (deg * i + j : Nat)) → m' a = m a

/-! ### Auxiliary lemmas -/

theorem bind2 {x y : Option M} {v : Vec 2 M} :
    (do let a ← x; let b ← y; return (![a, b] : Vec 2 M)) = some v ↔ x = some (v 0) ∧ y = some (v 1) := by
  show (x.bind fun a => y.bind fun b => some ![a, b]) = some v ↔ _
  simp only [Option.bind_eq_some_iff, Option.some_inj]
  constructor
  · rintro ⟨a, ha, b, hb, rfl⟩; exact ⟨ha, hb⟩
  · rintro ⟨ha, hb⟩
    refine ⟨_, ha, _, hb, ?_⟩
    funext i
    match i with
    | 0 => rfl
    | 1 => rfl

theorem forall_two {P : Fin 2 → Prop} : (∀ i, P i) ↔ P 0 ∧ P 1 :=
  ⟨fun h => ⟨h 0, h 1⟩, fun h i => match i with | 0 => h.1 | 1 => h.2⟩

theorem ite_read {c : Bool} {x : Option (BitVec w)} {o y : BitVec w} :
    (if c then x else some o) = some y ↔
      if c then ∃ z, x = some z ∧ (bitElem w).dec z = some y else y = o := by
  cases c
  · simp [eq_comm]
  · simp [bitElem]

theorem readsAt_two (c : Fin 2 → Bool) (addr : Fin 2 → Int) (m : Mem (BitVec w)) (o : Vec 2 (BitVec w))
    {x y : Option (BitVec w)} (hx : x = if c 0 then m (addr 0) else some (o 0))
    (hy : y = if c 1 then m (addr 1) else some (o 1)) :
    ReadsAt (bitElem w) c addr m o (do let a ← x; let b ← y; return ![a, b]) := by
  intro v
  rw [bind2, hx, hy, ite_read, ite_read, forall_two]

theorem writesAt_two (c : Fin 2 → Bool) (addr : Fin 2 → Int) (m : Mem (BitVec w))
    (v : Vec 2 (BitVec w)) {a b : Int} (ha : a = addr 0) (hb : b = addr 1) :
    WritesAt (bitElem w) c addr m v
      ((if c 0 then Cpu.write m a (v 0) else some m).bind fun m =>
        if c 1 then Cpu.write m b (v 1) else some m) := by
  subst ha hb
  refine writesAt_congr ?_ (writesAt_stores (bitElem w) c addr m v)
  have hl : List.finRange 2 = [0, 1] := by decide
  rw [hl]
  unfold Cpu.stores
  simp only [List.foldlM_cons, List.foldlM_nil]
  cases h0 : c 0 <;> cases h1 : c 1 <;>
    simp [bitElem]

/-- What a list of assignments to distinct elements leaves in memory. -/
theorem writes_mem {l : List (Int × M)} {m m' : Mem M} (h : Cpu.stores l some m = some m')
    {a : Int} {x : M} (hin : (a, x) ∈ l) (hu : ∀ y, (a, y) ∈ l → y = x) : m' a = some x := by
  induction l generalizing m with
  | nil => cases hin
  | cons b l ih =>
    rw [Cpu.stores_cons, Option.bind_eq_some_iff] at h
    obtain ⟨m1, h1, h2⟩ := h
    by_cases hx : ∃ y, (a, y) ∈ l
    · obtain ⟨y, hy⟩ := hx
      have := hu y (List.mem_cons_of_mem _ hy)
      subst this
      exact ih h2 hy fun z hz => hu z (List.mem_cons_of_mem _ hz)
    · have hb : b = (a, x) := by
        rcases List.mem_cons.mp hin with h | h
        · exact h.symm
        · exact absurd ⟨x, h⟩ hx
      subst hb
      rw [Cpu.stores_frame h2 (x := a) fun j hj u hc => hx ⟨u, Option.some.inj hc ▸ hj⟩]
      exact Cpu.write_same h1

theorem deg_inj {i i' : Nat} {j j' : Fin deg} (h : deg * i + j.val = deg * i' + j'.val) :
    i = i' ∧ j = j' := by
  have hj := congrArg (· % deg) h
  have hi := congrArg (· / deg) h
  have hd : 0 < deg := lt_of_le_of_lt (Nat.zero_le _) j.isLt
  simp only [Nat.mul_add_mod, Nat.mod_eq_of_lt j.isLt, Nat.mod_eq_of_lt j'.isLt] at hj
  simp only [Nat.mul_add_div hd, Nat.div_eq_of_lt j.isLt, Nat.div_eq_of_lt j'.isLt] at hi
  exact ⟨by omega, Fin.ext hj⟩

theorem writesDeg_of (e : Elem M α) (m : Mem M) (p : Int) (v : Vec deg (Vec n α))
    {l : List (Int × M)}
    (hl : ∀ a x, (a, x) ∈ l ↔ ∃ (j : Fin deg) (i : Fin n), a = p + (deg * i + j : Nat) ∧
      x = e.enc (v j i)) : WritesDeg e m p v (Cpu.stores l some m) := by
  refine ⟨?_, fun m' h => ⟨fun j i => ?_, fun a ha => ?_⟩⟩
  · rw [Cpu.stores_isSome]
    constructor
    · intro h j i
      exact h (_, e.enc (v j i)) ((hl _ _).mpr ⟨j, i, rfl, rfl⟩) _ _ rfl
    · rintro h x hx a y hxy
      obtain ⟨j, i, ha, -⟩ := (hl a y).mp (Option.some.inj hxy ▸ hx)
      rw [ha]; exact h j i
  · refine writes_mem h ((hl _ _).mpr ⟨j, i, rfl, rfl⟩) ?_
    intro y hy
    obtain ⟨j', i', ha, hy⟩ := (hl _ _).mp hy
    obtain ⟨hi, hj⟩ := deg_inj (i := i.val) (i' := i'.val) (j := j) (j' := j') (by omega)
    rw [hy, hj, Fin.ext hi]
  · refine Cpu.stores_frame h fun y hy u hu => ?_
    obtain ⟨j, i, ha', -⟩ := (hl a u).mp (Option.some.inj hu ▸ hy)
    exact ha j i ha'

/-! ### Loads and stores -/

/-- Loads of degree 1: NEON and SVE (`z` is what inactive lanes would read), neon128 f64. -/
theorem load_spec (m : Mem (BitVec w)) (p : Int) (o : Reg n w) (o2 : Reg 2 w) :
    ReadsAt (bitElem w) (fun _ => true) (fun i => p + (i : Nat)) m o (load n m p) ∧
    ReadsAt (bitElem w) (fun _ => true) (fun i => p + (i : Nat)) m o (loadSve 0#w n m p) ∧
    ReadsAt (bitElem w) (fun _ => true) (fun i => p + (i : Nat)) m o2 (loadF64 m p) := by
  refine ⟨?_, ?_, ?_⟩
  · simpa [bitElem, load, vld1] using
      readsAt_body (bitElem w) (fun _ : Fin n => true) (fun i => p + (i : Nat)) m o
  · simpa [bitElem, loadSve, svld1, svtrue] using
      readsAt_body (bitElem w) (fun _ : Fin n => true) (fun i => p + (i : Nat)) m o
  · exact readsAt_two (fun _ => true) _ m o2 (by simp) (by simp)

theorem body_none {f : Fin n → Option α} (i : Fin n) (h : f i = none) : Cpu.body f = none := by
  rw [← Option.not_isSome_iff_eq_none, Cpu.body_isSome]
  intro hc
  have := hc i
  rw [h] at this
  cases this

theorem chain8 (f : Fin (4 + 4) → Option α) :
    (do
      let b0 ← f 0
      let b1 ← f 1
      let b2 ← f 2
      let b3 ← f 3
      let b4 ← f 4
      let b5 ← f 5
      let b6 ← f 6
      let b7 ← f 7
      return ((![b0, b1, b2, b3] : Vec 4 α), (![b4, b5, b6, b7] : Vec 4 α))) =
    (Cpu.body f).map halves := by
  cases h0 : f 0 with
  | none => rw [body_none 0 h0]; rfl
  | some b0 => ?_
  cases h1 : f 1 with
  | none => rw [body_none 1 h1]; rfl
  | some b1 => ?_
  cases h2 : f 2 with
  | none => rw [body_none 2 h2]; rfl
  | some b2 => ?_
  cases h3 : f 3 with
  | none => rw [body_none 3 h3]; rfl
  | some b3 => ?_
  cases h4 : f 4 with
  | none => rw [body_none 4 h4]; rfl
  | some b4 => ?_
  cases h5 : f 5 with
  | none => rw [body_none 5 h5]; rfl
  | some b5 => ?_
  cases h6 : f 6 with
  | none => rw [body_none 6 h6]; rfl
  | some b6 => ?_
  cases h7 : f 7 with
  | none => rw [body_none 7 h7]; rfl
  | some b7 => ?_
  have hb : Cpu.body f = some (cat ![b0, b1, b2, b3] ![b4, b5, b6, b7]) := by
    rw [Cpu.body_eq_some]
    intro i
    match i with
    | 0 => exact h0
    | 1 => exact h1
    | 2 => exact h2
    | 3 => exact h3
    | 4 => exact h4
    | 5 => exact h5
    | 6 => exact h6
    | 7 => exact h7
  rw [hb, Option.map_some, halves_eq_iff.mpr rfl]
  rfl

theorem loadF16_eq (e : Elem M α) (m : Mem M) (p : Int) :
    loadF16 e m p = (Cpu.body fun i : Fin (4 + 4) => (m (p + (i : Nat))).bind e.dec).map halves := by
  rw [← chain8]
  have h0 : p + ((0 : Fin (4 + 4)) : Nat) = p := by simp
  unfold loadF16
  beta_reduce
  rw [h0]
  rfl

/-- Loads of f16 without hardware support. -/
theorem loadF16_spec (e : Elem M α) (m : Mem M) (p : Int) (o0 o1 : Vec 4 α) :
    ReadsHalves e (fun _ => true) (fun _ => true) (fun i => p + (i : Nat)) m o0 o1 (loadF16 e m p) := by
  have h := readsAt_body e (cat (fun _ => true) (fun _ => true)) (fun i : Fin (4 + 4) => p + (i : Nat)) m
    (cat o0 o1)
  have hr := readsHalves_of e (fun _ => true) (fun _ => true) (fun i => p + (i : Nat)) m o0 o1 _ h
  rw [loadF16_eq]
  have hc : ∀ i, cat (fun _ : Fin 4 => true) (fun _ => true) i = true := by
    intro i; unfold cat; split <;> rfl
  simpa [hc] using hr

/-- Stores of degree 1: NEON and SVE, neon128 f64. -/
theorem store_spec (m : Mem (BitVec w)) (p : Int) (v : Reg n w) (v2 : Reg 2 w) :
    WritesAt (bitElem w) (fun _ => true) (fun i => p + (i : Nat)) m v (store m p v) ∧
    WritesAt (bitElem w) (fun _ => true) (fun i => p + (i : Nat)) m v (storeSve m p v) ∧
    WritesAt (bitElem w) (fun _ => true) (fun i => p + (i : Nat)) m v2 (storeF64 m p v2) := by
  refine ⟨?_, ?_, ?_⟩
  · simpa [bitElem, store, vst1] using
      writesAt_stores (bitElem w) (fun _ => true) (fun i => p + (i : Nat)) m v
  · simpa [bitElem, storeSve, svst1, svtrue] using
      writesAt_stores (bitElem w) (fun _ => true) (fun i => p + (i : Nat)) m v
  · exact writesAt_two (fun _ => true) (fun i => p + (i : Nat)) m v2 (by simp) (by simp)

theorem storeF16_eq (e : Elem M α) (m : Mem M) (p : Int) (v : Vec 4 α × Vec 4 α) :
    storeF16 e m p v = Cpu.stores (List.finRange (4 + 4))
      (fun i => some (p + (i : Nat), e.enc (cat v.1 v.2 i))) m := by
  have hl : List.finRange (4 + 4) = [0, 1, 2, 3, 4, 5, 6, 7] := by decide
  rw [hl]
  unfold Cpu.stores storeF16
  simp only [List.foldlM_cons, List.foldlM_nil]
  have h0 : p + ((0 : Fin (4 + 4)) : Nat) = p := by simp
  rw [h0]
  simp only [bind_pure]
  rfl

/-- Stores of f16 without hardware support. -/
theorem storeF16_spec (e : Elem M α) (m : Mem M) (p : Int) (v : Vec 4 α × Vec 4 α) :
    WritesAt e (fun _ => true) (fun i => p + (i : Nat)) m (cat v.1 v.2) (storeF16 e m p v) := by
  rw [storeF16_eq]
  simpa using writesAt_stores e (fun _ => true) (fun i => p + (i : Nat)) m (cat v.1 v.2)

/-! ### Loads and stores of degree 2, 3, 4 -/

theorem vldN_eq_some (m : Mem M) (p : Int) (v : Vec deg (Vec n M)) :
    vldN deg n m p = some v ↔ ∀ (j : Fin deg) (i : Fin n), m (p + (deg * i + j : Nat)) = some (v j i) := by
  unfold vldN
  rw [Cpu.body_eq_some]
  exact forall_congr' fun j => Cpu.body_eq_some

/-- `load2`, `load3`, `load4` on NEON, on SVE and, for 64-bit types, on neon128. -/
theorem loadDeg_spec (m : Mem (BitVec w)) (p : Int) :
    ReadsDeg (bitElem w) m p (loadDeg deg n m p) ∧
    ReadsDeg (bitElem w) m p (loadDegSve 0#w deg n m p) ∧
    ReadsDeg (bitElem w) m p (loadDegF64 deg m p) ∧
    ReadsDeg (bitElem w) m p (loadDegI64 deg m p) := by
  have hb : ∀ {x : Option (BitVec w)} {y : BitVec w},
      (∃ z, x = some z ∧ (bitElem w).dec z = some y) ↔ x = some y := by
    intro x y; simp [bitElem]
  refine ⟨fun v => ?_, fun v => ?_, fun v => ?_, fun v => ?_⟩
  · show Option.map id _ = _ ↔ _
    rw [Option.map_id, id, vldN_eq_some]
    simp only [hb]
  · show Option.map id _ = _ ↔ _
    rw [Option.map_id, id]
    unfold svldN svtrue
    rw [Cpu.body_eq_some]
    simp only [hb]
    exact forall_congr' fun j => by rw [Cpu.body_eq_some]; simp
  · simp only [hb, forall_two]
    unfold loadDegF64
    show ((Cpu.body fun i : Fin deg => m (p + (i : Nat))).bind fun v0 =>
      (Cpu.body fun i : Fin deg => m (p + (i + deg : Nat))).bind fun v1 =>
        some fun i => ![v0 i, v1 i]) = some v ↔ _
    simp only [Option.bind_eq_some_iff, Cpu.body_eq_some, Option.some_inj]
    constructor
    · rintro ⟨v0, h0, v1, h1, rfl⟩ j
      refine ⟨?_, ?_⟩
      · simpa using h0 j
      · have := h1 j
        simpa [Nat.add_comm] using this
    · intro h
      refine ⟨fun j => v j 0, fun j => ?_, fun j => v j 1, fun j => ?_, ?_⟩
      · simpa using (h j).1
      · simpa [Nat.add_comm] using (h j).2
      · funext j i
        match i with
        | 0 => rfl
        | 1 => rfl
  · simp only [hb, forall_two]
    unfold loadDegI64
    rw [Cpu.body_eq_some]
    refine forall_congr' fun j => ?_
    have hv : ∀ a b : BitVec w, vld1 2 (localArray ![a, b]) 0 = some ![a, b] := by
      intro a b
      unfold vld1
      rw [Cpu.body_eq_some]
      intro i
      match i with
      | 0 => rfl
      | 1 => rfl
    simp only [hv]
    have := bind2 (x := m (p + (j : Nat))) (y := m (p + (j + deg : Nat))) (v := v j)
    refine Iff.trans this ?_
    simp [Nat.add_comm]

theorem body_localArray (v : Vec n M) (f : M → Option α) :
    (Cpu.body fun i : Fin n => ((localArray v) (0 + (i : Nat))).bind f) = Cpu.body fun i => f (v i) := by
  refine Cpu.body_congr fun i => ?_
  have h : localArray v (0 + (i : Nat)) = some (v i) := by
    unfold localArray
    rw [dif_pos ⟨by omega, by simp⟩]
    congr
    simp
  rw [h]; rfl

/-- `load2`, `load3`, `load4` of f16: lanes of the two halves of each register. -/
theorem loadDegF16_spec (e : Elem M α) (m : Mem M) (p : Int) :
    ReadsDeg (n := 4 + 4) e m p
      ((loadDegF16 deg e m p).map fun v j => cat (v j).1 (v j).2) := by
  intro v
  have hcat : ∀ u : Vec deg (Vec 4 α × Vec 4 α), (fun j => cat (u j).1 (u j).2) = v ↔
      ∀ j, u j = halves (v j) := by
    intro u
    constructor
    · rintro rfl j
      exact (halves_eq_iff.mpr rfl).symm
    · intro h
      funext j
      beta_reduce
      rw [h j]
      exact (halves_eq_iff.mp rfl).symm
  rw [Option.map_eq_some_iff]
  unfold loadDegF16
  simp only [Option.bind_eq_some_iff, vldN_eq_some, Cpu.body_eq_some, loadF16_eq, body_localArray]
  constructor
  · rintro ⟨u, ⟨t, ht, hu⟩, hv⟩ j i
    rw [hcat] at hv
    refine ⟨t j i, ht j i, ?_⟩
    have := hu j
    rw [hv j, Option.map_eq_some_iff] at this
    obtain ⟨b, hb, hh⟩ := this
    rw [Cpu.body_eq_some] at hb
    have hbv : b = v j := by
      have h1 := halves_eq_iff.mp hh
      have h2 : v j = cat (halves (v j)).1 (halves (v j)).2 := halves_eq_iff.mp rfl
      exact h1.trans h2.symm
    rw [← hbv]; exact hb i
  · intro h
    choose t ht using h
    refine ⟨fun j => halves (v j), ⟨t, fun j i => (ht j i).1, fun j => ?_⟩, (hcat _).mpr fun j => rfl⟩
    have : (Cpu.body fun i => e.dec (t j i)) = some (v j) :=
      Cpu.body_eq_some.mpr fun i => (ht j i).2
    rw [this]; rfl

theorem vstN_mem (p : Int) (v : Vec deg (Vec n M)) (a : Int) (x : M) :
    (a, x) ∈ ((List.finRange n).flatMap fun i => (List.finRange deg).map fun j =>
      (p + (deg * i.val + j.val : Nat), v j i)) ↔
    ∃ (j : Fin deg) (i : Fin n), a = p + (deg * i + j : Nat) ∧ x = v j i := by
  simp only [List.mem_flatMap, List.mem_finRange, List.mem_map, true_and, Prod.mk.injEq]
  constructor
  · rintro ⟨i, j, ha, hx⟩; exact ⟨j, i, ha.symm, hx.symm⟩
  · rintro ⟨j, i, ha, hx⟩; exact ⟨i, j, ha.symm, hx.symm⟩

theorem svstN_eq (m : Mem M) (p : Int) (v : Vec deg (Vec n M)) :
    svstN (svtrue n) m p v = vstN m p v := by
  unfold svstN vstN Cpu.stores svtrue
  have : ((List.finRange n).flatMap fun i => (List.finRange deg).map fun j =>
      (p + (deg * i.val + j.val : Nat), v j i)) =
      ((List.finRange n).flatMap fun i => (List.finRange deg).map fun j => (i, j)).map
        fun ij => (p + (deg * ij.1.val + ij.2.val : Nat), v ij.2 ij.1) := by
    rw [List.map_flatMap]
    simp [Function.comp_def]
  rw [this, List.foldlM_map]
  rfl

/-- `store2`, `store3`, `store4` on NEON, on SVE and, for 64-bit types, on neon128. -/
theorem storeDeg_spec (m : Mem (BitVec w)) (p : Int) (v : Vec deg (Reg n w)) (v2 : Vec deg (Reg 2 w)) :
    WritesDeg (bitElem w) m p v (storeDeg m p v) ∧
    WritesDeg (bitElem w) m p v (storeDegSve m p v) ∧
    WritesDeg (bitElem w) m p v2 (storeDegF64 m p v2) ∧
    WritesDeg (bitElem w) m p v2 (storeDegI64 m p v2) := by
  have hd : WritesDeg (bitElem w) m p v (storeDeg m p v) :=
    writesDeg_of (bitElem w) m p v (vstN_mem p v)
  refine ⟨hd, ?_, ?_, ?_⟩
  · unfold storeDegSve
    rw [svstN_eq]; exact hd
  · refine writesDeg_of (bitElem w) m p v2 fun a x => ?_
    simp only [List.mem_append, List.mem_map, List.mem_finRange, true_and, Prod.mk.injEq]
    constructor
    · rintro (⟨j, ha, hx⟩ | ⟨j, ha, hx⟩)
      · exact ⟨j, 0, by rw [← ha]; simp, hx.symm⟩
      · exact ⟨j, 1, by rw [← ha]; simp [Nat.add_comm], hx.symm⟩
    · rintro ⟨j, i, ha, hx⟩
      match i with
      | 0 => exact Or.inl ⟨j, by rw [ha]; simp, hx.symm⟩
      | 1 => exact Or.inr ⟨j, by rw [ha]; simp [Nat.add_comm], hx.symm⟩
  · refine writesDeg_of (bitElem w) m p v2 fun a x => ?_
    simp only [List.mem_flatMap, List.mem_finRange, true_and, List.mem_cons, List.not_mem_nil,
      or_false, Prod.mk.injEq]
    have e0 : ∀ j : Fin deg, (⟨j.val * 2 / 2, by omega⟩ : Fin deg) = j := fun j =>
      Fin.ext (by simp)
    have e1 : ∀ j : Fin deg, (⟨(j.val * 2 + 1) / 2, by omega⟩ : Fin deg) = j := fun j =>
      Fin.ext (by show (j.val * 2 + 1) / 2 = j.val; omega)
    have f0 : ∀ j : Fin deg, (⟨j.val * 2 % 2, by omega⟩ : Fin 2) = 0 := fun j =>
      Fin.ext (by simp)
    have f1 : ∀ j : Fin deg, (⟨(j.val * 2 + 1) % 2, by omega⟩ : Fin 2) = 1 := fun j =>
      Fin.ext (by show (j.val * 2 + 1) % 2 = 1; omega)
    simp only [e0, e1, f0, f1]
    constructor
    · rintro ⟨j, ⟨ha, hx⟩ | ⟨ha, hx⟩⟩
      · exact ⟨j, 0, by rw [ha]; simp, hx⟩
      · exact ⟨j, 1, by rw [ha]; simp [Nat.add_comm], hx⟩
    · rintro ⟨j, i, ha, hx⟩
      match i with
      | 0 => exact ⟨j, Or.inl ⟨by rw [ha]; simp, hx⟩⟩
      | 1 => exact ⟨j, Or.inr ⟨by rw [ha]; simp [Nat.add_comm], hx⟩⟩

/-- `store2`, `store3`, `store4` of f16 without hardware support. -/
theorem storeDegF16_spec (e : Elem M α) (junk : Vec deg (Vec 8 M)) (m : Mem M) (p : Int)
    (v : Vec deg (Vec 4 α × Vec 4 α)) :
    WritesDeg (n := 4 + 4) e m p (fun j => cat (v j).1 (v j).2) (storeDegF16 e junk m p v) := by
  have hj : ∀ j, ((storeF16 e (localArray (junk j)) 0 (v j)).bind fun b => vld1 8 b 0) =
      some fun i => e.enc (cat (v j).1 (v j).2 i) := by
    intro j
    obtain ⟨hs, hw⟩ := storeF16_spec e (localArray (junk j)) 0 (v j)
    have hsome : (storeF16 e (localArray (junk j)) 0 (v j)).isSome := by
      rw [hs]
      intro i _
      unfold localArray
      beta_reduce
      rw [dif_pos ⟨by omega, by omega⟩]; rfl
    obtain ⟨b, hb⟩ := Option.isSome_iff_exists.mp hsome
    rw [hb, Option.bind_some]
    unfold vld1
    rw [Cpu.body_eq_some]
    intro i
    refine (hw b hb).1 i rfl fun k hk _ => ?_
    have : i.val < k.val := hk
    beta_reduce
    omega
  have hb : (Cpu.body fun j => (storeF16 e (localArray (junk j)) 0 (v j)).bind fun b => vld1 8 b 0) =
      some fun j i => e.enc (cat (v j).1 (v j).2 i) := Cpu.body_eq_some.mpr hj
  unfold storeDegF16
  rw [hb, Option.bind_some]
  exact writesDeg_of e m p _ (vstN_mem p _)

/-! ### Masked loads and stores -/

theorem condSve_eq {t : BitVec w} (ht : t ≠ 0#w) (pg : Fin n → Bool) : condSve t pg = pg := by
  funext i
  unfold condSve svsel
  cases pg i <;> simp [ht]

theorem svld1_spec (pg : Fin n → Bool) (addr : Fin n → Int) (m : Mem (BitVec w)) (z : BitVec w) :
    ReadsAt (bitElem w) pg addr m (fun _ => z)
      (Cpu.body fun i => if pg i then m (addr i) else some z) := by
  intro v
  rw [Cpu.body_eq_some]
  exact forall_congr' fun i => ite_read

/-- Masked loads, zeroing or merging: SVE, neon128 f64, NEON. -/
theorem maskozLoad_spec (e : Elem M α) (pg : Fin n → Bool) (l2 : Reg 2 64) (l : Reg n w)
    (m : Mem M) (mb : Mem (BitVec w)) (p : Int) (ob : Reg n w) (o2 : Reg 2 w) (o : Vec n α) :
    ReadsAt (bitElem w) pg (fun i => p + (i : Nat)) mb ob (maskozLoadSve 0#w pg mb p ob) ∧
    ReadsAt (bitElem w) (truth l2) (fun i => p + (i : Nat)) mb o2 (maskozLoadF64 l2 mb p o2) ∧
    ReadsAt e (truth l) (fun i => p + (i : Nat)) m o (maskozLoad e l m p o) := by
  refine ⟨?_, ?_, ?_⟩
  · exact readsAt_blend (svld1_spec pg _ mb 0#w) fun v i => rfl
  · refine readsAt_two (truth l2) _ mb o2 ?_ ?_
    · simp [truth]
    · simp [truth]
  · exact maskozLoadBuf_spec e l m p o

/-- Masked loads of f16 without hardware support. -/
theorem maskozLoadF16_spec (e : Elem M α) (l0 l1 : Reg n 32) (m : Mem M) (p : Int)
    (o0 o1 : Vec n α) :
    ReadsHalves e (truth l0) (truth l1) (fun i => p + (i : Nat)) m o0 o1
      (Arm.maskozLoadF16 e l0 l1 m p o0 o1) :=
  readsHalves_of _ _ _ _ _ _ _ _ (readsAt_body e _ _ m _)

/-- Masked stores: SVE, neon128 f64, NEON and f16 without hardware support. -/
theorem maskStore_spec (e : Elem M α) (pg : Fin n → Bool) (l2 : Reg 2 64) (l : Reg n w)
    (l0 l1 : Reg n 32) (m : Mem M) (mb : Mem (BitVec w)) (p : Int) (vb : Reg n w) (v2 : Reg 2 w)
    (v v0 v1 : Vec n α) :
    WritesAt (bitElem w) pg (fun i => p + (i : Nat)) mb vb (maskStoreSve pg mb p vb) ∧
    WritesAt (bitElem w) (truth l2) (fun i => p + (i : Nat)) mb v2 (maskStoreF64 l2 mb p v2) ∧
    WritesAt e (truth l) (fun i => p + (i : Nat)) m v (maskStore e l m p v) ∧
    WritesAt e (cat (truth l0) (truth l1)) (fun i => p + (i : Nat)) m (cat v0 v1)
      (Arm.maskStoreF16 e l0 l1 m p v0 v1) :=
  ⟨writesAt_stores (bitElem w) pg (fun i => p + (i : Nat)) mb vb,
   writesAt_two (truth l2) (fun i => p + (i : Nat)) mb v2 (by simp) (by simp),
   writesAt_stores e (truth l) (fun i => p + (i : Nat)) m v,
   writesAt_stores e (cat (truth l0) (truth l1)) (fun i => p + (i : Nat)) m (cat v0 v1)⟩

/-! ### Gathers and scatters -/

/-- Gathers: NEON (lane by lane), neon128 f64, SVE (loop, instruction). -/
theorem gather_spec (m : Mem (BitVec w)) (p : Int) {k : Nat} (off1 : Reg (n + 1) k)
    (off2 : Reg 2 64) (off : Reg n k) (o1 : Reg (n + 1) w) (o2 : Reg 2 w) (o : Reg n w) :
    ReadsAt (bitElem w) (fun _ => true) (fun i => p + (off1 i).toInt) m o1 (gather m p off1) ∧
    ReadsAt (bitElem w) (fun _ => true) (fun i => p + (off2 i).toInt) m o2 (gatherF64 m p off2) ∧
    ReadsAt (bitElem w) (fun _ => true) (fun i => p + (off i).toInt) m o
      (gatherSveEmul (bitElem w) m p off) ∧
    ReadsAt (bitElem w) (fun _ => true) (fun i => p + (off i).toInt) m o
      (gatherSve 0#w m p off) := by
  refine ⟨?_, ?_, ?_, ?_⟩
  · intro v
    unfold gather
    rw [Ppc.fromLanes_eq_some]
    refine forall_congr' fun i => ?_
    simp [bitElem]
  · exact readsAt_two (fun _ => true) _ m o2 (by simp) (by simp)
  · simpa [gatherSveEmul, X86.gatherBuf] using
      readsAt_body (bitElem w) (fun _ => true) (fun i => p + (off i).toInt) m o
  · have := svld1_spec (fun _ => true) (fun i => p + (off i).toInt) m 0#w
    intro v
    exact (this v).trans (by simp)

/-- Gathers of f16 without hardware support. -/
theorem gatherF16_spec (e : Elem M α) (m : Mem M) (p : Int) (off : Reg (n + n) 16)
    (v : Vec n α × Vec n α) :
    gatherF16 e m p off = some v ↔
      ∀ i, ∃ y, m (p + (off i).toInt) = some y ∧ e.dec y = some (cat v.1 v.2 i) := by
  unfold gatherF16
  rw [Option.map_eq_some_iff]
  have hr : ∀ r : Option (Vec (n + n) α),
      (∃ a, r = some a ∧ halves a = v) ↔ r = some (cat v.1 v.2) := by
    intro r
    constructor
    · rintro ⟨a, ha, hh⟩; rw [halves_eq_iff (v0 := v.1) (v1 := v.2)] at hh; rw [ha, hh]
    · intro ha; exact ⟨_, ha, halves_eq_iff.mpr rfl⟩
  rw [hr]
  unfold X86.gatherBuf
  rw [Cpu.body_eq_some]
  refine forall_congr' fun i => ?_
  rw [Option.bind_eq_some_iff]

/-- Masked gathers: NEON, SVE (loop, instruction), neon128 f64. -/
theorem maskozGather_spec (h0 : 0 < w) (e : Elem M α) (l : Reg n w) (pg : Fin n → Bool)
    (l2 off2 : Reg 2 64) (m : Mem M) (mb : Mem (BitVec w)) (p : Int) (off : Reg n w) (o : Vec n α)
    (ob : Reg n w) (o2 : Reg 2 w) :
    ReadsAt e (truth l) (fun i => p + (off i).toInt) m o (maskozGather e l m p off o) ∧
    ReadsAt e pg (fun i => p + (off i).toInt) m o (maskozGatherSveEmul e pg m p off o) ∧
    ReadsAt (bitElem w) pg (fun i => p + (off i).toInt) mb ob
      (maskozGatherSve 0#w pg mb p off ob) ∧
    ReadsAt (bitElem w) (truth l2) (fun i => p + (off2 i).toInt) mb o2
      (maskozGatherF64 l2 mb p off2 o2) := by
  refine ⟨readsAt_body e (truth l) (fun i => p + (off i).toInt) m o, ?_, ?_, ?_⟩
  · unfold maskozGatherSveEmul
    rw [condSve_eq (allOnes_ne h0)]
    exact readsAt_body e pg (fun i => p + (off i).toInt) m o
  · exact readsAt_blend (svld1_spec pg (fun i => p + (off i).toInt) mb 0#w) fun v i => rfl
  · exact readsAt_two (truth l2) _ mb o2 rfl rfl

/-- Masked gathers of f16 without hardware support. -/
theorem maskozGatherF16_spec (e : Elem M α) (l0 l1 : Reg n 32) (m : Mem M) (p : Int)
    (off : Reg (n + n) 16) (o0 o1 : Vec n α) :
    ReadsAt e (cat (truth l0) (truth l1)) (fun i => p + (off i).toInt) m (cat o0 o1)
      ((Arm.maskozGatherF16 e l0 l1 m p off o0 o1).map fun v => cat v.1 v.2) := by
  have h := readsAt_body e (cat (truth l0) (truth l1)) (fun i => p + (off i).toInt) m (cat o0 o1)
  unfold Arm.maskozGatherF16
  rw [Option.map_map]
  have hid : ((fun v : Vec n α × Vec n α => cat v.1 v.2) ∘ halves) = id := by
    funext v
    exact (halves_eq_iff.mp rfl).symm
  rw [hid, Option.map_id]
  exact h

/-- Scatters: NEON (and the loop of SVE), neon128 f64, SVE. -/
theorem scatter_spec (e : Elem M α) (m : Mem M) (mb : Mem (BitVec w)) (p : Int) (off : Reg n w)
    (off2 : Reg 2 64) (off16 : Reg (n + n) 16) (v v0 v1 : Vec n α) (vb : Reg n w) (v2 : Reg 2 w) :
    WritesAt e (fun _ => true) (fun i => p + (off i).toInt) m v (scatter e m p off v) ∧
    WritesAt (bitElem w) (fun _ => true) (fun i => p + (off2 i).toInt) mb v2
      (scatterF64 mb p off2 v2) ∧
    WritesAt (bitElem w) (fun _ => true) (fun i => p + (off i).toInt) mb vb
      (scatterSve mb p off vb) ∧
    WritesAt e (fun _ => true) (fun i => p + (off16 i).toInt) m (cat v0 v1)
      (scatterF16 e m p off16 v0 v1) := by
  refine ⟨?_, ?_, ?_, ?_⟩
  · simpa [scatter, X86.scatterBuf] using
      writesAt_stores e (fun _ => true) (fun i => p + (off i).toInt) m v
  · exact writesAt_two (fun _ => true) (fun i => p + (off2 i).toInt) mb v2 rfl rfl
  · exact writesAt_stores (bitElem w) (fun _ => true) (fun i => p + (off i).toInt) mb vb
  · refine writesAt_congr ?_ (writesAt_stores e (fun _ => true) (fun i => p + (off16 i).toInt) m
      (cat v0 v1))
    rw [stores_halves]
    simp only [cat_lo, cat_hi, if_true]
    rfl

/-- Masked scatters: NEON, SVE (loop, instruction), neon128 f64, f16 without hardware support. -/
theorem maskScatter_spec (h0 : 0 < w) (e : Elem M α) (l : Reg n w) (pg : Fin n → Bool)
    (l2 off2 : Reg 2 64) (l0 l1 : Reg n 32) (m : Mem M) (mb : Mem (BitVec w)) (p : Int)
    (off : Reg n w) (off16 : Reg (n + n) 16) (v v0 v1 : Vec n α) (vb : Reg n w) (v2 : Reg 2 w) :
    WritesAt e (truth l) (fun i => p + (off i).toInt) m v (maskScatter e l m p off v) ∧
    WritesAt e pg (fun i => p + (off i).toInt) m v (maskScatterSveEmul e pg m p off v) ∧
    WritesAt (bitElem w) pg (fun i => p + (off i).toInt) mb vb (maskScatterSve pg mb p off vb) ∧
    WritesAt (bitElem w) (truth l2) (fun i => p + (off2 i).toInt) mb v2
      (maskScatterF64 l2 mb p off2 v2) ∧
    WritesAt e (cat (truth l0) (truth l1)) (fun i => p + (off16 i).toInt) m (cat v0 v1)
      (Arm.maskScatterF16 e l0 l1 m p off16 v0 v1) := by
  refine ⟨writesAt_stores e (truth l) (fun i => p + (off i).toInt) m v, ?_,
    writesAt_stores (bitElem w) pg (fun i => p + (off i).toInt) mb vb, ?_,
    writesAt_stores e (cat (truth l0) (truth l1)) (fun i => p + (off16 i).toInt) m (cat v0 v1)⟩
  · unfold maskScatterSveEmul
    rw [condSve_eq (t := 1#w) (by
      intro hc
      have := congrArg BitVec.toNat hc
      simp at this
      omega)]
    exact writesAt_stores e pg (fun i => p + (off i).toInt) m v
  · exact writesAt_two (truth l2) (fun i => p + (off2 i).toInt) mb v2 rfl rfl

/-! ### Linear gathers and scatters -/

theorem gatherLinear_spec (m : Mem (BitVec w)) (p step : Int) (hs : LinearOk (n + 1) step)
    (o : Reg (n + 1) w) (o2 : Reg 2 w) :
    ReadsAt (bitElem w) (fun _ => true) (fun i => p + (i : Nat) * step) m o
      (gatherLinear n m p step) ∧
    ReadsAt (bitElem w) (fun _ => true) (fun i => p + (i : Nat) * step) m o2
      (gatherLinearF64 m p step) := by
  refine ⟨fun v => ?_, readsAt_two (fun _ => true) _ m o2 (by simp) (by simp)⟩
  unfold gatherLinear
  rw [Ppc.fromLanes_eq_some]
  refine forall_congr' fun i => ?_
  rw [Arm.prom32 (hs i i.isLt).1 (hs i i.isLt).2, Option.bind_some]
  by_cases h : i.val = 0
  · rw [if_pos h]; simp [bitElem, h]
  · rw [if_neg h]; simp [bitElem]

/-- The offsets of a linear access fit the lanes of an index register. -/
theorem svindex_toInt (hw : 0 < w) (step : Int) (i : Fin n)
    (h1 : -2 ^ (w - 1) ≤ (i : Nat) * step) (h2 : (i : Nat) * step < 2 ^ (w - 1)) :
    (svindex n 0#w (BitVec.ofInt w step) i).toInt = (i : Nat) * step := by
  have he : svindex n 0#w (BitVec.ofInt w step) i = BitVec.ofInt w ((i : Nat) * step) := by
    unfold svindex
    rw [BitVec.ofInt_mul, BitVec.ofInt_natCast, BitVec.zero_add]
  rw [he, BitVec.toInt_ofInt]
  have h2w : (2 : Int) ^ w = 2 * 2 ^ (w - 1) := by
    rw [← pow_succ']; congr 1; omega
  have hc : ((2 ^ w : Nat) : Int) = 2 * 2 ^ (w - 1) := by push_cast; exact h2w
  rw [Int.bmod_def, hc]
  have hpos : (0 : Int) < 2 ^ (w - 1) := by positivity
  generalize (2 : Int) ^ (w - 1) = P at *
  generalize ((i : Nat) : Int) * step = x at *
  by_cases hx : 0 ≤ x
  · rw [Int.emod_eq_of_lt hx (by omega), if_pos (by omega)]
  · have : x % (2 * P) = x + 2 * P := by
      rw [← Int.add_emod_right, Int.emod_eq_of_lt (by omega) (by omega)]
    rw [this, if_neg (by omega)]; omega

/-- Linear accesses of SVE with 32-bit elements, when the products fit an `int`. -/
theorem linearSve32_spec (m : Mem (BitVec 32)) (p step : Int) (hs : LinearOk n step)
    (o v : Reg n 32) :
    ReadsAt (bitElem 32) (fun _ => true) (fun i => p + (i : Nat) * step) m o
      (gatherLinearSve 32 0#32 n m p step) ∧
    WritesAt (bitElem 32) (fun _ => true) (fun i => p + (i : Nat) * step) m v
      (scatterLinearSve 32 m p step v) := by
  have h : ∀ i : Fin n, (svindex n 0#32 (BitVec.ofInt 32 step) i).toInt = (i : Nat) * step :=
    fun i => svindex_toInt (by omega) step i (hs i i.isLt).1 (hs i i.isLt).2
  constructor
  · have := (gather_spec (n := n) m p (fun _ => 0#32) (fun _ => 0#64)
      (svindex n 0#32 (BitVec.ofInt 32 step)) (fun _ => 0#32) (fun _ => 0#32) o).2.2.2
    simp only [h] at this
    exact this
  · have := (scatter_spec (n := n) (bitElem 32) m m p (svindex n 0#32 (BitVec.ofInt 32 step))
      (fun _ => 0#64) (fun _ => 0#16) v v v v (fun _ => 0#32)).2.2.1
    simp only [h] at this
    exact this

/-- Linear accesses of SVE with 64-bit elements: any `int` step, even when `i * step` does not fit
an `int`. -/
theorem linearSve64_spec (hn : n ≤ 32) (m : Mem (BitVec 64)) (p step : Int)
    (h1 : -2 ^ 31 ≤ step) (h2 : step < 2 ^ 31) (o v : Reg n 64) :
    ReadsAt (bitElem 64) (fun _ => true) (fun i => p + (i : Nat) * step) m o
      (gatherLinearSve 64 0#64 n m p step) ∧
    WritesAt (bitElem 64) (fun _ => true) (fun i => p + (i : Nat) * step) m v
      (scatterLinearSve 64 m p step v) := by
  have h : ∀ i : Fin n, (svindex n 0#64 (BitVec.ofInt 64 step) i).toInt = (i : Nat) * step := by
    intro i
    have hi : ((i : Nat) : Int) ≤ 31 := by omega
    have hi0 : (0 : Int) ≤ ((i : Nat) : Int) := by omega
    refine svindex_toInt (by omega) step i ?_ ?_
    · norm_num; nlinarith
    · norm_num; nlinarith
  constructor
  · have := (gather_spec (n := n) m p (fun _ => 0#64) (fun _ => 0#64)
      (svindex n 0#64 (BitVec.ofInt 64 step)) (fun _ => 0#64) (fun _ => 0#64) o).2.2.2
    simp only [h] at this
    exact this
  · have := (scatter_spec (n := n) (bitElem 64) m m p (svindex n 0#64 (BitVec.ofInt 64 step))
      (fun _ => 0#64) (fun _ => 0#16) v v v v (fun _ => 0#64)).2.2.1
    simp only [h] at this
    exact this

/-- Linear gathers by the loops: SVE with 8- and 16-bit elements, f16 without hardware support. -/
theorem gatherLinearLoop_spec (e : Elem M M) (e' : Elem M α) (m : Mem M) (p step : Int)
    (hs : LinearOk (n + n) step) (o : Vec (n + n) M) (o0 o1 : Vec n α) :
    ReadsAt e (fun _ => true) (fun i => p + (i : Nat) * step) m o
      (gatherLinearSveEmul e (n + n) m p step) ∧
    ReadsHalves e' (fun _ => true) (fun _ => true) (fun i => p + (i : Nat) * step) m o0 o1
      (gatherLinearF16 e' n m p step) := by
  refine ⟨gatherLinearBuf_spec e m p step o hs, ?_⟩
  have h := gatherLinearBuf_spec e' m p step (cat o0 o1) hs
  have hc : cat (fun _ : Fin n => true) (fun _ => true) = fun _ => true := by
    funext i; unfold cat; split <;> rfl
  exact readsHalves_of e' _ _ (fun i => p + (i : Nat) * step) m o0 o1 _ (by rw [hc]; exact h)

/-- Linear scatters: NEON, the loop of SVE, f16 (`e`), neon128 f64. -/
theorem scatterLinear_spec (e : Elem M α) (m : Mem M) (mb : Mem (BitVec w)) (p step : Int)
    (hs : LinearOk n step) (v : Vec n α) (v2 : Reg 2 w) :
    WritesAt e (fun _ => true) (fun i => p + (i : Nat) * step) m v (scatterLinear e m p step v) ∧
    WritesAt (bitElem w) (fun _ => true) (fun i => p + (i : Nat) * step) mb v2
      (scatterLinearF64 mb p step v2) := by
  refine ⟨?_, writesAt_two (fun _ => true) (fun i => p + (i : Nat) * step) mb v2 (by simp) (by simp)⟩
  unfold scatterLinear
  rw [scatterLinearBuf_eq e m p step v hs]
  exact writesAt_stores e (fun _ => true) (fun i => p + (i : Nat) * step) m v

/-! ### Zip and unzip -/

/-- `r` interleaves lanes `s, s+1, ...` of `a` and `b`.
Specification, not code of the repo. -/
def Interleaves (a b r : Vec n α) (s : Nat) : Prop :=
  ∀ (k : Nat) (h : s + k < n) (i0 i1 : Fin n), i0.val = 2 * k → i1.val = 2 * k + 1 →
    r i0 = a ⟨s + k, h⟩ ∧ r i1 = b ⟨s + k, h⟩

/-- `r` holds the lanes `s, s + 2, ...` of `a` followed by those of `b`.
Specification, not code of the repo. -/
def Strides (a b r : Vec n α) (s : Nat) : Prop :=
  ∀ (k : Nat) (h : 2 * k + s < n) (i0 i1 : Fin n), i0.val = k → i1.val = n / 2 + k →
    r i0 = a ⟨2 * k + s, h⟩ ∧ r i1 = b ⟨2 * k + s, h⟩

/-- `ziplo`, `ziphi`, `unziplo`, `unziphi` of one register. -/
theorem zip_spec {h : Nat} (a b : Vec (h + h) α) :
    Interleaves a b (ziplo a b) 0 ∧ Interleaves a b (ziphi a b) h ∧
    Strides a b (unziplo a b) 0 ∧ Strides a b (unziphi a b) 1 := by
  refine ⟨?_, ?_, ?_, ?_⟩
  · intro k hk i0 i1 h0 h1
    unfold ziplo zip1
    rw [if_pos (by omega), if_neg (by omega)]
    exact ⟨congrArg a (Fin.ext (by simp; omega)), congrArg b (Fin.ext (by simp; omega))⟩
  · intro k hk i0 i1 h0 h1
    unfold ziphi zip2
    rw [if_pos (by omega), if_neg (by omega)]
    exact ⟨congrArg a (Fin.ext (by simp; omega)), congrArg b (Fin.ext (by simp; omega))⟩
  · intro k hk i0 i1 h0 h1
    unfold unziplo uzp1
    rw [dif_pos (by omega), dif_neg (by omega)]
    exact ⟨congrArg a (Fin.ext (by simp; omega)), congrArg b (Fin.ext (by simp; omega))⟩
  · intro k hk i0 i1 h0 h1
    unfold unziphi uzp2
    rw [dif_pos (by omega), dif_neg (by omega)]
    exact ⟨congrArg a (Fin.ext (by simp; omega)), congrArg b (Fin.ext (by simp; omega))⟩

/-- The same for f16 on pairs of registers. -/
theorem zipF16_spec {h : Nat} (a b : Vec (h + h) α × Vec (h + h) α) :
    Interleaves (cat a.1 a.2) (cat b.1 b.2) (cat (ziploF16 a b).1 (ziploF16 a b).2) 0 ∧
    Interleaves (cat a.1 a.2) (cat b.1 b.2) (cat (ziphiF16 a b).1 (ziphiF16 a b).2) (h + h) ∧
    Strides (cat a.1 a.2) (cat b.1 b.2) (cat (unziploF16 a b).1 (unziploF16 a b).2) 0 ∧
    Strides (cat a.1 a.2) (cat b.1 b.2) (cat (unziphiF16 a b).1 (unziphiF16 a b).2) 1 := by
  refine ⟨?_, ?_, ?_, ?_⟩
  · intro k hk i0 i1 h0 h1
    unfold cat ziploF16 zip1 zip2
    dsimp only
    constructor
    · have := i0.isLt
      split
      · rw [if_pos (by omega), dif_pos (by omega)]
        exact congrArg a.1 (Fin.ext (by simp; omega))
      · rw [if_pos (by omega), dif_pos (by omega)]
        exact congrArg a.1 (Fin.ext (by simp; omega))
    · have := i1.isLt
      split
      · rw [if_neg (by omega), dif_pos (by omega)]
        exact congrArg b.1 (Fin.ext (by simp; omega))
      · rw [if_neg (by omega), dif_pos (by omega)]
        exact congrArg b.1 (Fin.ext (by simp; omega))
  · intro k hk i0 i1 h0 h1
    unfold cat ziphiF16 zip1 zip2
    dsimp only
    constructor
    · have := i0.isLt
      split
      · rw [if_pos (by omega), dif_neg (by omega)]
        exact congrArg a.2 (Fin.ext (by simp; omega))
      · rw [if_pos (by omega), dif_neg (by omega)]
        exact congrArg a.2 (Fin.ext (by simp; omega))
    · have := i1.isLt
      split
      · rw [if_neg (by omega), dif_neg (by omega)]
        exact congrArg b.2 (Fin.ext (by simp; omega))
      · rw [if_neg (by omega), dif_neg (by omega)]
        exact congrArg b.2 (Fin.ext (by simp; omega))
  · intro k hk i0 i1 h0 h1
    unfold cat unziploF16 uzp1
    dsimp only
    constructor
    · rw [dif_pos (by omega)]
      by_cases hlt : k < h
      · rw [dif_pos (by omega), dif_pos (by omega)]
        exact congrArg a.1 (Fin.ext (by simp; omega))
      · rw [dif_neg (by omega), dif_neg (by omega)]
        exact congrArg a.2 (Fin.ext (by simp; omega))
    · rw [dif_neg (by omega)]
      by_cases hlt : k < h
      · rw [dif_pos (by omega), dif_pos (by omega)]
        exact congrArg b.1 (Fin.ext (by simp; omega))
      · rw [dif_neg (by omega), dif_neg (by omega)]
        exact congrArg b.2 (Fin.ext (by simp; omega))
  · intro k hk i0 i1 h0 h1
    unfold cat unziphiF16 uzp2
    dsimp only
    constructor
    · rw [dif_pos (by omega)]
      by_cases hlt : k < h
      · rw [dif_pos (by omega), dif_pos (by omega)]
        exact congrArg a.1 (Fin.ext (by simp; omega))
      · rw [dif_neg (by omega), dif_neg (by omega)]
        exact congrArg a.2 (Fin.ext (by simp; omega))
    · rw [dif_neg (by omega)]
      by_cases hlt : k < h
      · rw [dif_pos (by omega), dif_pos (by omega)]
        exact congrArg b.1 (Fin.ext (by simp; omega))
      · rw [dif_neg (by omega), dif_neg (by omega)]
        exact congrArg b.2 (Fin.ext (by simp; omega))

/-- The 64-bit types of neon128. -/
theorem zip64_spec (a b : Vec 2 α) :
    Interleaves a b (half64lo a b) 0 ∧ Interleaves a b (half64hi a b) 1 ∧
    Strides a b (half64lo a b) 0 ∧ Strides a b (half64hi a b) 1 := by
  have e0 : ∀ i : Fin 2, i.val = 0 → i = 0 := fun i h => Fin.ext h
  have e1 : ∀ i : Fin 2, i.val = 1 → i = 1 := fun i h => Fin.ext h
  refine ⟨?_, ?_, ?_, ?_⟩ <;> intro k hk i0 i1 h0 h1 <;>
    obtain rfl : k = 0 := by omega
  all_goals
    rw [e0 i0 (by omega), e1 i1 (by omega)]
    exact ⟨rfl, rfl⟩

/-- `unzip` undoes `zip` and `zip` undoes `unzip`. -/
theorem unzip_zip {h : Nat} (a b : Vec (h + h) α) :
    zip unziplo unziphi (zip ziplo ziphi a b).1 (zip ziplo ziphi a b).2 = (a, b) ∧
    zip ziplo ziphi (zip unziplo unziphi a b).1 (zip unziplo unziphi a b).2 = (a, b) := by
  constructor
  · refine Prod.ext ?_ ?_
    · funext i
      show uzp1 (zip1 a b) (zip2 a b) i = a i
      unfold uzp1 zip1 zip2
      dsimp only
      split
      · rw [if_pos (by omega)]; exact congrArg a (Fin.ext (by simp))
      · rw [if_pos (by omega)]; exact congrArg a (Fin.ext (by simp; omega))
    · funext i
      show uzp2 (zip1 a b) (zip2 a b) i = b i
      unfold uzp2 zip1 zip2
      dsimp only
      split
      · rw [if_neg (by omega)]; exact congrArg b (Fin.ext (by simp; omega))
      · rw [if_neg (by omega)]; exact congrArg b (Fin.ext (by simp; omega))
  · refine Prod.ext ?_ ?_
    · funext i
      show zip1 (uzp1 a b) (uzp2 a b) i = a i
      unfold uzp1 uzp2 zip1
      dsimp only
      split
      · rw [dif_pos (by omega)]; exact congrArg a (Fin.ext (by simp; omega))
      · rw [dif_pos (by omega)]; exact congrArg a (Fin.ext (by simp; omega))
    · funext i
      show zip2 (uzp1 a b) (uzp2 a b) i = b i
      unfold uzp1 uzp2 zip2
      dsimp only
      split
      · rw [dif_neg (by omega)]; exact congrArg b (Fin.ext (by simp; omega))
      · rw [dif_neg (by omega)]; exact congrArg b (Fin.ext (by simp; omega))

/-! ### Concrete cases -/

/-- Memory holding `10 a + 1` at the addresses 0 to 23. Example data, not code of the repo. -/
def demo : Mem (BitVec 16) := fun a =>
  if 0 ≤ a ∧ a < 24 then some (BitVec.ofInt 16 (10 * a + 1)) else none

example : (loadDeg 3 8 demo 0).map (fun v => (v 1 2, v 2 7)) = some (71#16, 231#16) := by
  decide +kernel
example : (loadDeg 3 8 demo 1).isSome = false := by decide +kernel
example : (loadDegI64 3 demo 4).map (fun v => (v 0 1, v 2 0)) = some (71#16, 61#16) := by
  decide +kernel
example : (loadDegF16 3 (bitElem 16) demo 0).map (fun v => ((v 1).2 0, (v 2).1 3)) =
    some (131#16, 111#16) := by decide +kernel
example : ((storeDegI64 demo 2 (fun j => ![BitVec.ofNat 16 j.val, 7#16] : Vec 3 (Reg 2 16))).bind
    fun m => (m 4).bind fun x => (m 5).map fun y => (x, y)) = some (2#16, 7#16) := by decide +kernel
example : (maskozLoadSve 0#16 ![true, false, false] demo 23 ![5#16, 6#16, 7#16]).map
    (fun v => (v 0, v 1, v 2)) = some (231#16, 6#16, 7#16) := by decide +kernel
example : (gather demo 10 (![2#16, -10#16, 0#16] : Reg 3 16)).map (fun v => (v 0, v 1, v 2)) =
    some (121#16, 1#16, 101#16) := by decide +kernel
example : LinearOk 4 (-3) ∧ (gatherLinear 3 demo 9 (-3)).map (fun v => (v 0, v 3)) =
    some (91#16, 1#16) := by
  refine ⟨?_, by decide +kernel⟩
  intro i hi; omega
example : (gatherLinearSve 64 0#16 3 demo 9 (-3)).map (fun v => (v 0, v 2)) =
    some (91#16, 31#16) := by decide +kernel
example : (scatterF16 (bitElem 16) demo 0 (![3#16, 3#16] : Reg (1 + 1) 16) ![8#16] ![9#16]).bind
    (fun m => m 3) = some 9#16 := by decide +kernel
example : ziplo (h := 2) ![0, 1, 2, 3] ![10, 11, 12, 13] = ![0, 10, 1, 11] ∧
    unziphi (h := 2) ![0, 1, 2, 3] ![10, 11, 12, 13] = ![1, 3, 11, 13] := by decide

end Nsimd.Props.ArmMem
