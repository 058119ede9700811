import Verif.Model.X86Mem
import Verif.Lemmas.Cpu
import Verif.Props.X86Lane
import Verif.Props.Arm
import Mathlib.Data.List.OfFn
import Mathlib.Data.Fin.VecNotation
import Mathlib.Tactic.FinCases

/-!
# Masked and indexed memory operators of the x86 back end (C65, C66)

Specifications: `ReadsAt` says what a (masked) load or gather returns, `WritesAt` what a (masked)
store or scatter does to memory, in terms of the truth value of each lane and the address of each
lane.  A logical register before AVX-512 is `Canonical`: every lane is all ones or zero (C13).
-/

namespace Nsimd.Props.X86Mem
open Nsimd Nsimd.X86
open Nsimd.Cpu (Vec Mem Elem)

variable {n w : Nat} {M α : Type}

/-- `res` is defined exactly when the address of every enabled lane is mapped (and the element can
be converted); enabled lanes hold the element at their address, the others the lane of `o`.
Specification, not code of the repo. -/
def ReadsAt (e : Elem M α) (c : Fin n → Bool) (addr : Fin n → Int) (m : Mem M) (o : Vec n α)
    (res : Option (Vec n α)) : Prop :=
  ∀ v, res = some v ↔
    ∀ i, if c i then ∃ y, m (addr i) = some y ∧ e.dec y = some (v i) else v i = o i

/-- `res` is defined exactly when the address of every enabled lane is mapped; the element at the
address of an enabled lane is that lane, the highest enabled lane winning when several lanes have
the same address; no other element changes.
Specification, not code of the repo. -/
def WritesAt (e : Elem M α) (c : Fin n → Bool) (addr : Fin n → Int) (m : Mem M) (v : Vec n α)
    (res : Option (Mem M)) : Prop :=
  (res.isSome ↔ ∀ i, c i = true → (m (addr i)).isSome) ∧
  ∀ m', res = some m' →
    (∀ i, c i = true → (∀ j, i < j → c j = true → addr j ≠ addr i) →
      m' (addr i) = some (e.enc (v i))) ∧
    ∀ a, (∀ i, c i = true → addr i ≠ a) → m' a = m a

/-- Every lane is all ones or zero: the invariant of logical registers, C13.
Specification, not code of the repo. -/
def Canonical (l : Reg n w) : Prop := ∀ i, l i = BitVec.allOnes w ∨ l i = 0#w

/-- The truth value of a lane.
Specification, not code of the repo. -/
def truth (l : Reg n w) : Fin n → Bool := fun i => l i != 0#w

/-- The elements of the types whose lanes are the bits in memory (all types but f16).
Specification, not code of the repo. -/
def bitElem (w : Nat) : Elem (BitVec w) (BitVec w) where
  dec := some
  enc := id
  zero := 0#w
  one := 1#w
  isZero := fun x => x == 0#w

theorem readsAt_body (e : Elem M α) (c : Fin n → Bool) (addr : Fin n → Int) (m : Mem M)
    (o : Vec n α) :
    ReadsAt e c addr m o (Cpu.body fun i => if c i then (m (addr i)).bind e.dec else some (o i)) := by
  intro v
  rw [Cpu.body_eq_some]
  refine forall_congr' fun i => ?_
  split
  · rw [Option.bind_eq_some_iff]
  · rw [Option.some_inj, eq_comm]

theorem writesAt_stores (e : Elem M α) (c : Fin n → Bool) (addr : Fin n → Int) (m : Mem M)
    (v : Vec n α) :
    WritesAt e c addr m v (Cpu.stores (List.finRange n)
      (fun i => if c i then some (addr i, e.enc (v i)) else none) m) := by
  refine ⟨?_, ?_⟩
  · rw [Cpu.stores_isSome]
    constructor
    · intro h i hi; exact h i (List.mem_finRange i) _ _ (if_pos hi)
    · intro h i _ a u hu
      split at hu
      · rename_i hi; cases hu; exact h i hi
      · cases hu
  · intro m' h
    refine ⟨?_, ?_⟩
    · intro i hi hlast
      refine Cpu.stores_last (Cpu.finRange_lt n) h (List.mem_finRange i) (if_pos hi) ?_
      intro j _ hj u hu
      split at hu
      · rename_i hc
        exact hlast j hj hc (congrArg Prod.fst (Option.some.inj hu))
      · cases hu
    · intro a ha
      refine Cpu.stores_frame h ?_
      intro j _ u hu
      split at hu
      · rename_i hj; exact ha j hj (congrArg Prod.fst (Option.some.inj hu))
      · cases hu

theorem writesAt_congr {e : Elem M α} {c : Fin n → Bool} {addr : Fin n → Int} {m : Mem M}
    {v : Vec n α} {r r' : Option (Mem M)} (h : r = r') (hw : WritesAt e c addr m v r') :
    WritesAt e c addr m v r := h ▸ hw

theorem canonical_msb (hw : 0 < w) {l : Reg n w} (hl : Canonical l) (i : Fin n) :
    (l i).msb = truth l i := by
  unfold truth
  rcases hl i with h | h
  · rw [h, BitVec.msb_allOnes hw]
    have : BitVec.allOnes w ≠ 0#w := by
      intro hc
      have := congrArg BitVec.msb hc
      rw [BitVec.msb_allOnes hw] at this
      simp at this
    simp [this]
  · rw [h]; simp

theorem condMask_eq (hn : n ≤ 64) (k : BitVec n) (i : Fin n) : condMask k i = k.getLsbD i := by
  unfold condMask
  have hb : ((k.setWidth 64 >>> i.val) &&& 1#64) = if k.getLsbD i then 1#64 else 0#64 := by
    apply BitVec.eq_of_getLsbD_eq
    intro j hj
    rw [BitVec.getLsbD_and, BitVec.getLsbD_ushiftRight, BitVec.getLsbD_setWidth, BitVec.getLsbD_one]
    by_cases h0 : j = 0
    · subst h0
      have : i.val < 64 := by omega
      cases hk : k.getLsbD i <;> simp [hk, this]
    · have h0' : ¬ 0 = j := fun h => h0 h.symm
      cases hk : k.getLsbD i <;> simp [h0, h0']
  rw [hb]
  cases k.getLsbD i <;> simp

theorem condF512_eq (k : BitVec n) (i : Fin n) : condF512 k i = k.getLsbD i := by
  unfold condF512
  cases k.getLsbD i <;> simp

theorem blendvEpi8_allOnes (hw : 8 ∣ w) (a b : BitVec w) : blendvEpi8 a b (BitVec.allOnes w) = b := by
  unfold blendvEpi8
  apply BitVec.eq_of_getLsbD_eq
  intro k hk
  rw [BitVec.getLsbD_ofFnLE, dif_pos hk]
  have : 8 * (k / 8) + 7 < w := by omega
  simp [this]

theorem blendvEpi8_zero (a b : BitVec w) : blendvEpi8 a b 0#w = a := by
  unfold blendvEpi8
  apply BitVec.eq_of_getLsbD_eq
  intro k hk
  rw [BitVec.getLsbD_ofFnLE, dif_pos hk]
  simp

theorem allOnes_ne (hw : 0 < w) : BitVec.allOnes w ≠ 0#w := by
  intro hc
  have := congrArg BitVec.msb hc
  rw [BitVec.msb_allOnes hw] at this
  simp at this

theorem readsAt_blend {e : Elem M α} {c : Fin n → Bool} {addr : Fin n → Int} {m : Mem M}
    {z o : Vec n α} {r : Option (Vec n α)} {f : Vec n α → Vec n α} (h : ReadsAt e c addr m z r)
    (hf : ∀ v i, f v i = if c i then v i else o i) : ReadsAt e c addr m o (r.map f) := by
  intro v
  rw [Option.map_eq_some_iff]
  constructor
  · rintro ⟨v', hv', rfl⟩ i
    have := (h v').mp hv' i
    rw [hf]
    by_cases ht : c i = true
    · rw [if_pos ht] at this; rw [if_pos ht, if_pos ht]; exact this
    · rw [if_neg ht, if_neg ht]
  · intro hv
    refine ⟨fun i => if c i then v i else z i, (h _).mpr fun i => ?_, ?_⟩
    · have := hv i
      beta_reduce
      by_cases ht : c i = true
      · rw [if_pos ht] at this; rw [if_pos ht, if_pos ht]; exact this
      · rw [if_neg ht, if_neg ht]
    · funext i
      have := hv i
      rw [hf]
      beta_reduce
      by_cases ht : c i = true
      · rw [if_pos ht, if_pos ht]
      · rw [if_neg ht] at this; rw [if_neg ht]; exact this.symm

/-! ### Masked loads -/

/-- The buffer loop, with the condition of SSE and of 8/16-bit types on AVX and AVX2. -/
theorem maskozLoadBuf_spec (e : Elem M α) (l : Reg n w) (m : Mem M) (p : Int) (o : Vec n α) :
    ReadsAt e (truth l) (fun i => p + (i : Nat)) m o (maskozLoadBuf e (condBuf l) m p o) :=
  readsAt_body e (truth l) (fun i => p + (i : Nat)) m o

/-- The buffer loop on KNL: bit `i` of the mask. -/
theorem maskozLoadKnl_spec (hn : n ≤ 64) (e : Elem M α) (k : BitVec n) (m : Mem M) (p : Int)
    (o : Vec n α) :
    ReadsAt e (fun i => k.getLsbD i) (fun i => p + (i : Nat)) m o
      (maskozLoadBuf e (condMask k) m p o) := by
  rw [show condMask k = fun i : Fin n => k.getLsbD i from funext (condMask_eq hn k)]
  exact readsAt_body e _ (fun i => p + (i : Nat)) m o

/-- Masked loads with the AVX and AVX2 instructions: zeroing and merging variants. -/
theorem maskozLoadAvx_spec (hw : 8 ∣ w) (h0 : 0 < w) (l : Reg n w) (hl : Canonical l)
    (m : Mem (BitVec w)) (p : Int) (o : Reg n w) :
    ReadsAt (bitElem w) (truth l) (fun i => p + (i : Nat)) m (fun _ => 0#w) (maskload l m p) ∧
    ReadsAt (bitElem w) (truth l) (fun i => p + (i : Nat)) m o (maskoLoadAvx l m p o) ∧
    ReadsAt (bitElem w) (truth l) (fun i => p + (i : Nat)) m o (maskoLoadAvx2 l m p o) := by
  have hz : ReadsAt (bitElem w) (truth l) (fun i => p + (i : Nat)) m (fun _ => 0#w)
      (maskload l m p) := by
    have h := readsAt_body (bitElem w) (truth l) (fun i => p + (i : Nat)) m (fun _ => 0#w)
    have he : maskload l m p = Cpu.body fun i => if truth l i then
        (m (p + (i : Nat))).bind (bitElem w).dec else some 0#w := by
      unfold maskload
      congr 1
      funext i
      rw [canonical_msb h0 hl i]
      congr 1
      simp [bitElem]
    rw [he]; exact h
  refine ⟨hz, ?_, ?_⟩
  · refine readsAt_blend hz fun v' i => ?_
    unfold blendv
    rw [canonical_msb h0 hl i]
  · refine readsAt_blend hz fun v' i => ?_
    unfold truth
    rcases hl i with h | h
    · rw [h, blendvEpi8_allOnes hw]; simp [allOnes_ne h0]
    · rw [h, blendvEpi8_zero]; simp

/-- Masked loads with the AVX-512 instructions. -/
theorem maskLoad512_spec (k : BitVec n) (m : Mem (BitVec w)) (p : Int) (o : Reg n w) :
    ReadsAt (bitElem w) (fun i => k.getLsbD i) (fun i => p + (i : Nat)) m o
      (maskLoad512i o k m p) := by
  have h := readsAt_body (bitElem w) (fun i : Fin n => k.getLsbD i) (fun i => p + (i : Nat)) m o
  simpa [bitElem, maskLoad512i] using h

/-- What an f16 register reads: the two halves at `addr`, the second half from lane `n`.
Specification, not code of the repo. -/
def ReadsHalves (e : Elem M α) (c0 c1 : Fin n → Bool) (addr : Nat → Int) (m : Mem M)
    (o0 o1 : Vec n α) (res : Option (Vec n α × Vec n α)) : Prop :=
  ∀ v0 v1, res = some (v0, v1) ↔
    (∀ i : Fin n, if c0 i then ∃ y, m (addr i) = some y ∧ e.dec y = some (v0 i) else v0 i = o0 i) ∧
    ∀ i : Fin n, if c1 i then ∃ y, m (addr (n + i)) = some y ∧ e.dec y = some (v1 i) else v1 i = o1 i

theorem cat_lo {β : Type} (a b : Vec n β) (i : Fin n) : cat a b ⟨i, by omega⟩ = a i := by
  simp [cat]
theorem cat_hi {β : Type} (a b : Vec n β) (i : Fin n) : cat a b ⟨n + i, by omega⟩ = b i := by
  simp [cat]

theorem forall_halves {P : Fin (n + n) → Prop} :
    (∀ i, P i) ↔ (∀ i : Fin n, P ⟨i, by omega⟩) ∧ ∀ i : Fin n, P ⟨n + i, by omega⟩ := by
  constructor
  · intro h; exact ⟨fun i => h _, fun i => h _⟩
  · rintro ⟨h0, h1⟩ ⟨i, hi⟩
    by_cases hlt : i < n
    · exact h0 ⟨i, hlt⟩
    · have := h1 ⟨i - n, by omega⟩
      simpa [show n + (i - n) = i by omega] using this

theorem halves_eq_iff {v : Vec (n + n) α} {v0 v1 : Vec n α} :
    halves v = (v0, v1) ↔ v = cat v0 v1 := by
  constructor
  · intro h
    have h0 : (halves v).1 = v0 := congrArg Prod.fst h
    have h1 : (halves v).2 = v1 := congrArg Prod.snd h
    funext i
    revert i
    rw [forall_halves]
    exact ⟨fun i => by rw [cat_lo, ← h0]; rfl, fun i => by rw [cat_hi, ← h1]; rfl⟩
  · rintro rfl
    unfold halves
    refine Prod.ext ?_ ?_
    · funext i; exact cat_lo v0 v1 i
    · funext i; exact cat_hi v0 v1 i

theorem readsHalves_of (e : Elem M α) (c0 c1 : Fin n → Bool) (addr : Nat → Int) (m : Mem M)
    (o0 o1 : Vec n α) (res : Option (Vec (n + n) α))
    (h : ReadsAt e (cat c0 c1) (fun i => addr i) m (cat o0 o1) res) :
    ReadsHalves e c0 c1 addr m o0 o1 (res.map halves) := by
  intro v0 v1
  rw [Option.map_eq_some_iff]
  have hr : (∃ a, res = some a ∧ halves a = (v0, v1)) ↔ res = some (cat v0 v1) := by
    constructor
    · rintro ⟨a, ha, hh⟩; rw [halves_eq_iff] at hh; rw [ha, hh]
    · intro ha; exact ⟨_, ha, halves_eq_iff.mpr rfl⟩
  rw [hr, h, forall_halves]
  simp only [cat_lo, cat_hi]

/-- Masked loads of f16. -/
theorem maskozLoadF16_spec (e : Elem M α) (l0 l1 : Reg n 32) (k0 k1 : BitVec n) (m : Mem M) (p : Int)
    (o0 o1 : Vec n α) :
    ReadsHalves e (truth l0) (truth l1) (fun i => p + (i : Nat)) m o0 o1
      (maskozLoadF16 e l0 l1 m p o0 o1) ∧
    ReadsHalves e (fun i => k0.getLsbD i) (fun i => k1.getLsbD i) (fun i => p + (i : Nat)) m o0 o1
      (maskozLoadF16_512 e k0 k1 m p o0 o1) := by
  refine ⟨readsHalves_of _ _ _ _ _ _ _ _ (readsAt_body e _ _ m _), ?_⟩
  unfold maskozLoadF16_512
  rw [show condF512 k0 = fun i : Fin n => k0.getLsbD i from funext (condF512_eq k0),
    show condF512 k1 = fun i : Fin n => k1.getLsbD i from funext (condF512_eq k1)]
  exact readsHalves_of _ _ _ _ _ _ _ _ (readsAt_body e _ _ m _)

/-! ### Masked stores -/

/-- The buffer loop on KNL. -/
theorem maskStoreKnl_spec (hn : n ≤ 64) (e : Elem M α) (k : BitVec n) (m : Mem M) (p : Int)
    (v : Vec n α) :
    WritesAt e (fun i => k.getLsbD i) (fun i => p + (i : Nat)) m v
      (maskStoreBuf e (condMask k) m p v) := by
  rw [show condMask k = fun i : Fin n => k.getLsbD i from funext (condMask_eq hn k)]
  exact writesAt_stores e _ (fun i => p + (i : Nat)) m v

theorem maskstore_eq (h0 : 0 < w) (l : Reg n w) (hl : Canonical l) (m : Mem (BitVec w)) (p : Int)
    (v : Reg n w) :
    maskstore l m p v = Cpu.stores (List.finRange n)
      (fun i => if truth l i then some (p + (i : Nat), (bitElem w).enc (v i)) else none) m := by
  unfold maskstore
  congr 1
  funext i
  rw [canonical_msb h0 hl i]
  rfl

theorem maskmoveu_eq (hw : 8 ∣ w) (h0 : 0 < w) (l : Reg n w) (hl : Canonical l)
    (m : Mem (BitVec w)) (p : Int) (v : Reg n w) :
    maskmoveu l m p v = Cpu.stores (List.finRange n)
      (fun i => if truth l i then some (p + (i : Nat), (bitElem w).enc (v i)) else none) m := by
  unfold maskmoveu Cpu.stores
  congr 1
  funext m i
  have ht : truth l i = (l i != 0#w) := rfl
  beta_reduce
  rw [ht]
  rcases hl i with h | h
  · have hne : (BitVec.allOnes w != 0#w) = true := by simp [allOnes_ne h0]
    rw [h, blendvEpi8_allOnes hw, if_neg (allOnes_ne h0), hne, if_pos rfl]
    simp only [blendvEpi8_allOnes hw]
    cases hm : m (p + (i : Nat)) with
    | none => simp [Cpu.write, hm]
    | some y => rfl
  · have hne : ((0#w : BitVec w) != 0#w) = false := by simp
    rw [h, blendvEpi8_zero, if_pos rfl, hne]
    rfl

/-- Masked stores with the SSE instruction `maskmoveu` and the AVX/AVX2 instruction `maskstore`. -/
theorem maskStoreSimd_spec (hw : 8 ∣ w) (h0 : 0 < w) (l : Reg n w) (hl : Canonical l)
    (m : Mem (BitVec w)) (p : Int) (v : Reg n w) :
    WritesAt (bitElem w) (truth l) (fun i => p + (i : Nat)) m v (maskmoveu l m p v) ∧
    WritesAt (bitElem w) (truth l) (fun i => p + (i : Nat)) m v (maskstore l m p v) := by
  rw [maskmoveu_eq hw h0 l hl, maskstore_eq h0 l hl]
  exact ⟨writesAt_stores (bitElem w) _ (fun i => p + (i : Nat)) m v,
    writesAt_stores (bitElem w) _ (fun i => p + (i : Nat)) m v⟩

/-- Masked stores with the AVX-512 instructions. -/
theorem maskStore512_spec (k : BitVec n) (m : Mem (BitVec w)) (p : Int) (v : Reg n w) :
    WritesAt (bitElem w) (fun i => k.getLsbD i) (fun i => p + (i : Nat)) m v
      (maskStore512i k m p v) :=
  writesAt_stores (bitElem w) (fun i : Fin n => k.getLsbD i) (fun i => p + (i : Nat)) m v

/-- Masked stores of f16. -/
theorem maskStoreF16_spec (e : Elem M α) (l0 l1 : Reg n 32) (k0 k1 : BitVec n) (m : Mem M) (p : Int)
    (v0 v1 : Vec n α) :
    WritesAt e (cat (truth l0) (truth l1)) (fun i => p + (i : Nat)) m (cat v0 v1)
      (maskStoreF16 e l0 l1 m p v0 v1) ∧
    WritesAt e (cat (fun i => k0.getLsbD i) (fun i => k1.getLsbD i)) (fun i => p + (i : Nat)) m
      (cat v0 v1) (maskStoreF16_512 e k0 k1 m p v0 v1) := by
  refine ⟨writesAt_stores e _ (fun i => p + (i : Nat)) m _, ?_⟩
  unfold maskStoreF16_512
  rw [show condF512 k0 = fun i : Fin n => k0.getLsbD i from funext (condF512_eq k0),
    show condF512 k1 = fun i : Fin n => k1.getLsbD i from funext (condF512_eq k1)]
  exact writesAt_stores e _ (fun i => p + (i : Nat)) m _

/-! ### Splitting a sequence of stores into halves -/

theorem finRange_halves (n : Nat) : List.finRange (n + n) =
    (List.finRange n).map (fun i : Fin n => (⟨i, by omega⟩ : Fin (n + n))) ++
      (List.finRange n).map (fun i : Fin n => (⟨n + i, by omega⟩ : Fin (n + n))) := by
  apply List.ext_getElem
  · simp
  · intro i h1 h2
    rw [List.getElem_append]
    split
    · rename_i h
      simp
    · rename_i h
      simp only [List.length_map, List.length_finRange] at h
      simp only [List.length_finRange] at h1
      apply Fin.ext
      simp
      omega

theorem stores_halves (act : Fin (n + n) → Option (Int × M)) (m : Mem M) :
    Cpu.stores (List.finRange (n + n)) act m =
      (Cpu.stores (List.finRange n) (fun i => act ⟨i, by omega⟩) m).bind
        (Cpu.stores (List.finRange n) (fun i => act ⟨n + i, by omega⟩)) := by
  unfold Cpu.stores
  rw [finRange_halves, List.foldlM_append, List.foldlM_map]
  congr 1
  funext m'
  rw [List.foldlM_map]

/-- Masked stores of 8- and 16-bit types on AVX and AVX2. -/
theorem maskStoreAvxSmall_spec (hw : 8 ∣ w) (h0 : 0 < w) (l : Reg (n + n) w) (hl : Canonical l)
    (m : Mem (BitVec w)) (p : Int) (v : Reg (n + n) w) :
    WritesAt (bitElem w) (truth l) (fun i => p + (i : Nat)) m v (maskStoreAvxSmall l m p v) := by
  refine writesAt_congr ?_ (writesAt_stores (bitElem w) (truth l) (fun i => p + (i : Nat)) m v)
  rw [stores_halves]
  unfold maskStoreAvxSmall
  rw [maskmoveu_eq hw h0 (lower l) (fun i => hl _)]
  congr 1
  funext m'
  rw [maskmoveu_eq hw h0 (upper l) (fun i => hl _)]
  congr 1
  funext i
  have : p + (((n + n) / 2 : Nat) : Int) + (i : Nat) = p + ((n + i.val : Nat) : Int) := by
    have : (n + n) / 2 = n := by omega
    rw [this]; push_cast; ring
  rw [this]
  rfl

/-! ### Scatter -/

/-- Scatter and masked scatter by the loops over local buffers: SSE, AVX, AVX2, the 8- and 16-bit
types of AVX-512 (`condMask`), with f16 as the instance `e = f16Elem`. -/
theorem scatterBuf_spec (hn : n ≤ 64) (e : Elem M α) (l : Reg n w) (k : BitVec n) (m : Mem M)
    (p : Int) (off : Reg n w) (v : Vec n α) :
    WritesAt e (fun _ => true) (fun i => p + (off i).toInt) m v (scatterBuf e m p off v) ∧
    WritesAt e (truth l) (fun i => p + (off i).toInt) m v (maskScatterBuf e (condBuf l) m p off v) ∧
    WritesAt e (fun i => k.getLsbD i) (fun i => p + (off i).toInt) m v
      (maskScatterBuf e (condMask k) m p off v) := by
  refine ⟨?_, writesAt_stores e (truth l) _ m v, ?_⟩
  · have := writesAt_stores e (fun _ => true) (fun i => p + (off i).toInt) m v
    simpa [scatterBuf] using this
  · rw [show condMask k = fun i : Fin n => k.getLsbD i from funext (condMask_eq hn k)]
    exact writesAt_stores e _ _ m v

/-- Scatter and masked scatter of f16. -/
theorem scatterF16_spec (e : Elem M α) (l0 l1 : Reg n 32) (k0 k1 : BitVec n) (m : Mem M)
    (p : Int) (off : Reg (n + n) 16) (v0 v1 : Vec n α) :
    WritesAt e (fun _ => true) (fun i => p + (off i).toInt) m (cat v0 v1)
      (scatterBuf e m p off (cat v0 v1)) ∧
    WritesAt e (cat (truth l0) (truth l1)) (fun i => p + (off i).toInt) m (cat v0 v1)
      (maskScatterF16 e l0 l1 m p off v0 v1) ∧
    WritesAt e (cat (fun i => k0.getLsbD i) (fun i => k1.getLsbD i)) (fun i => p + (off i).toInt) m
      (cat v0 v1) (maskScatterF16_512 e k0 k1 m p off v0 v1) := by
  refine ⟨?_, writesAt_stores e _ _ m _, ?_⟩
  · have := writesAt_stores e (fun _ => true) (fun i => p + (off i).toInt) m (cat v0 v1)
    simpa [scatterBuf] using this
  · unfold maskScatterF16_512
    rw [show condF512 k0 = fun i : Fin n => k0.getLsbD i from funext (condF512_eq k0),
      show condF512 k1 = fun i : Fin n => k1.getLsbD i from funext (condF512_eq k1)]
    exact writesAt_stores e _ _ m _

/-- Masked scatter with the AVX-512 instructions. -/
theorem scatter512_spec (k : BitVec n) (m : Mem (BitVec w)) (p : Int) (off v : Reg n w) :
    WritesAt (bitElem w) (fun i => k.getLsbD i) (fun i => p + (off i).toInt) m v
      (maskScatter512i k m p off v) :=
  writesAt_stores (bitElem w) (fun i : Fin n => k.getLsbD i) _ m v

/-- The products `i * step` of the linear forms fit an `int`; their overflow is undefined.
Specification, not code of the repo. -/
def LinearOk (n : Nat) (step : Int) : Prop :=
  ∀ i : Nat, i < n → -2 ^ 31 ≤ (i : Int) * step ∧ (i : Int) * step < 2 ^ 31

theorem scatterLinearBuf_eq (e : Elem M α) (m : Mem M) (p step : Int) (v : Vec n α)
    (hs : LinearOk n step) :
    scatterLinearBuf e m p step v = Cpu.stores (List.finRange n)
      (fun i => if true then some (p + (i : Nat) * step, e.enc (v i)) else none) m := by
  have hb : (Cpu.body fun i : Fin n => ITy.i32.prom ((i : Nat) * step)) =
      some fun i : Fin n => ((i : Nat) : Int) * step := by
    rw [Cpu.body_eq_some]
    intro i
    exact Arm.prom32 (hs i i.isLt).1 (hs i i.isLt).2
  unfold scatterLinearBuf
  rw [hb]
  simp

/-- `scatter_linear` through a local buffer. -/
theorem scatterLinearBuf_spec (e : Elem M α) (m : Mem M) (p step : Int) (v : Vec n α)
    (hs : LinearOk n step) :
    WritesAt e (fun _ => true) (fun i => p + (i : Nat) * step) m v (scatterLinearBuf e m p step v) := by
  rw [scatterLinearBuf_eq e m p step v hs]
  exact writesAt_stores e (fun _ => true) (fun i => p + (i : Nat) * step) m v

/-- `scatter_linear` on AVX-512, for any AVX2 operator that performs the stores of its half in
order. -/
theorem scatterLinear512_spec (e : Elem M α) (op : Mem M → Int → Int → Vec n α → Option (Mem M))
    (m : Mem M) (p step : Int) (v : Vec (n + n) α) (h0 : 0 < n) (hs : LinearOk (n + n) step)
    (hop : ∀ m p v, op m p step v = Cpu.stores (List.finRange n)
      (fun i => if true then some (p + (i : Nat) * step, e.enc (v i)) else none) m) :
    WritesAt e (fun _ => true) (fun i => p + (i : Nat) * step) m v (scatterLinear512 op m p step v) := by
  refine writesAt_congr ?_ (writesAt_stores e (fun _ => true) (fun i => p + (i : Nat) * step) m v)
  rw [stores_halves]
  unfold scatterLinear512
  rw [hop]
  congr 1
  funext m'
  have h2 : (n + n) / 2 = n := by omega
  rw [h2, Arm.prom32 (hs n (by omega)).1 (hs n (by omega)).2, Option.bind_some, hop]
  congr 1
  funext i
  have : p + (n : Int) * step + (i : Nat) * step = p + ((n + i.val : Nat) : Int) * step := by
    push_cast; ring
  rw [this]
  rfl

theorem foldlM_range {β : Type} (f : β → Nat → Option β) (n : Nat) (b : β) :
    (List.range n).foldlM f b = (List.finRange n).foldlM (fun b (i : Fin n) => f b i.val) b := by
  have : List.range n = (List.finRange n).map (fun i => i.val) := by
    apply List.ext_getElem <;> simp
  rw [this, List.foldlM_map]

theorem scatterLinearTrick_eq (x : Ext) (t : ITy) (m : Mem (BitVec t.w)) (p step : Int)
    (v : BitVec x.bits) (hs : LinearOk (x.le t) step) :
    scatterLinearTrick x t m p step v = Cpu.stores (List.finRange (x.le t))
      (fun i => if true then some (p + (i : Nat) * step, (bitElem t.w).enc (lane t.w v i)) else none)
      m := by
  unfold scatterLinearTrick Cpu.stores
  rw [foldlM_range]
  congr 1
  funext m' i
  rw [Arm.prom32 (hs i i.isLt).1 (hs i i.isLt).2, Option.bind_some,
    X86Lane.getLane_spec x t v i i.isLt]
  rfl

/-- `scatter_linear` with one `get_lane` per lane. -/
theorem scatterLinearTrick_spec (x : Ext) (t : ITy) (m : Mem (BitVec t.w)) (p step : Int)
    (v : BitVec x.bits) (hs : LinearOk (x.le t) step) :
    WritesAt (bitElem t.w) (fun _ => true) (fun i => p + (i : Nat) * step) m
      (fun i : Fin (x.le t) => lane t.w v i) (scatterLinearTrick x t m p step v) := by
  rw [scatterLinearTrick_eq x t m p step v hs]
  exact writesAt_stores (bitElem t.w) (fun _ => true) (fun i => p + (i : Nat) * step) m _

/-! ### Gather -/

/-- Gather and masked gather through local buffers. -/
theorem gatherBuf_spec (hn : n ≤ 64) (e : Elem M α) (l : Reg n w) (k : BitVec n) (m : Mem M)
    (p : Int) (off : Reg n w) (o : Vec n α) :
    ReadsAt e (fun _ => true) (fun i => p + (off i).toInt) m o (gatherBuf e m p off) ∧
    ReadsAt e (truth l) (fun i => p + (off i).toInt) m o (maskozGatherBuf e (condBuf l) m p off o) ∧
    ReadsAt e (fun i => k.getLsbD i) (fun i => p + (off i).toInt) m o
      (maskozGatherBuf e (condMask k) m p off o) := by
  refine ⟨?_, readsAt_body e (truth l) _ m o, ?_⟩
  · have := readsAt_body e (fun _ => true) (fun i => p + (off i).toInt) m o
    simpa [gatherBuf] using this
  · rw [show condMask k = fun i : Fin n => k.getLsbD i from funext (condMask_eq hn k)]
    exact readsAt_body e _ _ m o

/-- Masked gathers of f16. -/
theorem maskozGatherF16_spec (e : Elem M α) (l0 l1 : Reg n 32) (k0 k1 : BitVec n) (m : Mem M)
    (p : Int) (off : Reg (n + n) 16) (o0 o1 : Vec n α) (v0 v1 : Vec n α) :
    (maskozGatherF16 e l0 l1 m p off o0 o1 = some (v0, v1) ↔
      ∀ i : Fin (n + n), if cat (truth l0) (truth l1) i then
        ∃ y, m (p + (off i).toInt) = some y ∧ e.dec y = some (cat v0 v1 i)
        else cat v0 v1 i = cat o0 o1 i) ∧
    (maskozGatherF16_512 e k0 k1 m p off o0 o1 = some (v0, v1) ↔
      ∀ i : Fin (n + n), if cat (fun i : Fin n => k0.getLsbD i) (fun i : Fin n => k1.getLsbD i) i then
        ∃ y, m (p + (off i).toInt) = some y ∧ e.dec y = some (cat v0 v1 i)
        else cat v0 v1 i = cat o0 o1 i) := by
  have hr : ∀ (res : Option (Vec (n + n) α)),
      res.map halves = some (v0, v1) ↔ res = some (cat v0 v1) := by
    intro res
    rw [Option.map_eq_some_iff]
    constructor
    · rintro ⟨a, ha, hh⟩; rw [halves_eq_iff] at hh; rw [ha, hh]
    · intro ha; exact ⟨_, ha, halves_eq_iff.mpr rfl⟩
  refine ⟨?_, ?_⟩
  · unfold maskozGatherF16
    rw [hr]
    exact readsAt_body e _ (fun i => p + (off i).toInt) m (cat o0 o1) _
  · unfold maskozGatherF16_512
    rw [hr, show condF512 k0 = fun i : Fin n => k0.getLsbD i from funext (condF512_eq k0),
      show condF512 k1 = fun i : Fin n => k1.getLsbD i from funext (condF512_eq k1)]
    exact readsAt_body e _ (fun i => p + (off i).toInt) m (cat o0 o1) _

/-- Gather and masked gather with the AVX2 and AVX-512 instructions. -/
theorem gatherSimd_spec (h0 : 0 < w) (l : Reg n w) (hl : Canonical l) (k : BitVec n)
    (m : Mem (BitVec w)) (p : Int) (off o : Reg n w) :
    ReadsAt (bitElem w) (fun _ => true) (fun i => p + (off i).toInt) m o (gatherI m p off) ∧
    ReadsAt (bitElem w) (truth l) (fun i => p + (off i).toInt) m o (maskGather256i o m p off l) ∧
    ReadsAt (bitElem w) (fun i => k.getLsbD i) (fun i => p + (off i).toInt) m o
      (maskGather512i o k m p off) := by
  refine ⟨?_, ?_, ?_⟩
  · have := readsAt_body (bitElem w) (fun _ => true) (fun i => p + (off i).toInt) m o
    simpa [gatherI, bitElem] using this
  · have := readsAt_body (bitElem w) (truth l) (fun i => p + (off i).toInt) m o
    unfold maskGather256i
    simp only [canonical_msb h0 hl]
    simpa [bitElem] using this
  · have := readsAt_body (bitElem w) (fun i : Fin n => k.getLsbD i) (fun i => p + (off i).toInt) m o
    simpa [maskGather512i, bitElem] using this

/-- `gather_linear` through a local buffer. -/
theorem gatherLinearBuf_spec (e : Elem M α) (m : Mem M) (p step : Int) (o : Vec n α)
    (hs : LinearOk n step) :
    ReadsAt e (fun _ => true) (fun i => p + (i : Nat) * step) m o (gatherLinearBuf e n m p step) := by
  have := readsAt_body e (fun _ : Fin n => true) (fun i => p + (i : Nat) * step) m o
  have he : gatherLinearBuf e n m p step = Cpu.body fun i : Fin n =>
      if true then (m (p + (i : Nat) * step)).bind e.dec else some (o i) := by
    unfold gatherLinearBuf
    congr 1
    funext i
    rw [Arm.prom32 (hs i i.isLt).1 (hs i i.isLt).2]
    rfl
  rw [he]
  exact this

/-- `gather_linear` on AVX-512, for any AVX2 operator that satisfies its specification. -/
theorem gatherLinear512_spec (e : Elem M α) (op : Mem M → Int → Int → Option (Vec n α))
    (m : Mem M) (p step : Int) (o : Vec (n + n) α) (o' : Vec n α) (h0 : 0 < n)
    (hs : LinearOk (n + n) step)
    (hop : ∀ p, ReadsAt e (fun _ => true) (fun i => p + (i : Nat) * step) m o' (op m p step)) :
    ReadsAt e (fun _ => true) (fun i => p + (i : Nat) * step) m o (gatherLinear512 op m p step) := by
  intro v
  unfold gatherLinear512
  have h2 : (n + n) / 2 = n := by omega
  rw [h2, Arm.prom32 (hs n (by omega)).1 (hs n (by omega)).2]
  simp only [Option.bind_some, Option.bind_eq_some_iff, Option.map_eq_some_iff, if_true]
  have hidx : ∀ i : Fin n, p + (n : Int) * step + (i : Nat) * step =
      p + ((n + i.val : Nat) : Int) * step := fun i => by push_cast; ring
  rw [forall_halves]
  constructor
  · rintro ⟨lo, hlo, hi, hhi, rfl⟩
    have h1 := (hop p lo).mp hlo
    have h2 := (hop _ hi).mp hhi
    refine ⟨fun i => ?_, fun i => ?_⟩
    · rw [cat_lo]; exact h1 i
    · rw [cat_hi]
      have := h2 i
      rw [if_pos rfl] at this
      simp only [hidx] at this
      exact this
  · rintro ⟨h1, h2⟩
    refine ⟨(halves v).1, (hop p _).mpr fun i => h1 i, (halves v).2, (hop _ _).mpr fun i => ?_,
      (halves_eq_iff.mp rfl).symm⟩
    rw [if_pos rfl]
    simp only [hidx]
    exact h2 i

/-- `gather_linear` with one `set_lane` per lane from an undefined register. -/
theorem gatherLinearTrick_spec (x : Ext) (t : ITy) (undef : BitVec x.bits) (m : Mem (BitVec t.w))
    (p step : Int) (hs : LinearOk (x.le t) step) (r : BitVec x.bits) :
    gatherLinearTrick x t undef m p step = some r ↔
      ∀ i, i < x.le t → m (p + (i : Nat) * step) = some (lane t.w r i) := by
  unfold gatherLinearTrick
  rw [X86Lane.fill_spec x t (fun i => (ITy.i32.prom ((i : Int) * step)).bind fun k => m (p + k)) _
    (Nat.le_refl _)]
  constructor
  · rintro ⟨h, -⟩ i hi
    have := h i hi
    rw [Arm.prom32 (hs i hi).1 (hs i hi).2] at this
    exact this
  · intro h
    refine ⟨fun i hi => ?_, fun i h1 h2 => absurd h2 (by omega)⟩
    rw [Arm.prom32 (hs i hi).1 (hs i hi).2]
    exact h i hi

/-- The register with given lanes.
Specification, not code of the repo. -/
def regOf (x : Ext) (t : ITy) (v : Fin (x.le t) → BitVec t.w) : BitVec x.bits :=
  BitVec.ofFnLE fun k => if h : k.val / t.w < x.le t then (v ⟨k / t.w, h⟩).getLsbD (k % t.w) else false

theorem lane_regOf (x : Ext) (t : ITy) (v : Fin (x.le t) → BitVec t.w) (i : Fin (x.le t)) :
    lane t.w (regOf x t v) i = v i := by
  have hbits : t.w * x.le t = x.bits := by cases x <;> cases t <;> rfl
  have hw : 0 < t.w := by cases t <;> decide
  apply BitVec.eq_of_getLsbD_eq
  intro k hk
  rw [getLsbD_lane _ _ _ hk]
  have h1 : t.w * i.val + k < x.bits := by
    rw [← hbits]
    calc t.w * i.val + k < t.w * i.val + t.w := by omega
      _ = t.w * (i.val + 1) := by ring
      _ ≤ t.w * x.le t := Nat.mul_le_mul_left _ i.isLt
  have h2 : (t.w * i.val + k) / t.w = i.val := by
    rw [Nat.mul_add_div hw, Nat.div_eq_of_lt hk, Nat.add_zero]
  have h3 : (t.w * i.val + k) % t.w = k := by
    rw [Nat.mul_add_mod, Nat.mod_eq_of_lt hk]
  unfold regOf
  rw [BitVec.getLsbD_ofFnLE, dif_pos h1]
  simp only [h2, h3, i.isLt, dif_pos]

theorem LinearOk.half {n : Nat} {step : Int} (h : LinearOk (n + n) step) : LinearOk n step :=
  fun i hi => h i (by omega)

/-- The linear forms of AVX-512 built on the lane-by-lane forms of AVX2. -/
theorem linear512_spec (t : ITy) (m : Mem (BitVec t.w)) (p step : Int)
    (v o : Vec (Ext.avx2.le t + Ext.avx2.le t) (BitVec t.w)) (undef : BitVec 256)
    (hs : LinearOk (Ext.avx2.le t + Ext.avx2.le t) step) :
    WritesAt (bitElem t.w) (fun _ => true) (fun i => p + (i : Nat) * step) m v
      (scatterLinear512 (fun m p s v => scatterLinearTrick .avx2 t m p s (regOf .avx2 t v)) m p step
        v) ∧
    ReadsAt (bitElem t.w) (fun _ => true) (fun i => p + (i : Nat) * step) m o
      (gatherLinear512 (fun m p s => (gatherLinearTrick .avx2 t undef m p s).map
        fun r (i : Fin (Ext.avx2.le t)) => lane t.w r i) m p step) := by
  have h0 : 0 < Ext.avx2.le t := by cases t <;> decide
  refine ⟨scatterLinear512_spec (bitElem t.w) _ m p step v h0 hs fun m p v => ?_,
    gatherLinear512_spec (bitElem t.w) _ m p step o (fun _ => 0#t.w) h0 hs fun p v => ?_⟩
  · rw [scatterLinearTrick_eq .avx2 t m p step _ hs.half]
    simp only [lane_regOf]
  · rw [Option.map_eq_some_iff]
    simp only [if_true]
    constructor
    · rintro ⟨r, hr, rfl⟩ i
      rw [gatherLinearTrick_spec .avx2 t undef m p step hs.half] at hr
      exact ⟨_, hr i i.isLt, rfl⟩
    · intro h
      refine ⟨regOf .avx2 t v, ?_, funext fun i => lane_regOf .avx2 t v i⟩
      rw [gatherLinearTrick_spec .avx2 t undef m p step hs.half]
      intro i hi
      obtain ⟨y, hy, hv⟩ := h ⟨i, hi⟩
      have := lane_regOf .avx2 t v ⟨i, hi⟩
      rw [this, hy]
      exact hv

/-! ### f16 loads and stores -/

/-- `load` of f16: element `i` of memory converted goes to lane `i`, with and without F16C. -/
theorem loadF16_spec (e : Elem (BitVec 16) α) (m : Mem (BitVec 16)) (p : Int) (v0 v1 : Vec 4 α)
    (w0 w1 : Vec n α) :
    (loadF16Sse e m p = some (v0, v1) ↔
      (∀ i : Fin 8, ∃ y, m (p + (i : Nat)) = some y ∧ e.dec y = some (cat v0 v1 i))) ∧
    (loadF16SseSoft e m p = some (v0, v1) ↔
      (∀ i : Fin 8, ∃ y, m (p + (i : Nat)) = some y ∧ e.dec y = some (cat v0 v1 i))) ∧
    (loadF16Wide e n m p = some (w0, w1) ↔
      (∀ i : Fin (n + n), ∃ y, m (p + (i : Nat)) = some y ∧ e.dec y = some (cat w0 w1 i))) := by
  have hwide : ∀ {n : Nat} (q : Int) (w0 w1 : Vec n α), q = p + n →
      (((Cpu.body fun i : Fin n => (m (p + (i : Nat))).bind e.dec).bind fun v0 =>
        (Cpu.body fun i : Fin n => (m (q + (i : Nat))).bind e.dec).map fun v1 => (v0, v1)) =
        some (w0, w1) ↔
      (∀ i : Fin (n + n), ∃ y, m (p + (i : Nat)) = some y ∧ e.dec y = some (cat w0 w1 i))) := by
    rintro n q w0 w1 rfl
    rw [forall_halves]
    simp only [Option.bind_eq_some_iff, Option.map_eq_some_iff, Cpu.body_eq_some, Prod.mk.injEq,
      cat_lo, cat_hi]
    have hidx : ∀ i : Fin n, p + (n : Int) + (i : Nat) = p + ((n + i.val : Nat) : Int) :=
      fun i => by push_cast; ring
    simp only [hidx]
    constructor
    · rintro ⟨a, ha, b, hb, rfl, rfl⟩; exact ⟨ha, hb⟩
    · rintro ⟨ha, hb⟩; exact ⟨w0, ha, w1, hb, rfl, rfl⟩
  refine ⟨?_, hwide (p + 4) v0 v1 rfl, hwide (p + n) w0 w1 rfl⟩
  rw [show (∀ i : Fin 8, ∃ y, m (p + (i : Nat)) = some y ∧ e.dec y = some (cat v0 v1 i)) ↔
    ∀ i : Fin (4 + 4), ∃ y, m (p + (i : Nat)) = some y ∧ e.dec y = some (cat v0 v1 i) from Iff.rfl]
  unfold loadF16Sse
  rw [forall_halves]
  simp only [Option.bind_eq_some_iff, Option.map_eq_some_iff, Cpu.body_eq_some, Prod.mk.injEq,
    cat_lo, cat_hi]
  have hsh : ∀ (v : Reg 8 16) (i : Fin 4), shuffleEpi32 14 v ⟨i, by omega⟩ = v ⟨4 + i, by omega⟩ := by
    intro v i
    unfold shuffleEpi32
    congr 1
    revert i
    decide
  simp only [hsh]
  constructor
  · rintro ⟨v, hv, a, ha, b, hb, rfl, rfl⟩
    exact ⟨fun i => ⟨_, hv ⟨i, by omega⟩, ha i⟩, fun i => ⟨_, hv ⟨4 + i, by omega⟩, hb i⟩⟩
  · rintro ⟨ha, hb⟩
    have hall : ∀ i : Fin (4 + 4), ∃ y, m (p + (i : Nat)) = some y := by
      rw [forall_halves]
      exact ⟨fun i => (ha i).imp fun _ h => h.1, fun i => (hb i).imp fun _ h => h.1⟩
    choose v hv using hall
    refine ⟨v, hv, v0, fun i => ?_, v1, fun i => ?_, rfl, rfl⟩
    · obtain ⟨y, h1, h2⟩ := ha i
      rw [hv ⟨i, by omega⟩] at h1
      cases h1; exact h2
    · obtain ⟨y, h1, h2⟩ := hb i
      rw [hv ⟨4 + i, by omega⟩] at h1
      cases h1; exact h2

/-- `store` of f16: lane `i` converted goes to element `i`; nothing else changes. -/
theorem storeF16_spec (e : Elem (BitVec 16) α) (m : Mem (BitVec 16)) (p : Int) (v : Vec 4 α × Vec 4 α)
    (u : Vec n α × Vec n α) :
    WritesAt e (fun _ => true) (fun i => p + (i : Nat)) m (cat v.1 v.2) (storeF16Sse e m p v) ∧
    WritesAt e (fun _ => true) (fun i => p + (i : Nat)) m (cat u.1 u.2) (storeF16Wide e m p u) := by
  refine ⟨?_, ?_⟩
  · refine writesAt_congr ?_
      (writesAt_stores e (fun _ => true) (fun i => p + (i : Nat)) m (cat v.1 v.2))
    unfold storeF16Sse
    congr 1
  · refine writesAt_congr ?_
      (writesAt_stores e (fun _ => true) (fun i => p + (i : Nat)) m (cat u.1 u.2))
    rw [stores_halves]
    unfold storeF16Wide
    simp only [cat_lo, cat_hi, if_true]
    congr 1
    funext m'
    congr 1
    funext i
    rw [show p + (n : Int) + (i : Nat) = p + ((n + i.val : Nat) : Int) by push_cast; ring]

/-! ### The hypotheses are met -/

/-- A memory with elements 0, ..., 3 mapped and holding 10, 11, 12, 13.
Specification, not code of the repo. -/
def mem4 : Mem (BitVec 32) := fun a => if 0 ≤ a ∧ a < 4 then some (BitVec.ofInt 32 (10 + a)) else none

/-- Lanes 0 and 3 enabled. -/
example : Canonical (![BitVec.allOnes 32, 0#32, 0#32, BitVec.allOnes 32] : Reg 4 32) := by
  intro i; fin_cases i <;> simp

/-- Reading at 0: lanes 1 and 2 keep the lanes of `o`; reading at 3 faults only because lane 3 is
enabled, and does not fault with lane 0 alone. -/
example :
    maskoLoadAvx (![BitVec.allOnes 32, 0#32, 0#32, BitVec.allOnes 32] : Reg 4 32) mem4 0
      (fun _ => 7#32) = some ![10#32, 7#32, 7#32, 13#32] ∧
    maskoLoadAvx (![BitVec.allOnes 32, 0#32, 0#32, BitVec.allOnes 32] : Reg 4 32) mem4 3
      (fun _ => 7#32) = none ∧
    maskoLoadAvx (![BitVec.allOnes 32, 0#32, 0#32, 0#32] : Reg 4 32) mem4 3
      (fun _ => 7#32) = some ![13#32, 7#32, 7#32, 7#32] := by
  have hc : ∀ a b : Bool, Canonical (![BitVec.allOnes 32, 0#32, 0#32,
      if a then BitVec.allOnes 32 else 0#32] : Reg 4 32) := by
    intro a b i; fin_cases i <;> cases a <;> simp
  refine ⟨?_, ?_, ?_⟩
  · refine (((maskozLoadAvx_spec (by decide) (by decide) _ (hc true true) mem4 0 _).2.1) _).mpr ?_
    intro i; fin_cases i <;> simp [truth, mem4, bitElem]
  · cases h : maskoLoadAvx (![BitVec.allOnes 32, 0#32, 0#32, BitVec.allOnes 32] : Reg 4 32) mem4 3
      (fun _ => 7#32) with
    | none => rfl
    | some v =>
      have := (((maskozLoadAvx_spec (by decide) (by decide) _ (hc true true) mem4 3 _).2.1) _).mp h 3
      simp [truth, mem4] at this
  · refine (((maskozLoadAvx_spec (by decide) (by decide) _ (hc false true) mem4 3 _).2.1) _).mpr ?_
    intro i; fin_cases i <;> simp [truth, mem4, bitElem]

/-- Steps for which the products fit, and one for which they do not. -/
example : LinearOk 8 (-3) ∧ LinearOk 8 1000000 ∧ ¬ LinearOk 8 (2 ^ 30) := by
  refine ⟨fun i hi => by omega, fun i hi => by omega, fun h => ?_⟩
  have := (h 7 (by decide)).2
  omega

/-- Scatter with two lanes at the same address: the higher lane wins; the mask of lane 1 is off. -/
example : ∃ m', maskScatter512i (n := 4) 0b1101#4 mem4 0 ![2#32, 9#32, 2#32, 0#32]
      ![1#32, 2#32, 3#32, 4#32] = some m' ∧ m' 2 = some 3#32 ∧ m' 0 = some 4#32 ∧ m' 1 = some 11#32 := by
  have h := scatter512_spec (0b1101#4) mem4 0 ![2#32, 9#32, 2#32, 0#32] ![1#32, 2#32, 3#32, 4#32]
  have hs : (maskScatter512i (n := 4) 0b1101#4 mem4 0 ![2#32, 9#32, 2#32, 0#32]
      ![1#32, 2#32, 3#32, 4#32]).isSome := by
    rw [h.1]; decide
  obtain ⟨m', hm'⟩ := Option.isSome_iff_exists.mp hs
  obtain ⟨hw, hf⟩ := h.2 m' hm'
  refine ⟨m', hm', ?_, ?_, ?_⟩
  · exact hw 2 (by decide) (by decide)
  · exact hw 3 (by decide) (by decide)
  · rw [hf 1 (by decide)]; rfl

end Nsimd.Props.X86Mem
