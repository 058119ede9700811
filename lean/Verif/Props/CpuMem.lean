import Verif.Lemmas.Cpu
import Verif.Props.Fp16Order
import Mathlib.Data.Fin.VecNotation
import Mathlib.Tactic.FinCases

/-!
# C16, C17, C19, C22: memory operators of the CPU backend

All statements hold for every lane count `n`, every memory and every address.
-/

namespace Nsimd.Props.Cpu
open Nsimd.Cpu Nsimd.Fp16 Nsimd.Props.Fp16

variable {n : Nat} {M α : Type}

/-- The conversions around memory accesses lose nothing: every type but `f16`.
Specification, not code of the repo. -/
structure Exact (e : Elem M α) : Prop where
  dec_enc : ∀ x, e.dec (e.enc x) = some x
  enc_dec : ∀ y x, e.dec y = some x → e.enc x = y

theorem exact_int (t : ITy) : Exact (intElem t) :=
  ⟨fun _ => rfl, fun _ _ h => (Option.some_inj.mp h).symm⟩
theorem exact_f32 : Exact f32Elem := ⟨fun _ => rfl, fun _ _ h => (Option.some_inj.mp h).symm⟩
theorem exact_f64 : Exact f64Elem := ⟨fun _ => rfl, fun _ _ h => (Option.some_inj.mp h).symm⟩

/-! ## C16: load and store -/

/-- A store is defined exactly when its `n` addresses are mapped. -/
theorem store_defined (e : Elem M α) (m : Mem M) (p : Int) (v : Vec n α) :
    (store e m p v).isSome ↔ ∀ k : Int, 0 ≤ k → k < n → (m (p + k)).isSome := by
  unfold store
  rw [stores_isSome]
  constructor
  · intro h k h0 h1
    have := h ⟨k.toNat, by omega⟩ (List.mem_finRange _) _ _ rfl
    simpa [Int.toNat_of_nonneg h0] using this
  · intro h i _ a u hu
    cases hu
    exact h _ (by omega) (by omega)

/-- A store writes lane `k` at `p + k` and changes nothing else. -/
theorem store_writes (e : Elem M α) (m m' : Mem M) (p : Int) (v : Vec n α)
    (h : store e m p v = some m') :
    (∀ i : Fin n, m' (p + (i : Nat)) = some (e.enc (v i))) ∧
    ∀ a, ¬ (p ≤ a ∧ a < p + n) → m' a = m a := by
  unfold store at h
  constructor
  · intro i
    refine stores_last (finRange_lt n) h (List.mem_finRange i) rfl ?_
    intro y _ hy u hu
    have h1 := (Option.some_inj.mp hu)
    have h2 := congrArg Prod.fst h1
    simp only at h2
    have : (i : Nat) < y := hy
    omega
  · intro a ha
    refine stores_frame h ?_
    intro y _ u hu
    have h2 := congrArg Prod.fst (Option.some_inj.mp hu)
    simp only at h2
    omega

/-- A load returns the (decoded) memory contents in order; it is defined when the
`n` addresses are mapped. -/
theorem load_reads (e : Elem M α) (m : Mem M) (p : Int) (v : Vec n α) :
    load e n m p = some v ↔ ∀ i : Fin n, ∃ y, m (p + (i : Nat)) = some y ∧ e.dec y = some (v i) := by
  unfold load
  rw [body_eq_some]
  simp only [Option.bind_eq_some_iff]

/-- Load then store elsewhere (overlapping or not) copies `n` elements and
changes nothing else. Every type but `f16`. -/
theorem load_store_copies {e : Elem M α} (he : Exact e) (m : Mem M) (p q : Int)
    (hp : ∀ k : Int, 0 ≤ k → k < n → (m (p + k)).isSome)
    (hq : ∀ k : Int, 0 ≤ k → k < n → (m (q + k)).isSome)
    (hdec : ∀ y, (e.dec y).isSome) :
    ∃ v m', load e n m p = some v ∧ store e m q v = some m' ∧
      (∀ k : Int, 0 ≤ k → k < n → m' (q + k) = m (p + k)) ∧
      ∀ a, ¬ (q ≤ a ∧ a < q + n) → m' a = m a := by
  have hs : (load e n m p).isSome := by
    unfold load
    rw [body_isSome]
    intro i
    have := hp (i : Nat) (by omega) (by omega)
    obtain ⟨y, hy⟩ := Option.isSome_iff_exists.mp this
    rw [hy]; exact hdec y
  obtain ⟨v, hv⟩ := Option.isSome_iff_exists.mp hs
  obtain ⟨m', hm'⟩ := Option.isSome_iff_exists.mp ((store_defined e m q v).mpr hq)
  refine ⟨v, m', hv, hm', ?_, (store_writes e m m' q v hm').2⟩
  intro k h0 h1
  have hw := (store_writes e m m' q v hm').1 ⟨k.toNat, by omega⟩
  obtain ⟨y, hy, hd⟩ := (load_reads e m p v).mp hv ⟨k.toNat, by omega⟩
  simp only [Int.toNat_of_nonneg h0] at hw hy
  rw [hw, hy, he.enc_dec _ _ hd]

/-- The same for `f16`: elements are copied, except that NaNs are replaced by the
NaN `0xffff`. -/
theorem load_store_copies_f16 (m : Mem (BitVec 16)) (p q : Int)
    (hp : ∀ k : Int, 0 ≤ k → k < n → (m (p + k)).isSome)
    (hq : ∀ k : Int, 0 ≤ k → k < n → (m (q + k)).isSome) :
    ∃ v m', load f16Elem n m p = some v ∧ store f16Elem m q v = some m' ∧
      (∀ k : Int, 0 ≤ k → k < n → ∀ y, m (p + k) = some y →
        (¬ NaN16 y → m' (q + k) = some y) ∧ (NaN16 y → m' (q + k) = some 0xffff#16)) ∧
      ∀ a, ¬ (q ≤ a ∧ a < q + n) → m' a = m a := by
  have hs : (load f16Elem n m p).isSome := by
    unfold load
    rw [body_isSome]
    intro i
    have := hp (i : Nat) (by omega) (by omega)
    obtain ⟨y, hy⟩ := Option.isSome_iff_exists.mp this
    obtain ⟨r, hr, -⟩ := f16_roundtrip y
    rw [hy]; show (u16ToF32 y).isSome; rw [hr]; rfl
  obtain ⟨v, hv⟩ := Option.isSome_iff_exists.mp hs
  obtain ⟨m', hm'⟩ := Option.isSome_iff_exists.mp ((store_defined f16Elem m q v).mpr hq)
  refine ⟨v, m', hv, hm', ?_, (store_writes f16Elem m m' q v hm').2⟩
  intro k h0 h1 y hky
  have hw := (store_writes f16Elem m m' q v hm').1 ⟨k.toNat, by omega⟩
  obtain ⟨y', hy, hd⟩ := (load_reads f16Elem m p v).mp hv ⟨k.toNat, by omega⟩
  simp only [Int.toNat_of_nonneg h0] at hw hy
  rw [hky] at hy; cases hy
  obtain ⟨r, hr, h2, h3⟩ := f16_roundtrip y
  have : r = v ⟨k.toNat, by omega⟩ := by
    change u16ToF32 y = _ at hd
    rw [hr] at hd; exact Option.some_inj.mp hd
  subst this
  rw [hw]
  exact ⟨fun h => congrArg some (h2 h), fun h => congrArg some (h3 h)⟩

/-- Store then load returns the vector. Every type but `f16`. -/
theorem store_load_id {e : Elem M α} (he : Exact e) (m m' : Mem M) (p : Int) (v : Vec n α)
    (h : store e m p v = some m') : load e n m' p = some v := by
  rw [load_reads]
  intro i
  exact ⟨_, (store_writes e m m' p v h).1 i, he.dec_enc _⟩

/-- Store then load of an `f16` vector rounds every lane to half precision: what is
loaded is the decoding of the rounded lane, and storing it again writes the same
memory. -/
theorem store_load_f16 (m m' : Mem (BitVec 16)) (p : Int) (v : Vec n (BitVec 32))
    (h : store f16Elem m p v = some m') :
    ∃ w, load f16Elem n m' p = some w ∧
      (∀ i, u16ToF32 (f32ToU16 (v i)) = some (w i)) ∧ store f16Elem m' p w = some m' := by
  have hw := store_writes f16Elem m m' p v h
  have hs : (load f16Elem n m' p).isSome := by
    unfold load
    rw [body_isSome]
    intro i
    rw [hw.1 i]
    obtain ⟨r, hr, -⟩ := f16_roundtrip (f16Elem.enc (v i))
    show (u16ToF32 _).isSome
    rw [hr]; rfl
  obtain ⟨w, hw'⟩ := Option.isSome_iff_exists.mp hs
  have hd : ∀ i, u16ToF32 (f32ToU16 (v i)) = some (w i) := by
    intro i
    obtain ⟨y, hy, hd⟩ := (load_reads f16Elem m' p w).mp hw' i
    rw [hw.1 i] at hy; cases hy; exact hd
  refine ⟨w, hw', hd, ?_⟩
  have hmap : ∀ k : Int, 0 ≤ k → k < n → (m' (p + k)).isSome := by
    intro k h0 h1
    have := hw.1 ⟨k.toNat, by omega⟩
    simp only [Int.toNat_of_nonneg h0] at this
    rw [this]; rfl
  obtain ⟨m'', hm''⟩ := Option.isSome_iff_exists.mp ((store_defined f16Elem m' p w).mpr hmap)
  rw [hm'']
  congr 1
  have hw2 := store_writes f16Elem m' m'' p w hm''
  funext a
  by_cases ha : p ≤ a ∧ a < p + n
  · have h1 := hw2.1 ⟨(a - p).toNat, by omega⟩
    have h2 := hw.1 ⟨(a - p).toNat, by omega⟩
    have e1 : p + ((a - p).toNat : Int) = a := by omega
    simp only [e1] at h1 h2
    rw [h1, h2]
    congr 1
    show f32ToU16 _ = f32ToU16 _
    obtain ⟨r, hr, h3, h4⟩ := f16_roundtrip (f32ToU16 (v ⟨(a - p).toNat, by omega⟩))
    rw [hd] at hr
    rw [Option.some_inj.mp hr]
    by_cases hn : NaN16 (f32ToU16 (v ⟨(a - p).toNat, by omega⟩))
    · rw [h4 hn]
      -- a NaN half only comes from a NaN float
      have hx := f32ToU16_special (v ⟨(a - p).toNat, by omega⟩)
      by_cases hf : Finite32 (v ⟨(a - p).toNat, by omega⟩)
      · exact absurd hn (f32ToU16_nearest _ hf).1.notNaN
      · by_cases hi : Inf32 (v ⟨(a - p).toNat, by omega⟩)
        · have h5 := hx.1 hi
          exact absurd h5.1.2 hn.2
        · have h5 := hx.2 ⟨by unfold Finite32 at hf; omega, fun h => hi ⟨by unfold Finite32 at hf; omega, h⟩⟩
          exact h5.symm
    · exact h3 hn
  · exact hw2.2 a ha

example : ∃ v m', load (intElem .i16) 8 (fun a => if 0 ≤ a ∧ a < 20 then some (BitVec.ofInt 16 a) else none) 3
      = some v ∧
    store (intElem .i16) (fun a => if 0 ≤ a ∧ a < 20 then some (BitVec.ofInt 16 a) else none) 7 v = some m' ∧
    m' 7 = some 3#16 ∧ m' 14 = some 10#16 ∧ m' 15 = some 15#16 := by
  obtain ⟨v, m', h1, h2, h3, h4⟩ := load_store_copies (n := 8) (exact_int .i16)
    (fun a => if 0 ≤ a ∧ a < 20 then some (BitVec.ofInt 16 a) else none) 3 7
    (by intro k _ _; rw [if_pos (by omega)]; rfl) (by intro k _ _; rw [if_pos (by omega)]; rfl)
    (fun _ => rfl)
  exact ⟨v, m', h1, h2, h3 0 (by omega) (by omega), h3 7 (by omega) (by omega),
    h4 15 (by omega)⟩

/-! ## C17: masked loads and stores -/

/-- Masked load reads only active addresses: it is defined as soon as these are
mapped, and inactive lanes hold the `o` vector. -/
theorem maskoLoad_spec (e : Elem M α) (hdec : ∀ y, (e.dec y).isSome) (l : LVec n) (m : Mem M)
    (p : Int) (o : Vec n α) :
    ((maskoLoad e l m p o).isSome ↔ ∀ i : Fin n, l i ≠ 0#32 → (m (p + (i : Nat))).isSome) ∧
    ∀ v, maskoLoad e l m p o = some v → ∀ i,
      (l i ≠ 0#32 → ∃ y, m (p + (i : Nat)) = some y ∧ e.dec y = some (v i)) ∧
      (l i = 0#32 → v i = o i) := by
  unfold maskoLoad
  constructor
  · rw [body_isSome]
    refine forall_congr' fun i => ?_
    by_cases h : l i = 0#32
    · simp [h]
    · simp only [ne_eq, h, not_false_eq_true, if_true, forall_const]
      cases hm : m (p + (i : Nat)) with
      | none => simp
      | some y => simp [hdec y]
  · intro v hv i
    rw [body_eq_some] at hv
    have := hv i
    constructor
    · intro hl
      rw [if_pos hl] at this
      exact Option.bind_eq_some_iff.mp this
    · intro hl
      rw [if_neg (by simpa using hl)] at this
      exact (Option.some_inj.mp this).symm

/-- `maskz_load` is `masko_load` with the zero vector. -/
theorem maskzLoad_spec (e : Elem M α) (hdec : ∀ y, (e.dec y).isSome) (l : LVec n) (m : Mem M)
    (p : Int) :
    ((maskzLoad e l m p).isSome ↔ ∀ i : Fin n, l i ≠ 0#32 → (m (p + (i : Nat))).isSome) ∧
    ∀ v, maskzLoad e l m p = some v → ∀ i,
      (l i ≠ 0#32 → ∃ y, m (p + (i : Nat)) = some y ∧ e.dec y = some (v i)) ∧
      (l i = 0#32 → v i = e.zero) :=
  maskoLoad_spec e hdec l m p fun _ => e.zero

/-- Masked store touches exactly the active lanes. -/
theorem maskStore_spec (e : Elem M α) (l : LVec n) (m : Mem M) (p : Int) (v : Vec n α) :
    ((maskStore e l m p v).isSome ↔ ∀ i : Fin n, l i ≠ 0#32 → (m (p + (i : Nat))).isSome) ∧
    ∀ m', maskStore e l m p v = some m' →
      (∀ i : Fin n, l i ≠ 0#32 → m' (p + (i : Nat)) = some (e.enc (v i))) ∧
      ∀ a, (∀ i : Fin n, l i ≠ 0#32 → a ≠ p + (i : Nat)) → m' a = m a := by
  unfold maskStore
  constructor
  · rw [stores_isSome]
    constructor
    · intro h i hi
      exact h i (List.mem_finRange i) _ _ (if_pos hi)
    · intro h i _ a u hu
      by_cases hi : l i = 0#32
      · simp [hi] at hu
      · rw [if_pos hi] at hu
        cases hu
        exact h i hi
  · intro m' h
    constructor
    · intro i hi
      refine stores_last (finRange_lt n) h (List.mem_finRange i) (if_pos hi) ?_
      intro y _ hy u hu
      by_cases hl : l y = 0#32
      · simp [hl] at hu
      · rw [if_pos hl] at hu
        have h2 := congrArg Prod.fst (Option.some_inj.mp hu)
        simp only at h2
        have : (i : Nat) < y := hy
        omega
    · intro a ha
      refine stores_frame h ?_
      intro y _ u hu
      by_cases hl : l y = 0#32
      · simp [hl] at hu
      · rw [if_pos hl] at hu
        have h2 := congrArg Prod.fst (Option.some_inj.mp hu)
        exact ha y hl h2.symm

-- lane 1 inactive and its address unmapped
example : ∃ v, maskzLoad (intElem .i64) (n := 2) ![0xffffffff#32, 0#32]
    (fun a => if a = 5 then some 7#64 else none) 5 = some v ∧ v 0 = 7#64 ∧ v 1 = 0#64 := by
  have h := maskzLoad_spec (n := 2) (intElem .i64) (fun _ => rfl) ![0xffffffff#32, 0#32]
    (fun a => if a = 5 then some 7#64 else none) 5
  have hs := h.1.mpr (by intro i; fin_cases i <;> simp)
  obtain ⟨v, hv⟩ := Option.isSome_iff_exists.mp hs
  refine ⟨v, hv, ?_, (h.2 v hv 1).2 (by simp)⟩
  obtain ⟨y, hy, hd⟩ := (h.2 v hv 0).1 (by simp)
  simp only [Fin.val_zero, Int.natCast_zero, Int.add_zero, if_true] at hy
  cases hy
  exact (Option.some_inj.mp hd).symm

/-! ## C19: load2/3/4 and store2/3/4 -/

/-- `loadN` puts element `N*i + j` in lane `i` of vector `j`. -/
theorem loadDeg_reads (e : Elem M α) (deg : Nat) (m : Mem M) (p : Int) (v : Fin deg → Vec n α) :
    loadDeg e deg n m p = some v ↔
      ∀ (j : Fin deg) (i : Fin n), ∃ y, m (p + (deg * (i : Nat) + (j : Nat) : Nat)) = some y ∧
        e.dec y = some (v j i) := by
  unfold loadDeg
  rw [body_eq_some]
  simp only [body_eq_some, Option.bind_eq_some_iff]

theorem deg_index_inj {deg i i' j j' : Nat} (hj : j < deg) (hj' : j' < deg)
    (h : deg * i + j = deg * i' + j') : i = i' ∧ j = j' := by
  have h1 : i = i' := by
    have := congrArg (· / deg) h
    simp only [Nat.mul_add_div (Nat.lt_of_le_of_lt (Nat.zero_le _) hj), Nat.div_eq_of_lt hj,
      Nat.div_eq_of_lt hj'] at this
    simpa using this
  subst h1
  exact ⟨rfl, by omega⟩

theorem deg_index_lt {deg n i j : Nat} (hi : i < n) (hj : j < deg) : deg * i + j < deg * n := by
  have : deg * (i + 1) ≤ deg * n := Nat.mul_le_mul_left _ hi
  rw [Nat.mul_succ] at this
  omega

/-- `storeN` writes lane `i` of vector `j` at `N*i + j`, nothing else, and is
defined exactly when the `N*n` elements are mapped. -/
theorem storeDeg_spec (e : Elem M α) {deg : Nat} (m : Mem M) (p : Int) (v : Fin deg → Vec n α) :
    ((storeDeg e m p v).isSome ↔ ∀ k : Int, 0 ≤ k → k < deg * n → (m (p + k)).isSome) ∧
    ∀ m', storeDeg e m p v = some m' →
      (∀ (j : Fin deg) (i : Fin n),
        m' (p + (deg * (i : Nat) + (j : Nat) : Nat)) = some (e.enc (v j i))) ∧
      ∀ a, ¬ (p ≤ a ∧ a < p + deg * n) → m' a = m a := by
  unfold storeDeg
  have hmem : ∀ (i : Fin n) (j : Fin deg), (i, j) ∈
      (List.finRange n).flatMap fun i => (List.finRange deg).map fun j => (i, j) := by
    intro i j
    simp
  have hnd : ((List.finRange n).flatMap fun i => (List.finRange deg).map fun j => (i, j)).Pairwise
      (fun x y => x ≠ y) := by
    have hp := List.nodup_finRange n
    have hq := List.nodup_finRange deg
    have : ((List.finRange n).flatMap fun i => (List.finRange deg).map fun j => (i, j)) =
        (List.finRange n) ×ˢ (List.finRange deg) := rfl
    rw [this]
    exact hp.product hq
  constructor
  · rw [stores_isSome]
    constructor
    · intro h k h0 h1
      have hd : 0 < deg := by
        rcases Nat.eq_zero_or_pos deg with h' | h'
        · subst h'; simp at h1; omega
        · exact h'
      have hk : k.toNat < deg * n := by
        have : (k.toNat : Int) < deg * n := by omega
        exact_mod_cast this
      have := h (⟨k.toNat / deg, Nat.div_lt_of_lt_mul hk⟩, ⟨k.toNat % deg, Nat.mod_lt _ hd⟩)
        (hmem _ _) _ _ rfl
      simp only [Nat.div_add_mod, Int.toNat_of_nonneg h0] at this
      exact this
    · intro h x _ a u hu
      cases hu
      exact h _ (by omega) (by exact_mod_cast deg_index_lt x.1.2 x.2.2)
  · intro m' h
    constructor
    · intro j i
      refine stores_last hnd h (hmem i j) rfl ?_
      intro y _ hy u hu
      have h2 := congrArg Prod.fst (Option.some_inj.mp hu)
      simp only at h2
      have h3 := deg_index_inj y.2.2 j.2 (by omega : deg * (y.1 : Nat) + y.2 = deg * (i : Nat) + j)
      exact hy (Prod.ext (Fin.ext h3.1.symm) (Fin.ext h3.2.symm))
    · intro a ha
      refine stores_frame h ?_
      intro y _ u hu
      have h2 := congrArg Prod.fst (Option.some_inj.mp hu)
      simp only at h2
      have h3 : ((deg * (y.1 : Nat) + y.2 : Nat) : Int) < deg * n := by
        exact_mod_cast deg_index_lt y.1.2 y.2.2
      omega

/-- `loadN` after `storeN` is the identity. Every type but `f16`. -/
theorem storeDeg_loadDeg {e : Elem M α} (he : Exact e) {deg : Nat} (m m' : Mem M) (p : Int)
    (v : Fin deg → Vec n α) (h : storeDeg e m p v = some m') :
    loadDeg e deg n m' p = some v := by
  rw [loadDeg_reads]
  intro j i
  exact ⟨_, ((storeDeg_spec e m p v).2 m' h).1 j i, he.dec_enc _⟩

/-- `storeN` after `loadN` copies `N*n` elements. Every type but `f16`. -/
theorem loadDeg_storeDeg {e : Elem M α} (he : Exact e) {deg : Nat} (m m' : Mem M) (p q : Int)
    (v : Fin deg → Vec n α) (hl : loadDeg e deg n m p = some v) (hs : storeDeg e m q v = some m') :
    (∀ k : Int, 0 ≤ k → k < deg * n → m' (q + k) = m (p + k)) ∧
    ∀ a, ¬ (q ≤ a ∧ a < q + deg * n) → m' a = m a := by
  have hspec := (storeDeg_spec e m q v).2 m' hs
  refine ⟨?_, hspec.2⟩
  intro k h0 h1
  have hd : 0 < deg := by
    rcases Nat.eq_zero_or_pos deg with h' | h'
    · subst h'; simp at h1; omega
    · exact h'
  have hk : k.toNat < deg * n := by
    have : (k.toNat : Int) < deg * n := by omega
    exact_mod_cast this
  have h2 := hspec.1 ⟨k.toNat % deg, Nat.mod_lt _ hd⟩ ⟨k.toNat / deg, Nat.div_lt_of_lt_mul hk⟩
  obtain ⟨y, hy, hdec⟩ := (loadDeg_reads e deg m p v).mp hl ⟨k.toNat % deg, Nat.mod_lt _ hd⟩
    ⟨k.toNat / deg, Nat.div_lt_of_lt_mul hk⟩
  simp only [Nat.div_add_mod, Int.toNat_of_nonneg h0] at h2 hy
  rw [h2, hy, he.enc_dec _ _ hdec]

example : ∃ v, loadDeg (intElem .u32) 3 4 (fun a => some (BitVec.ofInt 32 a)) 10 = some v ∧
    v 2 1 = 15#32 := by
  refine ⟨fun j i => BitVec.ofInt 32 (10 + (3 * (i : Nat) + (j : Nat) : Nat)), ?_, rfl⟩
  rw [loadDeg_reads]
  intro j i
  exact ⟨_, rfl, rfl⟩

/-! ## C22: gather and scatter -/

/-- `gather` reads `base + offset[i]` in lane `i`. -/
theorem gather_reads (e : Elem M α) (m : Mem M) (p : Int) (off : Vec n Int) (v : Vec n α) :
    gather e m p off = some v ↔ ∀ i, ∃ y, m (p + off i) = some y ∧ e.dec y = some (v i) := by
  unfold gather
  rw [body_eq_some]
  simp only [Option.bind_eq_some_iff]

/-- `scatter`: defined exactly when the addressed elements are mapped; an address
receives the highest lane addressing it; nothing else changes. -/
theorem scatter_spec (e : Elem M α) (m : Mem M) (p : Int) (off : Vec n Int) (v : Vec n α) :
    ((scatter e m p off v).isSome ↔ ∀ i, (m (p + off i)).isSome) ∧
    ∀ m', scatter e m p off v = some m' →
      (∀ i, (∀ j, i < j → off j ≠ off i) → m' (p + off i) = some (e.enc (v i))) ∧
      ∀ a, (∀ i, a ≠ p + off i) → m' a = m a := by
  unfold scatter
  constructor
  · rw [stores_isSome]
    constructor
    · intro h i
      exact h i (List.mem_finRange i) _ _ rfl
    · intro h i _ a u hu
      cases hu; exact h i
  · intro m' h
    constructor
    · intro i hi
      refine stores_last (finRange_lt n) h (List.mem_finRange i) rfl ?_
      intro y _ hy u hu
      have h2 := congrArg Prod.fst (Option.some_inj.mp hu)
      simp only at h2
      exact hi y hy (by omega)
    · intro a ha
      refine stores_frame h ?_
      intro y _ u hu
      exact ha y (congrArg Prod.fst (Option.some_inj.mp hu)).symm

/-- `gather` after `scatter` with pairwise distinct offsets. Every type but `f16`. -/
theorem scatter_gather {e : Elem M α} (he : Exact e) (m m' : Mem M) (p : Int) (off : Vec n Int)
    (hoff : ∀ i j, off i = off j → i = j) (v : Vec n α) (h : scatter e m p off v = some m') :
    gather e m' p off = some v := by
  rw [gather_reads]
  intro i
  refine ⟨_, ((scatter_spec e m p off v).2 m' h).1 i ?_, he.dec_enc _⟩
  intro j hij hj
  exact absurd (hoff j i hj) (Fin.ne_of_gt hij)

/-- The linear variants are the general ones with offsets `i * step`, as long as
the products fit in an `int`. -/
theorem linear_offsets (e : Elem M α) (m : Mem M) (p step : Int) (v : Vec n α)
    (hs : ∀ i : Fin n, -2 ^ 31 ≤ (i : Nat) * step ∧ (i : Nat) * step < 2 ^ 31) :
    gatherLinear e n m p step = gather e m p (fun i => (i : Nat) * step) ∧
    scatterLinear e m p step v = scatter e m p (fun i => (i : Nat) * step) v := by
  have hp : ∀ i : Fin n, ITy.i32.prom ((i : Nat) * step) = some ((i : Nat) * step) := by
    intro i
    unfold ITy.prom
    rw [if_pos rfl, if_pos (by have := hs i; omega)]
  constructor
  · unfold gatherLinear gather
    refine body_congr fun i => ?_
    rw [hp i]; rfl
  · unfold scatterLinear scatter
    have : (body fun i : Fin n => ITy.i32.prom ((i : Nat) * step)) =
        some fun i : Fin n => ((i : Nat) : Int) * step := body_eq_some.mpr hp
    rw [this]; rfl

/-- ... and undefined behaviour otherwise. -/
theorem linear_overflow (e : Elem M α) (m : Mem M) (p step : Int) (v : Vec n α)
    (hs : ∃ i : Fin n, ¬ (-2 ^ 31 ≤ (i : Nat) * step ∧ (i : Nat) * step < 2 ^ 31)) :
    gatherLinear e n m p step = none ∧ scatterLinear e m p step v = none := by
  obtain ⟨i, hi⟩ := hs
  have hp : ITy.i32.prom ((i : Nat) * step) = none := by
    unfold ITy.prom
    rw [if_pos rfl, if_neg (by omega)]
  constructor
  · rw [← Option.not_isSome_iff_eq_none]
    unfold gatherLinear
    rw [body_isSome]
    intro h
    have := h i
    rw [hp] at this
    cases this
  · unfold scatterLinear
    have : (body fun i : Fin n => ITy.i32.prom ((i : Nat) * step)) = none := by
      rw [← Option.not_isSome_iff_eq_none, body_isSome]
      intro h
      have := h i
      rw [hp] at this
      cases this
    rw [this]; rfl

/-- Masked gather reads only active addresses. -/
theorem maskoGather_spec (e : Elem M α) (hdec : ∀ y, (e.dec y).isSome) (l : LVec n) (m : Mem M)
    (p : Int) (off : Vec n Int) (o : Vec n α) :
    ((maskoGather e l m p off o).isSome ↔ ∀ i, l i ≠ 0#32 → (m (p + off i)).isSome) ∧
    (∀ v, maskoGather e l m p off o = some v → ∀ i,
      (l i ≠ 0#32 → ∃ y, m (p + off i) = some y ∧ e.dec y = some (v i)) ∧
      (l i = 0#32 → v i = o i)) ∧
    maskzGather e l m p off = maskoGather e l m p off (fun _ => e.zero) := by
  refine ⟨?_, ?_, rfl⟩
  · unfold maskoGather
    rw [body_isSome]
    refine forall_congr' fun i => ?_
    by_cases h : l i = 0#32
    · simp [h]
    · simp only [ne_eq, h, not_false_eq_true, if_true, forall_const]
      cases hm : m (p + off i) with
      | none => simp
      | some y => simp [hdec y]
  · intro v hv i
    unfold maskoGather at hv
    rw [body_eq_some] at hv
    have := hv i
    constructor
    · intro hl
      rw [if_pos hl] at this
      exact Option.bind_eq_some_iff.mp this
    · intro hl
      rw [if_neg (by simpa using hl)] at this
      exact (Option.some_inj.mp this).symm

/-- Masked scatter writes only active lanes. -/
theorem maskScatter_spec (e : Elem M α) (l : LVec n) (m : Mem M) (p : Int) (off : Vec n Int)
    (v : Vec n α) :
    ((maskScatter e l m p off v).isSome ↔ ∀ i, l i ≠ 0#32 → (m (p + off i)).isSome) ∧
    ∀ m', maskScatter e l m p off v = some m' →
      (∀ i, l i ≠ 0#32 → (∀ j, i < j → l j ≠ 0#32 → off j ≠ off i) →
        m' (p + off i) = some (e.enc (v i))) ∧
      ∀ a, (∀ i, l i ≠ 0#32 → a ≠ p + off i) → m' a = m a := by
  unfold maskScatter
  constructor
  · rw [stores_isSome]
    constructor
    · intro h i hi
      exact h i (List.mem_finRange i) _ _ (if_pos hi)
    · intro h i _ a u hu
      by_cases hi : l i = 0#32
      · simp [hi] at hu
      · rw [if_pos hi] at hu
        cases hu
        exact h i hi
  · intro m' h
    constructor
    · intro i hi hlast
      refine stores_last (finRange_lt n) h (List.mem_finRange i) (if_pos hi) ?_
      intro y _ hy u hu
      by_cases hl : l y = 0#32
      · simp [hl] at hu
      · rw [if_pos hl] at hu
        have h2 := congrArg Prod.fst (Option.some_inj.mp hu)
        simp only at h2
        exact hlast y hy hl (by omega)
    · intro a ha
      refine stores_frame h ?_
      intro y _ u hu
      by_cases hl : l y = 0#32
      · simp [hl] at hu
      · rw [if_pos hl] at hu
        exact ha y hl (congrArg Prod.fst (Option.some_inj.mp hu)).symm

-- duplicate offset 3: lane 2 wins over lane 0
example : ∃ m', scatter (intElem .i32) (n := 3) (fun _ => some 0#32) 0 ![3, -1, 3] ![7#32, 8#32, 9#32]
    = some m' ∧ m' 3 = some 9#32 ∧ m' (-1) = some 8#32 ∧ m' 0 = some 0#32 := by
  have h := scatter_spec (n := 3) (intElem .i32) (fun _ => some 0#32) 0 ![3, -1, 3] ![7#32, 8#32, 9#32]
  obtain ⟨m', hm'⟩ := Option.isSome_iff_exists.mp (h.1.mpr (fun _ => rfl))
  refine ⟨m', hm', ?_, ?_, ?_⟩
  · exact (h.2 m' hm').1 2 (by decide)
  · exact (h.2 m' hm').1 1 (by decide)
  · exact (h.2 m' hm').2 0 (by decide)

end Nsimd.Props.Cpu
