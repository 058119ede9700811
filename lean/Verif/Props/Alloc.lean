import Verif.Model.Alloc
import Mathlib.Tactic.Ring

/-!
# C39, C41: allocation
-/

namespace Nsimd.Props.Alloc

open Nsimd Nsimd.Alloc

/-! ## C39: aligned allocation and the C++ allocators -/

theorem i64_prom_some {v : Int} (h1 : -2 ^ 63 ≤ v) (h2 : v < 2 ^ 63) : ITy.i64.prom v = some v := by
  unfold ITy.prom
  rw [if_pos rfl, if_pos]
  have hw : ITy.i64.promW - 1 = 63 := rfl
  rw [hw]
  exact ⟨h1, h2⟩

theorem i64_prom_none {v : Int} (h : ¬ (-2 ^ 63 ≤ v ∧ v < 2 ^ 63)) : ITy.i64.prom v = none := by
  unfold ITy.prom
  rw [if_pos rfl, if_neg]
  have hw : ITy.i64.promW - 1 = 63 := rfl
  rw [hw]
  exact h

theorem u64_cast (v : Int) : (ITy.u64.cast v).toNat = (v % 2 ^ 64).toNat := by
  show (BitVec.ofInt 64 v).toNat = _
  rw [BitVec.toNat_ofInt]
  rfl

theorem i64_wrap (n : BitVec 64) :
    ITy.i64.val (ITy.i64.cast n.toNat) = if n.toNat < 2 ^ 63 then (n.toNat : Int) else n.toNat - 2 ^ 64 := by
  have hn := n.isLt
  have e : ITy.i64.cast (n.toNat : Int) = n := by
    apply BitVec.eq_of_toNat_eq
    show (BitVec.ofInt 64 (n.toNat : Int)).toNat = _
    rw [BitVec.toNat_ofInt]
    show ((n.toNat : Int) % ((2 ^ 64 : Nat) : Int)).toNat = _
    omega
  rw [e]
  show n.toInt = _
  rw [BitVec.toInt_eq_toNat_cond]
  split <;> split <;> omega

/-- Bytes of the widest vector register of a platform the library supports: AVX-512, SVE-2048, VSX and
the emulation. Specification, not code of the repo. -/
def widestRegister : Platform → Nat
  | .x86 => 512 / 8
  | .arm => 2048 / 8
  | .powerpc => 128 / 8
  | .other => 128 / 8

/-- C39: the advertised alignment is one `posix_memalign` accepts (a power of two, a multiple of the size of
a pointer) and enough for aligned accesses with the widest register of the platform. -/
theorem maxAlignment_ok (pl : Platform) :
    (∃ k, maxAlignment pl = 2 ^ k) ∧ 8 ∣ maxAlignment pl ∧ widestRegister pl ∣ maxAlignment pl ∧
      maxAlignment pl ≤ 4 * widestRegister pl := by
  cases pl
  · exact ⟨⟨6, rfl⟩, by decide, by decide, by decide⟩
  · exact ⟨⟨8, rfl⟩, by decide, by decide, by decide⟩
  · exact ⟨⟨6, rfl⟩, by decide, by decide, by decide⟩
  · exact ⟨⟨4, rfl⟩, by decide, by decide, by decide⟩

/-- `nsimd_aligned_alloc(n)` with `n ≥ 0`: a block it returns has at least `n` bytes and the advertised
alignment, and it fails only if the system does. -/
theorem alignedAlloc_spec (pl : Platform) (os : Os) (ho : os.Aligned) (n : Int) (h0 : 0 ≤ n)
    (h1 : n < 2 ^ 63) :
    (∀ b, alignedAlloc pl os n = some b → n ≤ b.bytes ∧ b.addr % maxAlignment pl = 0) ∧
    (alignedAlloc pl os n = none ↔ os (maxAlignment pl) n.toNat = none) := by
  have e : (ITy.u64.cast n).toNat = n.toNat := by
    rw [u64_cast]; omega
  unfold alignedAlloc
  dsimp only
  rw [e]
  constructor
  · intro b hb
    obtain ⟨p, hp, rfl⟩ := Option.map_eq_some_iff.mp hb
    exact ⟨by show n ≤ (n.toNat : Int); omega, ho _ _ _ hp⟩
  · rw [Option.map_eq_none_iff]

/-- Specification of an `allocate` result: what is returned holds `n` elements of `szT` bytes at the
advertised alignment. -/
def Holds (pl : Platform) (szT n : Nat) (b : Block) : Prop :=
  n * szT ≤ b.bytes ∧ b.addr % maxAlignment pl = 0

theorem forBytes (pl : Platform) (os : Os) (szT : Nat) (m : Int) (h1 : -2 ^ 63 ≤ m * szT)
    (h2 : m * szT < 2 ^ 63) : alignedAllocFor pl os szT m = some (alignedAlloc pl os (m * szT)) := by
  unfold alignedAllocFor
  rw [i64_prom_some h1 h2]
  rfl

theorem forBytes_none (pl : Platform) (os : Os) (szT : Nat) (m : Int)
    (h : ¬ (-2 ^ 63 ≤ m * szT ∧ m * szT < 2 ^ 63)) : alignedAllocFor pl os szT m = none := by
  unfold alignedAllocFor
  rw [i64_prom_none h]
  rfl

/-- C39 for the C++11 allocator, the part that holds: whatever `n`, a block it returns is never short, a
request whose size exceeds `SIZE_MAX` throws, `NULL` is never returned, and the call is defined as soon as
`n * sizeof(T) < 2^63`. Missing: sizes from `2^63` on, see `allocate11_counterexample`. -/
theorem allocate11_partial (pl : Platform) (os : Os) (ho : os.Aligned) (szT : Nat) (hs : 0 < szT)
    (n : BitVec 64) :
    (∀ b, allocate11 pl os szT n = .block b → Holds pl szT n.toNat b) ∧
    (2 ^ 64 ≤ n.toNat * szT → allocate11 pl os szT n = .badAlloc) ∧
    allocate11 pl os szT n ≠ .null ∧
    (n.toNat * szT < 2 ^ 63 → allocate11 pl os szT n ≠ .undefined ∧
      (allocate11 pl os szT n = .badAlloc ↔ os (maxAlignment pl) (n.toNat * szT) = none)) := by
  have hn := n.isLt
  have hdiv : n.toNat > (2 ^ 64 - 1) / szT ↔ 2 ^ 64 ≤ n.toNat * szT := by
    constructor
    · intro h
      have := (Nat.div_lt_iff_lt_mul hs).mp h
      omega
    · intro h
      exact (Nat.div_lt_iff_lt_mul hs).mpr (by omega)
  by_cases hbig : 2 ^ 64 ≤ n.toNat * szT
  · have e : allocate11 pl os szT n = .badAlloc := if_pos (hdiv.mpr hbig)
    rw [e]
    exact ⟨fun b h => (by cases h), fun _ => rfl, by simp, fun h => absurd h (by omega)⟩
  · have e : allocate11 pl os szT n =
        match alignedAllocFor pl os szT (ITy.i64.val (ITy.i64.cast n.toNat)) with
        | none => .undefined
        | some none => .badAlloc
        | some (some b) => .block b := if_neg fun h => hbig (hdiv.mp h)
    rw [e, i64_wrap]
    by_cases hlow : n.toNat < 2 ^ 63
    · rw [if_pos hlow]
      by_cases hp : n.toNat * szT < 2 ^ 63
      · have hpi : (n.toNat : Int) * szT < 2 ^ 63 := by
          have : ((n.toNat * szT : Nat) : Int) = (n.toNat : Int) * szT := by push_cast; rfl
          omega
        have hp0 : (0 : Int) ≤ (n.toNat : Int) * szT := Int.mul_nonneg (by omega) (by omega)
        rw [forBytes pl os szT _ (by omega) hpi]
        have spec := alignedAlloc_spec pl os ho ((n.toNat : Int) * szT) hp0 hpi
        have hto : ((n.toNat : Int) * szT).toNat = n.toNat * szT := by
          have : ((n.toNat * szT : Nat) : Int) = (n.toNat : Int) * szT := by push_cast; rfl
          omega
        rw [hto] at spec
        cases ha : alignedAlloc pl os ((n.toNat : Int) * szT) with
        | none =>
          refine ⟨fun b h => (by cases h), fun h => absurd h (by omega), by simp, fun _ => ⟨by simp, ?_⟩⟩
          exact ⟨fun _ => spec.2.mp ha, fun _ => rfl⟩
        | some b =>
          refine ⟨fun b' h => ?_, fun h => absurd h (by omega), by simp, fun _ => ⟨by simp, ?_⟩⟩
          · have hb : b = b' := by simpa using h
            subst hb
            have := spec.1 b ha
            refine ⟨?_, this.2⟩
            have : ((n.toNat * szT : Nat) : Int) = (n.toNat : Int) * szT := by push_cast; rfl
            omega
          · constructor
            · intro h; simp at h
            · intro h
              have := spec.2.mpr h
              rw [ha] at this
              cases this
      · have hpi : ¬ (-2 ^ 63 ≤ (n.toNat : Int) * szT ∧ (n.toNat : Int) * szT < 2 ^ 63) := by
          have : ((n.toNat * szT : Nat) : Int) = (n.toNat : Int) * szT := by push_cast; rfl
          omega
        rw [forBytes_none pl os szT _ hpi]
        exact ⟨fun b h => (by cases h), fun h => absurd h hbig, by simp, fun h => absurd h hp⟩
    · -- only one-byte elements reach this case
      rw [if_neg hlow]
      have h1 : szT = 1 := by
        by_contra hne
        have : n.toNat * 2 ≤ n.toNat * szT := Nat.mul_le_mul_left _ (by omega)
        omega
      subst h1
      rw [forBytes pl os 1 _ (by push_cast; omega) (by push_cast; omega)]
      have hc : (ITy.u64.cast (((n.toNat : Int) - 2 ^ 64) * ((1 : Nat) : Int))).toNat = n.toNat := by
        rw [u64_cast]; push_cast; omega
      refine ⟨fun b h => ?_, fun h => absurd h hbig, ?_, fun h => absurd h (by omega)⟩
      · unfold alignedAlloc at h
        dsimp only at h
        rw [hc] at h
        cases ha : os (maxAlignment pl) n.toNat with
        | none => rw [ha] at h; simp at h
        | some p =>
          rw [ha] at h
          have hb : (⟨p, n.toNat⟩ : Block) = b := by simpa using h
          subst hb
          exact ⟨by show n.toNat * 1 ≤ n.toNat; omega, ho _ _ _ ha⟩
      · cases alignedAlloc pl os (((n.toNat : Int) - 2 ^ 64) * ((1 : Nat) : Int)) <;> simp

/-- The check in `allocate` does not protect the signed product: `2^60` elements of 8 bytes pass it and
overflow, whatever the system does. -/
theorem allocate11_counterexample (pl : Platform) (os : Os) :
    allocate11 pl os 8 (BitVec.ofNat 64 (2 ^ 60)) = .undefined := by
  have e : (BitVec.ofNat 64 (2 ^ 60)).toNat = 2 ^ 60 := by decide
  unfold allocate11
  rw [e, if_neg (by decide)]
  have := i64_wrap (BitVec.ofNat 64 (2 ^ 60))
  rw [e] at this
  rw [this, if_pos (by decide), forBytes_none pl os 8 _ (by decide)]

/-- C39 before C++11, the part that holds: requests below `2^63` bytes are defined and what is returned
is never short; failures return `NULL` instead of throwing. Missing: larger requests, see
`allocate98_counterexample`. -/
theorem allocate98_partial (pl : Platform) (os : Os) (ho : os.Aligned) (szT : Nat) (n : BitVec 64)
    (h63 : n.toNat < 2 ^ 63) (hp : n.toNat * szT < 2 ^ 63) :
    (∀ b, allocate98 pl os szT n = .block b → Holds pl szT n.toNat b) ∧
    allocate98 pl os szT n ≠ .undefined ∧ allocate98 pl os szT n ≠ .badAlloc ∧
    (allocate98 pl os szT n = .null ↔ os (maxAlignment pl) (n.toNat * szT) = none) := by
  have hpi : (n.toNat : Int) * szT < 2 ^ 63 := by
    have : ((n.toNat * szT : Nat) : Int) = (n.toNat : Int) * szT := by push_cast; rfl
    omega
  have hp0 : (0 : Int) ≤ (n.toNat : Int) * szT := Int.mul_nonneg (by omega) (by omega)
  have spec := alignedAlloc_spec pl os ho ((n.toNat : Int) * szT) hp0 hpi
  have hto : ((n.toNat : Int) * szT).toNat = n.toNat * szT := by
    have : ((n.toNat * szT : Nat) : Int) = (n.toNat : Int) * szT := by push_cast; rfl
    omega
  rw [hto] at spec
  unfold allocate98
  rw [i64_wrap, if_pos h63, forBytes pl os szT _ (by omega) hpi]
  cases ha : alignedAlloc pl os ((n.toNat : Int) * szT) with
  | none =>
    exact ⟨fun b h => (by cases h), by simp, by simp, fun _ => spec.2.mp ha, fun _ => rfl⟩
  | some b =>
    refine ⟨fun b' h => ?_, by simp, by simp, fun h => (by cases h), fun h => ?_⟩
    · have hb : b = b' := by simpa using h
      subst hb
      have := spec.1 b ha
      refine ⟨?_, this.2⟩
      have : ((n.toNat * szT : Nat) : Int) = (n.toNat : Int) * szT := by push_cast; rfl
      omega
    · have := spec.2.mpr h
      rw [ha] at this
      cases this

/-- Before C++11 a request the size type can express, within `max_size()`, is undefined, and a request
beyond it may succeed with a block far too short (if the system grants `2^64 - 8` bytes). -/
theorem allocate98_counterexample (pl : Platform) (os : Os) :
    allocate98 pl os 8 (BitVec.ofNat 64 (2 ^ 60)) = .undefined ∧
    (∀ p, os (maxAlignment pl) (2 ^ 64 - 8) = some p →
      ∃ b, allocate98 pl os 8 (BitVec.ofNat 64 (2 ^ 64 - 1)) = .block b ∧
        ¬ (2 ^ 64 - 1) * 8 ≤ b.bytes) := by
  constructor
  · have e : (BitVec.ofNat 64 (2 ^ 60)).toNat = 2 ^ 60 := by decide
    have := i64_wrap (BitVec.ofNat 64 (2 ^ 60))
    unfold allocate98
    rw [this, e, if_pos (by decide), forBytes_none pl os 8 _ (by decide)]
  · intro p hp
    refine ⟨⟨p, 2 ^ 64 - 8⟩, ?_, by show ¬ (2 ^ 64 - 1) * 8 ≤ 2 ^ 64 - 8; decide⟩
    have e : (BitVec.ofNat 64 (2 ^ 64 - 1)).toNat = 2 ^ 64 - 1 := by decide
    have := i64_wrap (BitVec.ofNat 64 (2 ^ 64 - 1))
    unfold allocate98
    rw [this, e, if_neg (by decide), forBytes pl os 8 _ (by decide) (by decide)]
    unfold alignedAlloc
    have hc : (ITy.u64.cast ((((2 ^ 64 - 1 : Nat) : Int) - 2 ^ 64) * ((8 : Nat) : Int))).toNat = 2 ^ 64 - 8 := by
      rw [u64_cast]; decide
    dsimp only
    rw [hc, hp]
    rfl

/-- A system that grants requests up to 1 GiB at an address aligned on 256 bytes.
Specification, not code of the repo. -/
def smallOs : Os := fun a n => if n ≤ 2 ^ 30 ∧ a ∣ 256 then some 4096 else none

example : smallOs.Aligned := by
  intro a n p h
  unfold smallOs at h
  split at h
  · rename_i hc
    have hp : p = 4096 := (Option.some.inj h).symm
    subst hp
    obtain ⟨k, hk⟩ := hc.2
    exact Nat.mod_eq_zero_of_dvd ⟨k * 16, by rw [← Nat.mul_assoc, ← hk]⟩
  · cases h

example : allocate11 .x86 smallOs 4 1000#64 = .block ⟨4096, 4000⟩ := by decide
example : allocate11 .x86 smallOs 4 0x4000000000000000#64 = .badAlloc := by decide

/-! ## C41: pairs of blocks -/

/-- The system never returns a pointer in use. Specification of the oracle. -/
def Heap.Fresh (h : Heap) : Prop := ∀ p, h.next ≤ p → h.live p = none

/-- What `pair_malloc` promises: both blocks hold `sz` elements, nothing else changed.
Specification, not code of the repo. -/
def PairOk (sz szT : Nat) (p : Pair) (h h' : Heap) : Prop :=
  ∃ d q bd bq, p.device = some d ∧ p.host = some q ∧ p.sz = sz ∧ h'.live d = some bd ∧ h'.live q = some bq ∧
    sz * szT ≤ bd.size ∧ sz * szT ≤ bq.size ∧ h.live d = none ∧ h.live q = none ∧
    ∀ r, r ≠ d → r ≠ q → h'.live r = h.live r

/-- Failure: both pointers null, no block leaked. Specification, not code of the repo. -/
def PairNull (p : Pair) (h h' : Heap) : Prop := p.device = none ∧ p.host = none ∧ h'.live = h.live

theorem malloc_cases (n : Nat) (h : Heap) :
    (h.fails h.calls = true ∧ malloc n h = (none, { h with calls := h.calls + 1 })) ∨
    (h.fails h.calls = false ∧ malloc n h = (some h.next,
      { h with
        live := fun p => if p = h.next then some ⟨n, h.junk h.next⟩ else h.live p
        next := h.next + 1
        calls := h.calls + 1 })) := by
  unfold malloc
  cases hf : h.fails h.calls
  · exact Or.inr ⟨rfl, if_neg (by simp)⟩
  · exact Or.inl ⟨rfl, if_pos rfl⟩

theorem free_fresh (h : Heap) (hf : Heap.Fresh h) (b : Bytes) :
    (fun q => if q = h.next then none else if q = h.next then some b else h.live q) = h.live := by
  funext q
  by_cases hq : q = h.next
  · rw [if_pos hq, hq]; exact (hf _ (Nat.le_refl _)).symm
  · rw [if_neg hq, if_neg hq]

/-- C41 on the CPU: for every size without overflow and every failure pattern, `pair_malloc` gives blocks
that hold `sz` elements or two null pointers. Missing: `sz * sizeof(T)` of `2^64` bytes and more, see
`pairMalloc_overflow`; GPU backends, see `pairMalloc_gpu_partial`. -/
theorem pairMalloc_cpu_partial (sz szT : Nat) (h : Heap) (hf : Heap.Fresh h) (ho : sz * szT < 2 ^ 64) :
    PairOk sz szT (pairMalloc .cpu sz szT h).1 h (pairMalloc .cpu sz szT h).2 ∨
    PairNull (pairMalloc .cpu sz szT h).1 h (pairMalloc .cpu sz szT h).2 := by
  have hb : byteCount sz szT = sz * szT := Nat.mod_eq_of_lt ho
  unfold pairMalloc deviceMalloc
  rw [hb]
  rcases malloc_cases (sz * szT) h with ⟨-, e⟩ | ⟨-, e⟩ <;> rw [e] <;> dsimp only
  · exact Or.inr ⟨rfl, rfl, rfl⟩
  · refine Or.inl ⟨h.next, h.next, ⟨sz * szT, h.junk h.next⟩, ⟨sz * szT, h.junk h.next⟩, rfl, rfl, rfl,
      if_pos rfl, if_pos rfl, Nat.le_refl _, Nat.le_refl _, hf _ (Nat.le_refl _), hf _ (Nat.le_refl _), ?_⟩
    intro r hr _
    exact if_neg hr

/-- `pair_calloc` on the CPU: the same, and all `sz` elements are zero. -/
theorem pairCalloc_cpu_partial (sz szT : Nat) (h : Heap) (hf : Heap.Fresh h) (ho : sz * szT < 2 ^ 64) :
    (PairOk sz szT (pairCalloc sz szT h).1 h (pairCalloc sz szT h).2 ∧
      ∀ q b, (pairCalloc sz szT h).1.host = some q → (pairCalloc sz szT h).2.live q = some b →
        ∀ i, i < sz * szT → b.data i = 0) ∨
    PairNull (pairCalloc sz szT h).1 h (pairCalloc sz szT h).2 := by
  have hb : byteCount sz szT = sz * szT := Nat.mod_eq_of_lt ho
  unfold pairCalloc deviceCalloc
  dsimp only
  rw [hb]
  rcases malloc_cases (sz * szT) h with ⟨-, e⟩ | ⟨-, e⟩ <;> rw [e] <;> dsimp only
  · exact Or.inr ⟨rfl, rfl, rfl⟩
  · left
    have hl : ∀ r, (zero h.next (sz * szT)
        { h with
          live := fun p => if p = h.next then some ⟨sz * szT, h.junk h.next⟩ else h.live p
          next := h.next + 1
          calls := h.calls + 1 }).live r =
        if r = h.next then some ⟨sz * szT, fun i => if i < sz * szT then 0 else h.junk h.next i⟩
        else h.live r := by
      intro r
      unfold zero
      dsimp only
      by_cases hr : r = h.next
      · rw [if_pos hr, if_pos hr, if_pos hr]; rfl
      · rw [if_neg hr, if_neg hr, if_neg hr]
    constructor
    · refine ⟨h.next, h.next, _, _, rfl, rfl, rfl, (hl _).trans (if_pos rfl), (hl _).trans (if_pos rfl),
        Nat.le_refl _, Nat.le_refl _, hf _ (Nat.le_refl _), hf _ (Nat.le_refl _), ?_⟩
      intro r hr _
      exact (hl r).trans (if_neg hr)
    · intro q b hq hlive i hi
      have hq' : h.next = q := Option.some.inj hq
      subst hq'
      rw [hl, if_pos rfl] at hlive
      have hb := Option.some.inj hlive
      subst hb
      exact if_pos hi

/-- With `sz * sizeof(T) ≥ 2^64` the CPU version returns short blocks: `2^61 + 1` elements of 8 bytes get
8 bytes. -/
theorem pairMalloc_overflow (h : Heap) (hok : h.fails h.calls = false) :
    ∃ q b, (pairMalloc .cpu (2 ^ 61 + 1) 8 h).1.host = some q ∧
      (pairMalloc .cpu (2 ^ 61 + 1) 8 h).2.live q = some b ∧ b.size = 8 := by
  have hb : byteCount (2 ^ 61 + 1) 8 = 8 := by decide
  unfold pairMalloc deviceMalloc
  rw [hb]
  rcases malloc_cases 8 h with ⟨hc, -⟩ | ⟨-, e⟩
  · rw [hok] at hc; cases hc
  · rw [e]
    exact ⟨h.next, ⟨8, h.junk h.next⟩, rfl, if_pos rfl, rfl⟩

/-- C41 on CUDA and ROCm, the part that holds: one-byte elements; and for every element size a failure
leaves two null pointers and no leak. Missing: elements of more than one byte, see
`pairMalloc_gpu_counterexample`. -/
theorem pairMalloc_gpu_partial (be : Backend) (hbe : be ≠ .cpu) (sz szT : Nat) (h : Heap)
    (hf : Heap.Fresh h) (ho : sz * szT < 2 ^ 64) :
    ((pairMalloc be sz szT h).1.device = none ∧ PairNull (pairMalloc be sz szT h).1 h (pairMalloc be sz szT h).2) ∨
    (∃ d q bd bq, (pairMalloc be sz szT h).1.device = some d ∧ (pairMalloc be sz szT h).1.host = some q ∧
      d ≠ q ∧ (pairMalloc be sz szT h).1.sz = sz ∧
      (pairMalloc be sz szT h).2.live d = some bd ∧ (pairMalloc be sz szT h).2.live q = some bq ∧
      bd.size = sz * szT ∧ bq.size = sz ∧
      (szT ≤ 1 → PairOk sz szT (pairMalloc be sz szT h).1 h (pairMalloc be sz szT h).2)) := by
  have hb : byteCount sz szT = sz * szT := Nat.mod_eq_of_lt ho
  have eq : pairMalloc be sz szT h =
      match deviceMalloc sz szT h with
      | (none, h) => (⟨none, none, 0⟩, h)
      | (some d, h) =>
        match malloc sz h with
        | (none, h) => (⟨none, none, 0⟩, free d h)
        | (some p, h) => (⟨some d, some p, sz⟩, h) := by
    cases be
    · rfl
    · rfl
    · exact absurd rfl hbe
  rw [eq]
  unfold deviceMalloc
  rw [hb]
  rcases malloc_cases (sz * szT) h with ⟨-, e⟩ | ⟨-, e⟩
  · rw [e]
    exact Or.inl ⟨rfl, rfl, rfl, rfl⟩
  · rw [e]
    dsimp only
    generalize hh1 : ({ h with
      live := fun p => if p = h.next then some ⟨sz * szT, h.junk h.next⟩ else h.live p
      next := h.next + 1
      calls := h.calls + 1 } : Heap) = h1
    have hn1 : h1.next = h.next + 1 := by rw [← hh1]
    have hl1 : ∀ p, h1.live p = if p = h.next then some ⟨sz * szT, h.junk h.next⟩ else h.live p := by
      intro p; rw [← hh1]
    rcases malloc_cases sz h1 with ⟨-, e1⟩ | ⟨-, e1⟩
    · rw [e1]
      refine Or.inl ⟨rfl, rfl, rfl, ?_⟩
      unfold free
      dsimp only
      rw [← hh1]
      exact free_fresh h hf _
    · rw [e1]
      right
      have hne : h.next ≠ h.next + 1 := by omega
      refine ⟨h.next, h.next + 1, ⟨sz * szT, h.junk h.next⟩, ⟨sz, h1.junk h1.next⟩, rfl, ?_, hne, rfl, ?_, ?_, rfl,
        rfl, ?_⟩
      · rw [hn1]
      · dsimp only; rw [hn1, if_neg hne, hl1, if_pos rfl]
      · dsimp only; rw [hn1, if_pos rfl]
      · intro h1'
        refine ⟨h.next, h.next + 1, ⟨sz * szT, h.junk h.next⟩, ⟨sz, h1.junk h1.next⟩, rfl, ?_, rfl, ?_, ?_,
          Nat.le_refl _, ?_, hf _ (Nat.le_refl _), hf _ (by omega), ?_⟩
        · rw [hn1]
        · dsimp only; rw [hn1, if_neg hne, hl1, if_pos rfl]
        · dsimp only; rw [hn1, if_pos rfl]
        · show sz * szT ≤ sz
          calc sz * szT ≤ sz * 1 := Nat.mul_le_mul_left _ h1'
            _ = sz := Nat.mul_one _
        · intro r hr hr'
          dsimp only
          rw [hn1, if_neg hr', hl1, if_neg hr]

/-- On CUDA and ROCm, for every element of more than one byte and every `sz > 0`: after a successful
`pair_malloc`, both copies are out of bounds, the host block being `sz` bytes long. -/
theorem pairMalloc_gpu_counterexample (be : Backend) (hbe : be ≠ .cpu) (sz szT : Nat) (h : Heap)
    (hf : Heap.Fresh h) (ho : sz * szT < 2 ^ 64) (hsz : 0 < sz) (hT : 1 < szT)
    (hs : (pairMalloc be sz szT h).1.device ≠ none) :
    copyToHost be szT (pairMalloc be sz szT h).1 (pairMalloc be sz szT h).2 = none ∧
    copyToDevice be szT (pairMalloc be sz szT h).1 (pairMalloc be sz szT h).2 = none := by
  have hb : byteCount sz szT = sz * szT := Nat.mod_eq_of_lt ho
  have hlt : sz < sz * szT := by
    calc sz = sz * 1 := (Nat.mul_one _).symm
      _ < sz * szT := Nat.mul_lt_mul_of_pos_left hT hsz
  rcases pairMalloc_gpu_partial be hbe sz szT h hf ho with ⟨h0, -⟩ | ⟨d, q, bd, bq, hd, hq, -, hz, hld, hlq, hbd, hbq, -⟩
  · exact absurd h0 hs
  · have hm1 : memcpy q d (byteCount sz szT) (pairMalloc be sz szT h).2 = none := by
      unfold memcpy
      rw [hld, hlq, hb]
      dsimp only
      rw [if_neg (by omega)]
    have hm2 : memcpy d q (byteCount sz szT) (pairMalloc be sz szT h).2 = none := by
      unfold memcpy
      rw [hld, hlq, hb]
      dsimp only
      rw [if_neg (by omega)]
    unfold copyToHost copyToDevice
    rw [hd, hq, hz]
    cases be
    · exact ⟨hm1, hm2⟩
    · exact ⟨hm1, hm2⟩
    · exact absurd rfl hbe

/-- On any pair satisfying the promise, `copy_to_device` and `copy_to_host` are defined and transfer all
`sz` elements: afterwards the two blocks agree on them. -/
theorem copies_transfer (be : Backend) (hbe : be ≠ .cpu) (sz szT : Nat) (ho : sz * szT < 2 ^ 64) (p : Pair)
    (h0 h : Heap) (hp : PairOk sz szT p h0 h) :
    (∃ h', copyToDevice be szT p h = some h' ∧ ∃ d q bd bq, p.device = some d ∧ p.host = some q ∧
      h'.live d = some bd ∧ h.live q = some bq ∧ ∀ i, i < sz * szT → bd.data i = bq.data i) ∧
    (∃ h', copyToHost be szT p h = some h' ∧ ∃ d q bd bq, p.device = some d ∧ p.host = some q ∧
      h'.live q = some bq ∧ h.live d = some bd ∧ ∀ i, i < sz * szT → bq.data i = bd.data i) := by
  have hb : byteCount sz szT = sz * szT := Nat.mod_eq_of_lt ho
  obtain ⟨d, q, bd, bq, hd, hq, hz, hld, hlq, h1, h2, -⟩ := hp
  have key : ∀ x y bx bY, h.live x = some bx → h.live y = some bY → sz * szT ≤ bx.size → sz * szT ≤ bY.size →
      ∃ h', memcpy x y (byteCount sz szT) h = some h' ∧ ∃ b', h'.live x = some b' ∧
        ∀ i, i < sz * szT → b'.data i = bY.data i := by
    intro x y bx bY hx hy hx' hy'
    refine ⟨{ h with
        live := fun q =>
          if q = x then some ⟨bx.size, fun i => if i < sz * szT then bY.data i else bx.data i⟩
          else h.live q }, ?_, ?_⟩
    · unfold memcpy
      rw [hx, hy, hb]
      dsimp only
      rw [if_pos ⟨hx', hy'⟩]
    · refine ⟨⟨bx.size, fun i => if i < sz * szT then bY.data i else bx.data i⟩, if_pos rfl, fun i hi => if_pos hi⟩
  obtain ⟨hA, eA, bA, lA, cA⟩ := key d q bd bq hld hlq h1 h2
  obtain ⟨hB, eB, bB, lB, cB⟩ := key q d bq bd hlq hld h2 h1
  unfold copyToDevice copyToHost
  rw [hd, hq, hz]
  cases be
  · exact ⟨⟨hA, eA, d, q, bA, bq, rfl, rfl, lA, hlq, cA⟩, ⟨hB, eB, d, q, bd, bB, rfl, rfl, lB, hld, cB⟩⟩
  · exact ⟨⟨hA, eA, d, q, bA, bq, rfl, rfl, lA, hlq, cA⟩, ⟨hB, eB, d, q, bd, bB, rfl, rfl, lB, hld, cB⟩⟩
  · exact absurd rfl hbe

/-- `device_calloc`: a fresh block of `sz` zeroed elements, or null and no leak; which of them is decided by
the failures of the runtime calls it makes, one on the CPU and two on a GPU. -/
theorem deviceCalloc_spec (be : Backend) (sz szT : Nat) (h : Heap) (hf : Heap.Fresh h)
    (ho : sz * szT < 2 ^ 64) :
    let r := deviceCalloc be sz szT h
    let ok := !h.fails h.calls && (be = .cpu || !h.fails (h.calls + 1))
    (ok = true → ∃ d b, r.1 = some d ∧ h.live d = none ∧ r.2.live d = some b ∧ b.size = sz * szT ∧
      (∀ i, i < sz * szT → b.data i = 0) ∧ ∀ p, p ≠ d → r.2.live p = h.live p) ∧
    (ok = false → r.1 = none ∧ r.2.live = h.live) ∧
    r.2.calls = h.calls + (if be = .cpu ∨ h.fails h.calls = true then 1 else 2) := by
  have hb : byteCount sz szT = sz * szT := Nat.mod_eq_of_lt ho
  have hz : ∀ (c : Nat) (r : Nat), (zero h.next (sz * szT)
      { h with
        live := fun p => if p = h.next then some ⟨sz * szT, h.junk h.next⟩ else h.live p
        next := h.next + 1
        calls := c }).live r =
      if r = h.next then some ⟨sz * szT, fun i => if i < sz * szT then 0 else h.junk h.next i⟩
      else h.live r := by
    intro c r
    unfold zero
    dsimp only
    by_cases hr : r = h.next
    · rw [if_pos hr, if_pos hr, if_pos hr]; rfl
    · rw [if_neg hr, if_neg hr, if_neg hr]
  have good : ∀ c, ∃ d b, some h.next = some d ∧ h.live d = none ∧ (zero h.next (sz * szT)
      { h with
        live := fun p => if p = h.next then some ⟨sz * szT, h.junk h.next⟩ else h.live p
        next := h.next + 1
        calls := c }).live d = some b ∧ b.size = sz * szT ∧ (∀ i, i < sz * szT → b.data i = 0) ∧
      ∀ p, p ≠ d → (zero h.next (sz * szT)
      { h with
        live := fun p => if p = h.next then some ⟨sz * szT, h.junk h.next⟩ else h.live p
        next := h.next + 1
        calls := c }).live p = h.live p := by
    intro c
    exact ⟨h.next, _, rfl, hf _ (Nat.le_refl _), (hz c _).trans (if_pos rfl), rfl, fun i hi => if_pos hi,
      fun p hp => (hz c p).trans (if_neg hp)⟩
  have gpu : ∀ be', be' ≠ Backend.cpu → deviceCalloc be' sz szT h =
      match malloc (byteCount sz szT) h with
      | (none, h) => (none, h)
      | (some p, h) =>
        match deviceMemset p (byteCount sz szT) h with
        | (true, h) => (some p, h)
        | (false, h) => (none, free p h) := by
    intro be' hbe
    cases be'
    · rfl
    · rfl
    · exact absurd rfl hbe
  dsimp only
  by_cases hc : be = .cpu
  · subst hc
    unfold deviceCalloc
    dsimp only
    rw [hb]
    rcases malloc_cases (sz * szT) h with ⟨hf1, e⟩ | ⟨hf1, e⟩ <;> rw [e] <;> dsimp only
    · rw [hf1]
      exact ⟨fun h => (by simp at h), fun _ => ⟨rfl, rfl⟩, rfl⟩
    · rw [hf1]
      exact ⟨fun _ => good _, fun h => (by simp at h), rfl⟩
  · rw [gpu be hc, hb]
    have hcd : decide (be = .cpu) = false := decide_eq_false hc
    rcases malloc_cases (sz * szT) h with ⟨hf1, e⟩ | ⟨hf1, e⟩ <;> rw [e, hf1, hcd] <;> dsimp only
    · refine ⟨fun h => (by simp at h), fun _ => ⟨rfl, rfl⟩, ?_⟩
      rw [if_pos (Or.inr rfl)]
    · unfold deviceMemset
      dsimp only
      cases hf2 : h.fails (h.calls + 1)
      · rw [if_neg (by simp)]
        refine ⟨fun _ => good _, fun h => (by simp at h), ?_⟩
        rw [if_neg (by simp [hc])]
        rfl
      · rw [if_pos rfl]
        refine ⟨fun h => (by simp at h), fun _ => ⟨rfl, ?_⟩, ?_⟩
        · unfold free
          exact free_fresh h hf _
        · rw [if_neg (by simp [hc])]
          rfl

/-- Copies of a pair with a null pointer: nothing happens to an empty one (as left by a failed
`pair_malloc`), any other is an error. -/
theorem copies_null (be : Backend) (hbe : be ≠ .cpu) (szT : Nat) (p : Pair) (h : Heap)
    (hp : p.device = none ∨ p.host = none) :
    (p.sz = 0 → copyToDevice be szT p h = some h ∧ copyToHost be szT p h = some h) ∧
    (p.sz ≠ 0 → copyToDevice be szT p h = none ∧ copyToHost be szT p h = none) := by
  obtain ⟨d, q, sz⟩ := p
  unfold copyToDevice copyToHost
  cases be
  · cases d <;> cases q <;> simp_all
  · cases d <;> cases q <;> simp_all
  · exact absurd rfl hbe

/-- A failed `pair_malloc` on a GPU leaves such an empty pair. -/
theorem pairMalloc_gpu_null (be : Backend) (hbe : be ≠ .cpu) (sz szT : Nat) (h : Heap)
    (hn : (pairMalloc be sz szT h).1.device = none) :
    (pairMalloc be sz szT h).1.host = none ∧ (pairMalloc be sz szT h).1.sz = 0 := by
  have eq : pairMalloc be sz szT h =
      match deviceMalloc sz szT h with
      | (none, h) => (⟨none, none, 0⟩, h)
      | (some d, h) =>
        match malloc sz h with
        | (none, h) => (⟨none, none, 0⟩, free d h)
        | (some p, h) => (⟨some d, some p, sz⟩, h) := by
    cases be
    · rfl
    · rfl
    · exact absurd rfl hbe
  rw [eq] at hn ⊢
  rcases h1 : deviceMalloc sz szT h with ⟨_ | d, hh⟩
  · exact ⟨rfl, rfl⟩
  · rw [h1] at hn
    dsimp only at hn ⊢
    rcases h2 : malloc sz hh with ⟨_ | q, hh'⟩
    · exact ⟨rfl, rfl⟩
    · rw [h2] at hn
      cases hn

/-- `pair_free` after `pair_malloc` on the CPU restores the set of live blocks. -/
theorem pairFree_restores (sz szT : Nat) (h : Heap) (hf : Heap.Fresh h) :
    (pairFree (pairMalloc .cpu sz szT h).1 (pairMalloc .cpu sz szT h).2).live = h.live := by
  unfold pairMalloc deviceMalloc
  rcases malloc_cases (byteCount sz szT) h with ⟨-, e⟩ | ⟨-, e⟩
  · rw [e]; rfl
  · rw [e]
    exact free_fresh h hf _

/-- A heap with one live block, whose third call fails. Specification, not code of the repo. -/
def exHeap : Heap :=
  ⟨fun p => if p = 0 then some ⟨16, fun _ => 7⟩ else none, 1, 0, fun k => k == 2, fun _ i => BitVec.ofNat 8 i⟩

example : Heap.Fresh exHeap := by
  intro p hp
  exact if_neg (by have : 1 ≤ p := hp; omega)

example : (pairMalloc .cuda 10 4 exHeap).1.device ≠ none := by decide
example : (pairMalloc .cuda 10 4 (pairMalloc .cuda 10 4 exHeap).2).1.device = none := by decide
example : (pairMalloc .cpu 10 4 exHeap).1.host = some 1 := by decide
example : (deviceCalloc .rocm 10 4 exHeap).1 = some 1 ∧
    (deviceCalloc .rocm 10 4 (deviceCalloc .rocm 10 4 exHeap).2).1 = none := by decide

end Nsimd.Props.Alloc
