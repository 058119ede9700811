import Verif.Model.CInt

/-!
# Memory allocation

`nsimd_aligned_alloc` and the C++ allocators on top of it, for `NSIMD_WORD_SIZE == 64`, and the pairs
of host and device blocks of the memory management module. The system allocators are not code of the
repository: they are oracles that may fail at any call and otherwise return a block of exactly the
size they were asked for.
-/

namespace Nsimd.Alloc

open Nsimd

/-! ## Aligned allocation -/

/-- Platforms distinguished by include/nsimd/nsimd.h:1332-1340. -/
inductive Platform | x86 | arm | powerpc | other
  deriving DecidableEq, Repr

/-- `NSIMD_MAX_ALIGNMENT`: include/nsimd/nsimd.h:1332-1340. -/
def maxAlignment : Platform → Nat
  | .x86 => 64
  | .arm => 256
  | .powerpc => 64
  | .other => 16

/-- A block of memory returned by the system: first address and number of bytes. Not code of the
repo. C language rule, not code of the repo. -/
structure Block where
  addr : Nat
  bytes : Nat
  deriving DecidableEq, Repr

/-- The system's `posix_memalign(&ptr, alignment, size)`: the address, or `none` when it reports an
error. Oracle, not code of the repo. -/
abbrev Os := (alignment size : Nat) → Option Nat

/-- What POSIX promises: the address is a multiple of the alignment. Specification of the oracle. -/
def Os.Aligned (os : Os) : Prop := ∀ a n p, os a n = some p → p % a = 0

/-- `nsimd_aligned_alloc`, POSIX branch: src/memory.cpp:43-54. The argument is a 64-bit `nsimd_nat`;
`(size_t)n` wraps. `none` is `NULL`. -/
def alignedAlloc (pl : Platform) (os : Os) (n : Int) : Option Block :=
  let size := (ITy.u64.cast n).toNat
  (os (maxAlignment pl) size).map fun p => ⟨p, size⟩

/-- `aligned_alloc_for<T>`, `T` of `szT` bytes: include/nsimd/nsimd.h:1452-1454. The product is a
signed one: the outer `none` is undefined behaviour, the inner one `NULL`. -/
def alignedAllocFor (pl : Platform) (os : Os) (szT : Nat) (n : Int) : Option (Option Block) := do
  let bytes ← ITy.i64.prom (n * szT)
  return alignedAlloc pl os bytes

/-- Outcome of an `allocate` member function: C++ rule, not code of the repo. -/
inductive Outcome
  | undefined
  | badAlloc
  | null
  | block (b : Block)
  deriving DecidableEq, Repr

/-- `allocator<T>::allocate` before C++11: include/nsimd/nsimd.h:1492-1494. `n` is a `size_t`, converted
to `nsimd_nat` (wraps). -/
def allocate98 (pl : Platform) (os : Os) (szT : Nat) (n : BitVec 64) : Outcome :=
  match alignedAllocFor pl os szT (ITy.i64.val (ITy.i64.cast n.toNat)) with
  | none => .undefined
  | some none => .null
  | some (some b) => .block b

/-- `allocator<T>::allocate` since C++11: include/nsimd/nsimd.h:1525-1534. -/
def allocate11 (pl : Platform) (os : Os) (szT : Nat) (n : BitVec 64) : Outcome :=
  if n.toNat > (2 ^ 64 - 1) / szT then .badAlloc
  else
    match alignedAllocFor pl os szT (ITy.i64.val (ITy.i64.cast n.toNat)) with
    | none => .undefined
    | some none => .badAlloc
    | some (some b) => .block b

/-! ## Pairs of host and device blocks -/

/-- Backends of the module: include/nsimd/modules/memory_management.hpp:38-236. oneAPI is not
modelled (its allocation calls take element counts). -/
inductive Backend | cuda | rocm | cpu
  deriving DecidableEq, Repr

/-- Contents of a block. Not code of the repo. -/
structure Bytes where
  size : Nat
  data : Nat → BitVec 8

/-- Live blocks by pointer, the number of the next allocation, and the oracles: does call `k` fail,
and which bytes does a fresh block hold. Not code of the repo. -/
structure Heap where
  live : Nat → Option Bytes
  next : Nat
  calls : Nat
  fails : Nat → Bool
  junk : Nat → Nat → BitVec 8

/-- `malloc`, `cudaMalloc`, `hipMalloc`. Not code of the repo. -/
def malloc (bytes : Nat) (h : Heap) : Option Nat × Heap :=
  if h.fails h.calls then (none, { h with calls := h.calls + 1 })
  else (some h.next,
    { h with
      live := fun p => if p = h.next then some ⟨bytes, h.junk h.next⟩ else h.live p
      next := h.next + 1
      calls := h.calls + 1 })

/-- `free`, `cudaFree`, `hipFree`. Not code of the repo. -/
def free (p : Nat) (h : Heap) : Heap :=
  { h with live := fun q => if q = p then none else h.live q }

/-- `memset(p, 0, bytes)` within one block. Not code of the repo. -/
def zero (p bytes : Nat) (h : Heap) : Heap :=
  { h with
    live := fun q =>
      if q = p then (h.live q).map fun b => ⟨b.size, fun i => if i < bytes then 0 else b.data i⟩
      else h.live q }

/-- `cudaMemset`, `hipMemset`: may fail. Not code of the repo. -/
def deviceMemset (p bytes : Nat) (h : Heap) : Bool × Heap :=
  if h.fails h.calls then (false, { h with calls := h.calls + 1 })
  else (true, zero p bytes { h with calls := h.calls + 1 })

/-- `sz * sizeof(T)` in `size_t`: include/nsimd/modules/memory_management.hpp:42, 95, 208. -/
def byteCount (sz szT : Nat) : Nat := sz * szT % 2 ^ 64

/-- `device_malloc<T>`: include/nsimd/modules/memory_management.hpp:40-46, 93-99, 207-209. -/
def deviceMalloc (sz szT : Nat) (h : Heap) : Option Nat × Heap := malloc (byteCount sz szT) h

/-- `device_calloc<T>`: include/nsimd/modules/memory_management.hpp:48-58, 101-111, 211-213. -/
def deviceCalloc (be : Backend) (sz szT : Nat) (h : Heap) : Option Nat × Heap :=
  match be with
  | .cpu =>
    match malloc (byteCount sz szT) h with
    | (none, h) => (none, h)
    | (some p, h) => (some p, zero p (byteCount sz szT) h)
  | _ =>
    match malloc (byteCount sz szT) h with
    | (none, h) => (none, h)
    | (some p, h) =>
      match deviceMemset p (byteCount sz szT) h with
      | (true, h) => (some p, h)
      | (false, h) => (none, free p h)

/-- `paired_pointers_t<T>`: include/nsimd/modules/memory_management.hpp:239-243. -/
structure Pair where
  device : Option Nat
  host : Option Nat
  sz : Nat

/-- `pair_malloc<T>`: include/nsimd/modules/memory_management.hpp:245-266. -/
def pairMalloc (be : Backend) (sz szT : Nat) (h : Heap) : Pair × Heap :=
  match be with
  | .cpu =>
    match deviceMalloc sz szT h with
    | (d, h) => (⟨d, d, sz⟩, h)
  | _ =>
    match deviceMalloc sz szT h with
    | (none, h) => (⟨none, none, 0⟩, h)
    | (some d, h) =>
      match malloc sz h with
      | (none, h) => (⟨none, none, 0⟩, free d h)
      | (some p, h) => (⟨some d, some p, sz⟩, h)

/-- `pair_calloc<T>`, CPU branch: include/nsimd/modules/memory_management.hpp:278-299. The GPU branch
assigns a `void *` to a `T *`, which is not valid C++, so there is nothing to model. -/
def pairCalloc (sz szT : Nat) (h : Heap) : Pair × Heap :=
  match deviceCalloc .cpu sz szT h with
  | (d, h) => (⟨d, d, sz⟩, h)

/-- `pair_free<T>`, CPU branch: include/nsimd/modules/memory_management.hpp:311-318. The GPU branch
names a member that does not exist. -/
def pairFree (p : Pair) (h : Heap) : Heap :=
  match p.host with
  | none => h
  | some q => free q h

/-- `memcpy`, `cudaMemcpy`, `hipMemcpy` of a prefix of one block to another: `none` is undefined
behaviour. Not code of the repo. -/
def memcpy (dst src bytes : Nat) (h : Heap) : Option Heap :=
  match h.live dst, h.live src with
  | some d, some s =>
    if bytes ≤ d.size ∧ bytes ≤ s.size then
      some { h with
        live := fun q =>
          if q = dst then some ⟨d.size, fun i => if i < bytes then s.data i else d.data i⟩
          else h.live q }
    else none
  | _, _ => none

/-- `copy_to_device(paired_pointers_t<T>)`: include/nsimd/modules/memory_management.hpp:320-326, with
62-66, 115-119. The CPU branch does nothing. -/
def copyToDevice (be : Backend) (szT : Nat) (p : Pair) (h : Heap) : Option Heap :=
  match be, p.device, p.host with
  | .cpu, _, _ => some h
  | _, some d, some q => memcpy d q (byteCount p.sz szT) h
  | _, _, _ => if p.sz = 0 then some h else none

/-- `copy_to_host(paired_pointers_t<T>)`: include/nsimd/modules/memory_management.hpp:328-334, with
68-72, 121-124. -/
def copyToHost (be : Backend) (szT : Nat) (p : Pair) (h : Heap) : Option Heap :=
  match be, p.device, p.host with
  | .cpu, _, _ => some h
  | _, some d, some q => memcpy q d (byteCount p.sz szT) h
  | _, _, _ => if p.sz = 0 then some h else none

end Nsimd.Alloc
