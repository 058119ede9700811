import Verif.Model.CInt

/-!
# GPU launches

The one-dimensional launches of the spmd and tet1d modules and of `nsimd_fill_dev_mem_func`: number of
blocks, index computed by each thread, guard. A launch is the list of the indices for which the body of
the kernel is executed, in the order of the blocks and threads (the hardware may use any order).
-/

namespace Nsimd.Launch

open Nsimd

/-- GPU backends: src/gpu.cpp:28, 70. -/
inductive Backend | cuda | rocm | oneapi
  deriving DecidableEq, Repr

/-- `/` of C: truncating, undefined for a zero divisor (the quotient of `INT64_MIN` by `-1` cannot
occur for the positive block sizes considered). C rule. C language rule, not code of the repo. -/
def cdiv (a b : Int) : Option Int := if b = 0 then none else some (a.tdiv b)

/-- `nsimd_kernel_param`: src/gpu.cpp:62-65 (oneAPI), 74-77 (CUDA and ROCm). `none` is undefined
behaviour. -/
def kernelParam (be : Backend) (nbItems blockSize : Int) : Option Int := do
  let s ← ITy.i64.prom (nbItems + blockSize)
  let s ← ITy.i64.prom (s - 1)
  let q ← cdiv s blockSize
  match be with
  | .oneapi => ITy.i64.prom (blockSize * q)
  | _ => some q

/-- `nsimd_kernel_param` without a GPU: src/gpu.cpp:84-87. -/
def kernelParamCpu (nbItems blockSize : Int) : Option Int := cdiv nbItems blockSize

/-- The threads of a grid, as pairs of block and thread numbers. GPU execution model.
GPU execution model, not code of the repo. -/
def threads (grid block : Nat) : List (Nat × Nat) :=
  (List.range grid).flatMap fun b => (List.range block).map fun t => (b, t)

/-- `threadIdx.x + blockIdx.x * blockDim.x`, computed in `unsigned int`:
include/nsimd/modules/spmd.hpp:66, 82, include/nsimd/modules/tet1d.hpp:69, 92,
include/nsimd/modules/memory_management.hpp:77, 129. -/
def global32 (block : Nat) (p : Nat × Nat) : BitVec 32 := BitVec.ofNat 32 (p.2 + p.1 * block)

/-- The index stored in an `int`: include/nsimd/modules/spmd.hpp:66, include/nsimd/modules/tet1d.hpp:69,
92. -/
def idxInt (block : Nat) (p : Nat × Nat) : Int := (global32 block p).toInt

/-- The index stored in a `size_t`: include/nsimd/modules/spmd.hpp:82,
include/nsimd/modules/memory_management.hpp:129. -/
def idxSize (block : Nat) (p : Nat × Nat) : Int := (global32 block p).toNat

/-- `item.get_global_id().get(0)`: include/nsimd/modules/spmd.hpp:98. SYCL numbers the work items
consecutively. -/
def idxSycl (block : Nat) (p : Nat × Nat) : Int := (BitVec.ofNat 64 (p.2 + p.1 * block)).toNat

/-- `static_cast<int>(item.get_global_id().get(0))`: include/nsimd/modules/tet1d.hpp:115. -/
def idxSyclInt (block : Nat) (p : Nat × Nat) : Int := (BitVec.ofNat 32 (p.2 + p.1 * block)).toInt

/-- All threads of a grid run `if (i < n) body(i)`: include/nsimd/modules/spmd.hpp:67,
include/nsimd/modules/tet1d.hpp:70, include/nsimd/modules/memory_management.hpp:78. -/
def run (grid block : Nat) (idx : Nat → Nat × Nat → Int) (n : Int) : List Int :=
  ((threads grid block).map (idx block)).filter fun i => decide (i < n)

/-- `spmd_launch_kernel_1d` with `n` a non-negative `nsimd_nat`: include/nsimd/modules/spmd.hpp:149-180;
kernel prologue 61-107. -/
def spmd (be : Backend) (n threadsPerBlock : Int) : Option (List Int) := do
  let param ← kernelParam be n threadsPerBlock
  match be with
  | .cuda =>
    return run (ITy.u32.cast param).toNat (ITy.u32.cast threadsPerBlock).toNat idxInt (ITy.i32.cast n).toInt
  | .rocm =>
    return run (ITy.u64.cast param).toNat (ITy.u64.cast threadsPerBlock).toNat idxSize
      (ITy.u64.cast n).toNat
  | .oneapi =>
    return run ((ITy.u64.cast param).toNat / (ITy.u64.cast threadsPerBlock).toNat)
      (ITy.u64.cast threadsPerBlock).toNat idxSycl (ITy.u64.cast n).toNat

/-- Assignment to a tet1d output node on a GPU: include/nsimd/modules/tet1d.hpp:416-450, kernels 66-72,
89-95, 112-118; `none` is a failed assertion or undefined behaviour. -/
def tet1d (be : Backend) (n threadsPerBlock : Int) : Option (List Int) := do
  let nt := if threadsPerBlock < 0 then 128 else threadsPerBlock
  let param ← kernelParam be n nt
  if ¬ (0 < nt ∧ nt ≤ ITy.u32.maxv) then none
  else if ¬ (0 < param ∧ param ≤ ITy.u32.maxv) then none
  else
    match be with
    | .oneapi => return run (param.toNat / nt.toNat) nt.toNat idxSyclInt n
    | _ => return run param.toNat nt.toNat idxInt n

/-- `func_name` of `nsimd_fill_dev_mem_func`, CUDA: include/nsimd/modules/memory_management.hpp:74-87. -/
def fillCuda (sz : BitVec 64) : List Int :=
  run ((sz + 127#64).udiv 128#64 |>.setWidth 32).toNat 128 idxInt (sz.setWidth 32).toInt

/-- The same, ROCm: include/nsimd/modules/memory_management.hpp:126-140. -/
def fillRocm (sz : BitVec 64) : List Int :=
  run ((sz + 127#64).udiv 128#64).toNat 128 idxSize sz.toNat

/-- The same on the CPU: include/nsimd/modules/memory_management.hpp:228-233. -/
def fillCpu (sz : BitVec 64) : List Int := (List.range sz.toNat).map Int.ofNat

end Nsimd.Launch
