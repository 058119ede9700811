import Verif.Model.CInt

/-!
# The SPMD module on CPU: include/nsimd/modules/spmd.hpp:310-714

Kernels are built from the `k_` macros; the model follows the C++ scopes the macros open and
close.  A lane owns its variables and the elements `base[spmd_i_ + lane]` of each array, which
are the only ones the macros can access.

Simplifications: right-hand sides and conditions are arbitrary total functions of the state of
the lane (vector expressions are lane-wise, see Verif/Props/CpuLane.lean; undefined behaviour of
expressions is not modelled, nor `k_load` inside larger expressions and conditions); the
`k_unmasked_` macros are not modelled.
-/

namespace Nsimd.Spmd

/-- What one lane sees: `k_int`/`k_float` variables, `k_bool` variables, and its element of each
array. Types: include/nsimd/modules/spmd.hpp:411-477. -/
structure Lane (V : Type) where
  num : Nat → V
  log : Nat → Bool
  cell : Nat → V

/-- Kernel text. Index `false`: statements; index `true`: what follows the first block of a
`k_if`, i.e. a chain of `k_elseif`, an optional `k_else` and the `k_endif`. Macros:
include/nsimd/modules/spmd.hpp:481-489, 609, 637-714; `call` is `spmd_call_dev_func` (360-362) of a
`void` device function. -/
inductive Stmt (V : Type) : Bool → Type
  | skip : Stmt V false
  | set (x : Nat) (e : Lane V → V) : Stmt V false
  | setl (x : Nat) (e : Lane V → Bool) : Stmt V false
  | store (a : Nat) (e : Lane V → V) : Stmt V false
  | load (x a : Nat) : Stmt V false
  | seq : Stmt V false → Stmt V false → Stmt V false
  | ifs (c : Lane V → Bool) : Stmt V false → Stmt V true → Stmt V false
  | elif (c : Lane V → Bool) : Stmt V false → Stmt V true → Stmt V true
  | els : Stmt V false → Stmt V true
  | endif : Stmt V true
  | whil (c : Lane V → Bool) : Stmt V false → Stmt V false
  | brk : Stmt V false
  | cont : Stmt V false
  | ret : Stmt V false
  | call : Stmt V false → Stmt V false

/-- A `k_bool`: include/nsimd/modules/spmd.hpp:411-477. -/
abbrev Mask (n : Nat) := Fin n → Bool

/-- `clear_lanes`: include/nsimd/modules/spmd.hpp:565-573. -/
def clearLanes {n : Nat} (mask lanes : Mask n) : Mask n := fun l => mask l && !lanes l

/-- `any`: include/nsimd/modules/spmd.hpp:615-618, 634. -/
def any {n : Nat} (a : Mask n) : Bool := (List.finRange n).any a

/-- State of a running kernel: the lanes, and the variables `spmd_mask_`,
`spmd_off_lanes_break_`, `spmd_off_lanes_continue_`, `spmd_off_lanes_return_` that are in scope.
include/nsimd/modules/spmd.hpp:317-325. -/
structure St (V : Type) (n : Nat) where
  lanes : Fin n → Lane V
  mask : Mask n
  offB : Mask n
  offC : Mask n
  offR : Mask n

variable {V : Type} {n : Nat}

/-- Assignment to a variable. C rule. Not code of the repo. -/
def Lane.setNum (s : Lane V) (x : Nat) (v : V) : Lane V :=
  { s with num := fun y => if y = x then v else s.num y }
/-- Assignment to a `k_bool` variable. C rule. Not code of the repo. -/
def Lane.setLog (s : Lane V) (x : Nat) (v : Bool) : Lane V :=
  { s with log := fun y => if y = x then v else s.log y }
/-- Write of the element of array `a`. C rule. Not code of the repo. -/
def Lane.setCell (s : Lane V) (a : Nat) (v : V) : Lane V :=
  { s with cell := fun y => if y = a then v else s.cell y }

/-- The three `clear_lanes` on `spmd_mask_` in `k_elseif`, `k_else` and `k_endif`:
include/nsimd/modules/spmd.hpp:689-691, 701-703, 712-714. -/
def clearOff (st : St V n) : Mask n :=
  clearLanes (clearLanes (clearLanes st.mask st.offR) st.offB) st.offC

/-- `while (spmd::any(cond)) { ... }` of `k_while`, `body` being the user's code, started with the
mask computed at the top of each iteration: include/nsimd/modules/spmd.hpp:645-652. `mid` is
`spmd_middle_mask_`. At most `fuel` iterations. -/
def whileLoop (c : Lane V → Bool) (body : St V n → Option (St V n)) (mid : Mask n) :
    Nat → St V n → Option (St V n)
  | 0, _ => none
  | fuel + 1, st =>
    if any (fun l => c (st.lanes l)) then
      (body { st with mask := clearLanes (clearLanes
        (fun l => c (st.lanes l) && mid l) st.offB) st.offR }).bind
        fun st => whileLoop c body mid fuel st
    else some st

/-- Replacement of the lanes. Notation. Not code of the repo. -/
def St.on (st : St V n) (f : Mask n → (Fin n → Lane V) → Fin n → Lane V) : St V n :=
  { st with lanes := f st.mask st.lanes }

/-- `k_set` on a `pack`: `var = if_else(mask, value, var)`. include/nsimd/modules/spmd.hpp:581-592;
`if (mask) var = value` in a scalar kernel, 576-580, has the same effect. -/
def setNum (x : Nat) (e : Lane V → V) (mask : Mask n) (s : Fin n → Lane V) : Fin n → Lane V :=
  fun l => (s l).setNum x (if mask l then e (s l) else (s l).num x)

/-- `k_set` on a `packl`: `var = mask && value`, include/nsimd/modules/spmd.hpp:594-607; on a `bool`
in a scalar kernel: `if (mask) var = value`, 576-580. -/
def setLog (scalar : Bool) (x : Nat) (e : Lane V → Bool) (mask : Mask n) (s : Fin n → Lane V) :
    Fin n → Lane V :=
  fun l => (s l).setLog x
    (if scalar then (if mask l then e (s l) else (s l).log x) else mask l && e (s l))

/-- `k_store`: masked store, include/nsimd/modules/spmd.hpp:481-483, 501-505, 523-535. -/
def storeCell (a : Nat) (e : Lane V → V) (mask : Mask n) (s : Fin n → Lane V) : Fin n → Lane V :=
  fun l => if mask l then (s l).setCell a (e (s l)) else s l

/-- `k_load`: `maskz_loadu`, include/nsimd/modules/spmd.hpp:488-489, 515-522, 548-553. -/
def loadCell (z : V) (a : Nat) (mask : Mask n) (s : Fin n → Lane V) : Fin n → V :=
  fun l => if mask l then (s l).cell a else z

/-- `k_set(x, k_load(a))`: include/nsimd/modules/spmd.hpp:488-489, 581-592. -/
def loadNum (z : V) (x a : Nat) (mask : Mask n) (s : Fin n → Lane V) : Fin n → Lane V :=
  fun l => (s l).setNum x (if mask l then loadCell z a mask s l else (s l).num x)

/-- Execution of a kernel text. `scalar`: is it `KernelScalar`, i.e. masks are `bool`, one lane.
`F` bounds the number of iterations of each loop, `none` means that a loop needs more. `cond` and
`mid` are the variables `spmd_cond_` and `spmd_middle_mask_` of the enclosing `k_if`, used by chains
only. `z` is zero. Citations of the macros beside each case, all in
include/nsimd/modules/spmd.hpp:609-714. -/
def exec (z : V) (scalar : Bool) (F : Nat) :
    {b : Bool} → Stmt V b → (cond mid : Mask n) → St V n → Option (St V n)
  | _, .skip, _, _, st => some st
  | _, .set x e, _, _, st => some (st.on (setNum x e))
  | _, .setl x e, _, _, st => some (st.on (setLog scalar x e))
  | _, .store a e, _, _, st => some (st.on (storeCell a e))
  | _, .load x a, _, _, st => some (st.on (loadNum z x a))
  | _, .seq s t, cond, mid, st => (exec z scalar F s cond mid st).bind fun st => exec z scalar F t cond mid st
  -- k_if, spmd.hpp:678-684
  | _, .ifs c s t, _, _, st =>
    let cond : Mask n := fun l => c (st.lanes l)
    let mid := st.mask
    (exec z scalar F s cond mid { st with mask := fun l => cond l && mid l }).bind fun st1 =>
      exec z scalar F t cond mid { st1 with mask := st.mask }
  -- k_elseif, spmd.hpp:687-696
  | _, .elif c s t, cond, mid, st =>
    let mask := clearOff st
    let mid := clearLanes mid cond
    let cond : Mask n := fun l => c (st.lanes l)
    (exec z scalar F s cond mid { st with mask := fun l => cond l && mid l }).bind fun st1 =>
      exec z scalar F t cond mid { st1 with mask := mask }
  -- k_else ... k_endif, spmd.hpp:699-707, 709-714
  | _, .els s, cond, mid, st =>
    let mask := clearOff st
    let mid := clearLanes mid cond
    (exec z scalar F s cond mid { st with mask := mid }).bind fun st1 =>
      some { st1 with mask := clearOff { st1 with mask := mask } }
  -- k_endif, spmd.hpp:709-714
  | _, .endif, _, _, st => some { st with mask := clearOff st }
  -- k_while ... k_endwhile, spmd.hpp:637-652, 665-670
  | _, .whil c s, cond, _, st =>
    (whileLoop c (exec z scalar F s cond st.mask) st.mask F
      { st with offB := fun _ => false, offC := fun _ => false }).bind fun st1 =>
      some { st1 with mask := clearLanes st.mask st1.offR, offB := st.offB, offC := st.offC }
  -- k_break, spmd.hpp:655-657
  | _, .brk, _, _, st => some { st with offB := fun l => st.offB l || st.mask l, mask := fun _ => false }
  -- k_continue, spmd.hpp:660-662
  | _, .cont, _, _, st => some { st with offC := fun l => st.offC l || st.mask l, mask := fun _ => false }
  -- k_return, spmd.hpp:673-675
  | _, .ret, _, _, st => some { st with offR := fun l => st.offR l || st.mask l, mask := fun _ => false }
  -- spmd_call_dev_func: the mask is passed by value, spmd.hpp:317-325, 343-362
  | _, .call s, _, _, st =>
    (exec z scalar F s (fun _ => false) (fun _ => false)
      { st with offB := fun _ => false, offC := fun _ => false, offR := fun _ => false }).bind fun st1 =>
      some { st1 with mask := st.mask, offB := st.offB, offC := st.offC, offR := st.offR }

/-- A kernel called on a block of `n` lanes with mask `true`: include/nsimd/modules/spmd.hpp:317-332,
373-374, 384-385. -/
def kernel (z : V) (scalar : Bool) (F : Nat) (p : Stmt V false) (lanes : Fin n → Lane V) : Option (Fin n → Lane V) :=
  (exec z scalar F p (fun _ => false) (fun _ => false)
    ⟨lanes, fun _ => true, fun _ => false, fun _ => false, fun _ => false⟩).map St.lanes

/-- One call made by `spmd_launch_kernel_1d`: first index, number of lanes, scalar or SIMD kernel.
include/nsimd/modules/spmd.hpp:380-381, 384-385. -/
structure Block where
  base : Int
  lanes : Nat
  scalar : Bool
  deriving Repr, DecidableEq

/-- First loop of `spmd_launch_kernel_1d`, from index `i`; returns the calls and the index after the
loop. include/nsimd/modules/spmd.hpp:379-382. `spmd_i_ + len` is computed with type `nsimd_nat`. -/
def launchSimd (len : Nat) (N : Int) : Nat → Int → Option (List Block × Int)
  | 0, _ => none
  | fuel + 1, i =>
    (ITy.i64.prom (i + len)).bind fun s =>
    if s ≤ N then (launchSimd len N fuel s).map fun r => (⟨i, len, false⟩ :: r.1, r.2)
    else some ([], i)

/-- Second loop of `spmd_launch_kernel_1d`: include/nsimd/modules/spmd.hpp:383-386. -/
def launchScalar (N : Int) : Nat → Int → Option (List Block)
  | 0, _ => none
  | fuel + 1, i =>
    if i < N then (ITy.i64.prom (i + 1)).bind fun s =>
      (launchScalar N fuel s).map fun r => ⟨i, 1, true⟩ :: r
    else some []

/-- Calls made by `spmd_launch_kernel_1d`, in order: include/nsimd/modules/spmd.hpp:370-387. -/
def launch (len : Nat) (N : Int) : Option (List Block) :=
  (launchSimd len N (N.toNat + 1) 0).bind fun r =>
    (launchScalar N (N.toNat + 1) r.2).map fun q => r.1 ++ q

/-- Effect of one call on the arrays: `mem i` are the elements number `i` of all arrays. The
variables of the kernel start with the values in `vars` (not initialised in C++, hence arbitrary).
include/nsimd/modules/spmd.hpp:327-332, 380-381, 384-385. -/
def runBlock (z : V) (F : Nat) (p : Stmt V false) (vars : Int → Lane V) (mem : Int → Nat → V)
    (b : Block) : Option (Int → Nat → V) :=
  (kernel z b.scalar F p (fun l : Fin b.lanes =>
      { vars (b.base + (l : Nat)) with cell := mem (b.base + (l : Nat)) })).map
    fun lanes i => if h : b.base ≤ i ∧ (i - b.base).toNat < b.lanes then
      (lanes ⟨(i - b.base).toNat, h.2⟩).cell else mem i

/-- The calls one after the other: include/nsimd/modules/spmd.hpp:379-386. -/
def runBlocks (z : V) (F : Nat) (p : Stmt V false) (vars : Int → Lane V) :
    List Block → (Int → Nat → V) → Option (Int → Nat → V)
  | [], mem => some mem
  | b :: bs, mem => (runBlock z F p vars mem b).bind fun mem => runBlocks z F p vars bs mem

/-- `spmd_launch_kernel_1d`: include/nsimd/modules/spmd.hpp:370-387. -/
def launchKernel (z : V) (F : Nat) (p : Stmt V false) (vars : Int → Lane V) (len : Nat) (N : Int)
    (mem : Int → Nat → V) : Option (Int → Nat → V) :=
  (launch len N).bind fun bs => runBlocks z F p vars bs mem

end Nsimd.Spmd
