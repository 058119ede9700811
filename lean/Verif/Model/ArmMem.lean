import Verif.Model.Ppc
import Verif.Model.X86Mem
import Mathlib.Data.Fin.VecNotation

/-!
# Memory and permutation operators of the ARM back end (egg/platform_arm.py)

`M` is the type of an element in memory and `α` the type of a lane (they differ for f16 when the
hardware has no f16 arithmetic: lanes are f32, `Elem` converts).  A `vf16` without
`NSIMD_ARM_FP16` is the pair `(v0, v1)` of two f32 registers; a `vf64` of neon128 is the struct
`{ v0, v1 }` seen as a vector of two lanes.  SVE predicates are `Fin n → Bool`, one value per lane
(the bits of a predicate that are not the first of a lane are ignored by the instructions).
-/

namespace Nsimd.Arm
open Nsimd.X86 (Reg cat halves maskozLoadBuf maskStoreBuf scatterBuf maskScatterBuf gatherBuf
  maskozGatherBuf scatterLinearBuf gatherLinearBuf)
open Nsimd.Cpu (Vec Mem Elem body write stores)

variable {n w : Nat} {M α : Type}

/-! ### Instructions -/

/-- `vld1q(p)`: `n` consecutive elements. NEON intrinsics semantics, not code of the repo. -/
def vld1 (n : Nat) (m : Mem M) (p : Int) : Option (Vec n M) := body fun i => m (p + (i : Nat))

/-- `vst1q(p, v)`. NEON intrinsics semantics, not code of the repo. -/
def vst1 (m : Mem M) (p : Int) (v : Vec n M) : Option (Mem M) :=
  stores (List.finRange n) (fun i => some (p + (i : Nat), v i)) m

/-- `vldNq(p)`: lane `i` of `val[j]` is the element `N * i + j`. NEON intrinsics semantics, not
code of the repo. -/
def vldN (deg n : Nat) (m : Mem M) (p : Int) : Option (Vec deg (Vec n M)) :=
  body fun j => body fun i => m (p + (deg * i + j : Nat))

/-- `vstNq(p, val)`: element `N * i + j` becomes lane `i` of `val[j]`. NEON intrinsics semantics,
not code of the repo. -/
def vstN {deg : Nat} (m : Mem M) (p : Int) (v : Vec deg (Vec n M)) : Option (Mem M) :=
  stores ((List.finRange n).flatMap fun i => (List.finRange deg).map fun j =>
    (p + (deg * i.val + j.val : Nat), v j i)) some m

/-- `svld1(pg, p)`: inactive lanes are not accessed and read as zero. SVE semantics, not code of
the repo. -/
def svld1 (pg : Fin n → Bool) (z : M) (m : Mem M) (p : Int) : Option (Vec n M) :=
  body fun i => if pg i then m (p + (i : Nat)) else some z

/-- `svst1(pg, p, v)`: inactive lanes are not accessed. SVE semantics, not code of the repo. -/
def svst1 (pg : Fin n → Bool) (m : Mem M) (p : Int) (v : Vec n M) : Option (Mem M) :=
  stores (List.finRange n) (fun i => if pg i then some (p + (i : Nat), v i) else none) m

/-- `svldN(pg, p)`. SVE semantics, not code of the repo. -/
def svldN (deg : Nat) (pg : Fin n → Bool) (z : M) (m : Mem M) (p : Int) :
    Option (Vec deg (Vec n M)) :=
  body fun j => body fun i => if pg i then m (p + (deg * i + j : Nat)) else some z

/-- `svstN(pg, p, val)`. SVE semantics, not code of the repo. -/
def svstN {deg : Nat} (pg : Fin n → Bool) (m : Mem M) (p : Int) (v : Vec deg (Vec n M)) :
    Option (Mem M) :=
  stores ((List.finRange n).flatMap fun i => (List.finRange deg).map fun j => (i, j))
    (fun ij => if pg ij.1 then some (p + (deg * ij.1.val + ij.2.val : Nat), v ij.2 ij.1) else none) m

/-- `svsel(pg, a, b)`. SVE semantics, not code of the repo. -/
def svsel (pg : Fin n → Bool) (a b : Vec n α) : Vec n α := fun i => if pg i then a i else b i

/-- `svld1_gather_sNindex(pg, p, off)`: the offsets are sign extended; inactive lanes read as zero.
SVE semantics, not code of the repo. -/
def svld1Gather (pg : Fin n → Bool) (z : M) (m : Mem M) (p : Int) (off : Reg n w) :
    Option (Vec n M) :=
  body fun i => if pg i then m (p + (off i).toInt) else some z

/-- `svst1_scatter_sNindex(pg, p, off, v)`: the lanes are written in increasing order. SVE
semantics, not code of the repo. -/
def svst1Scatter (pg : Fin n → Bool) (m : Mem M) (p : Int) (off : Reg n w) (v : Vec n M) :
    Option (Mem M) :=
  stores (List.finRange n) (fun i => if pg i then some (p + (off i).toInt, v i) else none) m

/-- `svindex(base, step)`. SVE semantics, not code of the repo. -/
def svindex (n : Nat) (base step : BitVec w) : Reg n w := fun i => base + BitVec.ofNat w i * step

/-- A predicate all true: `svptrue`, `{svtrue}` of egg/platform_arm.py:2685. -/
def svtrue (n : Nat) : Fin n → Bool := fun _ => true

/-- A local array of `n` elements holding `v`. C semantics, not code of the repo. -/
def localArray (v : Vec n M) : Mem M := fun a =>
  if h : 0 ≤ a ∧ a < n then some (v ⟨a.toNat, by omega⟩) else none

/-! ### Loads (egg/platform_arm.py:442-537) -/

/-- `load1` of NEON, f16 without hardware support: two buffers of four converted elements,
egg/platform_arm.py:447-466. -/
def loadF16 (e : Elem M α) (m : Mem M) (p : Int) : Option (Vec 4 α × Vec 4 α) := do
  let b0 ← (m p).bind e.dec
  let b1 ← (m (p + 1)).bind e.dec
  let b2 ← (m (p + 2)).bind e.dec
  let b3 ← (m (p + 3)).bind e.dec
  let b4 ← (m (p + 4)).bind e.dec
  let b5 ← (m (p + 5)).bind e.dec
  let b6 ← (m (p + 6)).bind e.dec
  let b7 ← (m (p + 7)).bind e.dec
  return (![b0, b1, b2, b3], ![b4, b5, b6, b7])

/-- `load1` of neon128, f64: egg/platform_arm.py:467-472. -/
def loadF64 (m : Mem M) (p : Int) : Option (Vec 2 M) := do
  let v0 ← m p
  let v1 ← m (p + 1)
  return ![v0, v1]

/-- `load1` of the other types of NEON: egg/platform_arm.py:445-446, 473-474. -/
def load (n : Nat) (m : Mem M) (p : Int) : Option (Vec n M) := vld1 n m p

/-- `loadN` of NEON: egg/platform_arm.py:476-483, 518-519. -/
def loadDeg (deg n : Nat) (m : Mem M) (p : Int) : Option (Vec deg (Vec n M)) :=
  (vldN deg n m p).map fun buf => fun i => buf i

/-- `loadN` of NEON, f16: the registers of `vldNq_u16` go through a buffer and `loadu`,
egg/platform_arm.py:484-498. -/
def loadDegF16 (deg : Nat) (e : Elem M α) (m : Mem M) (p : Int) :
    Option (Vec deg (Vec 4 α × Vec 4 α)) :=
  (vldN deg 8 m p).bind fun temp => body fun i => loadF16 e (localArray (temp i)) 0

/-- `loadN` of neon128, f64: egg/platform_arm.py:499-507. -/
def loadDegF64 (deg : Nat) (m : Mem M) (p : Int) : Option (Vec deg (Vec 2 M)) := do
  let v0 ← body fun i : Fin deg => m (p + (i : Nat))
  let v1 ← body fun i : Fin deg => m (p + (i + deg : Nat))
  return fun i => ![v0 i, v1 i]

/-- `loadN` of neon128, i64 and u64: egg/platform_arm.py:508-517. -/
def loadDegI64 (deg : Nat) (m : Mem M) (p : Int) : Option (Vec deg (Vec 2 M)) :=
  body fun i => do
    let b0 ← m (p + (i : Nat))
    let b1 ← m (p + (i + deg : Nat))
    vld1 2 (localArray ![b0, b1]) 0

/-- `load1` of SVE: egg/platform_arm.py:521-523. -/
def loadSve (z : M) (n : Nat) (m : Mem M) (p : Int) : Option (Vec n M) := svld1 (svtrue n) z m p

/-- `loadN` of SVE: egg/platform_arm.py:524-534. -/
def loadDegSve (z : M) (deg n : Nat) (m : Mem M) (p : Int) : Option (Vec deg (Vec n M)) :=
  (svldN deg (svtrue n) z m p).map fun buf => fun i => buf i

/-! ### Stores (egg/platform_arm.py:607-698) -/

/-- `store1` of NEON, f16 without hardware support: egg/platform_arm.py:612-628. -/
def storeF16 (e : Elem M α) (m : Mem M) (p : Int) (v : Vec 4 α × Vec 4 α) : Option (Mem M) := do
  let m ← write m p (e.enc (v.1 0))
  let m ← write m (p + 1) (e.enc (v.1 1))
  let m ← write m (p + 2) (e.enc (v.1 2))
  let m ← write m (p + 3) (e.enc (v.1 3))
  let m ← write m (p + 4) (e.enc (v.2 0))
  let m ← write m (p + 5) (e.enc (v.2 1))
  let m ← write m (p + 6) (e.enc (v.2 2))
  write m (p + 7) (e.enc (v.2 3))

/-- `store1` of neon128, f64: egg/platform_arm.py:629-632. -/
def storeF64 (m : Mem M) (p : Int) (v : Vec 2 M) : Option (Mem M) := do
  let m ← write m p (v 0)
  write m (p + 1) (v 1)

/-- `store1` of the other types of NEON: egg/platform_arm.py:610-611, 633-634. -/
def store (m : Mem M) (p : Int) (v : Vec n M) : Option (Mem M) := vst1 m p v

/-- `storeN` of NEON: egg/platform_arm.py:636-644. -/
def storeDeg {deg : Nat} (m : Mem M) (p : Int) (v : Vec deg (Vec n M)) : Option (Mem M) :=
  vstN m p fun i => v i

/-- `storeN` of NEON, f16 without hardware support: each register goes through `storeu` into a
buffer (whose content `junk` is left over from the previous register) and `vld1q_u16`,
egg/platform_arm.py:645-663. -/
def storeDegF16 {deg : Nat} (e : Elem M α) (junk : Vec deg (Vec 8 M)) (m : Mem M) (p : Int)
    (v : Vec deg (Vec 4 α × Vec 4 α)) : Option (Mem M) :=
  (body fun i => (storeF16 e (localArray (junk i)) 0 (v i)).bind fun b => vld1 8 b 0).bind
    fun temp => vstN m p temp

/-- `storeN` of neon128, f64: all the `v0`, then all the `v1`, egg/platform_arm.py:664-671. -/
def storeDegF64 {deg : Nat} (m : Mem M) (p : Int) (v : Vec deg (Vec 2 M)) : Option (Mem M) :=
  stores ((List.finRange deg).map (fun i => (p + (i.val : Nat), v i 0)) ++
    (List.finRange deg).map (fun i => (p + (i.val + deg : Nat), v i 1))) some m

/-- `storeN` of neon128, i64 and u64: register by register, through the local array `buf` of
`2 * deg` elements, egg/platform_arm.py:672-683. -/
def storeDegI64 {deg : Nat} (m : Mem M) (p : Int) (v : Vec deg (Vec 2 M)) : Option (Mem M) :=
  let buf : Fin (deg * 2) → M := fun k => v ⟨k / 2, by omega⟩ ⟨k % 2, by omega⟩
  stores ((List.finRange deg).flatMap fun i : Fin deg =>
    [(p + (i.val : Nat), buf ⟨i * 2, by omega⟩), (p + (i.val + deg : Nat), buf ⟨i * 2 + 1, by omega⟩)])
    some m

/-- `store1` of SVE: egg/platform_arm.py:686-688. -/
def storeSve (m : Mem M) (p : Int) (v : Vec n M) : Option (Mem M) := svst1 (svtrue n) m p v

/-- `storeN` of SVE: egg/platform_arm.py:689-698. -/
def storeDegSve {deg : Nat} (m : Mem M) (p : Int) (v : Vec deg (Vec n M)) : Option (Mem M) :=
  svstN (svtrue n) m p fun i => v i

/-! ### Masked loads and stores (egg/platform_arm.py:539-602, 703-745) -/

/-- `if (mask[i])` where `mask` holds a NEON logical register (or the struct of neon128 f64):
egg/platform_arm.py:547, 568, 589, 707, 720, 737, 2446, 2622. -/
def condNeon (l : Reg n w) : Fin n → Bool := fun i => l i != 0#w

/-- `if (mask[i])` where `mask` holds `svsel(in0, svdup(t), svdup(0))` with `t` = -1 (gathers) or 1
(scatters): egg/platform_arm.py:2419-2423, 2606-2609. -/
def condSve (t : BitVec w) (pg : Fin n → Bool) : Fin n → Bool := fun i =>
  svsel pg (fun _ => t) (fun _ => 0#w) i != 0#w

/-- `maskoz_load` of SVE: egg/platform_arm.py:540-544. `o` is `in2` or zeros. -/
def maskozLoadSve (z : M) (pg : Fin n → Bool) (m : Mem M) (p : Int) (o : Vec n M) :
    Option (Vec n M) :=
  (svld1 pg z m p).map fun v => svsel pg v o

/-- `maskoz_load` of neon128, f64: egg/platform_arm.py:545-560. -/
def maskozLoadF64 (l : Reg 2 64) (m : Mem M) (p : Int) (o : Vec 2 M) : Option (Vec 2 M) := do
  let v0 ← (if l 0 != 0#64 then m p else some (o 0) : Option M)
  let v1 ← (if l 1 != 0#64 then m (p + 1) else some (o 1) : Option M)
  return ![v0, v1]

/-- `maskoz_load` of NEON: egg/platform_arm.py:562-575. -/
def maskozLoad (e : Elem M α) (l : Reg n w) (m : Mem M) (p : Int) (o : Vec n α) :
    Option (Vec n α) :=
  maskozLoadBuf e (condNeon l) m p o

/-- `maskoz_load` of NEON, f16 without hardware support: egg/platform_arm.py:576-601. -/
def maskozLoadF16 (e : Elem M α) (l0 l1 : Reg n 32) (m : Mem M) (p : Int) (o0 o1 : Vec n α) :
    Option (Vec n α × Vec n α) :=
  (maskozLoadBuf e (cat (condNeon l0) (condNeon l1)) m p (cat o0 o1)).map halves

/-- `mask_store` of SVE: egg/platform_arm.py:704-705. -/
def maskStoreSve (pg : Fin n → Bool) (m : Mem M) (p : Int) (v : Vec n M) : Option (Mem M) :=
  svst1 pg m p v

/-- `mask_store` of neon128, f64: egg/platform_arm.py:706-712. -/
def maskStoreF64 (l : Reg 2 64) (m : Mem M) (p : Int) (v : Vec 2 M) : Option (Mem M) := do
  let m ← (if l 0 != 0#64 then write m p (v 0) else some m : Option (Mem M))
  if l 1 != 0#64 then write m (p + 1) (v 1) else some m

/-- `mask_store` of NEON: egg/platform_arm.py:714-724. -/
def maskStore (e : Elem M α) (l : Reg n w) (m : Mem M) (p : Int) (v : Vec n α) : Option (Mem M) :=
  maskStoreBuf e (condNeon l) m p v

/-- `mask_store` of NEON, f16 without hardware support: egg/platform_arm.py:724-741. -/
def maskStoreF16 (e : Elem M α) (l0 l1 : Reg n 32) (m : Mem M) (p : Int) (v0 v1 : Vec n α) :
    Option (Mem M) :=
  maskStoreBuf e (cat (condNeon l0) (condNeon l1)) m p (cat v0 v1)

/-! ### Gathers (egg/platform_arm.py:2307-2508) -/

/-- `gather` of NEON: `vdupq` of the first element then `vsetq_lane` for the others,
egg/platform_arm.py:2321-2329.  `Ppc.fromLanes` is that sequence of statements. -/
def gather (m : Mem M) (p : Int) (off : Reg (n + 1) w) : Option (Vec (n + 1) M) :=
  Ppc.fromLanes fun i => m (p + (off i).toInt)

/-- `gather` of NEON, f16 without hardware support: egg/platform_arm.py:2333-2348. -/
def gatherF16 (e : Elem M α) (m : Mem M) (p : Int) (off : Reg (n + n) 16) :
    Option (Vec n α × Vec n α) :=
  (gatherBuf e m p off).map halves

/-- `gather` of neon128, f64: egg/platform_arm.py:2349-2355. -/
def gatherF64 (m : Mem M) (p : Int) (off : Reg 2 64) : Option (Vec 2 M) := do
  let v0 ← m (p + (off 0).toInt)
  let v1 ← m (p + (off 1).toInt)
  return ![v0, v1]

/-- `gather` of SVE for 8- and 16-bit types: the loop over buffers, egg/platform_arm.py:2311-2320.
The buffers have `max_len` elements, of which the `n = real_len` first are used. -/
def gatherSveEmul (e : Elem M M) (m : Mem M) (p : Int) (off : Reg n w) : Option (Vec n M) :=
  gatherBuf e m p off

/-- `gather` of SVE for 32- and 64-bit types: egg/platform_arm.py:2358-2360. -/
def gatherSve (z : M) (m : Mem M) (p : Int) (off : Reg n w) : Option (Vec n M) :=
  svld1Gather (svtrue n) z m p off

/-- `gather_linear` of NEON: lane 0 reads `in0[0]`, lane `i` reads `in0[i * in1]` with the product
in `int`, egg/platform_arm.py:2381-2388. -/
def gatherLinear (n : Nat) (m : Mem M) (p step : Int) : Option (Vec (n + 1) M) :=
  Ppc.fromLanes fun i => if i.val = 0 then m p
    else (ITy.i32.prom ((i : Nat) * step)).bind fun a => m (p + a)

/-- `gather_linear` of NEON, f16 without hardware support: egg/platform_arm.py:2389-2402. -/
def gatherLinearF16 (e : Elem M α) (n : Nat) (m : Mem M) (p step : Int) :
    Option (Vec n α × Vec n α) :=
  (gatherLinearBuf e (n + n) m p step).map halves

/-- `gather_linear` of neon128, f64: egg/platform_arm.py:2403-2407. -/
def gatherLinearF64 (m : Mem M) (p step : Int) : Option (Vec 2 M) := do
  let v0 ← m p
  let v1 ← m (p + step)
  return ![v0, v1]

/-- `gather_linear` of SVE for 8- and 16-bit types: egg/platform_arm.py:2366-2376. -/
def gatherLinearSveEmul (e : Elem M M) (n : Nat) (m : Mem M) (p step : Int) : Option (Vec n M) :=
  gatherLinearBuf e n m p step

/-- `gather_linear` of SVE for 32- and 64-bit types: egg/platform_arm.py:2377-2380. -/
def gatherLinearSve (w : Nat) (z : M) (n : Nat) (m : Mem M) (p step : Int) : Option (Vec n M) :=
  svld1Gather (svtrue n) z m p (svindex n 0#w (BitVec.ofInt w step))

/-- `maskoz_gather` of NEON: egg/platform_arm.py:2430-2451. -/
def maskozGather (e : Elem M α) (l : Reg n w) (m : Mem M) (p : Int) (off : Reg n w) (o : Vec n α) :
    Option (Vec n α) :=
  maskozGatherBuf e (condNeon l) m p off o

/-- `maskoz_gather` of SVE for 8- and 16-bit types: egg/platform_arm.py:2417-2429, 2440-2451. -/
def maskozGatherSveEmul (e : Elem M α) (pg : Fin n → Bool) (m : Mem M) (p : Int) (off : Reg n w)
    (o : Vec n α) : Option (Vec n α) :=
  maskozGatherBuf e (condSve (BitVec.allOnes w) pg) m p off o

/-- `maskoz_gather` of NEON, f16 without hardware support: egg/platform_arm.py:2452-2483. -/
def maskozGatherF16 (e : Elem M α) (l0 l1 : Reg n 32) (m : Mem M) (p : Int) (off : Reg (n + n) 16)
    (o0 o1 : Vec n α) : Option (Vec n α × Vec n α) :=
  (maskozGatherBuf e (cat (condNeon l0) (condNeon l1)) m p off (cat o0 o1)).map halves

/-- `maskoz_gather` of neon128, f64: egg/platform_arm.py:2484-2500. -/
def maskozGatherF64 (l : Reg 2 64) (m : Mem M) (p : Int) (off : Reg 2 64) (o : Vec 2 M) :
    Option (Vec 2 M) := do
  let v0 ← (if l 0 != 0#64 then m (p + (off 0).toInt) else some (o 0) : Option M)
  let v1 ← (if l 1 != 0#64 then m (p + (off 1).toInt) else some (o 1) : Option M)
  return ![v0, v1]

/-- `maskoz_gather` of SVE for 32- and 64-bit types: egg/platform_arm.py:2503-2508. -/
def maskozGatherSve (z : M) (pg : Fin n → Bool) (m : Mem M) (p : Int) (off : Reg n w)
    (o : Vec n M) : Option (Vec n M) :=
  (svld1Gather pg z m p off).map fun v => svsel pg v o

/-! ### Scatters (egg/platform_arm.py:2513-2655) -/

/-- `scatter` of NEON (and the loop of SVE for 8- and 16-bit types): one assignment per lane in
increasing order, egg/platform_arm.py:2517-2529. -/
def scatter (e : Elem M α) (m : Mem M) (p : Int) (off : Reg n w) (v : Vec n α) : Option (Mem M) :=
  scatterBuf e m p off v

/-- `scatter` of NEON, f16 without hardware support: the lanes of `v0`, then those of `v1`,
egg/platform_arm.py:2534-2547. -/
def scatterF16 (e : Elem M α) (m : Mem M) (p : Int) (off : Reg (n + n) 16) (v0 v1 : Vec n α) :
    Option (Mem M) :=
  (stores (List.finRange n) (fun i => some (p + (off ⟨i, by omega⟩).toInt, e.enc (v0 i))) m).bind
    (stores (List.finRange n) (fun i => some (p + (off ⟨n + i, by omega⟩).toInt, e.enc (v1 i))))

/-- `scatter` of neon128, f64: egg/platform_arm.py:2548-2552. -/
def scatterF64 (m : Mem M) (p : Int) (off : Reg 2 64) (v : Vec 2 M) : Option (Mem M) := do
  let m ← write m (p + (off 0).toInt) (v 0)
  write m (p + (off 1).toInt) (v 1)

/-- `scatter` of SVE for 32- and 64-bit types: egg/platform_arm.py:2555-2557. -/
def scatterSve (m : Mem M) (p : Int) (off : Reg n w) (v : Vec n M) : Option (Mem M) :=
  svst1Scatter (svtrue n) m p off v

/-- `scatter_linear` of NEON, with f16 as an instance of `e`, and of SVE for 8- and 16-bit types:
egg/platform_arm.py:2563-2572, 2577-2592. -/
def scatterLinear (e : Elem M α) (m : Mem M) (p step : Int) (v : Vec n α) : Option (Mem M) :=
  scatterLinearBuf e m p step v

/-- `scatter_linear` of neon128, f64: egg/platform_arm.py:2593-2595. -/
def scatterLinearF64 (m : Mem M) (p step : Int) (v : Vec 2 M) : Option (Mem M) := do
  let m ← write m p (v 0)
  write m (p + step) (v 1)

/-- `scatter_linear` of SVE for 32- and 64-bit types: egg/platform_arm.py:2573-2576. -/
def scatterLinearSve (w : Nat) (m : Mem M) (p step : Int) (v : Vec n M) : Option (Mem M) :=
  svst1Scatter (svtrue n) m p (svindex n 0#w (BitVec.ofInt w step)) v

/-- `mask_scatter` of NEON: egg/platform_arm.py:2611-2625. -/
def maskScatter (e : Elem M α) (l : Reg n w) (m : Mem M) (p : Int) (off : Reg n w) (v : Vec n α) :
    Option (Mem M) :=
  maskScatterBuf e (condNeon l) m p off v

/-- `mask_scatter` of SVE for 8- and 16-bit types: egg/platform_arm.py:2605-2610, 2616-2625. -/
def maskScatterSveEmul (e : Elem M α) (pg : Fin n → Bool) (m : Mem M) (p : Int) (off : Reg n w)
    (v : Vec n α) : Option (Mem M) :=
  maskScatterBuf e (condSve 1#w pg) m p off v

/-- `mask_scatter` of NEON, f16 without hardware support: egg/platform_arm.py:2629-2646. -/
def maskScatterF16 (e : Elem M α) (l0 l1 : Reg n 32) (m : Mem M) (p : Int) (off : Reg (n + n) 16)
    (v0 v1 : Vec n α) : Option (Mem M) :=
  maskScatterBuf e (cat (condNeon l0) (condNeon l1)) m p off (cat v0 v1)

/-- `mask_scatter` of neon128, f64: egg/platform_arm.py:2647-2655. -/
def maskScatterF64 (l : Reg 2 64) (m : Mem M) (p : Int) (off : Reg 2 64) (v : Vec 2 M) :
    Option (Mem M) := do
  let m ← (if l 0 != 0#64 then write m (p + (off 0).toInt) (v 0) else some m : Option (Mem M))
  if l 1 != 0#64 then write m (p + (off 1).toInt) (v 1) else some m

/-- `mask_scatter` of SVE for 32- and 64-bit types: egg/platform_arm.py:2658-2660. -/
def maskScatterSve (pg : Fin n → Bool) (m : Mem M) (p : Int) (off : Reg n w) (v : Vec n M) :
    Option (Mem M) :=
  svst1Scatter pg m p off v

/-! ### Zip and unzip (egg/platform_arm.py:2170-2302) -/

/-- `zip1`, and `val[0]` of `vzipq`: interleaves the lower halves; `h` lanes per half. ARM
instruction semantics, not code of the repo. -/
def zip1 {h : Nat} (a b : Vec (h + h) α) : Vec (h + h) α := fun i =>
  if i.val % 2 = 0 then a ⟨i / 2, by omega⟩ else b ⟨i / 2, by omega⟩
/-- `zip2`, and `val[1]` of `vzipq`: interleaves the upper halves. ARM instruction semantics, not
code of the repo. -/
def zip2 {h : Nat} (a b : Vec (h + h) α) : Vec (h + h) α := fun i =>
  if i.val % 2 = 0 then a ⟨h + i / 2, by omega⟩ else b ⟨h + i / 2, by omega⟩
/-- `uzp1`, and `val[0]` of `vuzpq`: the even lanes of `a` then of `b`. ARM instruction semantics,
not code of the repo. -/
def uzp1 {h : Nat} (a b : Vec (h + h) α) : Vec (h + h) α := fun i =>
  if g : i.val < h then a ⟨2 * i, by omega⟩ else b ⟨2 * (i - h), by omega⟩
/-- `uzp2`, and `val[1]` of `vuzpq`: the odd lanes. ARM instruction semantics, not code of the
repo. -/
def uzp2 {h : Nat} (a b : Vec (h + h) α) : Vec (h + h) α := fun i =>
  if g : i.val < h then a ⟨2 * i + 1, by omega⟩ else b ⟨2 * (i - h) + 1, by omega⟩

/-- `ziplo` without f16 emulation: egg/platform_arm.py:2199-2202, 2245-2251. -/
def ziplo {h : Nat} (a b : Vec (h + h) α) : Vec (h + h) α := zip1 a b
/-- `ziphi`: egg/platform_arm.py:2199-2202, 2245-2251. -/
def ziphi {h : Nat} (a b : Vec (h + h) α) : Vec (h + h) α := zip2 a b
/-- `unziplo`: egg/platform_arm.py:2199-2202, 2245-2251. -/
def unziplo {h : Nat} (a b : Vec (h + h) α) : Vec (h + h) α := uzp1 a b
/-- `unziphi`: egg/platform_arm.py:2199-2202, 2245-2251. -/
def unziphi {h : Nat} (a b : Vec (h + h) α) : Vec (h + h) α := uzp2 a b

/-- `ziplo` of f16 on pairs of f32 registers: egg/platform_arm.py:2173-2186, 2209-2218. -/
def ziploF16 {h : Nat} (a b : Vec (h + h) α × Vec (h + h) α) : Vec (h + h) α × Vec (h + h) α :=
  (zip1 a.1 b.1, zip2 a.1 b.1)
/-- `ziphi` of f16: egg/platform_arm.py:2173-2186, 2209-2218. -/
def ziphiF16 {h : Nat} (a b : Vec (h + h) α × Vec (h + h) α) : Vec (h + h) α × Vec (h + h) α :=
  (zip1 a.2 b.2, zip2 a.2 b.2)
/-- `unziplo` of f16: egg/platform_arm.py:2187-2198, 2219-2227. -/
def unziploF16 {h : Nat} (a b : Vec (h + h) α × Vec (h + h) α) : Vec (h + h) α × Vec (h + h) α :=
  (uzp1 a.1 a.2, uzp1 b.1 b.2)
/-- `unziphi` of f16: egg/platform_arm.py:2187-2198, 2219-2227. -/
def unziphiF16 {h : Nat} (a b : Vec (h + h) α × Vec (h + h) α) : Vec (h + h) α × Vec (h + h) α :=
  (uzp2 a.1 a.2, uzp2 b.1 b.2)

/-- `ziplo` and `unziplo` of the 64-bit types of neon128: lane 0 of each argument,
egg/platform_arm.py:2228-2244. -/
def half64lo (a b : Vec 2 α) : Vec 2 α := ![a 0, b 0]
/-- `ziphi` and `unziphi` of the 64-bit types of neon128: egg/platform_arm.py:2228-2244. -/
def half64hi (a b : Vec 2 α) : Vec 2 α := ![a 1, b 1]

/-- `zip`: the two halves, by the intrinsics or by `lo_hi`, egg/platform_arm.py:2253-2302. -/
def zip {V : Type} (lo hi : V → V → V) (a b : V) : V × V := (lo a b, hi a b)

end Nsimd.Arm
