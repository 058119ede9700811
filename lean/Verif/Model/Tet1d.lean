import Verif.Model.CpuExpr

/-!
# The tet1d module: include/nsimd/modules/tet1d.hpp and egg/modules/tet1d/hatch.py

Integer element types, CPU kernels.  A `Pack` is taken as a vector of `L = len(Pack())` lanes
(Verif/Props/Pack.lean proves that unrolled packs behave so).  GPU kernels, conversions between
element types and floating-point nodes are not modelled.
-/

namespace Nsimd.Tet1d
open Nsimd.Cpu

/-- Expression nodes over element type `t`; index `true` for nodes whose operator returns a
logical.  `scalar`: include/nsimd/modules/tet1d.hpp:220-239; `inp` (address of `data`, `sz`):
:284-303; the others are the nodes generated by egg/modules/tet1d/hatch.py:665-792. -/
inductive Node (t : ITy) : Bool → Type
  | scalar (value : BitVec t.w) : Node t false
  | inp (data sz : Int) : Node t false
  | bin : Bin → Node t false → Node t false → Node t false
  | un : Un → Node t false → Node t false
  | ter : Ter → Node t false → Node t false → Node t false → Node t false
  | shift : Shift → Node t false → Int → Node t false
  | ifElse : Node t true → Node t false → Node t false → Node t false
  | toMask : Node t true → Node t false
  | cmp : Cmp → Node t false → Node t false → Node t true
  | lbin : LBin → Node t true → Node t true → Node t true
  | lnot : Node t true → Node t true
  | toLogical : Node t false → Node t true

/-- `compute_size` of two sizes; `none` is a failed assertion:
include/nsimd/modules/tet1d.hpp:172-180. -/
def computeSize (sz1 sz2 : Int) : Option Int :=
  if sz1 ≥ 0 ∨ sz2 ≥ 0 then
    if (sz1 < 0 ∧ sz2 ≥ 0) ∨ (sz1 ≥ 0 ∧ sz2 < 0) ∨ sz1 = sz2 then
      if sz1 < 0 then some sz2 else some sz1
    else none
  else none

/-- `compute_size` of three sizes: include/nsimd/modules/tet1d.hpp:182-184. -/
def computeSize3 (sz1 sz2 sz3 : Int) : Option Int :=
  (computeSize sz1 sz2).bind fun sz => computeSize sz sz3

/-- `size()`: include/nsimd/modules/tet1d.hpp:238, 303; egg/modules/tet1d/hatch.py:676-711,
767-769. -/
def Node.size {t : ITy} : {b : Bool} → Node t b → Option Int
  | _, .scalar _ => some (-1)
  | _, .inp _ sz => some sz
  | _, .bin _ l r => l.size.bind fun a => r.size.bind fun b => computeSize a b
  | _, .un _ l => l.size
  | _, .ter _ l r x => l.size.bind fun a => r.size.bind fun b => x.size.bind fun c =>
      computeSize3 a b c
  | _, .shift _ l _ => l.size
  | _, .ifElse l r x => l.size.bind fun a => r.size.bind fun b => x.size.bind fun c =>
      computeSize3 a b c
  | _, .toMask l => l.size
  | _, .cmp _ l r => l.size.bind fun a => r.size.bind fun b => computeSize a b
  | _, .lbin _ l r => l.size.bind fun a => r.size.bind fun b => computeSize a b
  | _, .lnot l => l.size
  | _, .toLogical l => l.size

/-- Conversion of the `int` returned by a scalar logical operator to the return type `bool` of
`scalar_get`: egg/modules/tet1d/hatch.py:716-721, 780-782. -/
def toBool (x : BitVec 32) : BitVec 32 := if x ≠ 0#32 then 1#32 else 0#32

/-- `scalar_get(i)`: include/nsimd/modules/tet1d.hpp:230, 295; egg/modules/tet1d/hatch.py:738-747,
780-782. A `bool` is represented as 0 or 1. -/
def Node.scalarGet {t : ITy} (m : Mem (BitVec t.w)) (i : Int) :
    {b : Bool} → Node t b → Option (STy t b)
  | _, .scalar v => some v
  | _, .inp p _ => m (p + i)
  | _, .bin o l r => (l.scalarGet m i).bind fun a => (r.scalarGet m i).bind fun b => o.scalar t a b
  | _, .un o l => (l.scalarGet m i).bind fun a => o.scalar t a
  | _, .ter o l r x => (l.scalarGet m i).bind fun a => (r.scalarGet m i).bind fun b =>
      (x.scalarGet m i).bind fun c => o.scalar t a b c
  | _, .shift o l s => (l.scalarGet m i).bind fun a => o.scalar t a s
  | _, .ifElse l r x => (l.scalarGet m i).bind fun c => (r.scalarGet m i).bind fun a =>
      (x.scalarGet m i).bind fun b => some (if c ≠ 0#32 then a else b)
  | _, .toMask l => (l.scalarGet m i).bind fun a => some (Scalar.toMask t (a ≠ 0#32))
  | _, .cmp c l r => (l.scalarGet m i).bind fun a => (r.scalarGet m i).bind fun b =>
      some (toBool (Scalar.ofBool (c.scalar t a b)))
  | _, .lbin o l r => (l.scalarGet m i).bind fun a => (r.scalarGet m i).bind fun b =>
      some (toBool (o.scalar a b))
  | _, .lnot l => (l.scalarGet m i).bind fun a => some (toBool (Scalar.notl a))
  | _, .toLogical l => (l.scalarGet m i).bind fun a =>
      some (toBool (Scalar.ofBool (Scalar.toLogical t a)))

/-- `simd_get<Pack>(i)`: include/nsimd/modules/tet1d.hpp:231-235, 296-300;
egg/modules/tet1d/hatch.py:738-743, 753-756, 783-786. -/
def Node.simdGet {t : ITy} (L : Nat) (m : Mem (BitVec t.w)) (i : Int) :
    {b : Bool} → Node t b → Option (VTy L t b)
  | _, .scalar v => set1 (intElem t) L v
  | _, .inp p _ => load (intElem t) L m (p + i)
  | _, .bin o l r => (l.simdGet L m i).bind fun a => (r.simdGet L m i).bind fun b => o.vec t a b
  | _, .un o l => (l.simdGet L m i).bind fun a => scalar1 (o.scalar t) a
  | _, .ter o l r x => (l.simdGet L m i).bind fun a => (r.simdGet L m i).bind fun b =>
      (x.simdGet L m i).bind fun c => scalar3 (o.scalar t) a b c
  | _, .shift o l s => (l.simdGet L m i).bind fun a => scalarShift (o.scalar t) a s
  | _, .ifElse l r x => (l.simdGet L m i).bind fun c => (r.simdGet L m i).bind fun a =>
      (x.simdGet L m i).bind fun b => some (ifElse1 c a b)
  | _, .toMask l => (l.simdGet L m i).bind fun a => Cpu.toMask (intElem t) a
  | _, .cmp c l r => (l.simdGet L m i).bind fun a => (r.simdGet L m i).bind fun b =>
      some (cmp2 (c.op t) a b)
  | _, .lbin o l r => (l.simdGet L m i).bind fun a => (r.simdGet L m i).bind fun b =>
      some (o.vec a b)
  | _, .lnot l => (l.simdGet L m i).bind fun a => some (notl a)
  | _, .toLogical l => (l.simdGet L m i).bind fun a => some (Cpu.toLogical (intElem t) a)

variable {t : ITy} (L : Nat) (dst : Int)

/-- `for (i = 0; i + len < n; i += len) storeu(&dst[i], expr.simd_get<Pack>(i));` from a given
`i`: include/nsimd/modules/tet1d.hpp:141-143. `nat` is `i64` (include/nsimd/nsimd.h:1000-1004
with 64-bit words). Returns the final `i`; `none` is undefined behaviour (or lack of fuel). -/
def simdLoop (expr : Node t false) (n : Int) : Nat → Int → Mem (BitVec t.w) →
    Option (Int × Mem (BitVec t.w))
  | 0, _, _ => none
  | fuel + 1, i, m =>
    (ITy.i64.prom (i + L)).bind fun s =>
    if s < n then
      (expr.simdGet L m i).bind fun v =>
      (store (intElem t) m (dst + i) v).bind fun m => simdLoop expr n fuel s m
    else some (i, m)

/-- `for (; i < n; i++) dst[i] = expr.scalar_get(i);`:
include/nsimd/modules/tet1d.hpp:144-146. -/
def scalarLoop (expr : Node t false) (n : Int) : Nat → Int → Mem (BitVec t.w) →
    Option (Mem (BitVec t.w))
  | 0, _, _ => none
  | fuel + 1, i, m =>
    if i < n then
      (expr.scalarGet m i).bind fun x =>
      (write m (dst + i) x).bind fun m => scalarLoop expr n fuel (i + 1) m
    else some m

/-- `cpu_kernel_component_wise`: include/nsimd/modules/tet1d.hpp:136-147. -/
def kernel (expr : Node t false) (n : Int) (m : Mem (BitVec t.w)) : Option (Mem (BitVec t.w)) :=
  (simdLoop L dst expr n (n.toNat + 1) 0 m).bind fun im =>
    scalarLoop dst expr n (n.toNat + 1) im.1 im.2

/-- `out(dst) = expr`: include/nsimd/modules/tet1d.hpp:414-450 (CPU). -/
def assign (expr : Node t false) (m : Mem (BitVec t.w)) : Option (Mem (BitVec t.w)) :=
  expr.size.bind fun n => kernel L dst expr n m

/-- SIMD loop of the masked kernel: include/nsimd/modules/tet1d.hpp:155-159. -/
def maskSimdLoop (mask : Node t true) (expr : Node t false) (n : Int) :
    Nat → Int → Mem (BitVec t.w) → Option (Int × Mem (BitVec t.w))
  | 0, _, _ => none
  | fuel + 1, i, m =>
    (ITy.i64.prom (i + L)).bind fun s =>
    if s < n then
      (mask.simdGet L m i).bind fun c =>
      (expr.simdGet L m i).bind fun v =>
      (load (intElem t) L m (dst + i)).bind fun d =>
      (store (intElem t) m (dst + i) (ifElse1 c v d)).bind fun m =>
      maskSimdLoop mask expr n fuel s m
    else some (i, m)

/-- Scalar loop of the masked kernel: include/nsimd/modules/tet1d.hpp:160-164. -/
def maskScalarLoop (mask : Node t true) (expr : Node t false) (n : Int) :
    Nat → Int → Mem (BitVec t.w) → Option (Mem (BitVec t.w))
  | 0, _, _ => none
  | fuel + 1, i, m =>
    if i < n then
      (mask.scalarGet m i).bind fun c =>
      (if c ≠ 0#32 then (expr.scalarGet m i).bind fun x => write m (dst + i) x else some m).bind
        fun m => maskScalarLoop mask expr n fuel (i + 1) m
    else some m

/-- `cpu_kernel_component_wise_mask`: include/nsimd/modules/tet1d.hpp:149-165. -/
def maskKernel (mask : Node t true) (expr : Node t false) (n : Int) (m : Mem (BitVec t.w)) :
    Option (Mem (BitVec t.w)) :=
  (maskSimdLoop L dst mask expr n (n.toNat + 1) 0 m).bind fun im =>
    maskScalarLoop dst mask expr n (n.toNat + 1) im.1 im.2

/-- `out(dst)(mask) = expr`: include/nsimd/modules/tet1d.hpp:341-378 (CPU). -/
def maskAssign (mask : Node t true) (expr : Node t false) (m : Mem (BitVec t.w)) :
    Option (Mem (BitVec t.w)) :=
  mask.size.bind fun a => expr.size.bind fun b => (computeSize a b).bind fun n =>
    maskKernel L dst mask expr n m

/-- `in(data, sz)(i0, i1)`: address and size of the resulting node; `none` is a failed
assertion. include/nsimd/modules/tet1d.hpp:305-317. -/
def subrange (data sz i0 i1 : Int) : Option (Int × Int) :=
  let j0 := if i0 ≥ 0 then i0 else sz + i0
  let j1 := if i1 ≥ 0 then i1 else sz + i1
  if 0 ≤ j0 ∧ j0 < j1 ∧ j1 < sz then some (data + j0, j1 - j0 + 1) else none

end Nsimd.Tet1d
