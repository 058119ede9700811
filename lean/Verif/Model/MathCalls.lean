import Verif.Model.F16Arith
import Verif.Model.X86Cvt
import Verif.Model.PpcCvt
import Verif.Model.ArmCvt

/-!
# How the operators call the mathematical functions

Operators with a source file (`SrcOperator`, e.g. `fmod` and `remainder`, egg/operators.py:1691-1707) call functions
of the vendored SLEEF.  The functions themselves are parameters here: one for a scalar, one for a vector.  Only
operators of two vectors are modelled; those of one vector are obtained by ignoring the second.
-/

namespace Nsimd.MathCalls
open Nsimd.Cpu

variable {n : Nat} {α β : Type}

/-- The scalar operator on `f16`: egg/scalar.py:434-443. -/
def scalarF16 (f : BitVec 32 → BitVec 32 → BitVec 32) (a b : BitVec 16) : Option (BitVec 16) := do
  let x ← Fp16.u16ToF32 a
  let y ← Fp16.u16ToF32 b
  return Fp16.f32ToU16 (f x y)

/-- The operator of the CPU back end, which calls the scalar operator on every lane: egg/gen_archis.py:49-54. Lanes of
`f16` are `f32`, egg/gen_archis.py:42. -/
def cpuOp (f : α → α → β) (a b : Vec n α) : Vec n β := fun i => f (a i) (b i)

/-- The operator on `f16` of the SIMD back ends: egg/gen_archis.py:73-104. `upcvt` and `downcvt` are the operators of
the back end and `g` is the function on vectors of `f32`. -/
def simdF16 {H V : Type} (upcvt : H → V × V) (downcvt : V → V → H) (g : V → V → V) (a b : H) : H :=
  let buf0 := upcvt a
  let buf1 := upcvt b
  let retv0 := g buf0.1 buf1.1
  let retv1 := g buf0.2 buf1.2
  downcvt retv0 retv1

/-- The operator on `f16` of x86, where a vector of `f16` is two of `f32`: egg/gen_archis.py:73-104;
egg/platform_x86.py:2778-2784, 2967-2973. -/
def x86F16 (g : Vec n Round.Fl → Vec n Round.Fl → Vec n Round.Fl) (a b : Vec n Round.Fl × Vec n Round.Fl) :
    Vec n Round.Fl × Vec n Round.Fl :=
  simdF16 X86Cvt.upcvtF16F32 X86Cvt.downcvtF32F16 g a b

/-- The same on POWER: egg/gen_archis.py:73-104; egg/platform_ppc.py:1347-1351, 1445-1449. -/
def ppcF16 (g : Vec n Round.Fl → Vec n Round.Fl → Vec n Round.Fl) (a b : Vec n Round.Fl × Vec n Round.Fl) :
    Vec n Round.Fl × Vec n Round.Fl :=
  simdF16 PpcCvt.upcvtF16F32 PpcCvt.downcvtF32F16 g a b

/-- The operator on `f16` of Arm with half precision instructions: egg/gen_archis.py:73-104;
egg/platform_arm.py:1851-1880, 1936-1943, 1950-1970, 2005-2010. `junk` and `junk'` are the contents of the registers that the
conversion leaves undefined. -/
def armF16 (x : ArmCvt.Ext) (r : ℚ → Round.Fl) (junk junk' : Vec (n + n) Round.Fl)
    (g : Vec n Round.Fl → Vec n Round.Fl → Vec n Round.Fl) (a b : Vec (n + n) Round.Fl) : Vec (n + n) Round.Fl :=
  simdF16 (ArmCvt.upcvtFF x) (ArmCvt.downcvtFF x r junk junk') g a b

/-! ### The emulations of vectors without instructions -/

/-- A vector of two `f64` that is a structure: `nsimd_cpu_vf64`, `nsimd_neon128_vf64` on 32 bits, `nsimd_vmx_vf64`;
egg/platform_cpu.py:70-73; egg/platform_arm.py:112-115; egg/platform_ppc.py:183-184. -/
structure V2 (α : Type) where
  v0 : α
  v1 : α

/-- `nsimd_{op}_cpu_f64` on the structure: egg/gen_archis.py:49-54. -/
def cpuOp2 (f : α → α → α) (a b : V2 α) : V2 α := { v0 := f a.v0 b.v0, v1 := f a.v1 b.v1 }

/-- The functions on `f64` of NEON with 32 bits and of VMX: src/sleefsimddp_emulation.c:511-522, 524-535, and the
functions of the other operators in lines 38-579. -/
def emu64 (f : α → α → α) (a0_ a1_ : V2 α) : V2 α :=
  let a0 : V2 α := { v0 := a0_.v0, v1 := a0_.v1 }
  let a1 : V2 α := { v0 := a1_.v0, v1 := a1_.v1 }
  let ret := cpuOp2 f a0 a1
  { v0 := ret.v0, v1 := ret.v1 }

/-- `vec_insert(b, a, k)`. PowerPC semantics, not code of the repo. -/
def vecInsert (b : α) (a : Vec n α) (k : Nat) : Vec n α := fun i => if i.val = k then b else a i

/-- `vec_splats(b)`. PowerPC semantics, not code of the repo. -/
def vecSplats (b : α) : Vec n α := fun _ => b

/-- The vector `nsimd_cpu_vf32` built from the lanes of a register: src/sleefsimdsp_emulation.c:30-33, 694-697. -/
def getAll (a : Vec 4 α) : Vec 4 α := fun i =>
  match i with
  | 0 => a 0
  | 1 => a 1
  | 2 => a 2
  | 3 => a 3

/-- The functions on `f32` of VMX: src/sleefsimdsp_emulation.c:34-37, 691-708, 710-727, and the functions of the other
operators in lines 40-787. -/
def emu32 (f : α → α → α) (a0_ a1_ : Vec 4 α) : Vec 4 α :=
  let ret := cpuOp f (getAll a0_) (getAll a1_)
  let ret_ : Vec 4 α := vecSplats (ret 0)
  let ret_ := vecInsert (ret 1) ret_ 1
  let ret_ := vecInsert (ret 2) ret_ 2
  vecInsert (ret 3) ret_ 3

end Nsimd.MathCalls
