import Verif.Model.FixedPoint
import Verif.Model.Cpu
import Verif.Model.X86Ops
import Verif.Model.Arm
import Verif.Model.ArmLane
import Verif.Model.Ppc
import Verif.Model.PpcLane

/-!
# The SIMD interface of the fixed point module
(include/nsimd/modules/fixed_point/simd.hpp and function/simd)

The functions of the module are written with the nsimd operators on the storage type, which depend on
the target. They are modelled over a record of the operators they call (`Backend`); one record per
family of targets follows. Left shifts of negative numbers in scalar code have their C++20 meaning, as
in `Model/FixedPoint`.
-/

namespace Nsimd.FixedSimd

open Nsimd

/-- The operators of one target on registers of `n` lanes of the integer type `t` that the module
calls: `nsimd::{add,sub,mul,div,shl,shra,abs,min,max,set1}`,
include/nsimd/modules/fixed_point/function/simd/add.hpp:38,
include/nsimd/modules/fixed_point/function/simd/sub.hpp:37,
include/nsimd/modules/fixed_point/function/simd/mul.hpp:40-41,
include/nsimd/modules/fixed_point/function/simd/div.hpp:41-42,
include/nsimd/modules/fixed_point/function/simd/abs.hpp:39,
include/nsimd/modules/fixed_point/function/simd/min.hpp:36,
include/nsimd/modules/fixed_point/function/simd/max.hpp:35
and include/nsimd/modules/fixed_point/simd.hpp:49. `lane` reads a lane. -/
structure Backend (t : ITy) (n : Nat) where
  Reg : Type
  lane : Reg → Fin n → BitVec t.w
  add : Reg → Reg → Option Reg
  sub : Reg → Reg → Option Reg
  mul : Reg → Reg → Option Reg
  div : Reg → Reg → Option Reg
  shl : Reg → Nat → Option Reg
  shra : Reg → Nat → Option Reg
  abs : Reg → Option Reg
  min : Reg → Reg → Reg
  max : Reg → Reg → Reg
  set1 : BitVec t.w → Reg

variable {t : ITy} {n : Nat} (B : Backend t n)

/-- `simd_add`: include/nsimd/modules/fixed_point/function/simd/add.hpp:33-40. -/
def simdAdd (a b : B.Reg) : Option B.Reg := B.add a b
/-- `simd_sub`: include/nsimd/modules/fixed_point/function/simd/sub.hpp:32-39. -/
def simdSub (a b : B.Reg) : Option B.Reg := B.sub a b
/-- `simd_mul`: include/nsimd/modules/fixed_point/function/simd/mul.hpp:33-44. -/
def simdMul (rt : Nat) (a b : B.Reg) : Option B.Reg := do
  let res ← B.mul a b
  B.shra res rt
/-- `simd_div`: include/nsimd/modules/fixed_point/function/simd/div.hpp:33-45. -/
def simdDiv (rt : Nat) (a b : B.Reg) : Option B.Reg := do
  let res ← B.shl a rt
  B.div res b
/-- `simd_fma`: include/nsimd/modules/fixed_point/function/simd/fma.hpp:36-45. -/
def simdFma (rt : Nat) (a0 a1 a2 : B.Reg) : Option B.Reg := do
  let res ← simdMul B rt a0 a1
  simdAdd B res a2
/-- `fpsimd_t(fp_t(k))` for a small integer `k`: include/nsimd/modules/fixed_point/simd.hpp:48-50. -/
def ofInt (rt : Nat) (k : Int) : Option B.Reg := (FixedPoint.ofSmallInt t rt k).map B.set1
/-- `simd_rec`: include/nsimd/modules/fixed_point/function/simd/rec.hpp:34-38. -/
def simdRec (rt : Nat) (a0 : B.Reg) : Option B.Reg := do
  let one ← ofInt B rt 1
  simdDiv B rt one a0
/-- `simd_abs`: include/nsimd/modules/fixed_point/function/simd/abs.hpp:33-41. -/
def simdAbs (a : B.Reg) : Option B.Reg := B.abs a
/-- `simd_min`: include/nsimd/modules/fixed_point/function/simd/min.hpp:30-38. -/
def simdMin (a0 a1 : B.Reg) : B.Reg := B.min a0 a1
/-- `simd_max`: include/nsimd/modules/fixed_point/function/simd/max.hpp:29-37. -/
def simdMax (a0 a1 : B.Reg) : B.Reg := B.max a0 a1

/-- The loop of `simd_exp`, state `e`, `res`, `val`:
include/nsimd/modules/fixed_point/function/simd/exp.hpp:52-62. -/
def expLoop (rt : Nat) : Nat → B.Reg → B.Reg → Option B.Reg
  | e, res, v =>
    if e ≤ 1 then simdMul B rt res v
    else if e % 2 = 1 then do
      let res ← simdMul B rt res v
      let v ← simdMul B rt v v
      expLoop rt ((e - 1) / 2) res v
    else do
      let v ← simdMul B rt v v
      expLoop rt (e / 2) res v
  termination_by e => e
  decreasing_by all_goals omega

/-- `simd_exp`: include/nsimd/modules/fixed_point/function/simd/exp.hpp:37-63. The exponent is an `int`. -/
def simdExp (rt : Nat) (a : B.Reg) (b : Int) : Option B.Reg := do
  let one ← ofInt B rt 1
  if b = 0 then return one
  else if b < 0 then do
    let v ← simdDiv B rt one a
    expLoop B rt (← ITy.i32.prom (-b)).toNat one v
  else expLoop B rt b.toNat one a

/-- The loop of `simd_sqrt`, `k` iterations left; the test that ends the scalar loop early is commented
out: include/nsimd/modules/fixed_point/function/simd/sqrt.hpp:40-44. -/
def sqrtLoop (rt : Nat) (a two : B.Reg) : Nat → B.Reg → B.Reg → Option B.Reg
  | 0, _, x1 => some x1
  | k + 1, x0, _ => do
    let q ← simdDiv B rt a x0
    let s ← simdAdd B x0 q
    let x1 ← simdDiv B rt s two
    sqrtLoop rt a two k x1 x1

/-- `simd_sqrt`: include/nsimd/modules/fixed_point/function/simd/sqrt.hpp:32-47. (`x1`, uninitialized, is
written by the first of the ten iterations.) -/
def simdSqrt (rt : Nat) (a : B.Reg) : Option B.Reg := do
  let two ← ofInt B rt 2
  sqrtLoop B rt a two 10 a a

/-! ### The back ends -/

/-- `nsimd_scalar_shl_{typ}`, `(typ)(a << s)`, with the C++20 meaning of the shift: egg/scalar.py:82-84. -/
def shlLane (t : ITy) (a : BitVec t.w) (s : Nat) : Option (BitVec t.w) :=
  (FixedPoint.shlW t (t.val a) s).map t.cast

/-- The CPU back end: egg/platform_cpu.py:130-133, 155-164, 178-186, 688-706. -/
def cpu (t : ITy) (n : Nat) : Backend t n where
  Reg := Cpu.Vec n (BitVec t.w)
  lane a i := a i
  add := Cpu.add t
  sub := Cpu.sub t
  mul := Cpu.mul t
  div := Cpu.div t
  shl a s := Cpu.body fun i => shlLane t (a i) s
  shra a s := Cpu.scalarShift (Scalar.shra t) a s
  abs := Cpu.scalar1 (Scalar.abs t)
  min a b := fun i => Scalar.min t (a i) (b i)
  max a b := fun i => Scalar.max t (a i) (b i)
  set1 x := fun _ => x

/-- The x86 back end; `undef` is the content of the registers that the code leaves uninitialized:
egg/platform_x86.py:1301-1309, 1320-1323, 1328-1385, 1387-1534, 1808-1847, 1929-1998. -/
def x86 (x : X86.Simd) (t : ITy) (undef : BitVec (X86Ops.bits x)) :
    Backend t (X86Ops.le x t) where
  Reg := BitVec (X86Ops.bits x)
  lane a i := X86.lane t.w a i
  add a b := some (X86Ops.add x t a b)
  sub a b := some (X86Ops.sub x t a b)
  mul := X86Ops.mul x t undef
  div := X86.divEmul (X86Ops.ext x) t undef
  shl a s := some (X86Ops.shl x t a s)
  shra := X86Ops.shra x t undef
  abs a := some (X86Ops.abs x t a)
  min := X86Ops.min x t
  max := X86Ops.max x t
  set1 := X86Ops.set1 x t

/-- The NEON back ends; `a64` tells aarch64 from neon128: egg/platform_arm.py:759-804, 978-1050,
1187-1230. -/
def neon (a64 : Bool) (t : ITy) (n : Nat) : Backend t n where
  Reg := X86.Reg n t.w
  lane a i := a i
  add a b := some (Arm.addI a b)
  sub a b := some (Arm.subI a b)
  mul a b := if t.w = 64 then Arm.mul64 t a b else some (Arm.mulI a b)
  div := Arm.divEmul t
  shl a s := some fun i => Arm.shlNeon t (a i) s
  shra a s := some fun i => Arm.shraNeon t (a i) s
  abs a := if a64 = false ∧ t = .i64 then Arm.emulateOp1 (Scalar.abs t) a else some (Arm.absI t a)
  min a b := if t.w = 64 then Arm.min64 t a b else Arm.minI t a b
  max a b := if t.w = 64 then Arm.max64 t a b else Arm.maxI t a b
  set1 x := fun _ => x

/-- The SVE back ends: egg/platform_arm.py:759-804, 978-1050, 1187-1230. -/
def sve (t : ITy) (n : Nat) : Backend t n where
  Reg := X86.Reg n t.w
  lane a i := a i
  add a b := some (Arm.addI a b)
  sub a b := some (Arm.subI a b)
  mul a b := some (Arm.mulI a b)
  div a b := if 32 ≤ t.w then some (Arm.divSve t a b) else Arm.divEmul t a b
  shl a s := some fun i => Arm.shlSve t (a i) s
  shra a s := some fun i => Arm.shraSve t (a i) s
  abs a := some (Arm.absI t a)
  min := Arm.minI t
  max := Arm.maxI t
  set1 x := fun _ => x

/-- The POWER back ends: egg/platform_ppc.py:809-846, 871-896, 945-957. -/
def ppc (x : Ppc.Ext) (t : ITy) (n : Nat) : Backend t (n + 1) where
  Reg := X86.Reg (n + 1) t.w
  lane a i := a i
  add := Ppc.add x t
  sub := Ppc.sub x t
  mul := Ppc.mul x t
  div := Ppc.div x t
  shl a s := if Ppc.emulated x t then Cpu.body fun i => shlLane t (a i) s
    else some fun i => Ppc.shl t (a i) s
  shra a s := if Ppc.emulated x t then Cpu.body fun i => Scalar.shra t (a i) s
    else some fun i => Ppc.shra t (a i) s
  abs := Ppc.abs x t
  min := Ppc.min x t
  max := Ppc.max x t
  set1 x := fun _ => x

end Nsimd.FixedSimd
