import Verif.Model.Cpu
import Mathlib.Algebra.Order.Field.Rat

/-!
# Arithmetic on `f16` through `f32`

Without `NSIMD_ARM_FP16` every arithmetic operator on `f16` converts its operands to `f32`, computes there and
converts the result back. A float is its bit pattern; the operations of the C implementation on `f32` are a
parameter.
-/

namespace Nsimd.F16Arith
open Nsimd.Fp16

/-- The operations on `f32` that the generated code takes from the C implementation: operators, `fmaf`, `sqrtf`,
`floorf`, `ceilf`, `truncf`, and `sqrt` on `f64` (its result as a number) with the conversion of an `f64` to
`f32`. Parameters of the model, not code of the repo. -/
structure F32Ops where
  add : BitVec 32 → BitVec 32 → BitVec 32
  sub : BitVec 32 → BitVec 32 → BitVec 32
  mul : BitVec 32 → BitVec 32 → BitVec 32
  div : BitVec 32 → BitVec 32 → BitVec 32
  fma : BitVec 32 → BitVec 32 → BitVec 32 → BitVec 32
  sqrt : BitVec 32 → BitVec 32
  sqrtD : BitVec 32 → ℚ
  ofD : ℚ → BitVec 32
  floor : BitVec 32 → BitVec 32
  ceil : BitVec 32 → BitVec 32
  trunc : BitVec 32 → BitVec 32

/-- `opnum` of one operand, `#else` branch: egg/scalar.py:34-39. -/
def lift1 (f : BitVec 32 → BitVec 32) (a : BitVec 16) : Option (BitVec 16) := do
  let x ← u16ToF32 a
  return f32ToU16 (f x)

/-- `opnum` of two operands, `#else` branch: egg/scalar.py:34-39. -/
def lift2 (f : BitVec 32 → BitVec 32 → BitVec 32) (a b : BitVec 16) : Option (BitVec 16) := do
  let x ← u16ToF32 a
  let y ← u16ToF32 b
  return f32ToU16 (f x y)

/-- `opnum` of three operands, `#else` branch: egg/scalar.py:34-39. -/
def lift3 (f : BitVec 32 → BitVec 32 → BitVec 32 → BitVec 32) (a b c : BitVec 16) : Option (BitVec 16) := do
  let x ← u16ToF32 a
  let y ← u16ToF32 b
  let z ← u16ToF32 c
  return f32ToU16 (f x y z)

variable (o : F32Ops)

/-- `nsimd_scalar_add_f16`: egg/scalar.py:455; `adds` is the same, egg/scalar.py:476. -/
def add16 := lift2 o.add
/-- `nsimd_scalar_sub_f16`: egg/scalar.py:456. -/
def sub16 := lift2 o.sub
/-- `nsimd_scalar_mul_f16`: egg/scalar.py:457. -/
def mul16 := lift2 o.mul
/-- `nsimd_scalar_div_f16`: egg/scalar.py:458. -/
def div16 := lift2 o.div
/-- `nsimd_scalar_neg_f16`: egg/scalar.py:459. -/
def neg16 := lift1 fneg
/-- `nsimd_scalar_rec_f16`, `_rec8_f16`, `_rec11_f16`: egg/scalar.py:478-480. -/
def rec16 := lift1 fun x => o.div 0x3f800000#32 x
/-- `nsimd_scalar_sqrt_f16`, C99 code: egg/scalar.py:122-123, 406-409. -/
def sqrt16 := lift1 o.sqrt
/-- `nsimd_scalar_sqrt_f16`, C89 code `(f32)sqrt((f64)…)`: egg/scalar.py:124-126, 406-409. -/
def sqrt16c89 := lift1 fun x => o.ofD (o.sqrtD x)
/-- `nsimd_scalar_fma_f16`, C99 code: egg/scalar.py:122-123, 410-420. -/
def fma16 := lift3 o.fma
/-- `nsimd_scalar_fma_f16`, C89 code: egg/scalar.py:413-417. -/
def fma16c89 := lift3 fun x y z => o.add (o.mul x y) z
/-- `nsimd_scalar_fnma_f16`: egg/scalar.py:421-431, with `nsimd_scalar_fma_f32` in its C99 version. -/
def fnma16 := lift3 fun x y z => o.fma (fneg x) y z
/-- `nsimd_scalar_fms_f16`: egg/scalar.py:421-431, with `nsimd_scalar_fma_f32` in its C99 version. -/
def fms16 := lift3 fun x y z => o.fma x y (fneg z)
/-- `nsimd_scalar_fnms_f16`: egg/scalar.py:421-431, with `nsimd_scalar_fma_f32` in its C99 version. -/
def fnms16 := lift3 fun x y z => o.fma (fneg x) y (fneg z)
/-- `nsimd_scalar_floor_f16`: egg/scalar.py:122-123, 406-409. -/
def floor16 := lift1 o.floor
/-- `nsimd_scalar_ceil_f16`: egg/scalar.py:122-123, 406-409. -/
def ceil16 := lift1 o.ceil
/-- `nsimd_scalar_trunc_f16`, C99 code: egg/scalar.py:122-123, 370. -/
def trunc16 := lift1 o.trunc
/-- `nsimd_scalar_trunc_f16`, C89 code: egg/scalar.py:358-364. -/
def trunc16c89 := lift1 fun x => if fle 0#32 x then o.floor x else o.ceil x

/-- Load two `f16`, apply an `f32` operation to the lanes and store: the CPU back end holds the lanes of an `f16`
vector as `f32` and converts on loads and stores, egg/platform_cpu.py:155-165, 196-204, 266-276. One lane. -/
def cpuLane2 (f : BitVec 32 → BitVec 32 → BitVec 32) (a b : BitVec 16) : Option (BitVec 16) := do
  let x ← Cpu.f16Elem.dec a
  let y ← Cpu.f16Elem.dec b
  return Cpu.f16Elem.enc (f x y)

/-- The same for an expression of two operations `g (f a b) c`, which is not rounded in between:
egg/platform_cpu.py:155-165, 196-204, 266-276. One lane. -/
def cpuLane3 (f g : BitVec 32 → BitVec 32 → BitVec 32) (a b c : BitVec 16) : Option (BitVec 16) := do
  let x ← Cpu.f16Elem.dec a
  let y ← Cpu.f16Elem.dec b
  let z ← Cpu.f16Elem.dec c
  return Cpu.f16Elem.enc (g (f x y) z)

end Nsimd.F16Arith
