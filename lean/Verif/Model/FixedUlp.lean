import Verif.Model.FixedPoint

/-!
# Shifts, bitwise operators and `equal_ulp` of the fixed point module

As in `Model/FixedPoint`: raw values are bit vectors of the storage type, `none` is undefined
behaviour, left shifts of negative numbers have the C++20 meaning.
-/

namespace Nsimd.FixedUlp

open Nsimd.ITy Nsimd.FixedPoint

variable (t : ITy)

/-- `shift_right` and `operator>>`: `a._raw >> b`,
include/nsimd/modules/fixed_point/function/shift.hpp:32-38, 48-51. -/
def shiftRight (a : BitVec t.w) (b : Int) : Option (BitVec t.w) := do
  return t.cast (← sarP t (t.val a) b)

/-- `shift_left` and `operator<<`: `a._raw << b`,
include/nsimd/modules/fixed_point/function/shift.hpp:40-46, 53-56. -/
def shiftLeft (a : BitVec t.w) (b : Int) : Option (BitVec t.w) := do
  return t.cast (← shlW t (t.val a) b)

/-- The operand of a bitwise operator after integer promotion. C++ language rule; not code of the
repo. -/
def ext (a : BitVec t.w) : BitVec t.promW := a.signExtend t.promW

/-- `bitwise_and` and `operator&`: include/nsimd/modules/fixed_point/function/bitwise_and.hpp:32-46. -/
def bitwiseAnd (a b : BitVec t.w) : BitVec t.w := (ext t a &&& ext t b).setWidth t.w

/-- `bitwise_or` and `operator|`: include/nsimd/modules/fixed_point/function/bitwise_or.hpp:32-46. -/
def bitwiseOr (a b : BitVec t.w) : BitVec t.w := (ext t a ||| ext t b).setWidth t.w

/-- `bitwise_xor` and `operator^`: include/nsimd/modules/fixed_point/function/bitwise_xor.hpp:32-46. -/
def bitwiseXor (a b : BitVec t.w) : BitVec t.w := (ext t a ^^^ ext t b).setWidth t.w

/-- `bitwise_nor`: include/nsimd/modules/fixed_point/function/bitwise_nor.hpp:32-39. -/
def bitwiseNor (a b : BitVec t.w) : BitVec t.w := (~~~(ext t a ||| ext t b)).setWidth t.w

/-- `bitwise_not` and `operator~`: include/nsimd/modules/fixed_point/function/bitwise_not.hpp:32-42. -/
def bitwiseNot (a : BitVec t.w) : BitVec t.w := (~~~(ext t a)).setWidth t.w

/-- `equal_ulp`: include/nsimd/modules/fixed_point/function/eq_ulp.hpp:32-42. The operands of `&` are
both evaluated, so that `-ulp` must not overflow. -/
def equalUlp (lf rt : Nat) (a b : BitVec t.w) (ulp : Int) : Option Bool := do
  let mask ← cmpMask t lf rt
  let diff := t.cast (← t.prom (t.val (a &&& mask) - t.val (b &&& mask)))
  let diff := t.cast (← sarP t (t.val diff) (t.w - lf - rt))
  let m ← ITy.i32.prom (-ulp)
  return decide (t.val diff ≤ ulp) && decide (t.val diff ≥ m)

end Nsimd.FixedUlp
