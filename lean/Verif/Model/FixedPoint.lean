import Verif.Model.ScalarInt
import Mathlib.Algebra.Order.Round
import Mathlib.Data.Rat.Floor

/-!
# The fixed point module (include/nsimd/modules/fixed_point)

A number of type `fp_t<lf, rt>` is its field `_raw`, here a bit vector of the storage type. Left
shifts of negative numbers are modelled as C++20 defines them and as gcc, clang and msvc compile
them (a product modulo `2^n`); before C++20 they are undefined. Right shifts of negative numbers
are arithmetic (implementation-defined before C++20). Every other undefined behaviour is `none`.
-/

namespace Nsimd.FixedPoint

/-- The storage type. Models `fp_types`, include/nsimd/modules/fixed_point/fixed.hpp:54-98; `none`:
no specialization applies and the program is rejected. -/
def storage (lf rt : Nat) : Option ITy :=
  if 0 < lf + 2 * rt ∧ lf + 2 * rt ≤ 8 then some .i8
  else if 8 < lf + 2 * rt ∧ lf + 2 * rt ≤ 16 then some .i16
  else if 16 < lf + 2 * rt ∧ lf + 2 * rt ≤ 32 then some .i32
  else if 32 < lf + 2 * rt ∧ lf + 2 * rt ≤ 64 then some .i64
  else none

/-- `v << s` on a signed promoted type, with the C++20 meaning (see the head of this file).
C++ language rule; not code of the repo. -/
def shlW (t : ITy) (v s : Int) : Option Int :=
  if 0 ≤ s ∧ s < t.promW then some (Int.bmod (v * 2 ^ s.toNat) (2 ^ t.promW)) else none

/-- `v >> s` on a signed promoted type: arithmetic shift. C++ language rule; not code of the repo. -/
def sarP (t : ITy) (v s : Int) : Option Int :=
  if 0 ≤ s ∧ s < t.promW then some (v / 2 ^ s.toNat) else none

variable (t : ITy)

/-- `add`: include/nsimd/modules/fixed_point/function/add.hpp:33-39. -/
def add (a b : BitVec t.w) : Option (BitVec t.w) := do
  return t.cast (← t.prom (t.val a + t.val b))

/-- `sub`: include/nsimd/modules/fixed_point/function/sub.hpp:33-39. -/
def sub (a b : BitVec t.w) : Option (BitVec t.w) := do
  return t.cast (← t.prom (t.val a - t.val b))

/-- `neg`: `res._raw *= -1`, include/nsimd/modules/fixed_point/function/neg.hpp:33-37. -/
def neg (a : BitVec t.w) : Option (BitVec t.w) := do
  return t.cast (← t.prom (t.val a * (-1)))

/-- `sign_val` of `mul`: `(raw_t)((pos_t)-1 << (storage_size - _rt))`,
include/nsimd/modules/fixed_point/function/mul.hpp:36-40. -/
def signVal (rt : Nat) : Option (BitVec t.w) := do
  return t.cast (← t.utyp.shlP (2 ^ t.w - 1) (t.w - rt))

/-- `mul`: include/nsimd/modules/fixed_point/function/mul.hpp:33-50. -/
def mul (rt : Nat) (a b : BitVec t.w) : Option (BitVec t.w) := do
  let signVal ← signVal t rt
  let tmp := t.cast (← t.prom (t.val a * t.val b))
  let sign := if t.val tmp < 0 then signVal else 0
  let tmp := t.cast (← sarP t (t.val tmp) rt)
  return tmp ||| sign

/-- `div`: include/nsimd/modules/fixed_point/function/div.hpp:33-44. -/
def div (rt : Nat) (a b : BitVec t.w) : Option (BitVec t.w) := do
  let tmp := t.cast (← shlW t (t.val a) rt)
  if t.val b = 0 then none
  else return t.cast (← t.prom (Int.tdiv (t.val tmp) (t.val b)))

/-- The raw value of the constant `k`: `fp_t<lf, rt>(k)` for an integer `k` of small magnitude, that is
`(T)roundf((float)k * (float)(1 << rt))`, include/nsimd/modules/fixed_point/fixed.hpp:36-38, 125-127.
The float product is exact here (both factors are integers, one is a power of two); `float2int` below
is the general case. The conversion to the storage type is undefined if the value does not fit. -/
def ofSmallInt (rt : Nat) (k : Int) : Option (BitVec t.w) :=
  if rt < 31 ∧ t.minv ≤ k * 2 ^ rt ∧ k * 2 ^ rt ≤ t.maxv then some (t.cast (k * 2 ^ rt)) else none

/-- `abs`: include/nsimd/modules/fixed_point/function/abs.hpp:35-41 (`-1 * a` multiplies by
`fp_t(-1)`, include/nsimd/modules/fixed_point/function/mul.hpp). -/
def abs (rt : Nat) (a : BitVec t.w) : Option (BitVec t.w) := do
  if t.val a > 0 then return a
  else mul t rt (← ofSmallInt t rt (-1)) a

/-- `mask` of the comparisons: `raw_type max = -1; mask = max << shift_size` with
`shift_size = 8 * sizeof(raw_type) - _lf - _rt`,
include/nsimd/modules/fixed_point/function/eq.hpp:34-37. -/
def cmpMask (lf rt : Nat) : Option (BitVec t.w) := do
  return t.cast (← shlW t (-1) (t.w - lf - rt))

/-- `eq`: include/nsimd/modules/fixed_point/function/eq.hpp:33-39. -/
def eq (lf rt : Nat) (a b : BitVec t.w) : Option Bool := do
  let mask ← cmpMask t lf rt
  return decide (t.val (a &&& mask) = t.val (b &&& mask))

/-- `neq`: include/nsimd/modules/fixed_point/function/neq.hpp:34-36. -/
def neq (lf rt : Nat) (a b : BitVec t.w) : Option Bool := do
  return !(← eq t lf rt a b)

/-- `lt`: include/nsimd/modules/fixed_point/function/less.hpp:33-39. -/
def lt (lf rt : Nat) (a b : BitVec t.w) : Option Bool := do
  let mask ← cmpMask t lf rt
  return decide (t.val (a &&& mask) < t.val (b &&& mask))

/-- `lte`: include/nsimd/modules/fixed_point/function/less.hpp:57-63. -/
def lte (lf rt : Nat) (a b : BitVec t.w) : Option Bool := do
  let mask ← cmpMask t lf rt
  return decide (t.val (a &&& mask) ≤ t.val (b &&& mask))

/-- `gt`: include/nsimd/modules/fixed_point/function/greater.hpp:34-40. -/
def gt (lf rt : Nat) (a b : BitVec t.w) : Option Bool := do
  let mask ← cmpMask t lf rt
  return decide (t.val (a &&& mask) > t.val (b &&& mask))

/-- `gte`: include/nsimd/modules/fixed_point/function/greater.hpp:58-64. -/
def gte (lf rt : Nat) (a b : BitVec t.w) : Option Bool := do
  let mask ← cmpMask t lf rt
  return decide (t.val (a &&& mask) ≥ t.val (b &&& mask))

/-- `floor`: include/nsimd/modules/fixed_point/function/floor.hpp:33-38. -/
def floor (lf : Nat) (a : BitVec t.w) : Option (BitVec t.w) := do
  return t.cast (← shlW t (← sarP t (t.val a) (t.w - lf)) (t.w - lf))

/-- `ceil`: include/nsimd/modules/fixed_point/function/ceil.hpp:34-42. -/
def ceil (lf rt : Nat) (a : BitVec t.w) : Option (BitVec t.w) := do
  let res ← floor t lf a
  if (← sarP t (← shlW t (t.val a) lf) lf) = 0 then return res
  else add t res (← ofSmallInt t rt 1)

/-- `is_int`: include/nsimd/modules/fixed_point/function/is_int.hpp:34-36. -/
def isInt (lf rt : Nat) (a : BitVec t.w) : Option Bool := do
  eq t lf rt a (← floor t lf a)

/-- `simd_mul`, one lane: include/nsimd/modules/fixed_point/function/simd/mul.hpp:33-44, with the scalar
operators of egg/scalar.py for the lane. -/
def simdMul (rt : Nat) (a b : BitVec t.w) : Option (BitVec t.w) := do
  Scalar.shra t (← Scalar.mul t a b) rt

/-- `simd_eq`, one lane: include/nsimd/modules/fixed_point/function/simd/eq.hpp:33-40. -/
def simdEq (a b : BitVec t.w) : Bool := Scalar.eq t a b

/-- `simd_lt`, one lane: include/nsimd/modules/fixed_point/function/simd/lt.hpp:33-40. -/
def simdLt (a b : BitVec t.w) : Bool := Scalar.lt t a b

/-- `roundf`: to the nearest integer, halfway cases away from zero. C library rule, not code of the
repo. -/
def roundf (q : ℚ) : ℤ := if 0 ≤ q then ⌊q + 1 / 2⌋ else ⌈q - 1 / 2⌉

/-- `float2int`: `(T)roundf(val * (float)(1 << rt))`, include/nsimd/modules/fixed_point/fixed.hpp:36-38.
Floats are rationals, `rnd` is the rounding of the product (no overflow to infinity); `1 << rt` is a
32-bit `int`; conversion of an out-of-range float is undefined. -/
def float2int (rnd : ℚ → ℚ) (rt : Nat) (v : ℚ) : Option (BitVec t.w) :=
  if rt < 31 then
    let r := roundf (rnd (v * 2 ^ rt))
    if t.minv ≤ r ∧ r ≤ t.maxv then some (t.cast r) else none
  else none

/-- `int2float`: `(float)val / (float)(1 << rt)`, include/nsimd/modules/fixed_point/fixed.hpp:40-42. `rnd`
rounds the conversion and the quotient. -/
def int2float (rnd : ℚ → ℚ) (rt : Nat) (a : BitVec t.w) : Option ℚ :=
  if rt < 31 then some (rnd (rnd (t.val a) / 2 ^ rt)) else none

/-- State of the loop of `exp`: `res`, `val`, `e`; one iteration of
include/nsimd/modules/fixed_point/function/exp.hpp:51-60. -/
def expLoop (rt : Nat) : Nat → BitVec t.w → BitVec t.w → Option (BitVec t.w)
  | e, res, v =>
    if e ≤ 1 then mul t rt res v
    else if e % 2 = 1 then do
      let res ← mul t rt res v
      let v ← mul t rt v v
      expLoop rt ((e - 1) / 2) res v
    else do
      let v ← mul t rt v v
      expLoop rt (e / 2) res v
  termination_by e => e
  decreasing_by all_goals omega

/-- `exp(a, b)` with an integer exponent: include/nsimd/modules/fixed_point/function/exp.hpp:38-61. -/
def expI (rt : Nat) (a : BitVec t.w) (b : Int) : Option (BitVec t.w) := do
  let one ← ofSmallInt t rt 1
  if b = 0 then return one
  else if b < 0 then do
    let v ← div t rt one a
    expLoop t rt (← ITy.i64.prom (-b)).toNat one v
  else expLoop t rt b.toNat one a

/-- The loop of `sqrt`, `n` iterations left: include/nsimd/modules/fixed_point/function/sqrt.hpp:38-43.
The division by two is the fixed point division by `fp_t(2)`. -/
def sqrtLoop (rt : Nat) (a : BitVec t.w) : Nat → BitVec t.w → BitVec t.w → Option (BitVec t.w)
  | 0, _, x1 => some x1
  | n + 1, x0, _ => do
    let x1 ← div t rt (← add t x0 (← div t rt a x0)) (← ofSmallInt t rt 2)
    if t.val x0 = 0 ∨ (← t.prom (t.val x0 - t.val x1)) = 0 then return x1
    else sqrtLoop rt a n x1 x1

/-- `sqrt`: include/nsimd/modules/fixed_point/function/sqrt.hpp:33-45. -/
def sqrt (rt : Nat) (a : BitVec t.w) : Option (BitVec t.w) := sqrtLoop t rt a 10 a a

end Nsimd.FixedPoint
