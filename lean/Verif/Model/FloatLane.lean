import Verif.Model.Fp16
import Verif.Model.ScalarInt

/-!
# Scalar operators on f32 and f64

A float is its bit pattern.  Comparison, negation and absolute value act on the pattern; the arithmetic of the
C implementation and its library are parameters.
-/

namespace Nsimd.FloatLane

/-- The two types whose scalars the processor computes on, `ftypes_no_f16` of egg/common.py:220. -/
inductive FTy | f32 | f64
  deriving DecidableEq

/-- The unsigned type of the same size, `bitfield_type` of egg/common.py:243-255. -/
abbrev FTy.u : FTy → ITy
  | .f32 => .u32
  | .f64 => .u64

/-- Number of bits, `typnbits`, egg/scalar.py:352. -/
abbrev FTy.w (t : FTy) : Nat := t.u.w

/-- Size of the mantissa field. IEEE-754 encoding; not code of the repo. -/
abbrev FTy.m : FTy → Nat
  | .f32 => 23
  | .f64 => 52

/-- Size of the exponent field. IEEE-754 encoding; not code of the repo. -/
abbrev FTy.e : FTy → Nat
  | .f32 => 8
  | .f64 => 11

variable (t : FTy)

/-- Exponent and mantissa fields as one number. IEEE-754 encoding; not code of the repo. -/
def body (x : BitVec t.w) : Nat := x.toNat % 2 ^ (t.w - 1)

/-- A NaN: largest exponent, mantissa not zero. IEEE-754 encoding; not code of the repo. -/
def isNaN (x : BitVec t.w) : Bool := decide ((2 ^ t.e - 1) * 2 ^ t.m < body t x)

/-- Sign and magnitude as one integer, which orders the patterns that are not NaN as their values.
IEEE-754 encoding; not code of the repo. -/
def key (x : BitVec t.w) : Int := if x.msb then -(body t x : Int) else body t x

/-- `a < b`. IEEE-754 rule: false if one is a NaN; not code of the repo. -/
def flt (a b : BitVec t.w) : Bool := !isNaN t a && !isNaN t b && decide (key t a < key t b)
/-- `a <= b`. IEEE-754 rule: false if one is a NaN; not code of the repo. -/
def fle (a b : BitVec t.w) : Bool := !isNaN t a && !isNaN t b && decide (key t a ≤ key t b)
/-- `a == b`. IEEE-754 rule: false if one is a NaN; not code of the repo. -/
def feq (a b : BitVec t.w) : Bool := !isNaN t a && !isNaN t b && decide (key t a = key t b)

/-- `-a`: the sign bit changes. IEEE-754 rule; not code of the repo. -/
def fneg (a : BitVec t.w) : BitVec t.w := a ^^^ BitVec.twoPow t.w (t.w - 1)

/-- `1.0`. IEEE-754 encoding; not code of the repo. -/
def one : (t : FTy) → BitVec t.w
  | .f32 => 0x3f800000#32
  | .f64 => 0x3ff0000000000000#64

/-- `0.5`. IEEE-754 encoding; not code of the repo. -/
def half : (t : FTy) → BitVec t.w
  | .f32 => 0x3f000000#32
  | .f64 => 0x3fe0000000000000#64

/-- The rounded operations of the processor, one record for scalars and vector lanes.
Parameters of the model, not code of the repo. -/
structure Arith where
  add : BitVec t.w → BitVec t.w → BitVec t.w
  sub : BitVec t.w → BitVec t.w → BitVec t.w
  mul : BitVec t.w → BitVec t.w → BitVec t.w
  div : BitVec t.w → BitVec t.w → BitVec t.w
  sqrt : BitVec t.w → BitVec t.w
  fma : BitVec t.w → BitVec t.w → BitVec t.w → BitVec t.w

/-- Functions to an integral value: `floor`, `ceil`, `trunc` and rounding to nearest, ties to even; of the C
library or of vector instructions. Parameters of the model, not code of the repo. -/
structure Integral where
  floor : BitVec t.w → BitVec t.w
  ceil : BitVec t.w → BitVec t.w
  trunc : BitVec t.w → BitVec t.w
  near : BitVec t.w → BitVec t.w

variable {t}

/-! ### The operators of egg/scalar.py on f32 and f64 -/

/-- `nsimd_scalar_min`: `in0 < in1 ? in0 : in1`, egg/scalar.py:381-390. -/
def sMin (a b : BitVec t.w) : BitVec t.w := if flt t a b then a else b
/-- `nsimd_scalar_max`: `in0 > in1 ? in0 : in1`, egg/scalar.py:381-390. -/
def sMax (a b : BitVec t.w) : BitVec t.w := if flt t b a then a else b
/-- `nsimd_scalar_abs`: `in0 >= 0 ? in0 : -in0`, egg/scalar.py:378-380. -/
def sAbs (a : BitVec t.w) : BitVec t.w := if fle t 0 a then a else fneg t a
/-- `nsimd_scalar_neg`, egg/scalar.py:459. -/
def sNeg (a : BitVec t.w) : BitVec t.w := fneg t a

/-- `nsimd_scalar_lt`, egg/scalar.py:460. -/
def sLt (a b : BitVec t.w) : Bool := flt t a b
/-- `nsimd_scalar_gt`, egg/scalar.py:461. -/
def sGt (a b : BitVec t.w) : Bool := flt t b a
/-- `nsimd_scalar_le`, egg/scalar.py:462. -/
def sLe (a b : BitVec t.w) : Bool := fle t a b
/-- `nsimd_scalar_ge`, egg/scalar.py:463. -/
def sGe (a b : BitVec t.w) : Bool := fle t b a
/-- `nsimd_scalar_ne`: `in0 != in1` is the negation of `==`, egg/scalar.py:464. -/
def sNe (a b : BitVec t.w) : Bool := !feq t a b
/-- `nsimd_scalar_eq`, egg/scalar.py:465. -/
def sEq (a b : BitVec t.w) : Bool := feq t a b

variable (A : Arith t) (C : Integral t)

/-- `nsimd_scalar_rec`, `rec8`, `rec11`, egg/scalar.py:478-480. -/
def sRec (a : BitVec t.w) : BitVec t.w := A.div (one t) a
/-- `nsimd_scalar_rsqrt`, `rsqrt8`, `rsqrt11`, egg/scalar.py:481-489. -/
def sRsqrt (a : BitVec t.w) : BitVec t.w := A.div (one t) (A.sqrt a)

/-- `nsimd_scalar_fma`: `fma` of the C library, or a product and a sum before C99,
egg/scalar.py:410-420. -/
def sFma (c99 : Bool) (a b c : BitVec t.w) : BitVec t.w :=
  if c99 then A.fma a b c else A.add (A.mul a b) c
/-- `nsimd_scalar_fms`, egg/scalar.py:421-431. -/
def sFms (c99 : Bool) (a b c : BitVec t.w) : BitVec t.w := sFma A c99 a b (fneg t c)
/-- `nsimd_scalar_fnma`, egg/scalar.py:421-431. -/
def sFnma (c99 : Bool) (a b c : BitVec t.w) : BitVec t.w := sFma A c99 (fneg t a) b c
/-- `nsimd_scalar_fnms`, egg/scalar.py:421-431. -/
def sFnms (c99 : Bool) (a b c : BitVec t.w) : BitVec t.w := sFma A c99 (fneg t a) b (fneg t c)

/-- `nsimd_scalar_floor`, egg/scalar.py:406-409. (Before C99 the f32 operator calls the f64 function, which gives
the same integer.) -/
def sFloor (a : BitVec t.w) : BitVec t.w := C.floor a
/-- `nsimd_scalar_ceil`, egg/scalar.py:406-409; simplified as `sFloor`. -/
def sCeil (a : BitVec t.w) : BitVec t.w := C.ceil a
/-- `nsimd_scalar_trunc`, egg/scalar.py:355-370: the library function, or before C99
`in0 >= 0 ? floor(in0) : ceil(in0)`. -/
def sTrunc (c99 : Bool) (a : BitVec t.w) : BitVec t.w :=
  if c99 then C.trunc a else if fle t 0 a then sFloor C a else sCeil C a
/-- `nsimd_scalar_round_to_even`, egg/scalar.py:176-194. -/
def sRound (a : BitVec t.w) : BitVec t.w :=
  let fl := sFloor C a
  let ce := sCeil C a
  let df := A.sub a fl
  let dc := A.sub ce a
  if flt t df dc then fl
  else if flt t dc df then ce
  else
    let fld2 := A.mul fl (half t)
    if feq t fld2 (sFloor C fld2) then fl else ce

end Nsimd.FloatLane
