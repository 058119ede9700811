/-!
# C integer types, promotion and undefined behaviour

The integer types of nsimd and the few C rules its scalar code relies on.
`none` is undefined behaviour.
-/

namespace Nsimd

/-- The integer types of nsimd.
Models `itypes`, `utypes` in egg/common.py:221-223 and the typedefs in
include/nsimd/nsimd.h:880-934. -/
inductive ITy
  | i8 | i16 | i32 | i64 | u8 | u16 | u32 | u64
  deriving DecidableEq, Repr

namespace ITy

/-- Number of bits of a type. Models `bitsize` in egg/common.py:287. -/
abbrev w : ITy → Nat
  | i8 | u8 => 8
  | i16 | u16 => 16
  | i32 | u32 => 32
  | i64 | u64 => 64

/-- Signedness. Models the split `itypes` / `utypes` in egg/common.py:221-222. -/
abbrev sgn : ITy → Bool
  | i8 | i16 | i32 | i64 => true
  | _ => false

/-- The unsigned type of the same width.
Models `bitfield_type` in egg/common.py (used at egg/scalar.py:85). -/
abbrev utyp : ITy → ITy
  | i8 | u8 => u8
  | i16 | u16 => u16
  | i32 | u32 => u32
  | i64 | u64 => u64

/-- Number of bits of the type an operand is promoted to: C integer promotion
to a 32-bit `int`. C language rule (ISO C 6.3.1.1); not code of the repo. -/
abbrev promW : ITy → Nat
  | i64 | u64 => 64
  | _ => 32

/-- Signedness after promotion: everything narrower than `int` becomes (signed)
`int`. C language rule (ISO C 6.3.1.1); not code of the repo. -/
abbrev promSgn : ITy → Bool
  | u32 | u64 => false
  | _ => true

/-- The number a value of type `t` denotes (two's complement).
C language rule; not code of the repo. -/
def val (t : ITy) (x : BitVec t.w) : Int :=
  if t.sgn then x.toInt else (x.toNat : Int)

/-- The cast `(typ)v`: reduction modulo `2^w`. For signed types the reduction of
out-of-range values is implementation-defined before C++20; gcc, clang and msvc
all wrap, which is what is modelled. Used for every `({typ})(...)` in
egg/scalar.py. C language rule, not code of the repo. -/
def cast (t : ITy) (v : Int) : BitVec t.w := BitVec.ofInt t.w v

/-- Value of an arithmetic expression computed in the promoted type of `t`:
undefined on signed overflow, modulo `2^n` when unsigned.
C language rule (ISO C 6.5p5, 6.2.5p9); not code of the repo. -/
def prom (t : ITy) (v : Int) : Option Int :=
  if t.promSgn then
    if -2 ^ (t.promW - 1) ≤ v ∧ v < 2 ^ (t.promW - 1) then some v else none
  else some (v % 2 ^ t.promW)

/-- `v << s` in the promoted type of `t`: undefined if the count is out of
range, or if the type is signed and `v` is negative or the result does not fit.
C language rule (ISO C99 6.5.7); not code of the repo. -/
def shlP (t : ITy) (v s : Int) : Option Int :=
  if 0 ≤ s ∧ s < t.promW then
    if t.promSgn = true ∧ v < 0 then none else t.prom (v * 2 ^ s.toNat)
  else none

/-- `v >> s` in the promoted type of `t` for non-negative `v` (the code only
right-shifts values of unsigned types): undefined if the count is out of range.
C language rule (ISO C99 6.5.7); not code of the repo. -/
def shrP (t : ITy) (v s : Int) : Option Int :=
  if 0 ≤ s ∧ s < t.promW then some (v / 2 ^ s.toNat) else none

/-- Largest value: models `NSIMD_*_MAX`, include/nsimd/nsimd.h:936-966. -/
abbrev maxv : ITy → Int
  | i8 => 127
  | i16 => 32767
  | i32 => 2147483647
  | i64 => 9223372036854775807
  | u8 => 255
  | u16 => 65535
  | u32 => 4294967295
  | u64 => 18446744073709551615

/-- Smallest value: models `NSIMD_*_MIN`, include/nsimd/nsimd.h:936-966. -/
abbrev minv : ITy → Int
  | i8 => -128
  | i16 => -32768
  | i32 => -2147483648
  | i64 => -9223372036854775808
  | _ => 0

end ITy
end Nsimd
