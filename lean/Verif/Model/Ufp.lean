/-!
# `ufp` (src/ufp.cpp)

The template works on the bit pattern of its arguments, so a float is the
natural number of its bit pattern (the unsigned integer `UnsignedType`).
-/

namespace Nsimd.Ufp

/-- An `i64` computation: `none` is signed overflow (undefined behaviour).
C rule used by src/ufp.cpp:38-57. -/
def i64 (x : Int) : Option Int := if -2 ^ 63 ≤ x ∧ x < 2 ^ 63 then some x else none

/-- `for (; i <= MantissaSize + 1 && d >= ((i64)1 << i); i++);`
src/ufp.cpp:56-58. `fuel` bounds the iterations, `none` means not finished; the
shift `(i64)1 << i` is undefined for `i >= 63` and overflows `i64` there. -/
def loop (M : Nat) (d : Int) : Nat → Nat → Option Nat
  | 0, _ => none
  | fuel + 1, i =>
    if i ≤ M + 1 then
      (i64 (2 ^ i)).bind fun p => if d ≥ p then loop M d fuel (i + 1) else some i
    else some i

/-- The three-way difference of src/ufp.cpp:46-54. -/
def diff (ea eb ma mb : Int) : Option Int :=
  if ea = eb then i64 (ma - mb)
  else if ea > eb then do i64 ((← i64 (2 * ma)) - mb)
  else do i64 ((← i64 (2 * mb)) - ma)

/-- `d = (d >= 0 ? d : -d);` src/ufp.cpp:55. -/
def absD (d : Int) : Option Int := if d ≥ 0 then some d else i64 (-d)

/-- `ufp<ExponentSize, MantissaSize, UnsignedType>`, src/ufp.cpp:32-60, on the
bit patterns of `a_` and `b_`.  Masking and shifting of unsigned words are
written as `%` and `/` on `Nat`; `(a & man_mask) | (1 << MantissaSize)` is a sum
because the two operands have no common bit. The loop gets `M + 3` units of
fuel. -/
def ufp (E M : Nat) (a b : Nat) : Option Int :=
  let ea : Int := (a / 2 ^ M % 2 ^ E : Nat)
  let eb : Int := (b / 2 ^ M % 2 ^ E : Nat)
  if ea - eb > 1 ∨ ea - eb < -1 then some 0
  else do
    let ma ← i64 ((a % 2 ^ M : Nat) + 2 ^ M)
    let mb ← i64 ((b % 2 ^ M : Nat) + 2 ^ M)
    let d ← diff ea eb ma mb
    let d ← absD d
    let i ← loop M d (M + 3) 0
    return (M : Int) + 1 - i

/-- `nsimd_ufp_f16`, src/ufp.cpp:69-71. -/
def ufpF16 (a b : BitVec 16) : Option Int := ufp 5 10 a.toNat b.toNat
/-- `nsimd_ufp_f32`, src/ufp.cpp:73-75. -/
def ufpF32 (a b : BitVec 32) : Option Int := ufp 8 23 a.toNat b.toNat
/-- `nsimd_ufp_f64`, src/ufp.cpp:77-79. -/
def ufpF64 (a b : BitVec 64) : Option Int := ufp 11 52 a.toNat b.toNat

end Nsimd.Ufp
