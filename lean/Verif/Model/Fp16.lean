/-!
# Half-precision conversions (src/fp16.cpp)

Floats are their bit patterns: `BitVec 32` for `f32`, `BitVec 16` for `f16`.
Only the IEEE-754 branch (`NSIMD_NO_IEEE754` not defined) is modelled.
-/

namespace Nsimd.Fp16

/-- The loop `do { ++i; mask <<= 1; } while ((mask & 0x400) == 0);` of
`nsimd_u16_to_f32`, src/fp16.cpp:126-129.  Fuel bounds the number of
iterations; `none` means the loop has not stopped yet. -/
def renorm : Nat → BitVec 32 → BitVec 32 → Option (BitVec 32 × BitVec 32)
  | 0, _, _ => none
  | fuel + 1, mask, i =>
    let i := i + 1
    let mask := mask <<< 1
    if mask &&& 0x400#32 = 0#32 then renorm fuel mask i else some (mask, i)

/-- `nsimd_u16_to_f32`, src/fp16.cpp:105-142 (result as a bit pattern).
The loop is given 32 units of fuel; `none` would mean that it is not finished
after 32 iterations. `int i` is kept as a 32-bit pattern. -/
def u16ToF32 (a : BitVec 16) : Option (BitVec 32) := do
  let sign := (a &&& 0x8000#16).setWidth 32
  let exponent := ((a >>> 10) &&& 0x1F#16).setWidth 32
  let mantissa := (a &&& 0x3FF#16).setWidth 32
  let (exponent, mantissa) ←
    if exponent = 31#32 then
      pure (255#32, mantissa)
    else if exponent = 0#32 ∧ mantissa = 0#32 then
      pure (exponent, mantissa)
    else if exponent = 0#32 then do
      let (mask, i) ← renorm 32 mantissa (-1#32)
      pure (exponent + (112#32 - i), mask &&& 0x3ff#32)
    else
      pure (exponent + 112#32, mantissa)
  return (sign <<< 16) ||| (exponent <<< 23) ||| (mantissa <<< 13)

/-- Sign-magnitude key of a non-NaN float: IEEE-754 comparison of non-NaN
`f32` values is comparison of these keys (infinities included, `-0 = +0`).
Hardware rule used by src/fp16.cpp:206,212,223; `f32key_le_iff` in
`Verif.Props.Fp16Order` relates it to the real values. -/
def f32key (a : BitVec 32) : Int :=
  if a.msb then -((a &&& 0x7fffffff#32).toNat : Int) else ((a &&& 0x7fffffff#32).toNat : Int)

/-- `a <= b` on non-NaN `f32`. Hardware rule. IEEE-754, not code of the repo. -/
def fle (a b : BitVec 32) : Bool := f32key a ≤ f32key b
/-- `a < b` on non-NaN `f32`. Hardware rule. IEEE-754, not code of the repo. -/
def flt (a b : BitVec 32) : Bool := f32key a < f32key b
/-- Unary minus on `f32`: flips the sign bit. Hardware rule. IEEE-754, not code of the repo. -/
def fneg (a : BitVec 32) : BitVec 32 := a ^^^ 0x80000000#32

/-- Magnitude of a finite float with `M` mantissa bits, from the integer `k`
formed by its exponent and mantissa fields, in units of the smallest subnormal:
`k` itself below `2^M`, `(2^M + mantissa) * 2^(exponent-1)` above.
IEEE-754 encoding; not code of the repo. -/
def mag (M k : Nat) : Nat :=
  if k < 2 ^ M then k else (2 ^ M + k % 2 ^ M) * 2 ^ (k / 2 ^ M - 1)

/-- Round a non-negative real `n * 2^-149` to `f32`, nearest-even, overflow to
infinity.  Hardware rule (IEEE-754 default rounding), used by `faddPos`;
`roundF32_nearest` in `Verif.Props.Fp16Order` shows it is a nearest-even rounding. -/
def roundF32 (n : Nat) : BitVec 32 :=
  if n < 2 ^ 24 then BitVec.ofNat 32 n
  else
    let sh := n.log2 - 23
    let q := n / 2 ^ sh
    let rem := n % 2 ^ sh
    let half := 2 ^ (sh - 1)
    let q := if half < rem ∨ (rem = half ∧ q % 2 = 1) then q + 1 else q
    BitVec.ofNat 32 (min (sh * 2 ^ 23 + q) 0x7f800000)

/-- `a + b` for two finite non-negative floats: the exact sum, rounded.
Hardware rule used by `in_f += magic_f;`, src/fp16.cpp:231. -/
def faddPos (a b : BitVec 32) : BitVec 32 :=
  roundF32 (mag 23 a.toNat + mag 23 b.toNat)

/-- `nsimd_f32_to_u16`, src/fp16.cpp:192-244 (argument as a bit pattern). -/
def f32ToU16 (a : BitVec 32) : BitVec 16 :=
  let in_u := a
  let sign := in_u &&& 0x80000000#32
  let exponent := (in_u >>> 23) &&& 0xFF#32
  let mantissa := in_u &&& 0x7FFFFF#32
  if exponent = 255#32 ∧ mantissa ≠ 0#32 then 0xffff#16
  else
    let biggest := 0x477ff000#32
    if fle biggest a ∨ fle a (fneg biggest) then
      ((sign >>> 16) ||| (0x1f#32 <<< 10)).setWidth 16
    else
      let smallest := 0x33000000#32
      if fle a smallest ∧ fle (fneg smallest) a then (sign >>> 16).setWidth 16
      else
        let denormal := 0x38800000#32
        if flt a denormal ∧ flt (fneg denormal) a then
          let magic := BitVec.ofNat 32 (((127 - 15) + (23 - 10) + 1)) <<< 23
          let in_u := a &&& ~~~0x80000000#32
          let in_f := faddPos in_u magic
          let in_u := in_f - magic
          ((sign >>> 16) ||| in_u).setWidth 16
        else
          let in_u := in_u &&& ~~~0x80000000#32
          let mant_odd := (in_u >>> 13) &&& 1#32
          let in_u := in_u + (((BitVec.ofInt 32 (15 - 127)) <<< 23) + 0xfff#32)
          let in_u := in_u + mant_odd
          ((sign >>> 16) ||| (in_u >>> 13)).setWidth 16

end Nsimd.Fp16
