import Verif.Model.Fp16
import Verif.Model.X86Mem
import Verif.Model.X86Cvt

/-!
# `reinterpret` and `reinterpretl` of the x86 back end (egg/platform_x86.py:2157-2289)

An f16 register is a pair of f32 registers, an f16 logical a pair of f32 logicals. Between types other
than f16 the two operators return their argument or cast it without changing a bit
(egg/platform_x86.py:2158-2159, 2220-2227, 2233-2234, 2286-2289); only the conversions from and to f16
are modelled. The other type is i16 or u16, its lanes are their bits. Nothing is said about alignment.
-/

namespace Nsimd.X86Rei

open Nsimd Nsimd.Cpu Nsimd.X86Cvt
open Nsimd.X86 hiding lo hi

variable {n : Nat}

/-! ### F16C instructions -/

/-- The exponent is all ones and the mantissa is not zero. IEEE-754, not code of the repo. -/
def nan16 (h : BitVec 16) : Bool := (h >>> 10) &&& 0x1f#16 = 0x1f#16 ∧ h &&& 0x3ff#16 ≠ 0#16
/-- The same on 32 bits. IEEE-754, not code of the repo. -/
def nan32 (a : BitVec 32) : Bool := (a >>> 23) &&& 0xff#32 = 0xff#32 ∧ a &&& 0x7fffff#32 ≠ 0#32

/-- One lane of `vcvtph2ps`. A NaN keeps sign and payload and becomes quiet; any other half is converted
exactly, to the one float of that value and sign, which is what `nsimd_u16_to_f32` computes (C01).
Intel semantics, not code of the repo. -/
def cvtph (h : BitVec 16) : Option (BitVec 32) :=
  if nan16 h then
    some (((h &&& 0x8000#16).setWidth 32 <<< 16) ||| 0x7fc00000#32 ||| ((h &&& 0x3ff#16).setWidth 32 <<< 13))
  else Fp16.u16ToF32 h

/-- One lane of `vcvtps2ph` with the rounding of MXCSR (`imm8 = 4`), nearest even. A NaN keeps its sign and
the top ten bits of its payload and becomes quiet; any other float is rounded, as `nsimd_f32_to_u16` does
(C02). Intel semantics, not code of the repo. -/
def cvtps (a : BitVec 32) : BitVec 16 :=
  if nan32 a then
    ((a >>> 16) &&& 0x8000#32).setWidth 16 ||| 0x7e00#16 ||| ((a >>> 13) &&& 0x3ff#32).setWidth 16
  else Fp16.f32ToU16 a

/-! ### `reinterpret` -/

section
variable (dec : BitVec 16 → Option (BitVec 32)) (enc : BitVec 32 → BitVec 16)

/-- To f16 on SSE with F16C: `_mm_cvtph_ps` of the low four lanes, then of the register shuffled by 14,
egg/platform_x86.py:2172-2179. `dec` is one lane of `cvtph`. -/
def toF16Sse (a : Reg (4 + 4) 16) : Option (Reg 4 32 × Reg 4 32) := do
  let v0 ← emulate dec (lo a)
  let a := X86.shuffleEpi32 14 a
  let v1 ← emulate dec (n := 4) fun i => a ⟨i, by omega⟩
  return (v0, v1)

/-- To f16 on AVX with F16C and on AVX-512: `native`, egg/platform_x86.py:2165-2171. Without F16C, through
memory: `emulate`, egg/platform_x86.py:2161-2164, where `dec` is `nsimd_u16_to_f32`; the load is
`loadF16SseSoft` or `loadF16Wide`, lanes in order. -/
def toF16 (a : Reg (n + n) 16) : Option (Reg n 32 × Reg n 32) := do
  let v0 ← emulate dec (lo a)
  let v1 ← emulate dec (hi a)
  return (v0, v1)

/-- From f16 on SSE with F16C: `_mm_cvtps_ph` leaves zeros in the high half, `_mm_shuffle_pd(lo, hi, 0)`
joins the low halves, egg/platform_x86.py:2201-2207. -/
def fromF16Sse (v : Reg 4 32 × Reg 4 32) : Reg (4 + 4) 16 :=
  let lo : Reg 8 16 := fun i => if h : i.val < 4 then enc (v.1 ⟨i, h⟩) else 0#16
  let hi : Reg 8 16 := fun i => if h : i.val < 4 then enc (v.2 ⟨i, h⟩) else 0#16
  shufflePd0 lo hi

/-- From f16 on AVX with F16C and on AVX-512: `native`, egg/platform_x86.py:2198-2200. Without F16C, through
memory: `emulate`, egg/platform_x86.py:2193-2197, where `enc` is `nsimd_f32_to_u16`. -/
def fromF16 (v : Reg n 32 × Reg n 32) : Reg (n + n) 16 :=
  setr (fun i => enc (v.1 i)) (fun i => enc (v.2 i))

end

/-! ### `reinterpretl` -/

/-- To f16 on SSE: every 16-bit lane twice, egg/platform_x86.py:2236-2241. -/
def lToF16Sse (l : Reg (n + n) 16) : Reg n 32 × Reg n 32 := (unpacklo l l, unpackhi l l)

/-- To f16 on AVX: both halves by the code of sse42, egg/platform_x86.py:2242-2256. -/
def lToF16Avx (l : Reg (n + n + (n + n)) 16) : Reg (n + n) 32 × Reg (n + n) 32 :=
  let tmp1 := lToF16Sse (lo l)
  let tmp2 := lToF16Sse (hi l)
  (setr tmp1.1 tmp1.2, setr tmp2.1 tmp2.2)

/-- To f16 on AVX2: sign extension of both halves, egg/platform_x86.py:2257-2264. -/
def lToF16Avx2 (l : Reg (n + n) 16) : Reg n 32 × Reg n 32 :=
  (cvtep .i16 .i32 (lo l), cvtep .i16 .i32 (hi l))

/-- To f16 on AVX-512: `(__mmask16)(a0 & 0xFFFF)` and `(__mmask16)((a0 >> 16) & 0xFFFF)`,
egg/platform_x86.py:2265-2269. -/
def lToF16_512 (k : BitVec 32) : BitVec 16 × BitVec 16 :=
  ((k &&& 0xFFFF#32).setWidth 16, ((k >>> 16) &&& 0xFFFF#32).setWidth 16)

/-- `x != 0.0f` of the float of bits `x`: false for the two zeros only. C language rule, not code of the
repo. -/
def neZero (x : BitVec 32) : Bool := x &&& 0x7fffffff#32 ≠ 0#32

/-- From f16 on SSE and AVX: store both registers, `out[i] = (to_typ)(in[i] != 0.0f ? -1 : 0)`, load,
egg/platform_x86.py:2271-2281. -/
def lFromF16 (l : Reg n 32 × Reg n 32) : Reg (n + n) 16 := fun i =>
  if neZero (setr l.1 l.2 i) then BitVec.ofInt 16 (-1) else 0#16

/-- From f16 on AVX-512: `(__mmask32)a0.v0 | ((__mmask32)a0.v1 << 16)`, egg/platform_x86.py:2282-2285. -/
def lFromF16_512 (k : BitVec 16 × BitVec 16) : BitVec 32 :=
  k.1.setWidth 32 ||| (k.2.setWidth 32 <<< 16)

end Nsimd.X86Rei
