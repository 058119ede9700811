import Verif.Model.X86Int
import Verif.Model.CInt

/-!
# NEON, AArch64 and SVE operators (egg/platform_arm.py)

A register of `n` lanes of `w` bits is `Reg n w = Fin n → BitVec w`.  On NEON and AArch64 a
logical is an unsigned register whose lanes are all ones or zero (egg/platform_arm.py:170-200);
on SVE it is a predicate, one Boolean per lane.  `n` is arbitrary: 128 bits on NEON and AArch64,
128 to 2048 bits on SVE.
-/

namespace Nsimd.Arm
open Nsimd.X86 (Reg)

variable {n w : Nat}

/-! ### Instructions (Arm semantics) -/

/-- `vshlq_u{w}(a, c)`: the count is the low byte of the lane of `c` read as signed; a negative
count shifts right, logically. Arm semantics, not code of the repo. -/
def vshlU (x c : BitVec w) : BitVec w :=
  let s := (c.setWidth 8).toInt
  if 0 ≤ s then x <<< s.toNat else x >>> (-s).toNat

/-- `vshlq_s{w}(a, c)`: like `vshlU` but negative counts shift arithmetically.
Arm semantics, not code of the repo. -/
def vshlS (x c : BitVec w) : BitVec w :=
  let s := (c.setWidth 8).toInt
  if 0 ≤ s then x <<< s.toNat else x.sshiftRight (-s).toNat

/-- `svlsl_x`: counts of at least `w` give zero. Arm semantics, not code of the repo. -/
def svlsl (x c : BitVec w) : BitVec w := if c.toNat < w then x <<< c.toNat else 0#w
/-- `svlsr_x`: counts of at least `w` give zero. Arm semantics, not code of the repo. -/
def svlsr (x c : BitVec w) : BitVec w := if c.toNat < w then x >>> c.toNat else 0#w
/-- `svasr_x`: counts are saturated at `w`. Arm semantics, not code of the repo. -/
def svasr (x c : BitVec w) : BitVec w := x.sshiftRight (min c.toNat w)

/-- `vminvq_u{w}`: minimum of the lanes, unsigned. Arm semantics, not code of the repo. -/
def vminv (r : Reg n w) : BitVec w :=
  (List.finRange n).foldl (fun acc i => if (r i).toNat < acc.toNat then r i else acc)
    (BitVec.allOnes w)
/-- `vmaxvq_u{w}`: maximum of the lanes, unsigned. Arm semantics, not code of the repo. -/
def vmaxv (r : Reg n w) : BitVec w :=
  (List.finRange n).foldl (fun acc i => if acc.toNat < (r i).toNat then r i else acc) 0#w
/-- `vaddvq_s{w}`: sum of the lanes, modulo `2^w`. Arm semantics, not code of the repo. -/
def vaddv (r : Reg n w) : BitVec w := (List.finRange n).foldl (fun acc i => acc + r i) 0#w

/-- `vreinterpretq_u32_u64`: lanes `2i` and `2i + 1` are the low and high halves of lane `i`.
Arm semantics, not code of the repo. -/
def reinterpret32 (r : Reg n 64) : Reg (n * 2) 32 := fun i =>
  if i.val % 2 = 0 then (r ⟨i / 2, by omega⟩).setWidth 32
  else ((r ⟨i / 2, by omega⟩) >>> 32).setWidth 32

/-! ### Shifts (egg/platform_arm.py:978-1021) -/

/-- `shl` on NEON and AArch64: `vshlq(a0, vdupq_n((iN)(a1)))`, egg/platform_arm.py:979-991. -/
def shlNeon (t : ITy) (x : BitVec t.w) (s : Int) : BitVec t.w := vshlU x (t.cast s)
/-- `shr` on NEON and AArch64: `vshlq_u(a0, vdupq_n((iN)(-a1)))`, egg/platform_arm.py:979-991. -/
def shrNeon (t : ITy) (x : BitVec t.w) (s : Int) : BitVec t.w := vshlU x (t.cast (-s))
/-- `shra` on NEON and AArch64: `shr` for unsigned types, `vshlq_s(a0, vdupq_n((iN)-a1))` for
signed ones, egg/platform_arm.py:1005-1014. -/
def shraNeon (t : ITy) (x : BitVec t.w) (s : Int) : BitVec t.w :=
  if t.sgn then vshlS x (t.cast (-s)) else shrNeon t x s
/-- `shl` on SVE: egg/platform_arm.py:992-1003. -/
def shlSve (t : ITy) (x : BitVec t.w) (s : Int) : BitVec t.w := svlsl x (t.cast s)
/-- `shr` on SVE: egg/platform_arm.py:992-1003. -/
def shrSve (t : ITy) (x : BitVec t.w) (s : Int) : BitVec t.w := svlsr x (t.cast s)
/-- `shra` on SVE: egg/platform_arm.py:1005-1008, 1015-1019. -/
def shraSve (t : ITy) (x : BitVec t.w) (s : Int) : BitVec t.w :=
  if t.sgn then svasr x (t.cast s) else shrSve t x s

/-! ### all, any (egg/platform_arm.py:1431-1477) -/

/-- `all` on NEON: `vgetq_lane(a0, 0) && ...`, egg/platform_arm.py:1442-1447; also `v0 && v1`
for f64, egg/platform_arm.py:1439-1441. -/
def allNeon (r : Reg n w) : Bool := (List.finRange n).all fun i => r i != 0#w
/-- `any` on NEON: `vgetq_lane(a0, 0) || ...`, egg/platform_arm.py:1439-1447. -/
def anyNeon (r : Reg n w) : Bool := (List.finRange n).any fun i => r i != 0#w
/-- `all` on AArch64, lanes of at most 32 bits: `vminvq_u(a0) != 0`,
egg/platform_arm.py:1449-1451. -/
def allAarch64 (r : Reg n w) : Bool := vminv r != 0#w
/-- `any` on AArch64, lanes of at most 32 bits: `vmaxvq_u(a0) != 0`,
egg/platform_arm.py:1449-1451. -/
def anyAarch64 (r : Reg n w) : Bool := vmaxv r != 0#w
/-- `all` on AArch64, 64-bit lanes: `vminvq_u32(vreinterpretq_u32_u64(a0)) != 0`,
egg/platform_arm.py:1460-1463. -/
def allAarch64_64 (r : Reg n 64) : Bool := vminv (reinterpret32 r) != 0#32
/-- `any` on AArch64, 64-bit lanes: `vmaxvq_u32(vreinterpretq_u32_u64(a0)) != 0`,
egg/platform_arm.py:1460-1463. -/
def anyAarch64_64 (r : Reg n 64) : Bool := vmaxv (reinterpret32 r) != 0#32
/-- `any` on SVE: `svptest_any(true, a0)`, egg/platform_arm.py:1466-1470. -/
def anySve (p : Fin n → Bool) : Bool := (List.finRange n).any fun i => p i
/-- `all` on SVE: `!svptest_any(true, svnot_z(true, a0))`, egg/platform_arm.py:1471-1477. -/
def allSve (p : Fin n → Bool) : Bool := !((List.finRange n).any fun i => !(p i))

/-! ### nbtrue (egg/platform_arm.py:1482-1523) -/

/-- `nbtrue` on NEON: `-(int)(vgetq_lane_s(temp, 0) + ...)`: C additions in the promoted type of
the signed lane type `t`, egg/platform_arm.py:1492-1501; also f64, egg/platform_arm.py:1489-1491.
-/
def nbtrueNeon (t : ITy) (r : Reg n t.w) : Option Int :=
  ((List.finRange n).foldlM (fun acc i => t.prom (acc + (r i).toInt)) 0).bind fun s =>
    ITy.i32.prom (-(ITy.i32.cast s).toInt)
/-- `nbtrue` on AArch64, lanes of at most 32 bits: `-(int)vaddvq_s(...)`,
egg/platform_arm.py:1503-1506. -/
def nbtrueAarch64 (r : Reg n w) : Option Int := ITy.i32.prom (-(vaddv r).toInt)
/-- `nbtrue` on AArch64, 64-bit lanes: `-(vaddvq_s32(vreinterpretq_s32_u64(a0)) >> 1)`,
egg/platform_arm.py:1515-1518. -/
def nbtrueAarch64_64 (r : Reg n 64) : Option Int :=
  ITy.i32.prom (-((vaddv (reinterpret32 r)).toInt >>> 1))
/-- `nbtrue` on SVE: `(int)svcntp(true, a0)`, egg/platform_arm.py:1521-1523. -/
def nbtrueSve (p : Fin n → Bool) : Int :=
  (ITy.i32.cast ((List.finRange n).countP fun i => p i)).toInt

/-- `all` of an f16 logical without NSIMD_ARM_FP16: both halves, egg/platform_arm.py:1434-1438,
1452-1459. -/
def allF16 {L : Type} (all : L → Bool) (v : L × L) : Bool := all v.1 && all v.2
/-- `any` of an f16 logical without NSIMD_ARM_FP16: either half, egg/platform_arm.py:1434-1438,
1452-1459. -/
def anyF16 {L : Type} (any : L → Bool) (v : L × L) : Bool := any v.1 || any v.2
/-- `nbtrue` of an f16 logical without NSIMD_ARM_FP16: sum of the halves,
egg/platform_arm.py:1484-1488, 1507-1514. -/
def nbtrueF16 {L : Type} (nb : L → Option Int) (v : L × L) : Option Int :=
  (nb v.1).bind fun a => (nb v.2).bind fun b => ITy.i32.prom (a + b)

/-! ### mask_for_loop_tail (egg/platform_arm.py:2113-2134) -/

/-- `mask_for_loop_tail` of integer types, on ARM and, with the same text, on x86
(egg/platform_x86.py:3612-3629) and POWER (egg/platform_ppc.py:1582-1600):
`a0 >= a1` gives no lane, `a1 - a0 < len` compares `iota` with `set1((typ)(a1 - a0))`, and
otherwise every lane is true.  `iota` is `(typ)i` (egg/platform_arm.py:2078-2110,
egg/platform_x86.py:3634-3648, egg/platform_ppc.py:1557-1579).  The result is given as
truth values of the lanes; `a1 - a0` is computed on `int`s. -/
def maskForLoopTail (t : ITy) (n : Nat) (in0 in1 : Int) : Option (Fin n → Bool) :=
  if in0 ≥ in1 then some fun _ => false
  else (ITy.i32.prom (in1 - in0)).map fun d : Int =>
    if d < (n : Int) then fun i => decide (t.val (t.cast (i.val : Int)) < t.val (t.cast d))
    else fun _ => true

/-! ### Integer fma, fms, fnma, fnms (egg/platform_arm.py:1257-1314) -/

/-- `vmlaq(a2, a1, a0)`, `svmla_x(true, a2, a1, a0)`: egg/platform_arm.py:1263, 1291. -/
def fma (a b c : BitVec w) : BitVec w := c + b * a
/-- `vmlsq(a2, a1, a0)`, `svmls_x(true, a2, a1, a0)`: egg/platform_arm.py:1263, 1291. -/
def fnma (a b c : BitVec w) : BitVec w := c - b * a
/-- `vnegq`, egg/platform_arm.py:1315-1351. -/
def neg (a : BitVec w) : BitVec w := -a
/-- `fms` of integers: `neg(fnma(a0, a1, a2))`, egg/platform_arm.py:1297-1301. -/
def fms (a b c : BitVec w) : BitVec w := neg (fnma a b c)
/-- `fnms` of integers: `neg(fma(a0, a1, a2))`, egg/platform_arm.py:1297-1301. -/
def fnms (a b c : BitVec w) : BitVec w := neg (fma a b c)

/-! ### Conversions between integer widths (egg/platform_arm.py:1844-2010) -/

/-- `vmovl_{s,u}` of one lane: sign or zero extension by the signedness of the source type.
Arm semantics, not code of the repo. -/
def movl (sgn : Bool) {w' : Nat} (x : BitVec w) : BitVec w' :=
  if sgn then x.signExtend w' else x.setWidth w'

/-- `upcvt` of integers: `vmovl(vget_low(a0))`, `vmovl(vget_high(a0))` followed by a
reinterpretation when the signs differ, egg/platform_arm.py:1881-1897; on SVE `svunpklo`,
`svunpkhi`, egg/platform_arm.py:1909-1925. -/
def upcvt (sgn : Bool) (w' : Nat) (r : Reg (n * 2) w) : Reg n w' × Reg n w' :=
  (fun i => movl sgn (r ⟨i, by omega⟩), fun i => movl sgn (r ⟨n + i, by omega⟩))

/-- `downcvt` of integers on NEON: `vcombine(vmovn(a0), vmovn(a1))`, egg/platform_arm.py:1972-1976;
types of different signs go through a reinterpretation (`cvt`), egg/platform_arm.py:1984-1989. -/
def downcvt (w' : Nat) (a b : Reg n w) : Reg (n * 2) w' := fun i =>
  if h : i.val < n then (a ⟨i, h⟩).setWidth w' else (b ⟨i - n, by omega⟩).setWidth w'

/-- `svreinterpret` from lanes of `w * 2` bits to lanes of `w` bits (little endian).
Arm semantics, not code of the repo. -/
def svreinterpretHalf (r : Reg n (w * 2)) : Reg (n * 2) w := fun i =>
  ((r ⟨i / 2, by omega⟩) >>> (w * (i.val % 2))).setWidth w

/-- `svuzp1`: even lanes of the concatenation. Arm semantics, not code of the repo. -/
def svuzp1 (a b : Reg (n * 2) w) : Reg (n * 2) w := fun i =>
  if h : i.val < n then a ⟨2 * i, by omega⟩ else b ⟨2 * (i - n), by omega⟩

/-- `downcvt` of integers on SVE: `svuzp1(svreinterpret(a0), svreinterpret(a1))`,
egg/platform_arm.py:1991-1995. -/
def downcvtSve (a b : Reg n (w * 2)) : Reg (n * 2) w :=
  svuzp1 (svreinterpretHalf a) (svreinterpretHalf b)

end Nsimd.Arm
