import Batteries.Data.BitVec.Lemmas

/-!
# Integer operators of the x86 back end built from other instructions
(egg/platform_x86.py)

A register is a function from lane index to lane; an instruction is given by
what it does to one lane, or to one 2w-bit lane holding two w-bit lanes (low
half first, as on little-endian x86).  Only emulated operators are modelled;
operators that map to one instruction are that instruction.
Splitting a 256/512-bit register in two halves (`split_opn`,
egg/platform_x86.py:629-648) is modelled by `splitOp`.
-/

namespace Nsimd.X86

/-- A register with `n` lanes of `w` bits. Intel semantics, not code of the repo. -/
abbrev Reg (n w : Nat) := Fin n → BitVec w

/-! ### Instructions (Intel semantics) -/

/-- `_mm_blendv_ps/pd` on one lane: the sign bit of the mask selects `b`.
Intel semantics, not code of the repo. -/
def blendv {w : Nat} (a b m : BitVec w) : BitVec w := if m.msb then b else a

/-- `_mm_blendv_epi8` on one `w`-bit lane: each byte is selected by the sign bit
of the mask byte. Intel semantics, not code of the repo. -/
def blendvEpi8 {w : Nat} (a b m : BitVec w) : BitVec w :=
  BitVec.ofFnLE fun i => if m.getLsbD (8 * (i.val / 8) + 7) then b.getLsbD i else a.getLsbD i

/-- `_mm_cmpgt_epiN` on one lane: signed comparison, all ones or zero.
Intel semantics, not code of the repo. -/
def cmpgt {w : Nat} (a b : BitVec w) : BitVec w :=
  if b.toInt < a.toInt then BitVec.allOnes w else 0#w

/-- `_mm_cmpeq_epiN` on one lane. Intel semantics, not code of the repo. -/
def cmpeq {w : Nat} (a b : BitVec w) : BitVec w :=
  if a = b then BitVec.allOnes w else 0#w

/-- `_mm_andnot_si128(a, b)` on one lane: `~a & b`. Intel semantics, not code of the repo. -/
def andnot {w : Nat} (a b : BitVec w) : BitVec w := ~~~a &&& b

/-! ### Bitwise and logical operators -/

/-- `andnotb(in0, in1)`: `_mm_andnot(in1, in0)`, egg/platform_x86.py:1220-1246. -/
def andnotb {w : Nat} (a b : BitVec w) : BitVec w := andnot b a

/-- `notb`/`notl` before AVX-512: `andnotb(set1(-1), in0)`,
egg/platform_x86.py:1266-1282. -/
def notb {w : Nat} (a : BitVec w) : BitVec w := andnotb (BitVec.allOnes w) a

/-- `if_else1` of SSE2 and AVX integers ("manual"), egg/platform_x86.py:1764-1767. -/
def ifElseManual {w : Nat} (m a b : BitVec w) : BitVec w := (a &&& m) ||| andnotb b m

/-- `if_else1` of SSE4.2/AVX2 integers, egg/platform_x86.py:1769-1772,1779-1781. -/
def ifElseBlend8 {w : Nat} (m a b : BitVec w) : BitVec w := blendvEpi8 b a m

/-- `if_else1` of floats on SSE4.2/AVX, egg/platform_x86.py:1769-1777. -/
def ifElseBlend {w : Nat} (m a b : BitVec w) : BitVec w := blendv b a m

/-! ### Comparisons -/

/-- `cmp2_with_add('gt', ...)` on unsigned lanes, egg/platform_x86.py:717-726:
adds the constant 0x80..0 to both operands and compares signed. -/
def gtWithAdd {w : Nat} (a b : BitVec w) : BitVec w :=
  cmpgt (a + BitVec.ofNat w (2 ^ (w - 1))) (b + BitVec.ofNat w (2 ^ (w - 1)))

/-- `lt` is `gt` with swapped operands, egg/platform_x86.py:1687-1689. -/
def ltWithAdd {w : Nat} (a b : BitVec w) : BitVec w := gtWithAdd b a

/-- `ge` on integers is `notl(lt)`, egg/platform_x86.py:1697-1699,1721. -/
def geNotLt {w : Nat} (a b : BitVec w) : BitVec w := notb (ltWithAdd a b)
/-- `le` on integers is `notl(gt)`, egg/platform_x86.py:1729-1731,1752. -/
def leNotGt {w : Nat} (a b : BitVec w) : BitVec w := notb (gtWithAdd a b)
/-- Signed `gt` before AVX-512, egg/platform_x86.py:1637-1665. -/
def gtS {w : Nat} (a b : BitVec w) : BitVec w := cmpgt a b
/-- Signed `lt` before AVX-512: `gt` with swapped operands, egg/platform_x86.py:1687-1689. -/
def ltS {w : Nat} (a b : BitVec w) : BitVec w := gtS b a
/-- Signed `ge` before AVX-512: `notl(lt)`, egg/platform_x86.py:1697-1699,1721. -/
def geS {w : Nat} (a b : BitVec w) : BitVec w := notb (ltS a b)
/-- Signed `le` before AVX-512: `notl(gt)`, egg/platform_x86.py:1729-1731,1752. -/
def leS {w : Nat} (a b : BitVec w) : BitVec w := notb (gtS a b)
/-- `ne` on integers is `notl(eq)`, egg/platform_x86.py:1617-1619. -/
def neNotEq {w : Nat} (a b : BitVec w) : BitVec w := notb (cmpeq a b)

/-- `_mm_shuffle_epi32(t, 177)` on the two 32-bit halves of one 64-bit lane:
exchanges them (177 = 2|3|0|1). Intel semantics, not code of the repo. -/
def swapHalves {w : Nat} (t : BitVec (w + w)) : BitVec (w + w) :=
  t.extractLsb' 0 w ++ t.extractLsb' w w

/-- `_mm_cmpeq_epi32` seen on one 64-bit lane (`w = 32`). Intel semantics, not code of the repo. -/
def cmpeqHalves {w : Nat} (a b : BitVec (w + w)) : BitVec (w + w) :=
  cmpeq (a.extractLsb' w w) (b.extractLsb' w w) ++ cmpeq (a.extractLsb' 0 w) (b.extractLsb' 0 w)

/-- SSE2 64-bit `eq`, egg/platform_x86.py:1571-1575. -/
def eq64Sse2 {w : Nat} (a b : BitVec (w + w)) : BitVec (w + w) :=
  let t := cmpeqHalves a b
  t &&& swapHalves t

/-- SSE2 i64 `gt`: `buf0[i] = -(buf0[i] > buf1[i])` through memory,
egg/platform_x86.py:1647-1652. -/
def gt64Sse2 (a b : BitVec 64) : BitVec 64 :=
  BitVec.ofInt 64 (-(if b.toInt < a.toInt then 1 else 0))

/-! ### Saturated addition and subtraction on 32/64-bit lanes -/

/-- `adds` on unsigned 32/64-bit lanes, egg/platform_x86.py:3095-3109; `lt` is
`ltWithAdd`, the selection `ifElseManual` (see `ifElse_canon` for the equality
with the blend instructions). -/
def addsU {w : Nat} (a b : BitVec w) : BitVec w :=
  let ures := a + b
  ifElseManual (ltWithAdd ures a) (BitVec.allOnes w) ures

/-- Steps 1–4 of the signed `adds`, egg/platform_x86.py:3127-3190: returns
(`ures`, `u_max_min`, `mask`). -/
def addsSteps {w : Nat} (ux uy : BitVec w) : BitVec w × BitVec w × BitVec w :=
  let ures := ux + uy
  let xor_ux_uy := ux ^^^ uy
  let xor_uy_res := uy ^^^ ures
  let ux_uy_orb := ux ||| uy
  let u_zeros_ones := ux_uy_orb >>> (w - 1)
  let u_max := BitVec.ofNat w (2 ^ (w - 1) - 1)
  let u_max_min := u_max + u_zeros_ones
  let not_xor_uy_res := notb xor_uy_res
  let mask := xor_ux_uy ||| not_xor_uy_res
  (ures, u_max_min, mask)

/-- Signed `adds` on SSE4.2/AVX/AVX2, final `blendv`, egg/platform_x86.py:3072-3080. -/
def addsBlend {w : Nat} (a b : BitVec w) : BitVec w :=
  let (ures, u_max_min, mask) := addsSteps a b
  blendv u_max_min ures mask

/-- Signed `adds` on SSE2/AVX-512: `to_logical(mask >> (w-1))` then `if_else1`,
egg/platform_x86.py:3051-3071. `to_logical` is `ne` with zero (3293-3297). -/
def addsLogical {w : Nat} (a b : BitVec w) : BitVec w :=
  let (ures, u_max_min, mask) := addsSteps a b
  ifElseManual (neNotEq (mask >>> (w - 1)) 0#w) ures u_max_min

/-- `neg` on integers: `sub(setzero, in0)`, egg/platform_x86.py:2439-2441. -/
def neg {w : Nat} (a : BitVec w) : BitVec w := 0#w - a

/-- `subs` on signed 32/64-bit lanes: `adds(in0, neg(in1))`,
egg/platform_x86.py:3226-3228. -/
def subsS {w : Nat} (a b : BitVec w) : BitVec w := addsBlend a (neg b)

/-- `subs` on unsigned 32/64-bit lanes, egg/platform_x86.py:3232-3246. -/
def subsU {w : Nat} (a b : BitVec w) : BitVec w :=
  let ures := a - b
  ifElseManual (gtWithAdd b a) 0#w ures

/-! ### abs, min, max -/

/-- `abs` with an arithmetic shift (SSE2 i16/i32), egg/platform_x86.py:1950-1953. -/
def absArith {w : Nat} (a : BitVec w) : BitVec w :=
  let mask := a.sshiftRight (w - 1)
  (a + mask) ^^^ mask

/-- `abs` without arithmetic shift (SSE2 i8, SSE i64), egg/platform_x86.py:1954-1959. -/
def absLogical {w : Nat} (a : BitVec w) : BitVec w :=
  let mask := 0#w - (a >>> (w - 1))
  (a + mask) ^^^ mask

/-- `abs` on AVX2 i64 through `blendv_pd`, egg/platform_x86.py:1960-1964. -/
def absBlend {w : Nat} (a : BitVec w) : BitVec w := blendv a (0#w - a) a

/-- `max` with `if_else1` and signed `gt`, egg/platform_x86.py:1811-1816. -/
def maxS {w : Nat} (a b : BitVec w) : BitVec w := ifElseManual (gtS a b) a b
/-- `min` with `if_else1` and signed `gt`, egg/platform_x86.py:1811-1816. -/
def minS {w : Nat} (a b : BitVec w) : BitVec w := ifElseManual (gtS b a) a b
/-- `max` with `if_else1` and unsigned `gt`, egg/platform_x86.py:1811-1816. -/
def maxU {w : Nat} (a b : BitVec w) : BitVec w := ifElseManual (gtWithAdd a b) a b
/-- `min` with `if_else1` and unsigned `gt`, egg/platform_x86.py:1811-1816. -/
def minU {w : Nat} (a b : BitVec w) : BitVec w := ifElseManual (gtWithAdd b a) a b

/-! ### 8-bit operators through wider lanes -/

/-- The low `w`-bit lane of a `2w`-bit lane. Machine representation, not code of the repo. -/
def loHalf {w : Nat} (x : BitVec (w + w)) : BitVec w := x.extractLsb' 0 w
/-- The high `w`-bit lane of a `2w`-bit lane. Machine representation, not code of the repo. -/
def hiHalf {w : Nat} (x : BitVec (w + w)) : BitVec w := x.extractLsb' w w

/-- `0x00..0FF..F` on a `2w`-bit lane, egg/platform_x86.py:1405-1406. -/
def maskFF (w : Nat) : BitVec (w + w) := BitVec.ofNat (w + w) (2 ^ w - 1)
/-- `0xFF..F00..0` on a `2w`-bit lane, egg/platform_x86.py:1405-1406. -/
def maskFF00 (w : Nat) : BitVec (w + w) := ~~~ maskFF w

/-- 8-bit `mul` with 16-bit multiplications (`with_epi16`),
egg/platform_x86.py:1368-1376; `w = 8` in the code. -/
def mul8 {w : Nat} (a b : BitVec (w + w)) : BitVec (w + w) :=
  let lo := a * b
  let hi := ((a >>> w) * (b >>> w)) <<< w
  (lo &&& maskFF w) ||| hi

/-- `shl` through lanes twice as wide (`with_2n_for_n`),
egg/platform_x86.py:1407-1419. `_mm_sll_epi16` gives 0 for counts beyond the width,
as `<<<` does. -/
def shl2n {w : Nat} (a : BitVec (w + w)) (s : Nat) : BitVec (w + w) :=
  let lo := (a <<< s) &&& maskFF w
  let hi := (a &&& maskFF00 w) <<< s
  hi ||| lo

/-- `shr` through lanes twice as wide (`with_2n_for_n`),
egg/platform_x86.py:1407-1419. -/
def shr2n {w : Nat} (a : BitVec (w + w)) (s : Nat) : BitVec (w + w) :=
  let lo := (a >>> s) &&& maskFF00 w
  let hi := (a &&& maskFF w) >>> s
  hi ||| lo

/-- 8-bit `shra` (`trick_for_i8`), egg/platform_x86.py:1475-1482. -/
def shraI8 {w : Nat} (a : BitVec (w + w)) (s : Nat) : BitVec (w + w) :=
  let hi := andnot (maskFF w) (a.sshiftRight s)
  let lo := ((a <<< w).sshiftRight s) >>> w
  hi ||| lo

/-- Byte `k` of a 32-bit lane. Intel semantics, not code of the repo. -/
def byte (x : BitVec 32) (k : Nat) : BitVec 8 := x.extractLsb' (8 * k) 8

/-- 8-bit `shl` on KNL through 32-bit lanes (`with_32_for_8`),
egg/platform_x86.py:1420-1435. -/
def shl32for8 (a : BitVec 32) (s : Nat) : BitVec 32 :=
  let masklo := 0xFF00FF#32
  let lo := ((a &&& masklo) <<< s) &&& masklo
  let maskhi := 0xFF00FF00#32
  let hi := ((a &&& maskhi) <<< s) &&& maskhi
  hi ||| lo

/-- 8-bit `shr` on KNL through 32-bit lanes, egg/platform_x86.py:1420-1435. -/
def shr32for8 (a : BitVec 32) (s : Nat) : BitVec 32 :=
  let masklo := 0xFF00FF#32
  let lo := ((a &&& masklo) >>> s) &&& masklo
  let maskhi := 0xFF00FF00#32
  let hi := ((a &&& maskhi) >>> s) &&& maskhi
  hi ||| lo

/-- A register of `n` lanes of `2w` bits read as `2n` lanes of `w` bits (low
half first). Machine representation. -/
def narrow {n w : Nat} (r : Reg n (w + w)) : Fin (2 * n) → BitVec w := fun k =>
  let x := r ⟨k.val / 2, by omega⟩
  if k.val % 2 = 0 then loHalf x else hiHalf x

/-! ### Splitting a register (AVX integers, KNL small integers) -/

/-- `extract` of the low half of a register, egg/platform_x86.py:354-390. -/
def lower {n w : Nat} (r : Reg (n + n) w) : Reg n w := fun i => r ⟨i.val, by omega⟩
/-- `extract` of the high half of a register, egg/platform_x86.py:354-390. -/
def upper {n w : Nat} (r : Reg (n + n) w) : Reg n w := fun i => r ⟨n + i.val, by omega⟩
/-- `setr`: a register from two halves, egg/platform_x86.py:391-411. -/
def join {n w : Nat} (a b : Reg n w) : Reg (n + n) w := fun i =>
  if h : i.val < n then a ⟨i.val, h⟩ else b ⟨i.val - n, by omega⟩

/-- `split_opn(func, ..., 2)`, egg/platform_x86.py:629-648. -/
def splitOp {n w : Nat} (f : Reg n w → Reg n w → Reg n w) (a b : Reg (n + n) w) :
    Reg (n + n) w :=
  join (f (lower a) (lower b)) (f (upper a) (upper b))

end Nsimd.X86
