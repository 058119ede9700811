import Verif.Model.DoubleDouble
import Verif.Model.Fp16
import Mathlib.Algebra.Order.Floor.Semiring
import Mathlib.Data.Rat.Floor

/-!
# `fmod` of the vendored SLEEF

The operator `fmod` (egg/operators.py:1700-1707) calls `xfmod` and `xfmodf` (src/rename.h:147-148).  A number is a
rational, every floating-point operation is the exact operation followed by `rnd`, as in `Model.DoubleDouble`:
infinities, NaN operands and the sign of zero are not modelled, and the results are about executions in which no
operation overflows.  Functions on bit patterns act on the fields of the pattern of a number of the format, whose
exponent is not bounded from above.  Of the SIMD code the versions are modelled whose `vrec_vd_vd` and `vrec_vf_vf`
are divisions: src/helpersse2.h:210, 333; src/helperavx.h:230, 366; src/helperavx2.h:190, 307;
src/helperavx512f.h:194, 376; src/helperpower_128.h:694-697.
-/

namespace Nsimd.Fmod
open Nsimd.DoubleDouble
open Nsimd.Fp16 (mag)

section bits
/- `M` is the number of bits of the mantissa field and `2^emin` the smallest positive number. -/
variable (M : Nat) (emin : ℤ)

/-- Number whose exponent and mantissa fields are the integer `k`. IEEE-754 encoding; not code of the repo. -/
def num (k : Nat) : ℚ := mag M k * 2 ^ emin

/-- Exponent and mantissa fields of a number `0 ≤ x` of the format. IEEE-754 encoding; not code of the repo. -/
def pat (x : ℚ) : Nat :=
  let n := ⌊x / 2 ^ emin⌋₊
  if n < 2 ^ (M + 1) then n else (n.log2 - M) * 2 ^ M + n / 2 ^ (n.log2 - M)

/-- `toward0`, `toward0f`, `vtoward0`, `vtoward0f` of a number that is not negative: src/sleefdp.c:2394-2396;
src/sleefsp.c:2008-2010; src/sleefsimddp.c:3364-3367; src/sleefsimdsp.c:3041-3044. -/
def toward0 (x : ℚ) : ℚ := if x = 0 then 0 else num M emin (pat M emin x - 1)

/-- `removelsb` and `vand_vm_vm_vm(…, 0xfffffffffffffffe)` of a number that is not negative:
src/sleefdp.c:2398-2400; src/sleefsimddp.c:3392. -/
def removelsb (x : ℚ) : ℚ := num M emin (pat M emin x / 2 * 2)

/-- `upper`, `upperf`, `vupper_vd_vd`, `vupper_vf_vf`, which clear `q` bits: src/sleefdp.c:165-167 and
src/dd.h:18-20 with `q = 27`; src/sleefsp.c:140-142 and src/df.h:18-20 with `q = 12`. -/
def upper (q : Nat) (x : ℚ) : ℚ :=
  let y := num M emin (pat M emin |x| / 2 ^ q * 2 ^ q)
  if x < 0 then -y else y

end bits

variable (rnd : ℚ → ℚ)

/-- `trunc`. C semantics of the conversion to an integer; not code of the repo. -/
def truncQ (x : ℚ) : ℤ := if x < 0 then ⌈x⌉ else ⌊x⌋

/-- `(int32_t)x` and `vtruncate_vi_vd`: `junk x` if the integer does not fit, which is undefined in C and
`0x80000000` on x86. C and Intel semantics; not code of the repo. -/
def toInt32 (junk : ℚ → ℤ) (x : ℚ) : ℤ :=
  if -2 ^ 31 ≤ truncQ x ∧ truncQ x < 2 ^ 31 then truncQ x else junk x

/-- `ptrunc`: src/sleefdp.c:2402-2405; `vptrunc` without `FULL_FP_ROUNDING`: src/sleefsimddp.c:3373-3375. `mla` and
`vmla_vd_vd_vd_vd` round twice: src/sleefdp.c:68, src/helpersse2.h:214. -/
def ptrunc (junk : ℚ → ℤ) (x : ℚ) : ℚ :=
  let fr := add rnd (mul rnd (-2 ^ 31) (toInt32 junk (mul rnd x (1 / 2 ^ 31)))) x
  if 2 ^ 52 ≤ |x| then x else sub rnd x (sub rnd fr (toInt32 junk fr))

/-- `ptruncf`: src/sleefsp.c:2012-2014; `vptruncf` without `FULL_FP_ROUNDING`: src/sleefsimdsp.c:3050-3051. -/
def ptruncf (junk : ℚ → ℤ) (x : ℚ) : ℚ :=
  if 2 ^ 23 ≤ |x| then x else sub rnd x (sub rnd x (toInt32 junk x))

/-- `vptrunc`, `vptruncf` with `FULL_FP_ROUNDING`: src/sleefsimddp.c:3371; src/sleefsimdsp.c:3048. -/
def vtruncate (x : ℚ) : ℚ := truncQ x

/-- One subtraction of `q * d`: src/sleefdp.c:2418; src/sleefsp.c:2026; src/sleefsimddp.c:3400;
src/sleefsimdsp.c:3076. `prod` is `ddmul` or `dfmul`. -/
def reduce (prod : ℚ → ℚ → DD) (d q : ℚ) (r : DD) : DD := normalize rnd (add2_22 rnd r (prod q (-d)))

/-- The quotient in `xfmod`: src/sleefdp.c:2414-2417. -/
def quot64 (junk : ℚ → ℤ) (d rd : ℚ) (r : DD) : ℚ :=
  let q := removelsb 52 (-1074) (ptrunc rnd junk (mul rnd (toward0 52 (-1074) r.1) rd))
  let q := if r.1 < mul rnd 3 d ∧ d < r.1 then 2 else q
  let q := if r.1 < mul rnd 2 d ∧ d < r.1 then 1 else q
  if r.1 = d then (if 0 ≤ r.2 then 1 else 0) else q

/-- The quotient in `xfmodf`: src/sleefsp.c:2023-2025. -/
def quot32 (junk : ℚ → ℤ) (d rd : ℚ) (r : DD) : ℚ :=
  let q := ptruncf rnd junk (mul rnd (toward0 23 (-149) r.1) rd)
  let q := if r.1 < mul rnd 3 d ∧ d ≤ r.1 then 2 else q
  if r.1 < mul rnd 2 d ∧ d ≤ r.1 then 1 else q

/-- The quotient in a lane of `xfmod`: src/sleefsimddp.c:3390-3399. `trunc` is `vptrunc`; `fma` tells whether
`ENABLE_FMA_DP` is defined. -/
def quotV64 (trunc : ℚ → ℚ) (fma : Bool) (d rd : ℚ) (r : DD) : ℚ :=
  let q := trunc (mul rnd (toward0 52 (-1074) r.1) rd)
  let q := if fma then q else removelsb 52 (-1074) q
  let q := if r.1 < mul rnd 3 d ∧ d ≤ r.1 then 2 else q
  if r.1 < add rnd d d ∧ d ≤ r.1 then 1 else q

/-- The quotient in a lane of `xfmodf`: src/sleefsimdsp.c:3069-3076, which truncates it again in line 3076. The
second `vtoward0f` of NEON, src/sleefsimdsp.c:3063-3065, is not modelled. -/
def quotV32 (trunc : ℚ → ℚ) (d rd : ℚ) (r : DD) : ℚ :=
  let q := trunc (mul rnd (toward0 23 (-149) r.1) rd)
  let q := if r.1 < mul rnd 3 d ∧ d ≤ r.1 then 2 else q
  trunc (if r.1 < mul rnd 2 d ∧ d ≤ r.1 then 1 else q)

/-- The loop of the scalar functions, at most `i` times: src/sleefdp.c:2413-2420; src/sleefsp.c:2022-2028. -/
def loop (step : DD → DD) (d : ℚ) : Nat → DD → DD
  | 0, r => r
  | i + 1, r => if (step r).1 < d then step r else loop step d i (step r)

/-- The loop of the SIMD functions, which stops when all lanes are done: src/sleefsimddp.c:3389-3402;
src/sleefsimdsp.c:3068-3078. -/
def vloop {L : Nat} (step : Fin L → DD → DD) (d : Fin L → ℚ) : Nat → (Fin L → DD) → Fin L → DD
  | 0, r => r
  | i + 1, r =>
    let r' := fun l => step l (r l)
    if ∀ l, (r' l).1 < d l then r' else vloop step d i r'

/-- The scaling of the operands: numerator, denominator and the factor that undoes it; src/sleefdp.c:2408-2409 with
`c = DBL_MIN`, `k = 54`; src/sleefsp.c:2017-2018 with `c = FLT_MIN`, `k = 25`; src/sleefsimddp.c:3381-3385;
src/sleefsimdsp.c:3057-3061. -/
def prescale (c : ℚ) (k : Nat) (x y : ℚ) : ℚ × ℚ × ℚ :=
  if |y| < c then (mul rnd |x| (2 ^ k), mul rnd |y| (2 ^ k), 1 / 2 ^ k) else (|x|, |y|, 1)

/-- The result from the unsigned remainder `v`, and whether the pair is `d`; `none` is the NaN. src/sleefdp.c:2423-2428;
src/sleefsp.c:2031-2036; src/sleefsimddp.c:3405-3412; src/sleefsimdsp.c:3081-3088. -/
def finish (x n d v : ℚ) (r : DD) : Option ℚ :=
  let ret := if add rnd r.1 r.2 = d then 0 else v
  let ret := if x < 0 then -ret else ret
  let ret := if n < d then x else ret
  if d = 0 then none else some ret

/-- `ddmul_d2_d_d`: src/sleefdp.c:376-385; `ddmul_vd2_vd_vd` without fused multiply-add: src/dd.h:230-236. -/
def ddmul : ℚ → ℚ → DD := NoFma.mul11 rnd (upper 52 (-1074) 27)

/-- `dfmul_f2_f_f`: src/sleefsp.c:327-336; `dfmul_vf2_vf_vf` without fused multiply-add: src/df.h:250-262. -/
def dfmul : ℚ → ℚ → DD := NoFma.mul11 rnd (upper 23 (-149) 12)

/-- `xfmod`: src/sleefdp.c:2407-2429. -/
def xfmod (junk : ℚ → ℤ) (x y : ℚ) : Option ℚ :=
  let (n, d, s) := prescale rnd (1 / 2 ^ 1022) 54 x y
  let rd := toward0 52 (-1074) (rec1 rnd d)
  let r := loop (fun r => reduce rnd (ddmul rnd) d (quot64 rnd junk d rd r) r) d 21 (n, 0)
  finish rnd x n d (mul rnd r.1 s) r

/-- `xfmodf`: src/sleefsp.c:2016-2037. -/
def xfmodf (junk : ℚ → ℤ) (x y : ℚ) : Option ℚ :=
  let (n, d, s) := prescale rnd (1 / 2 ^ 126) 25 x y
  let rd := toward0 23 (-149) (rec1 rnd d)
  let r := loop (fun r => reduce rnd (dfmul rnd) d (quot32 rnd junk d rd r) r) d 8 (n, 0)
  finish rnd x n d (mul rnd (add rnd r.1 r.2) s) r

/-- SIMD `xfmod`: src/sleefsimddp.c:3380-3413. `trunc` is `vptrunc`; with `fma` the product is the one of
src/dd.h:178-181. -/
def vfmod {L : Nat} (trunc : ℚ → ℚ) (fma : Bool) (x y : Fin L → ℚ) (l : Fin L) : Option ℚ :=
  let p l := prescale rnd (1 / 2 ^ 1022) 54 (x l) (y l)
  let n l := (p l).1
  let d l := (p l).2.1
  let rd l := toward0 52 (-1074) (rec1 rnd (d l))
  let prod := if fma then Fma.mul11 rnd else ddmul rnd
  let r := vloop (fun l r => reduce rnd prod (d l) (quotV64 rnd trunc fma (d l) (rd l) r) r) d 21 (fun l => (n l, 0))
  finish rnd (x l) (n l) (d l) (mul rnd (r l).1 (p l).2.2) (r l)

/-- SIMD `xfmodf`: src/sleefsimdsp.c:3056-3089. `trunc` is `vptruncf`; with `fma` the product is the one of
src/df.h:187-190. -/
def vfmodf {L : Nat} (trunc : ℚ → ℚ) (fma : Bool) (x y : Fin L → ℚ) (l : Fin L) : Option ℚ :=
  let p l := prescale rnd (1 / 2 ^ 126) 25 (x l) (y l)
  let n l := (p l).1
  let d l := (p l).2.1
  let rd l := toward0 23 (-149) (rec1 rnd (d l))
  let prod := if fma then Fma.mul11 rnd else dfmul rnd
  let r := vloop (fun l r => reduce rnd prod (d l) (quotV32 rnd trunc (d l) (rd l) r) r) d 8 (fun l => (n l, 0))
  finish rnd (x l) (n l) (d l) (mul rnd (add rnd (r l).1 (r l).2) (p l).2.2) (r l)

end Nsimd.Fmod
