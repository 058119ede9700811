import Verif.Model.Fmod

/-!
# `remainder` of the vendored SLEEF

The operator `remainder` (egg/operators.py:1691-1698) calls `xremainder` and `xremainderf` (src/rename.h:149-150).
Numbers and operations are those of `Model.Fmod`: rationals, with a rounding after every operation.  Infinities, NaN
operands and the sign of zero are not modelled, except that the code tests whether a product is infinite: a number
whose magnitude is at least `2^E` stands for an infinity.  Of the SIMD code the versions are modelled whose
`vrec_vd_vd` and `vrec_vf_vf` are divisions, as in `Model.Fmod`.
-/

namespace Nsimd.Remainder
open Nsimd.DoubleDouble Nsimd.Fmod

variable (rnd : ℚ → ℚ)

/-- `mulsign`, `mulsignf`, `vmulsign_vd_vd_vd`: src/sleefdp.c:59-61; src/sleefsp.c:59-61; src/sleefsimddp.c:259-261. -/
def mulsign (x y : ℚ) : ℚ := if y < 0 then -x else x

/-- `orsign`, `vorsign_vd_vd_vd`: src/sleefdp.c:749-751; src/sleefsimddp.c:384-386. -/
def orsign (x y : ℚ) : ℚ := if y < 0 then -|x| else x

/-- `copysignfk`: src/sleefsp.c:63-65. -/
def copysign (x y : ℚ) : ℚ := if y < 0 then -|x| else |x|

/-- `rintk2`: src/sleefdp.c:2431-2434 with `b = 52`; `vrintk2_vd_vd` and `vrintfk2_vf_vf` without
`FULL_FP_ROUNDING`: src/sleefsimddp.c:3419-3421 with `b = 52`; src/sleefsimdsp.c:3095-3097 with `b = 23`. -/
def rintk2 (b : Nat) (x : ℚ) : ℚ :=
  let c := mulsign (2 ^ b) x
  if 2 ^ b < |x| then x else orsign (sub rnd (add rnd x c) c) x

/-- `rintfk2`: src/sleefsp.c:2039-2045. -/
def rintfk2 (junk : ℚ → ℤ) (d : ℚ) : ℚ :=
  let x := add rnd d (1 / 2)
  let isodd := toInt32 junk x % 2 ≠ 0
  let fr := sub rnd x (toInt32 junk x)
  let fr := if fr < 0 ∨ (fr = 0 ∧ isodd) then add rnd fr 1 else fr
  if 2 ^ 23 ≤ |d| then d else copysign (sub rnd x fr) d

/-- `vrint_vd_vd`, `vrint_vf_vf`, which round to the nearest integer, ties to even. Semantics of the instruction; not
code of the repo. `vrintk2_vd_vd` and `vrintfk2_vf_vf` with `FULL_FP_ROUNDING`: src/sleefsimddp.c:3417;
src/sleefsimdsp.c:3093. -/
def vrint (x : ℚ) : ℚ :=
  if x - ⌊x⌋ < 1 / 2 ∨ (x - ⌊x⌋ = 1 / 2 ∧ ⌊x⌋ % 2 = 0) then ⌊x⌋ else ⌊x⌋ + 1

/-- `removelsb` and `vand_vm_vm_vm(…, 0xfffffffffffffffe)` of numbers of both signs: src/sleefdp.c:2398-2400;
src/sleefsimddp.c:3438. -/
def removelsb (x : ℚ) : ℚ := if x < 0 then -Fmod.removelsb 52 (-1074) |x| else Fmod.removelsb 52 (-1074) x

/-- `xisodd`: src/sleefdp.c:87-90; `visodd_vo_vd` without `FULL_FP_ROUNDING`: src/sleefsimddp.c:334-338. -/
def isodd64 (junk : ℚ → ℤ) (d : ℚ) : Bool :=
  let x := sub rnd d (mul rnd (2 ^ 31) (toInt32 junk (mul rnd d (1 / 2 ^ 31))))
  toInt32 junk x % 2 ≠ 0 ∧ |d| < 2 ^ 53

/-- `visodd_vo_vd` with `FULL_FP_ROUNDING`: src/sleefsimddp.c:331-332. -/
def visodd (d : ℚ) : Bool := truncQ (mul rnd d (1 / 2)) ≠ mul rnd d (1 / 2)

/-- Parity of a quotient of f32: src/sleefsp.c:2060; src/sleefsimdsp.c:3119-3120. -/
def isodd32 (junk : ℚ → ℤ) (q : ℚ) : Bool := toInt32 junk q % 2 ≠ 0 ∧ |q| < 2 ^ 24

/-- The quotient in the loops: src/sleefdp.c:2444-2446; src/sleefsp.c:2055-2057; src/sleefsimddp.c:3436-3443;
src/sleefsimdsp.c:3112-3116. `est` makes an integer of the product. -/
def quot (est : ℚ → ℚ) (d rd : ℚ) (r : DD) (odd : Bool) : ℚ :=
  let q := est (mul rnd r.1 rd)
  let q := if |r.1| < mul rnd (3 / 2) d then (if r.1 < 0 then -1 else 1) else q
  if |r.1| < mul rnd (1 / 2) d ∨ (|r.1| = mul rnd (1 / 2) d ∧ odd = false) then 0 else q

/-- The correction of a quotient whose product with `d` is infinite: src/sleefdp.c:2448; src/sleefsp.c:2059;
src/sleefsimddp.c:3445; src/sleefsimdsp.c:3118. -/
def correct (E : Nat) (d : ℚ) (r : DD) (q : ℚ) : ℚ :=
  if 2 ^ E ≤ |mul rnd q (-d)| then add rnd q (mulsign (-1) r.1) else q

/-- The pair and the parity of the sum of the quotients. Variables `r` and `qisodd`: src/sleefdp.c:2440-2441. -/
abbrev State := DD × Bool

/-- The part of the loops that follows the test of `q`: src/sleefdp.c:2448-2450; src/sleefsp.c:2059-2061;
src/sleefsimddp.c:3445-3447; src/sleefsimdsp.c:3118-3121. -/
def step (E : Nat) (prod : ℚ → ℚ → DD) (isodd : ℚ → Bool) (d : ℚ) (quot : DD → Bool → ℚ) (s : State) : State :=
  let q := correct rnd E d s.1 (quot s.1 s.2)
  (reduce rnd prod d q s.1, s.2 ^^ isodd q)

/-- The loop of the scalar functions, at most `i` times: src/sleefdp.c:2443-2451; src/sleefsp.c:2054-2062. -/
def loop (step : State → State) (quot : DD → Bool → ℚ) : Nat → State → State
  | 0, s => s
  | i + 1, s => if quot s.1 s.2 = 0 then s else loop step quot i (step s)

/-- The loop of the SIMD functions, which stops when all lanes are done: src/sleefsimddp.c:3435-3448;
src/sleefsimdsp.c:3111-3122. -/
def vloop {L : Nat} (step : Fin L → State → State) (quot : Fin L → DD → Bool → ℚ) :
    Nat → (Fin L → State) → Fin L → State
  | 0, s => s
  | i + 1, s => if ∀ l, quot l (s l).1 (s l).2 = 0 then s else vloop step quot i fun l => step l (s l)

/-- The result from the remainder `v`, the scaling `s` and the divisor `d`; `none` is the NaN. src/sleefdp.c:2453-2456;
src/sleefsp.c:2064-2067; src/sleefsimddp.c:3450-3453; src/sleefsimdsp.c:3124-3127. The cases of infinite operands are
not modelled. -/
def finish (x d s v : ℚ) : Option ℚ :=
  let ret := mulsign (mul rnd v s) x
  if d = 0 then none else some ret

/-- `xremainder`: src/sleefdp.c:2436-2459. The scaling is the one of `fmod` with another bound: line 2438. -/
def xremainder (junk : ℚ → ℤ) (x y : ℚ) : Option ℚ :=
  let (n, d, s) := prescale rnd (2 / 2 ^ 1022) 54 x y
  let quot := quot rnd (fun v => removelsb (rintk2 rnd 52 v)) d (rec1 rnd d)
  let r := loop (step rnd 1024 (ddmul rnd) (isodd64 rnd junk) d quot) quot 21 ((n, 0), false)
  finish rnd x d s r.1.1

/-- `xremainderf`: src/sleefsp.c:2047-2070. -/
def xremainderf (junk : ℚ → ℤ) (x y : ℚ) : Option ℚ :=
  let (n, d, s) := prescale rnd (2 / 2 ^ 126) 25 x y
  let quot := quot rnd (rintfk2 rnd junk) d (rec1 rnd d)
  let r := loop (step rnd 128 (dfmul rnd) (isodd32 junk) d quot) quot 8 ((n, 0), false)
  finish rnd x d s r.1.1

/-- SIMD `xremainder`: src/sleefsimddp.c:3425-3455. `full` tells whether `FULL_FP_ROUNDING` is defined, `fma` whether
`ENABLE_FMA_DP` is. -/
def vremainder {L : Nat} (junk : ℚ → ℤ) (full fma : Bool) (x y : Fin L → ℚ) (l : Fin L) : Option ℚ :=
  let p l := prescale rnd (2 / 2 ^ 1022) 54 (x l) (y l)
  let d l := (p l).2.1
  let rint := if full then vrint else rintk2 rnd 52
  let est v := if fma then rint v else removelsb (rint v)
  let isodd := if full then visodd rnd else isodd64 rnd junk
  let prod := if fma then Fma.mul11 rnd else ddmul rnd
  let quot l := quot rnd est (d l) (rec1 rnd (d l))
  let r := vloop (fun l => step rnd 1024 prod isodd (d l) (quot l)) quot 21 (fun l => (((p l).1, 0), false))
  finish rnd (x l) (d l) (p l).2.2 (r l).1.1

/-- SIMD `xremainderf`: src/sleefsimdsp.c:3101-3129. -/
def vremainderf {L : Nat} (junk : ℚ → ℤ) (full fma : Bool) (x y : Fin L → ℚ) (l : Fin L) : Option ℚ :=
  let p l := prescale rnd (2 / 2 ^ 126) 25 (x l) (y l)
  let d l := (p l).2.1
  let est := if full then vrint else rintk2 rnd 23
  let prod := if fma then Fma.mul11 rnd else dfmul rnd
  let quot l := quot rnd est (d l) (rec1 rnd (d l))
  let r := vloop (fun l => step rnd 128 prod (isodd32 junk) (d l) (quot l)) quot 8 (fun l => (((p l).1, 0), false))
  finish rnd (x l) (d l) (p l).2.2 (add rnd (r l).1.1 (r l).1.2)

end Nsimd.Remainder
