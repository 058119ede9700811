import Verif.Model.CInt

/-!
# Scalar integer operators (egg/scalar.py)

Each definition is the C function generated for the integer types.
-/

namespace Nsimd.Scalar
open ITy

variable (t : ITy)

/-- `nsimd_scalar_add_*`: `return (typ)(a0 + a1);` egg/scalar.py:27-41, 455. -/
def add (a b : BitVec t.w) : Option (BitVec t.w) := do
  return t.cast (← t.prom (t.val a + t.val b))

/-- `nsimd_scalar_sub_*`: egg/scalar.py:27-41, 456. -/
def sub (a b : BitVec t.w) : Option (BitVec t.w) := do
  return t.cast (← t.prom (t.val a - t.val b))

/-- `nsimd_scalar_mul_*`: egg/scalar.py:27-41, 457. -/
def mul (a b : BitVec t.w) : Option (BitVec t.w) := do
  return t.cast (← t.prom (t.val a * t.val b))

/-- `nsimd_scalar_div_*`: `return (typ)(a0 / a1);` egg/scalar.py:27-41, 458.
C division truncates toward zero and is undefined for a zero divisor. -/
def div (a b : BitVec t.w) : Option (BitVec t.w) := do
  if t.val b = 0 then none
  else return t.cast (← t.prom (Int.tdiv (t.val a) (t.val b)))

/-- `nsimd_scalar_neg_*`: `return (typ)(-a0);` egg/scalar.py:27-41, 459. -/
def neg (a : BitVec t.w) : Option (BitVec t.w) := do
  return t.cast (← t.prom (- t.val a))

/-- `nsimd_scalar_fma_*` on integers: `return (typ)(a0 * a1 + a2);`
egg/scalar.py:410-412. -/
def fma (a b c : BitVec t.w) : Option (BitVec t.w) := do
  return t.cast (← t.prom ((← t.prom (t.val a * t.val b)) + t.val c))

/-- `nsimd_scalar_fms_*` on integers: `return (typ)((a0) * a1 - a2);`
egg/scalar.py:421-426. -/
def fms (a b c : BitVec t.w) : Option (BitVec t.w) := do
  return t.cast (← t.prom ((← t.prom (t.val a * t.val b)) - t.val c))

/-- `nsimd_scalar_fnma_*` on integers: `return (typ)((-a0) * a1 + a2);`
egg/scalar.py:421-426. -/
def fnma (a b c : BitVec t.w) : Option (BitVec t.w) := do
  return t.cast (← t.prom ((← t.prom ((← t.prom (- t.val a)) * t.val b)) + t.val c))

/-- `nsimd_scalar_fnms_*` on integers: `return (typ)((-a0) * a1 - a2);`
egg/scalar.py:421-426. -/
def fnms (a b c : BitVec t.w) : Option (BitVec t.w) := do
  return t.cast (← t.prom ((← t.prom ((← t.prom (- t.val a)) * t.val b)) - t.val c))

/-- `nsimd_scalar_abs_*` on integers: identity on unsigned types, otherwise
`return (typ)(a0 >= (typ)0 ? a0 : -a0);` egg/scalar.py:371-380. -/
def abs (a : BitVec t.w) : Option (BitVec t.w) := do
  if t.sgn then
    if t.val a ≥ 0 then return t.cast (t.val a)
    else return t.cast (← t.prom (- t.val a))
  else return a

/-- `nsimd_scalar_min_*`: `return a0 < a1 ? a0 : a1;` egg/scalar.py:381-390. -/
def min (a b : BitVec t.w) : BitVec t.w := if t.val a < t.val b then a else b

/-- `nsimd_scalar_max_*`: `return a0 > a1 ? a0 : a1;` egg/scalar.py:381-390. -/
def max (a b : BitVec t.w) : BitVec t.w := if t.val a > t.val b then a else b

/-- `nsimd_scalar_lt_*`: egg/scalar.py:45-59, 460. -/
def lt (a b : BitVec t.w) : Bool := t.val a < t.val b
/-- `nsimd_scalar_gt_*`: egg/scalar.py:45-59, 461. -/
def gt (a b : BitVec t.w) : Bool := t.val a > t.val b
/-- `nsimd_scalar_le_*`: egg/scalar.py:45-59, 462. -/
def le (a b : BitVec t.w) : Bool := t.val a ≤ t.val b
/-- `nsimd_scalar_ge_*`: egg/scalar.py:45-59, 463. -/
def ge (a b : BitVec t.w) : Bool := t.val a ≥ t.val b
/-- `nsimd_scalar_ne_*`: egg/scalar.py:45-59, 464. -/
def ne (a b : BitVec t.w) : Bool := t.val a ≠ t.val b
/-- `nsimd_scalar_eq_*`: egg/scalar.py:45-59, 465. -/
def eq (a b : BitVec t.w) : Bool := t.val a = t.val b

/-- `nsimd_scalar_adds_*` on unsigned types: egg/scalar.py:295-302. -/
def addsU (a b : BitVec t.w) : Option (BitVec t.w) := do
  let tmp := t.cast (← t.prom (t.val a + t.val b))
  if t.val tmp < t.val a ∨ t.val tmp < t.val b then return t.cast (-1)
  else return tmp

/-- `nsimd_scalar_adds_*` on signed types: egg/scalar.py:303-322. -/
def addsS (a b : BitVec t.w) : Option (BitVec t.w) := do
  if (t.val a ≥ 0 ∧ t.val b ≤ 0) ∨ (t.val a ≤ 0 ∧ t.val b ≥ 0) then
    return t.cast (← t.prom (t.val a + t.val b))
  else if t.val a > 0 then
    if t.val b > (← t.prom (t.maxv - t.val a)) then return t.cast t.maxv
    else return t.cast (← t.prom (t.val a + t.val b))
  else
    if t.val b < (← t.prom (t.minv - t.val a)) then return t.cast t.minv
    else return t.cast (← t.prom (t.val a + t.val b))

/-- `nsimd_scalar_adds_*`: dispatch of `adds`, egg/scalar.py:292-322. -/
def adds (a b : BitVec t.w) : Option (BitVec t.w) :=
  if t.sgn then addsS t a b else addsU t a b

/-- `nsimd_scalar_subs_*`: egg/scalar.py:326-338. Signed types compute
`adds(a0, (typ)(-a1))`. -/
def subs (a b : BitVec t.w) : Option (BitVec t.w) := do
  if t.sgn then addsS t a (t.cast (← t.prom (- t.val b)))
  else if t.val a < t.val b then return t.cast 0
  else return t.cast (← t.prom (t.val a - t.val b))

/-- `nsimd_scalar_shl_*`: `return (typ)(a0 << a1);` egg/scalar.py:79-80. -/
def shl (a : BitVec t.w) (s : Int) : Option (BitVec t.w) := do
  return t.cast (← t.shlP (t.val a) s)

/-- Unsigned reading of the operand: `nsimd_scalar_reinterpret_{utyp}_{typ}(a0)`
(the identity for unsigned types), egg/scalar.py:84-90. -/
def uread (a : BitVec t.w) : Int := (a.toNat : Int)

/-- `nsimd_scalar_shr_*`: egg/scalar.py:82-90. The shifted value has type
`utyp`, so it is promoted as `utyp` is. -/
def shr (a : BitVec t.w) (s : Int) : Option (BitVec t.w) := do
  return t.cast (← t.utyp.shrP (uread t a) s)

/-- `nsimd_scalar_shra_*`: egg/scalar.py:82-103. -/
def shra (a : BitVec t.w) (s : Int) : Option (BitVec t.w) := do
  if t.sgn = false then return t.cast (← t.utyp.shrP (uread t a) s)
  else if s = 0 then return a
  else if t.val a ≥ 0 then return t.cast (← t.utyp.shrP (uread t a) s)
  else
    -- `{utyp} mask = ({utyp})((({utyp})-1) << ({typnbits} - {in1}));`
    let mask := t.cast (← t.utyp.shlP (uread t (t.cast (-1))) (t.w - s))
    return mask ||| t.cast (← t.utyp.shrP (uread t a) s)

/-- `nsimd_scalar_orb_*`: egg/scalar.py:63-74, 450. The detour through the
unsigned type is the identity on bits. -/
def orb (a b : BitVec t.w) : BitVec t.w := a ||| b
/-- `nsimd_scalar_andb_*`: egg/scalar.py:63-74, 451. -/
def andb (a b : BitVec t.w) : BitVec t.w := a &&& b
/-- `nsimd_scalar_andnotb_*`: `a0 & (~a1)`, egg/scalar.py:63-74, 452. -/
def andnotb (a b : BitVec t.w) : BitVec t.w := a &&& (~~~ b)
/-- `nsimd_scalar_notb_*`: egg/scalar.py:63-74, 453. -/
def notb (a : BitVec t.w) : BitVec t.w := ~~~ a
/-- `nsimd_scalar_xorb_*`: egg/scalar.py:63-74, 454. -/
def xorb (a b : BitVec t.w) : BitVec t.w := a ^^^ b

/-- `nsimd_scalar_to_logical_*` on integers: `return a0 != (typ)0;`
egg/scalar.py:391-393. -/
def toLogical (a : BitVec t.w) : Bool := t.val a ≠ 0
/-- `nsimd_scalar_to_mask_*`: `(typ)(a0 ? -1 : 0)`, egg/scalar.py:397-403. -/
def toMask (l : Bool) : BitVec t.w := t.cast (if l then -1 else 0)

end Nsimd.Scalar
