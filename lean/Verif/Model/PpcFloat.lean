import Verif.Model.ArmFloat
import Verif.Model.PpcLane

/-!
# POWER back end: floating point operators

Lanes of f32 and f64 as in `FloatLane`.  f64 on VMX is a structure of two scalars, f16 a pair of f32 registers.
Comparisons and selections are those of `PpcLane`.
-/

namespace Nsimd.PpcFloat
open Nsimd.Cpu (Vec)
open Nsimd.FloatLane
open Nsimd.Ppc (Ext)

variable {t : FTy} {n : Nat}

/-- `has_to_be_emulated` on f32 and f64, egg/platform_ppc.py:35-40. -/
def emulated (x : Ext) (t : FTy) : Bool := x = .vmx ∧ t = .f64

/-! ### Instructions -/

/-- A signaling NaN: the first bit of the mantissa is clear. IEEE-754 encoding, not code of the repo. -/
def isSNaN (a : BitVec t.w) : Bool := isNaN t a && !a.getLsbD (t.m - 1)

/-- `xvminsp`, `xvmindp` and `xvmaxsp`, `xvmaxdp`: a NaN for a signaling NaN, the other operand for a quiet one,
else `f`. Power rule, not code of the repo. -/
def num (nan f : BitVec t.w → BitVec t.w → BitVec t.w) (a b : BitVec t.w) : BitVec t.w :=
  if isSNaN a || isSNaN b then nan a b else if isNaN t a then b else if isNaN t b then a else f a b

/-- `vec_min`: `vminfp` of VMX gives a NaN as soon as an operand is one; VSX as above. In both -0 is less than +0.
Power rule, not code of the repo. -/
def vecMin (x : Ext) (nan : BitVec t.w → BitVec t.w → BitVec t.w) (a b : BitVec t.w) : BitVec t.w :=
  match x with
  | .vmx => ArmFloat.fmin nan a b
  | .vsx => num nan (ArmFloat.fmin nan) a b
/-- `vec_max`. Power rule, not code of the repo. -/
def vecMax (x : Ext) (nan : BitVec t.w → BitVec t.w → BitVec t.w) (a b : BitVec t.w) : BitVec t.w :=
  match x with
  | .vmx => ArmFloat.fmax nan a b
  | .vsx => num nan (ArmFloat.fmax nan) a b

variable (x : Ext) (V A : Arith t) (W C : Integral t)

/-- `vec_madd(a, b, c)`: `a * b + c`, rounded once. Power rule, not code of the repo. -/
def madd (a b c : BitVec t.w) : BitVec t.w := V.fma a b c
/-- `vec_msub(a, b, c)`: `a * b - c`, rounded once. Power rule, not code of the repo. -/
def msub (a b c : BitVec t.w) : BitVec t.w := V.fma a b (fneg t c)
/-- `vec_nmadd(a, b, c)`: `-(a * b + c)`, negated after the rounding. Power rule, not code of the repo. -/
def nmadd (a b c : BitVec t.w) : BitVec t.w := fneg t (V.fma a b c)
/-- `vec_nmsub(a, b, c)`: `-(a * b - c)`, negated after the rounding. Power rule, not code of the repo. -/
def nmsub (a b c : BitVec t.w) : BitVec t.w := fneg t (V.fma a b (fneg t c))

/-! ### Operators; `V`, `W` are the vector instructions, `A`, `C` the scalar arithmetic and the C library -/

/-- `add`: `simple_op2`, egg/platform_ppc.py:809-812. -/
def add (a b : Vec n (BitVec t.w)) : Vec n (BitVec t.w) := fun i =>
  if emulated x t then A.add (a i) (b i) else V.add (a i) (b i)
/-- `sub`: `simple_op2`, egg/platform_ppc.py:809-812. -/
def sub (a b : Vec n (BitVec t.w)) : Vec n (BitVec t.w) := fun i =>
  if emulated x t then A.sub (a i) (b i) else V.sub (a i) (b i)
/-- `mul`: `simple_op2`, egg/platform_ppc.py:809-812. -/
def mul (a b : Vec n (BitVec t.w)) : Vec n (BitVec t.w) := fun i =>
  if emulated x t then A.mul (a i) (b i) else V.mul (a i) (b i)
/-- `div`: egg/platform_ppc.py:831-835. -/
def div (a b : Vec n (BitVec t.w)) : Vec n (BitVec t.w) := fun i =>
  if emulated x t then A.div (a i) (b i) else V.div (a i) (b i)
/-- `sqrt`: egg/platform_ppc.py:864-867. -/
def sqrt (a : Vec n (BitVec t.w)) : Vec n (BitVec t.w) := fun i =>
  if emulated x t then A.sqrt (a i) else V.sqrt (a i)

/-- `min`: egg/platform_ppc.py:945-948. -/
def min (nan : BitVec t.w → BitVec t.w → BitVec t.w) (a b : Vec n (BitVec t.w)) : Vec n (BitVec t.w) := fun i =>
  if emulated x t then sMin (a i) (b i) else vecMin x nan (a i) (b i)
/-- `max`: egg/platform_ppc.py:945-948. -/
def max (nan : BitVec t.w → BitVec t.w → BitVec t.w) (a b : Vec n (BitVec t.w)) : Vec n (BitVec t.w) := fun i =>
  if emulated x t then sMax (a i) (b i) else vecMax x nan (a i) (b i)

/-- `abs`: `vec_abs` clears the sign bit, egg/platform_ppc.py:952-957. -/
def abs (a : Vec n (BitVec t.w)) : Vec n (BitVec t.w) := fun i =>
  if emulated x t then sAbs (a i) else a i &&& ~~~ BitVec.twoPow t.w (t.w - 1)
/-- `neg`: `vec_neg` changes the sign bit, egg/platform_ppc.py:997-1001. -/
def neg (a : Vec n (BitVec t.w)) : Vec n (BitVec t.w) := fun i =>
  if emulated x t then sNeg (a i) else a i ^^^ BitVec.twoPow t.w (t.w - 1)

/-- `floor`: egg/platform_ppc.py:961-969. -/
def floor (a : Vec n (BitVec t.w)) : Vec n (BitVec t.w) := fun i =>
  if emulated x t then sFloor C (a i) else W.floor (a i)
/-- `ceil`: egg/platform_ppc.py:961-969. -/
def ceil (a : Vec n (BitVec t.w)) : Vec n (BitVec t.w) := fun i =>
  if emulated x t then sCeil C (a i) else W.ceil (a i)
/-- `trunc`: egg/platform_ppc.py:961-969. -/
def trunc (c99 : Bool) (a : Vec n (BitVec t.w)) : Vec n (BitVec t.w) := fun i =>
  if emulated x t then sTrunc C c99 (a i) else W.trunc (a i)
/-- `round_to_even`: the scalar operator on both extensions, lane by lane through `vec_insert` if the type is native,
egg/platform_ppc.py:961-967, 143-151. -/
def roundToEven (a : Vec (n + 1) (BitVec t.w)) : Option (Vec (n + 1) (BitVec t.w)) :=
  if emulated x t then some fun i => sRound A C (a i) else Ppc.fromLanes fun i => some (sRound A C (a i))

/-- The four multiply-adds: egg/platform_ppc.py:990-991. -/
inductive Fma | fma | fms | fnma | fnms
  deriving DecidableEq

/-- The scalar operators called by `emulate_64`: egg/platform_ppc.py:974-975. -/
def scalarFma (f : Fma) (c99 : Bool) : BitVec t.w → BitVec t.w → BitVec t.w → BitVec t.w :=
  match f with
  | .fma => sFma A c99
  | .fms => sFms A c99
  | .fnma => sFnma A c99
  | .fnms => sFnms A c99
/-- The table `ppcop`: egg/platform_ppc.py:990-991. -/
def vecFma (f : Fma) : BitVec t.w → BitVec t.w → BitVec t.w → BitVec t.w :=
  match f with
  | .fma => madd V
  | .fms => msub V
  | .fnms => nmadd V
  | .fnma => nmsub V
/-- `fma`, `fms`, `fnma`, `fnms`: egg/platform_ppc.py:973-975, 989-993. -/
def fma (f : Fma) (c99 : Bool) (a b c : Vec n (BitVec t.w)) : Vec n (BitVec t.w) := fun i =>
  if emulated x t then scalarFma A f c99 (a i) (b i) (c i) else vecFma V f (a i) (b i) (c i)

/-- `rec`: `vec_div(vec_splats(1), a)`, egg/platform_ppc.py:1007-1012. -/
def rec1 (a : Vec n (BitVec t.w)) : Vec n (BitVec t.w) := fun i =>
  if emulated x t then sRec A (a i) else V.div (one t) (a i)
/-- `rec8` and `rec11`: the estimate `vec_re`, a parameter, or the scalar operator, egg/platform_ppc.py:1007-1014. -/
def rec11 (re : BitVec t.w → BitVec t.w) (a : Vec n (BitVec t.w)) : Vec n (BitVec t.w) := fun i =>
  if emulated x t then sRec A (a i) else re (a i)
/-- `rsqrt8` and `rsqrt11`: the estimate `vec_rsqrte`, a parameter, or the scalar operator,
egg/platform_ppc.py:1015-1016, 1008-1009. -/
def rsqrt11 (rsqrte : BitVec t.w → BitVec t.w) (a : Vec n (BitVec t.w)) : Vec n (BitVec t.w) := fun i =>
  if emulated x t then sRsqrt A (a i) else rsqrte (a i)

/-! ### f16 (`emulate_f16`, egg/platform_ppc.py:112-122) -/

/-- One argument: egg/platform_ppc.py:118-121. -/
def f16op1 {α : Type} (f : α → α) (a : α × α) : α × α := (f a.1, f a.2)
/-- Two arguments: egg/platform_ppc.py:118-121. -/
def f16op2 {α : Type} (f : α → α → α) (a b : α × α) : α × α := (f a.1 b.1, f a.2 b.2)
/-- Three arguments: egg/platform_ppc.py:118-121. -/
def f16op3 {α : Type} (f : α → α → α → α) (a b c : α × α) : α × α := (f a.1 b.1 c.1, f a.2 b.2 c.2)

end Nsimd.PpcFloat
