import Verif.Model.FloatLane
import Verif.Model.ArmLane

/-!
# ARM back end: floating point operators

Lanes of f32 and f64 as in `FloatLane`.  f16 without half precision instructions is a pair of f32 vectors; the half
precision instructions are not modelled.  Comparisons, `ne` and `if_else1` are those of `ArmLane` with the relation of
the instruction.
-/

namespace Nsimd.ArmFloat
open Nsimd.Cpu (Vec)
open Nsimd.FloatLane

/-- `neon128` is ARMv7, `aarch64` the NEON of ARMv8; `sve` stands for all lengths, egg/platform_arm.py:91-93. -/
inductive Ext | neon128 | aarch64 | sve
  deriving DecidableEq

variable {t : FTy} {n : Nat}

/-! ### Instructions -/

/-- A subnormal becomes a zero of its sign. ARM rule for flushed inputs, not code of the repo. -/
def flush (t : FTy) (a : BitVec t.w) : BitVec t.w :=
  if 0 < body t a ∧ body t a < 2 ^ t.m then a &&& BitVec.twoPow t.w (t.w - 1) else a

/-- Inputs of the instructions of ARMv7 NEON are flushed. ARM rule, not code of the repo. -/
def inp (x : Ext) (a : BitVec t.w) : BitVec t.w := if x = .neon128 then flush t a else a

/-- `vminq`, `svmin`: a NaN (given by `nan`) if there is one; -0 is less than +0. ARM rule, not code of the repo. -/
def fmin (nan : BitVec t.w → BitVec t.w → BitVec t.w) (a b : BitVec t.w) : BitVec t.w :=
  if isNaN t a || isNaN t b then nan a b else if flt t a b then a else if flt t b a then b else a ||| b
/-- `vmaxq`, `svmax`. ARM rule, not code of the repo. -/
def fmax (nan : BitVec t.w → BitVec t.w → BitVec t.w) (a b : BitVec t.w) : BitVec t.w :=
  if isNaN t a || isNaN t b then nan a b else if flt t a b then b else if flt t b a then a else a &&& b

/-- `vceqq`, `vcltq`, `svcmplt`, ...: the relation of IEEE-754 on the inputs of the instruction. ARM rule, not code
of the repo. -/
def rel (x : Ext) (r : BitVec t.w → BitVec t.w → Bool) (a b : BitVec t.w) : Bool := r (inp x a) (inp x b)

/-- f64 on ARMv7, two scalars in a structure: `emulate_f64_neon`, egg/platform_arm.py:368-391, 418-419. -/
def scalar64 (x : Ext) (t : FTy) : Bool := x = .neon128 ∧ t = .f64

/-! ### Operators; `V` are the vector instructions, `A`, `C` the scalar arithmetic and the C library -/

variable (x : Ext) (V A : Arith t) (W C : Integral t)

/-- `add`: egg/platform_arm.py:759-768. -/
def add (a b : Vec n (BitVec t.w)) : Vec n (BitVec t.w) := fun i =>
  if scalar64 x t then A.add (a i) (b i) else V.add (a i) (b i)
/-- `sub`: egg/platform_arm.py:759-768. -/
def sub (a b : Vec n (BitVec t.w)) : Vec n (BitVec t.w) := fun i =>
  if scalar64 x t then A.sub (a i) (b i) else V.sub (a i) (b i)
/-- `mul`: egg/platform_arm.py:773-784. -/
def mul (a b : Vec n (BitVec t.w)) : Vec n (BitVec t.w) := fun i =>
  if scalar64 x t then A.mul (a i) (b i) else V.mul (a i) (b i)
/-- `div`: the instruction on AArch64 and SVE, the scalar quotient on ARMv7 (`emulate_op2` or `emulate_f64_neon`):
egg/platform_arm.py:789-800. -/
def div (a b : Vec n (BitVec t.w)) : Vec n (BitVec t.w) := fun i =>
  if x = .neon128 then A.div (a i) (b i) else V.div (a i) (b i)
/-- `sqrt`: egg/platform_arm.py:956-973. -/
def sqrt (a : Vec n (BitVec t.w)) : Vec n (BitVec t.w) := fun i =>
  if x = .neon128 then A.sqrt (a i) else V.sqrt (a i)

/-- `min`: egg/platform_arm.py:1187-1206. -/
def min (nan : BitVec t.w → BitVec t.w → BitVec t.w) (a b : Vec n (BitVec t.w)) : Vec n (BitVec t.w) := fun i =>
  if scalar64 x t then sMin (a i) (b i) else fmin nan (inp x (a i)) (inp x (b i))
/-- `max`: egg/platform_arm.py:1187-1206. -/
def max (nan : BitVec t.w → BitVec t.w → BitVec t.w) (a b : Vec n (BitVec t.w)) : Vec n (BitVec t.w) := fun i =>
  if scalar64 x t then sMax (a i) (b i) else fmax nan (inp x (a i)) (inp x (b i))

/-- `abs`: `vabsq` and `svabs` clear the sign bit, egg/platform_arm.py:1211-1226. -/
def abs (a : Vec n (BitVec t.w)) : Vec n (BitVec t.w) := fun i =>
  if scalar64 x t then sAbs (a i) else a i &&& ~~~ BitVec.twoPow t.w (t.w - 1)
/-- `neg`: `vnegq` and `svneg` change the sign bit, as does `-` on doubles, egg/platform_arm.py:1315-1351. -/
def neg (a : Vec n (BitVec t.w)) : Vec n (BitVec t.w) := fun i =>
  if scalar64 x t then fneg t (a i) else a i ^^^ BitVec.twoPow t.w (t.w - 1)

/-- `floor`: emulated by the scalar operator on ARMv7, egg/platform_arm.py:1231-1252. -/
def floor (a : Vec n (BitVec t.w)) : Vec n (BitVec t.w) := fun i =>
  if x = .neon128 then sFloor C (a i) else W.floor (a i)
/-- `ceil`: egg/platform_arm.py:1231-1252. -/
def ceil (a : Vec n (BitVec t.w)) : Vec n (BitVec t.w) := fun i =>
  if x = .neon128 then sCeil C (a i) else W.ceil (a i)
/-- `trunc`: egg/platform_arm.py:1231-1252. -/
def trunc (c99 : Bool) (a : Vec n (BitVec t.w)) : Vec n (BitVec t.w) := fun i =>
  if x = .neon128 then sTrunc C c99 (a i) else W.trunc (a i)
/-- `round_to_even`: egg/platform_arm.py:1231-1252. -/
def roundToEven (a : Vec n (BitVec t.w)) : Vec n (BitVec t.w) := fun i =>
  if x = .neon128 then sRound A C (a i) else W.near (a i)

/-- `vfmaq(c, b, a)`, `svmla(c, b, a)`: `c + b * a`, rounded once. ARM rule, not code of the repo. -/
def vfma (c b a : BitVec t.w) : BitVec t.w := V.fma b a c
/-- `vfmsq(c, b, a)`, `svmls(c, b, a)`: `c - b * a`, rounded once. ARM rule, not code of the repo. -/
def vfms (c b a : BitVec t.w) : BitVec t.w := V.fma (fneg t b) a c
/-- `vmlaq(c, b, a)` of floats on ARMv7: a product and a sum. ARM rule, not code of the repo. -/
def vmla (c b a : BitVec t.w) : BitVec t.w := V.add c (V.mul b a)
/-- `vmlsq(c, b, a)` of floats on ARMv7: the product is negated, then added. ARM rule, not code of the repo. -/
def vmls (c b a : BitVec t.w) : BitVec t.w := V.add c (fneg t (V.mul b a))
/-- `svnmla(c, b, a)`: `-c - b * a`, rounded once. ARM rule, not code of the repo. -/
def svnmla (c b a : BitVec t.w) : BitVec t.w := V.fma (fneg t b) a (fneg t c)
/-- `svnmls(c, b, a)`: `-c + b * a`, rounded once. ARM rule, not code of the repo. -/
def svnmls (c b a : BitVec t.w) : BitVec t.w := V.fma b a (fneg t c)

/-- `fma`: egg/platform_arm.py:1257-1291. -/
def fma (c99 : Bool) (a b c : Vec n (BitVec t.w)) : Vec n (BitVec t.w) := fun i =>
  if scalar64 x t then sFma A c99 (a i) (b i) (c i)
  else if x = .neon128 then vmla V (c i) (b i) (a i)
  else vfma V (c i) (b i) (a i)
/-- `fnma`: egg/platform_arm.py:1257-1291. -/
def fnma (c99 : Bool) (a b c : Vec n (BitVec t.w)) : Vec n (BitVec t.w) := fun i =>
  if scalar64 x t then sFnma A c99 (a i) (b i) (c i)
  else if x = .neon128 then vmls V (c i) (b i) (a i)
  else vfms V (c i) (b i) (a i)
/-- `fms`: `fma` of the opposite on NEON, egg/platform_arm.py:1296-1310. -/
def fms (c99 : Bool) (a b c : Vec n (BitVec t.w)) : Vec n (BitVec t.w) :=
  match x with
  | .sve => fun i => svnmls V (c i) (b i) (a i)
  | x => fma x V A c99 a b (neg x c)
/-- `fnms`: `fnma` of the opposite on NEON, egg/platform_arm.py:1296-1310. -/
def fnms (c99 : Bool) (a b c : Vec n (BitVec t.w)) : Vec n (BitVec t.w) :=
  match x with
  | .sve => fun i => svnmla V (c i) (b i) (a i)
  | x => fnma x V A c99 a b (neg x c)

/-- `rec` and `rec11`: `div(set1(1), a)`, egg/platform_arm.py:1356-1363. -/
def rec1 (a : Vec n (BitVec t.w)) : Vec n (BitVec t.w) := div x V A (fun _ => one t) a
/-- `rsqrt11`: egg/platform_arm.py:1364-1369. -/
def rsqrt11 (a : Vec n (BitVec t.w)) : Vec n (BitVec t.w) := div x V A (fun _ => one t) (sqrt x V A a)

/-! ### f16 without half precision instructions (`f16f64`, egg/platform_arm.py:395-420) -/

/-- egg/platform_arm.py:413-416. -/
def f16op1 {α : Type} (f : α → α) (a : α × α) : α × α := (f a.1, f a.2)
/-- egg/platform_arm.py:413-416. -/
def f16op2 {α : Type} (f : α → α → α) (a b : α × α) : α × α := (f a.1 b.1, f a.2 b.2)
/-- egg/platform_arm.py:1268-1271. -/
def f16op3 {α : Type} (f : α → α → α → α) (a b c : α × α) : α × α := (f a.1 b.1 c.1, f a.2 b.2 c.2)

end Nsimd.ArmFloat
