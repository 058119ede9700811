import Verif.Model.Cpu

/-!
# Expressions over the integer operators, for the CPU vectors and for scalars
-/

namespace Nsimd.Scalar

/-- C `int` result of a comparison: egg/scalar.py:45-59. -/
def ofBool (b : Bool) : BitVec 32 := if b then 1#32 else 0#32
/-- `nsimd_scalar_andl`: `return a0 && a1;` on `int`, egg/scalar.py:466. -/
def andl (a b : BitVec 32) : BitVec 32 := ofBool (a ≠ 0#32 ∧ b ≠ 0#32)
/-- `nsimd_scalar_orl`: `return a0 || a1;`, egg/scalar.py:467. -/
def orl (a b : BitVec 32) : BitVec 32 := ofBool (a ≠ 0#32 ∨ b ≠ 0#32)
/-- `nsimd_scalar_xorl`: `return a0 ^ a1;` (bitwise), egg/scalar.py:468. -/
def xorl (a b : BitVec 32) : BitVec 32 := a ^^^ b
/-- `nsimd_scalar_andnotl`: `return a0 && (!a1);`, egg/scalar.py:469. -/
def andnotl (a b : BitVec 32) : BitVec 32 := ofBool (a ≠ 0#32 ∧ ¬ b ≠ 0#32)
/-- `nsimd_scalar_notl`: `return !a0;`, egg/scalar.py:470. -/
def notl (a : BitVec 32) : BitVec 32 := ofBool (¬ a ≠ 0#32)

end Nsimd.Scalar

namespace Nsimd.Cpu

/-- Operators with two vector arguments, egg/platform_cpu.py:674-691. -/
inductive Bin | add | sub | mul | div | adds | subs | min | max | orb | andb | xorb | andnotb
/-- Operators with one vector argument, egg/platform_cpu.py:690, 706, 725. -/
inductive Un | neg | abs | notb
/-- Operators with three vector arguments, egg/platform_cpu.py:707-710. -/
inductive Ter | fma | fms | fnma | fnms
/-- Shifts, egg/platform_cpu.py:695-697. -/
inductive Shift | shl | shr | shra
/-- Operators on two logicals, egg/platform_cpu.py:681-687. -/
inductive LBin | andl | orl | xorl | andnotl

/-- Expressions over integer vectors of type `t` (index `false`) and logical vectors
(index `true`); `var k` is the `k`-th operand. Not code of the repo: any C program that
composes the operators of egg/platform_cpu.py:640-741 listed above. -/
inductive Ex (t : ITy) : Bool → Type
  | var : Nat → Ex t false
  | bin : Bin → Ex t false → Ex t false → Ex t false
  | un : Un → Ex t false → Ex t false
  | ter : Ter → Ex t false → Ex t false → Ex t false → Ex t false
  | shift : Shift → Ex t false → Int → Ex t false
  | ifElse : Ex t true → Ex t false → Ex t false → Ex t false
  | toMask : Ex t true → Ex t false
  | cmp : Cmp → Ex t false → Ex t false → Ex t true
  | lbin : LBin → Ex t true → Ex t true → Ex t true
  | lnot : Ex t true → Ex t true
  | toLogical : Ex t false → Ex t true

variable {n : Nat} (t : ITy)

/-- The scalar function of each operator: egg/scalar.py:342-491. -/
def Bin.scalar : Bin → BitVec t.w → BitVec t.w → Option (BitVec t.w)
  | .add => Scalar.add t | .sub => Scalar.sub t | .mul => Scalar.mul t | .div => Scalar.div t
  | .adds => Scalar.adds t | .subs => Scalar.subs t
  | .min => fun a b => some (Scalar.min t a b) | .max => fun a b => some (Scalar.max t a b)
  | .orb => fun a b => some (Scalar.orb t a b) | .andb => fun a b => some (Scalar.andb t a b)
  | .xorb => fun a b => some (Scalar.xorb t a b)
  | .andnotb => fun a b => some (Scalar.andnotb t a b)

/-- The CPU vector function of each operator: egg/platform_cpu.py:674-691. -/
def Bin.vec : Bin → Vec n (BitVec t.w) → Vec n (BitVec t.w) → Option (Vec n (BitVec t.w))
  | .add => Cpu.add t | .sub => Cpu.sub t | .mul => Cpu.mul t | .div => Cpu.div t
  | .adds => scalar2 (Scalar.adds t) | .subs => scalar2 (Scalar.subs t)
  | .min => scalar2 fun a b => some (Scalar.min t a b)
  | .max => scalar2 fun a b => some (Scalar.max t a b)
  | .orb => scalar2 fun a b => some (Scalar.orb t a b)
  | .andb => scalar2 fun a b => some (Scalar.andb t a b)
  | .xorb => scalar2 fun a b => some (Scalar.xorb t a b)
  | .andnotb => scalar2 fun a b => some (Scalar.andnotb t a b)

/-- egg/scalar.py:371-380, 453, 459. -/
def Un.scalar : Un → BitVec t.w → Option (BitVec t.w)
  | .neg => Scalar.neg t | .abs => Scalar.abs t | .notb => fun a => some (Scalar.notb t a)

/-- egg/scalar.py:410-426. -/
def Ter.scalar : Ter → BitVec t.w → BitVec t.w → BitVec t.w → Option (BitVec t.w)
  | .fma => Scalar.fma t | .fms => Scalar.fms t | .fnma => Scalar.fnma t | .fnms => Scalar.fnms t

/-- egg/scalar.py:78-103. -/
def Shift.scalar : Shift → BitVec t.w → Int → Option (BitVec t.w)
  | .shl => Scalar.shl t | .shr => Scalar.shr t | .shra => Scalar.shra t

/-- egg/scalar.py:460-465. -/
def Cmp.scalar : Cmp → BitVec t.w → BitVec t.w → Bool
  | .eq => Scalar.eq t | .ne => Scalar.ne t | .gt => Scalar.gt t | .ge => Scalar.ge t
  | .lt => Scalar.lt t | .le => Scalar.le t

/-- egg/scalar.py:466-469. -/
def LBin.scalar : LBin → BitVec 32 → BitVec 32 → BitVec 32
  | .andl => Scalar.andl | .orl => Scalar.orl | .xorl => Scalar.xorl | .andnotl => Scalar.andnotl

/-- egg/platform_cpu.py:681-687. -/
def LBin.vec : LBin → LVec n → LVec n → LVec n
  | .andl => Cpu.andl | .orl => Cpu.orl | .xorl => Cpu.xorl | .andnotl => Cpu.andnotl

/-- Type of the vector value of an expression: egg/platform_cpu.py:65-82. -/
abbrev VTy (n : Nat) (t : ITy) : Bool → Type
  | false => Vec n (BitVec t.w)
  | true => LVec n

/-- Type of the scalar value of an expression; scalar logicals are C `int`s. egg/scalar.py:45-59. -/
abbrev STy (t : ITy) : Bool → Type
  | false => BitVec t.w
  | true => BitVec 32

/-- Evaluation with the CPU vector operators, egg/platform_cpu.py:640-741. -/
def evalV {t : ITy} (env : Nat → Vec n (BitVec t.w)) : {b : Bool} → Ex t b → Option (VTy n t b)
  | _, .var k => some (env k)
  | _, .bin o x y => (evalV env x).bind fun a => (evalV env y).bind fun b => o.vec t a b
  | _, .un o x => (evalV env x).bind fun a => scalar1 (o.scalar t) a
  | _, .ter o x y z => (evalV env x).bind fun a => (evalV env y).bind fun b =>
      (evalV env z).bind fun c => scalar3 (o.scalar t) a b c
  | _, .shift o x s => (evalV env x).bind fun a => scalarShift (o.scalar t) a s
  | _, .ifElse c x y => (evalV env c).bind fun m => (evalV env x).bind fun a =>
      (evalV env y).bind fun b => some (ifElse1 m a b)
  | _, .toMask x => (evalV env x).bind fun a => toMask (intElem t) a
  | _, .cmp c x y => (evalV env x).bind fun a => (evalV env y).bind fun b =>
      some (cmp2 (c.op t) a b)
  | _, .lbin o x y => (evalV env x).bind fun a => (evalV env y).bind fun b => some (o.vec a b)
  | _, .lnot x => (evalV env x).bind fun a => some (notl a)
  | _, .toLogical x => (evalV env x).bind fun a => some (toLogical (intElem t) a)

/-- Evaluation with the scalar functions, egg/scalar.py:342-491; `if_else1` is the C
conditional expression. -/
def evalS {t : ITy} (env : Nat → BitVec t.w) : {b : Bool} → Ex t b → Option (STy t b)
  | _, .var k => some (env k)
  | _, .bin o x y => (evalS env x).bind fun a => (evalS env y).bind fun b => o.scalar t a b
  | _, .un o x => (evalS env x).bind fun a => o.scalar t a
  | _, .ter o x y z => (evalS env x).bind fun a => (evalS env y).bind fun b =>
      (evalS env z).bind fun c => o.scalar t a b c
  | _, .shift o x s => (evalS env x).bind fun a => o.scalar t a s
  | _, .ifElse c x y => (evalS env c).bind fun m => (evalS env x).bind fun a =>
      (evalS env y).bind fun b => some (if m ≠ 0#32 then a else b)
  | _, .toMask x => (evalS env x).bind fun a => some (Scalar.toMask t (a ≠ 0#32))
  | _, .cmp c x y => (evalS env x).bind fun a => (evalS env y).bind fun b =>
      some (Scalar.ofBool (c.scalar t a b))
  | _, .lbin o x y => (evalS env x).bind fun a => (evalS env y).bind fun b => some (o.scalar a b)
  | _, .lnot x => (evalS env x).bind fun a => some (Scalar.notl a)
  | _, .toLogical x => (evalS env x).bind fun a => some (Scalar.ofBool (Scalar.toLogical t a))

end Nsimd.Cpu
