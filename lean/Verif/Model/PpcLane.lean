import Verif.Model.ArmLane
import Verif.Model.Ppc

/-!
# Integer operators, comparisons and conversions of logicals on POWER (egg/platform_ppc.py)

An operator takes the extension and the type; on VMX the 64-bit types are structs of two scalars
handled by the scalar operators (`emulate_64`), every other integer type is a native register.  The
structs are seen as registers of two lanes.  Results are in `Option` because the scalar operators may be
undefined.
-/

namespace Nsimd.Ppc
open Nsimd.X86 (Reg cat halves)
open Nsimd.Cpu (Vec Mem Elem LBin body)

variable {n w : Nat} {α : Type}

/-- `get_simd_exts`, egg/platform_ppc.py:177-178. -/
inductive Ext
  | vmx | vsx
deriving DecidableEq, Repr

/-- `has_to_be_emulated` on integer types, egg/platform_ppc.py:36-41. -/
def emulated (x : Ext) (t : ITy) : Bool := x = .vmx ∧ t.w = 64

/-- `emulate_64` of an operator with one vector and a vector result: `ret.v{i} =
nsimd_scalar_{op}(a0.v{i})`, egg/platform_ppc.py:86-101. -/
def emulate1 (op : α → Option α) (a : Vec n α) : Option (Vec n α) := body fun i => op (a i)
/-- The same with two vectors, egg/platform_ppc.py:86-101. -/
def emulate2 (op : α → α → Option α) (a b : Vec n α) : Option (Vec n α) := body fun i => op (a i) (b i)
/-- The same with three vectors, egg/platform_ppc.py:86-101. -/
def emulate3 (op : α → α → α → Option α) (a b c : Vec n α) : Option (Vec n α) :=
  body fun i => op (a i) (b i) (c i)
/-- `emulate_64` of a comparison: `(u64)(nsimd_scalar_{op}(a0.v{i}, a1.v{i}) ? -1 : 0)`,
egg/platform_ppc.py:102-110. -/
def emulateCmp (rel : α → α → Bool) (a b : Vec n α) : Reg n 64 := fun i => boolLane64 (rel (a i) (b i))

/-! ### Instructions on lanes -/

/-- `vec_adds`, `vec_subs`: saturation. Power intrinsics semantics, not code of the repo. -/
def vecSat (t : ITy) (v : Int) : BitVec t.w :=
  t.cast (if v < t.minv then t.minv else if t.maxv < v then t.maxv else v)
/-- `vec_min`. Power intrinsics semantics, not code of the repo. -/
def vecMin (t : ITy) (a b : BitVec t.w) : BitVec t.w := if t.val b < t.val a then b else a
/-- `vec_max`. Power intrinsics semantics, not code of the repo. -/
def vecMax (t : ITy) (a b : BitVec t.w) : BitVec t.w := if t.val a < t.val b then b else a
/-- `vec_abs`: `vec_max(a, 0 - a)`, the subtraction being modulo. Power intrinsics semantics, not code of
the repo. -/
def vecAbs (t : ITy) (a : BitVec t.w) : BitVec t.w := vecMax t a (0#t.w - a)

/-! ### Integer arithmetic -/

/-- `add`: `simple_op2`, egg/platform_ppc.py:809-812. -/
def add (x : Ext) (t : ITy) (a b : Reg n t.w) : Option (Reg n t.w) :=
  if emulated x t then emulate2 (Scalar.add t) a b else some fun i => a i + b i
/-- `sub`: `simple_op2`, egg/platform_ppc.py:809-812. -/
def sub (x : Ext) (t : ITy) (a b : Reg n t.w) : Option (Reg n t.w) :=
  if emulated x t then emulate2 (Scalar.sub t) a b else some fun i => a i - b i
/-- `mul`: `simple_op2`, egg/platform_ppc.py:809-812. -/
def mul (x : Ext) (t : ITy) (a b : Reg n t.w) : Option (Reg n t.w) :=
  if emulated x t then emulate2 (Scalar.mul t) a b else some fun i => a i * b i
/-- `div` of integers: scalar quotients `(typ)(vec_extract(a0, i) / vec_extract(a1, i))` inserted lane by
lane, egg/platform_ppc.py:831-846.  The list of inserted lanes starts again at lane 0. -/
def div (x : Ext) (t : ITy) (a b : Reg (n + 1) t.w) : Option (Reg (n + 1) t.w) :=
  if emulated x t then emulate2 (Scalar.div t) a b
  else (Scalar.div t (a 0) (b 0)).bind fun q =>
    (List.finRange (n + 1)).foldlM
      (fun v i => (Scalar.div t (a i) (b i)).map fun qi => insertLane v i qi) (fun _ => q)
/-- `neg`: `vec_neg` for signed types, `vec_sub(0, a0)` for unsigned ones, egg/platform_ppc.py:997-1003. -/
def neg (x : Ext) (t : ITy) (a : Reg n t.w) : Option (Reg n t.w) :=
  if emulated x t then emulate1 (Scalar.neg t) a
  else if t.sgn then some fun i => - a i else some fun i => 0#t.w - a i
/-- `abs`, egg/platform_ppc.py:952-957. -/
def abs (x : Ext) (t : ITy) (a : Reg n t.w) : Option (Reg n t.w) :=
  if t.sgn = false then some a
  else if emulated x t then emulate1 (Scalar.abs t) a else some fun i => vecAbs t (a i)
/-- `min`, egg/platform_ppc.py:945-948. -/
def min (x : Ext) (t : ITy) (a b : Reg n t.w) : Reg n t.w := fun i =>
  if emulated x t then Scalar.min t (a i) (b i) else vecMin t (a i) (b i)
/-- `max`, egg/platform_ppc.py:945-948. -/
def max (x : Ext) (t : ITy) (a b : Reg n t.w) : Reg n t.w := fun i =>
  if emulated x t then Scalar.max t (a i) (b i) else vecMax t (a i) (b i)
/-- `adds`: the scalar operator lane by lane for 64-bit types on both extensions, `vec_adds` otherwise,
egg/platform_ppc.py:1322-1335. -/
def adds (x : Ext) (t : ITy) (a b : Reg (n + 1) t.w) : Option (Reg (n + 1) t.w) :=
  if emulated x t then emulate2 (Scalar.adds t) a b
  else if t.w = 64 then fromLanes fun i => Scalar.adds t (a i) (b i)
  else some fun i => vecSat t (t.val (a i) + t.val (b i))
/-- `subs`, egg/platform_ppc.py:1322-1335. -/
def subs (x : Ext) (t : ITy) (a b : Reg (n + 1) t.w) : Option (Reg (n + 1) t.w) :=
  if emulated x t then emulate2 (Scalar.subs t) a b
  else if t.w = 64 then fromLanes fun i => Scalar.subs t (a i) (b i)
  else some fun i => vecSat t (t.val (a i) - t.val (b i))
/-- `fma`, egg/platform_ppc.py:973-979. -/
def fmaV (x : Ext) (t : ITy) (a b c : Reg n t.w) : Option (Reg n t.w) :=
  if emulated x t then emulate3 (Scalar.fma t) a b c else some fun i => fma (a i) (b i) (c i)
/-- `fms`, egg/platform_ppc.py:973-982. -/
def fmsV (x : Ext) (t : ITy) (a b c : Reg n t.w) : Option (Reg n t.w) :=
  if emulated x t then emulate3 (Scalar.fms t) a b c else some fun i => fms (a i) (b i) (c i)
/-- `fnma`, egg/platform_ppc.py:973-985. -/
def fnmaV (x : Ext) (t : ITy) (a b c : Reg n t.w) : Option (Reg n t.w) :=
  if emulated x t then emulate3 (Scalar.fnma t) a b c else some fun i => fnma (a i) (b i) (c i)
/-- `fnms`, egg/platform_ppc.py:973-988. -/
def fnmsV (x : Ext) (t : ITy) (a b c : Reg n t.w) : Option (Reg n t.w) :=
  if emulated x t then emulate3 (Scalar.fnms t) a b c else some fun i => fnms (a i) (b i) (c i)

/-! ### Bitwise operators -/

/-- The bitwise operators. egg/platform_ppc.py:815-821. -/
inductive BBin
  | andb | orb | xorb | andnotb
deriving DecidableEq, Repr

/-- The scalar bitwise operators called by `emulate_64`: egg/platform_ppc.py:816-817. -/
def scalarB (t : ITy) : BBin → BitVec t.w → BitVec t.w → BitVec t.w
  | .andb => Scalar.andb t
  | .orb => Scalar.orb t
  | .xorb => Scalar.xorb t
  | .andnotb => Scalar.andnotb t
/-- `vec_and`, `vec_or`, `vec_xor`, `vec_andc` of the table `ppcop`, egg/platform_ppc.py:819-820. -/
def vecB (w : Nat) : BBin → BitVec w → BitVec w → BitVec w
  | .andb => fun a b => a &&& b
  | .orb => fun a b => a ||| b
  | .xorb => fun a b => a ^^^ b
  | .andnotb => fun a b => a &&& ~~~ b
/-- `binary_op2`, egg/platform_ppc.py:815-821. -/
def bop2 (x : Ext) (t : ITy) (o : BBin) (a b : Reg n t.w) : Reg n t.w := fun i =>
  if emulated x t then scalarB t o (a i) (b i) else vecB t.w o (a i) (b i)
/-- `notb`: `vec_nor(a0, a0)`, egg/platform_ppc.py:850-853. -/
def notb (x : Ext) (t : ITy) (a : Reg n t.w) : Reg n t.w := fun i =>
  if emulated x t then Scalar.notb t (a i) else ~~~ (a i ||| a i)

/-! ### set1, iota -/

/-- `set1` of integers: `vec_splats(a0)` or the two members, egg/platform_ppc.py:880-894. -/
def set1 (n : Nat) (v : α) : Vec n α := fun _ => v
/-- `iota` of native types: `vec_splats(0)` then `vec_insert((typ)i, ret, i)` for `i` from 1,
egg/platform_ppc.py:1575-1579. -/
def iota (t : ITy) (n : Nat) : Vec (n + 1) (BitVec t.w) :=
  ((List.finRange (n + 1)).drop 1).foldl (fun v i => insertLane v i (t.cast (i.val : Int)))
    (fun _ => t.cast 0)
/-- `iota` of 64-bit types on VMX, egg/platform_ppc.py:1570-1574. -/
def iota64 (t : ITy) : Vec 2 (BitVec t.w) := ![t.cast 0, t.cast 1]

/-! ### Comparisons -/

/-- `vec_cmpeq`, `vec_cmplt`, ... Power intrinsics semantics, not code of the repo. -/
def vecCmp (w : Nat) (rel : α → α → Bool) (a b : Vec n α) : Reg n w := fun i =>
  if rel (a i) (b i) then BitVec.allOnes w else 0#w

/-- The comparisons of egg/platform_ppc.py:918-928, other than `ne`. -/
inductive Cmp
  | eq | lt | le | gt | ge
deriving DecidableEq, Repr

/-- The scalar comparisons `nsimd_scalar_{op}_{typ}`: egg/platform_ppc.py:919-920. -/
def scalarCmp (t : ITy) : Cmp → BitVec t.w → BitVec t.w → Bool
  | .eq => Scalar.eq t
  | .lt => Scalar.lt t
  | .le => Scalar.le t
  | .gt => Scalar.gt t
  | .ge => Scalar.ge t

/-- `eq`, `lt`, `le`, `gt`, `ge` of native integer types: `vec_cmp{op}`, egg/platform_ppc.py:921-927. -/
def cmp (t : ITy) (o : Cmp) (a b : Reg n t.w) : Reg n t.w := vecCmp t.w (scalarCmp t o) a b
/-- `ne` of native integer types: `vec_cmpeq` and `vec_nor`, egg/platform_ppc.py:922-925. -/
def ne (t : ITy) (a b : Reg n t.w) : Reg n t.w := fun i =>
  ~~~ (cmp t .eq a b i ||| cmp t .eq a b i)
/-- Any comparison of i64 and u64 on VMX: `emulate_64`, egg/platform_ppc.py:102-110, 919-920. -/
def cmp64 (rel : α → α → Bool) (a b : Vec n α) : Reg n 64 := emulateCmp rel a b
/-- Any comparison of f32 and f64: `emulate_with_scalar`; lane by lane `(uN)(nsimd_scalar_{op} ? -1 : 0)`,
egg/platform_ppc.py:128-166, 928-929. -/
def cmpF (w : Nat) (rel : α → α → Bool) (a b : Vec (n + 1) α) : Option (Reg (n + 1) w) :=
  fromLanes fun i => some (BitVec.ofInt w (if rel (a i) (b i) then -1 else 0))
/-- Any comparison of f16: the f32 comparison on both registers, egg/platform_ppc.py:112-124, 919-920. -/
def cmpF16 (rel : α → α → Bool) (a b : Vec 4 α × Vec 4 α) : Option (Reg 4 32 × Reg 4 32) :=
  (cmpF (n := 3) 32 rel a.1 b.1).bind fun v0 => (cmpF (n := 3) 32 rel a.2 b.2).map fun v1 => (v0, v1)

/-! ### Logicals and masks -/

/-- `to_mask`: the bits of the logical, egg/platform_ppc.py:1536-1553. -/
def toMask (l : Reg n w) : Reg n w := l

/-- `reinterpretl` from f16: `(u16)vec_extract(a0.v0, i)` in lanes 0 to 3 and `a0.v1` in lanes 4 to 7,
egg/platform_ppc.py:1086-1105. -/
def reinterpretlFromF16 (l : Reg 4 32 × Reg 4 32) : Reg 8 16 :=
  let ret : Reg 8 16 := fun _ => (l.1 0).setWidth 16
  let ret := insertLane ret 1 ((l.1 1).setWidth 16)
  let ret := insertLane ret 2 ((l.1 2).setWidth 16)
  let ret := insertLane ret 3 ((l.1 3).setWidth 16)
  let ret := insertLane ret 4 ((l.2 0).setWidth 16)
  let ret := insertLane ret 5 ((l.2 1).setWidth 16)
  let ret := insertLane ret 6 ((l.2 2).setWidth 16)
  insertLane ret 7 ((l.2 3).setWidth 16)
/-- The lane `(u32)(x ? -1 : 0)` of `reinterpretl` to f16, egg/platform_ppc.py:1106-1124. -/
def boolLane32 (x : BitVec 16) : BitVec 32 := ITy.u32.cast (if x ≠ 0#16 then -1 else 0)
/-- `reinterpretl` to f16, egg/platform_ppc.py:1106-1124. -/
def reinterpretlToF16 (l : Reg 8 16) : Reg 4 32 × Reg 4 32 :=
  let v0 : Reg 4 32 := fun _ => boolLane32 (l 0)
  let v0 := insertLane v0 1 (boolLane32 (l 1))
  let v0 := insertLane v0 2 (boolLane32 (l 2))
  let v0 := insertLane v0 3 (boolLane32 (l 3))
  let v1 : Reg 4 32 := fun _ => boolLane32 (l 4)
  let v1 := insertLane v1 1 (boolLane32 (l 5))
  let v1 := insertLane v1 2 (boolLane32 (l 6))
  (v0, insertLane v1 3 (boolLane32 (l 7)))

/-- `loadla`, `loadlu` of native types: `notl(eq(load(p), set1(0)))`, egg/platform_ppc.py:1020-1028. -/
def loadl (eq : BitVec w → BitVec w → Bool) (zero : BitVec w) (v : Reg n w) : Reg n w :=
  lnot1 (vecCmp w eq v (set1 n zero))
/-- The same of 64-bit types on VMX, egg/platform_ppc.py:1020-1028. -/
def loadl64 (eq : BitVec 64 → BitVec 64 → Bool) (zero : BitVec 64) (v : Reg n 64) : Reg n 64 :=
  lnot1_64 (cmp64 eq v (set1 n zero))
/-- The vector stored by `storela`, `storelu`: `if_else1(l, set1(1), set1(0))`,
egg/platform_ppc.py:1032-1043. -/
def storel (one zero : BitVec w) (l : Reg n w) : Reg n w := ifElse1 l (set1 n one) (set1 n zero)
/-- The same of 64-bit types on VMX, egg/platform_ppc.py:1032-1043. -/
def storel64 (one zero : BitVec 64) (l : Reg n 64) : Reg n 64 :=
  ifElse1_64 l (set1 n one) (set1 n zero)

/-! ### Integer `cvt`, reversal of structs -/

/-- `cvt` between integer types of the same width: a cast of the register, or the scalar cast of the two
members on VMX, egg/platform_ppc.py:1158-1162, 1168-1171. -/
def cvt (x : Ext) (s d : ITy) (h : s.w = d.w) (a : Reg n s.w) : Reg n d.w := fun i =>
  if emulated x d then d.cast (s.val (a i)) else (a i).cast h

/-- `reverse` of 64-bit types on VMX: the members are exchanged, egg/platform_ppc.py:1279-1283. -/
def reverse64 (v : Vec 2 α) : Vec 2 α := ![v 1, v 0]
/-- `reverse` of f16: `emulate_f16('reverse')` reverses each register and keeps their order,
egg/platform_ppc.py:112-124, 1277-1278. -/
def reverseF16 (rev : Vec n α → Vec n α) (v : Vec n α × Vec n α) : Vec n α × Vec n α :=
  (rev v.1, rev v.2)

end Nsimd.Ppc
