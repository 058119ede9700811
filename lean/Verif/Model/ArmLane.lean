import Verif.Model.ArmMem
import Verif.Model.ScalarInt

/-!
# Lane operators of the ARM back end (egg/platform_arm.py)

Integer arithmetic, comparisons, logicals, selection, conversion between logicals and masks, `iota`
and `reverse`.  Registers are `Reg n w`; a NEON logical is a register of lanes all ones or zero, an
SVE logical is a predicate `Fin n → Bool`, or an unsigned register when nsimd is generated with
`sve_emulate_bool`.  Comparisons are stated for any lane type `α` and any relation on it, so that
they also cover the floating point types, with the IEEE relation.
-/

namespace Nsimd.Arm
open Nsimd.X86 (Reg cat halves)
open Nsimd.Cpu (Vec Mem Elem body LBin)

variable {n w : Nat} {α : Type}

/-! ### Instructions -/

/-- A lane of the result of a NEON comparison. NEON semantics, not code of the repo. -/
def maskLane (w : Nat) (b : Bool) : BitVec w := if b then BitVec.allOnes w else 0#w

/-- `vceqq`, `vcltq`, ...: NEON semantics, not code of the repo. -/
def vcmp (w : Nat) (rel : α → α → Bool) (a b : Vec n α) : Reg n w := fun i => maskLane w (rel (a i) (b i))

/-- `svcmpeq`, `svcmplt`, ... with an all true predicate: SVE semantics, not code of the repo. -/
def svcmp (rel : α → α → Bool) (a b : Vec n α) : Fin n → Bool := fun i => rel (a i) (b i)

/-- `vbslq(m, a, b)`: bitwise select. NEON semantics, not code of the repo. -/
def vbsl (m a b : Reg n w) : Reg n w := fun i => (m i &&& a i) ||| (~~~ m i &&& b i)

/-- The saturating cast of `vqaddq`, `vqsubq`, `svqadd`, `svqsub`. ARM semantics, not code of the
repo. -/
def sat (t : ITy) (v : Int) : BitVec t.w := t.cast (max t.minv (min t.maxv v))

/-- `vminq` and `svmin` on integers. ARM semantics, not code of the repo. -/
def vmin (t : ITy) (a b : BitVec t.w) : BitVec t.w := if t.val a ≤ t.val b then a else b
/-- `vmaxq` and `svmax` on integers. ARM semantics, not code of the repo. -/
def vmax (t : ITy) (a b : BitVec t.w) : BitVec t.w := if t.val a ≤ t.val b then b else a
/-- `vabsq` and `svabs` on integers: the smallest value is its own absolute value. ARM semantics,
not code of the repo. -/
def vabs (x : BitVec w) : BitVec w := if x.toInt < 0 then -x else x
/-- `svdiv`: truncates; the quotient by zero is zero; the quotient of the smallest value by -1 wraps.
SVE semantics, not code of the repo. -/
def svdiv (t : ITy) (a b : BitVec t.w) : BitVec t.w :=
  if t.val b = 0 then 0#t.w else t.cast (Int.tdiv (t.val a) (t.val b))

/-- `vreinterpretq_u32_u64`. NEON semantics (little endian), not code of the repo. -/
def as32 (x : BitVec 64) : BitVec 32 × BitVec 32 := (x.extractLsb' 0 32, x.extractLsb' 32 32)
/-- `vreinterpretq_u64_u32`. NEON semantics (little endian), not code of the repo. -/
def as64 (x : BitVec 32 × BitVec 32) : BitVec 64 := x.2 ++ x.1

/-! ### Arithmetic on integers -/

/-- `add` and `sub`, egg/platform_arm.py:759-768. -/
def addI (a b : Reg n w) : Reg n w := fun i => a i + b i
/-- egg/platform_arm.py:759-768. -/
def subI (a b : Reg n w) : Reg n w := fun i => a i - b i
/-- `mul` but of 64-bit types on NEON: egg/platform_arm.py:779-784. -/
def mulI (a b : Reg n w) : Reg n w := fun i => a i * b i

/-- `emulate_op1(op, simd_ext, typ)`: the scalar operator on each element of a buffer, by the CPU
back end, egg/platform_arm.py:294-315. -/
def emulateOp1 (op : α → Option α) (a : Vec n α) : Option (Vec n α) := body fun i => op (a i)
/-- `emulate_op2(op, simd_ext, typ)`: `buf0[i] = (typ)(buf0[i] op buf1[i])`,
egg/platform_arm.py:317-337. -/
def emulateOp2 (op : α → α → Option α) (a b : Vec n α) : Option (Vec n α) := body fun i => op (a i) (b i)

/-- `mul` of 64-bit types on NEON: egg/platform_arm.py:777-778. -/
def mul64 (t : ITy) (a b : Reg n t.w) : Option (Reg n t.w) := emulateOp2 (Scalar.mul t) a b
/-- `div` of integers on NEON, and of 8- and 16-bit types on SVE: egg/platform_arm.py:789-800. -/
def divEmul (t : ITy) (a b : Reg n t.w) : Option (Reg n t.w) := emulateOp2 (Scalar.div t) a b
/-- `div` of 32- and 64-bit integers on SVE: egg/platform_arm.py:792-795. -/
def divSve (t : ITy) (a b : Reg n t.w) : Reg n t.w := fun i => svdiv t (a i) (b i)

/-- `neg` by the instruction, unsigned types being reinterpreted as signed:
egg/platform_arm.py:1315-1351. -/
def negI (a : Reg n w) : Reg n w := fun i => - a i
/-- `neg` of 64-bit integers on neon128: egg/platform_arm.py:1328-1329. -/
def neg64 (t : ITy) (a : Reg n t.w) : Option (Reg n t.w) := emulateOp1 (Scalar.neg t) a
/-- `abs` by the instruction (signed types) or the identity (unsigned types):
egg/platform_arm.py:1211-1226. -/
def absI (t : ITy) (a : Reg n t.w) : Reg n t.w := if t.sgn then fun i => vabs (a i) else a
/-- `abs` of `i64` on neon128: egg/platform_arm.py:1220-1221. -/
def abs64 (a : Reg n 64) : Option (Reg n 64) := emulateOp1 (Scalar.abs .i64) a

/-- `min` by the instruction: egg/platform_arm.py:1187-1206. -/
def minI (t : ITy) (a b : Reg n t.w) : Reg n t.w := fun i => vmin t (a i) (b i)
/-- `max` by the instruction: egg/platform_arm.py:1187-1206. -/
def maxI (t : ITy) (a b : Reg n t.w) : Reg n t.w := fun i => vmax t (a i) (b i)
/-- `min` of 64-bit integers on NEON: egg/platform_arm.py:1192-1200. -/
def min64 (t : ITy) (a b : Reg n t.w) : Reg n t.w := fun i => if t.val (a i) < t.val (b i) then a i else b i
/-- `max` of 64-bit integers on NEON: egg/platform_arm.py:1192-1200. -/
def max64 (t : ITy) (a b : Reg n t.w) : Reg n t.w := fun i => if t.val (a i) > t.val (b i) then a i else b i

/-- `adds`, egg/platform_arm.py:2015-2022. -/
def adds (t : ITy) (a b : Reg n t.w) : Reg n t.w := fun i => sat t (t.val (a i) + t.val (b i))
/-- `subs`, egg/platform_arm.py:2027-2034. -/
def subs (t : ITy) (a b : Reg n t.w) : Reg n t.w := fun i => sat t (t.val (a i) - t.val (b i))

/-! ### Bitwise operators (egg/platform_arm.py:805-873) -/

/-- `andb`. egg/platform_arm.py:805-837. -/
def andb (a b : Reg n w) : Reg n w := fun i => a i &&& b i
/-- `orb`. egg/platform_arm.py:805-837. -/
def orb (a b : Reg n w) : Reg n w := fun i => a i ||| b i
/-- `xorb`. egg/platform_arm.py:805-837. -/
def xorb (a b : Reg n w) : Reg n w := fun i => a i ^^^ b i
/-- `andnotb`: `vbicq(a, b)` is `a & ~b`. egg/platform_arm.py:805-837. -/
def andnotb (a b : Reg n w) : Reg n w := fun i => a i &&& ~~~ (b i)
/-- `notb`: egg/platform_arm.py:842-873. -/
def notb (a : Reg n w) : Reg n w := fun i => ~~~ (a i)
/-- `notb` and `notl` of 64-bit types on NEON: `vmvnq_u32` on the 32-bit halves,
egg/platform_arm.py:848-851, 864-868, 939-942. -/
def notb64 (a : Reg n 64) : Reg n 64 := fun i =>
  as64 ((fun h : BitVec 32 × BitVec 32 => (~~~ h.1, ~~~ h.2)) (as32 (a i)))

/-! ### Logicals -/

/-- `andl`, `orl`, `xorl`, `andnotl` on NEON registers and on the emulated logicals of SVE:
egg/platform_arm.py:878-915. -/
def lop2 (o : LBin) (a b : Reg n w) : Reg n w :=
  match o with
  | .andl => andb a b
  | .orl => orb a b
  | .xorl => xorb a b
  | .andnotl => andnotb a b
/-- The same on f16 without hardware support: egg/platform_arm.py:881-890. -/
def lop2F16 (o : LBin) (a b : Reg n 32 × Reg n 32) : Reg n 32 × Reg n 32 :=
  (lop2 o a.1 b.1, lop2 o a.2 b.2)
/-- The same on SVE predicates, `sv{op}_z(svtrue, a, b)`: egg/platform_arm.py:915-917. -/
def lop2Sve (o : LBin) (a b : Fin n → Bool) : Fin n → Bool := fun i =>
  match o with
  | .andl => a i && b i
  | .orl => a i || b i
  | .xorl => a i ^^ b i
  | .andnotl => a i && !(b i)

/-- `notl` on NEON: egg/platform_arm.py:923-944. -/
def notl (a : Reg n w) : Reg n w := notb a
/-- `notl` on SVE predicates: egg/platform_arm.py:950-951. -/
def notlSve (a : Fin n → Bool) : Fin n → Bool := fun i => !(a i)

/-- `set1l` on NEON: egg/platform_arm.py:1060-1080. -/
def set1l (n w : Nat) (b : Int) : Reg n w := fun _ => if b ≠ 0 then BitVec.ofInt w (-1) else 0#w
/-- `set1l` on SVE: egg/platform_arm.py:1052-1057. -/
def set1lSve (n : Nat) (b : Int) : Fin n → Bool := if b ≠ 0 then svtrue n else fun _ => false

/-- `convert_from_predicate` with `sve_emulate_bool`: egg/platform_arm.py:69-76. -/
def fromPredicate (w : Nat) (p : Fin n → Bool) : Reg n w :=
  svsel p (fun _ => ~~~ 0#w) (fun _ => 0#w)
/-- `convert_to_predicate` with `sve_emulate_bool`: egg/platform_arm.py:78-86. -/
def toPredicate (l : Reg n w) : Fin n → Bool := svcmp (fun x y => x == y) l (fun _ => ~~~ 0#w)

/-! ### Comparisons (egg/platform_arm.py:1085-1144) -/

/-- `eq`, `lt`, `le`, `gt`, `ge` by the NEON instruction; `rel` is the C relation:
egg/platform_arm.py:1093-1094, 1119-1120. -/
def cmp (w : Nat) (rel : α → α → Bool) (a b : Vec n α) : Reg n w := vcmp w rel a b
/-- The same for the 64-bit types on neon128: `a op b ? (u64)-1 : 0`, egg/platform_arm.py:1105-1118. -/
def cmp64 (rel : α → α → Bool) (a b : Vec 2 α) : Reg 2 64 :=
  ![if rel (a 0) (b 0) then BitVec.ofInt 64 (-1) else 0#64,
    if rel (a 1) (b 1) then BitVec.ofInt 64 (-1) else 0#64]
/-- The same for f16 without hardware support: egg/platform_arm.py:1089-1092. -/
def cmpF16 (rel : α → α → Bool) (a b : Vec n α × Vec n α) : Reg n 32 × Reg n 32 :=
  (cmp 32 rel a.1 b.1, cmp 32 rel a.2 b.2)
/-- The same on SVE: egg/platform_arm.py:1128-1130. -/
def cmpSve (rel : α → α → Bool) (a b : Vec n α) : Fin n → Bool := svcmp rel a b
/-- The same on SVE with `sve_emulate_bool`: egg/platform_arm.py:1122-1127. -/
def cmpSveEmul (w : Nat) (rel : α → α → Bool) (a b : Vec n α) : Reg n w :=
  fromPredicate w (svcmp rel a b)

/-- `ne` on NEON: `notl(eq(a, b))`, egg/platform_arm.py:1136-1139. -/
def ne (w : Nat) (eq : α → α → Bool) (a b : Vec n α) : Reg n w := notl (cmp w eq a b)
/-- `ne` on neon128 for 64-bit types: egg/platform_arm.py:1136-1139. -/
def ne64 (eq : α → α → Bool) (a b : Vec 2 α) : Reg 2 64 := notb64 (cmp64 eq a b)
/-- `ne` on SVE (`svcmpne` is true on unordered operands): egg/platform_arm.py:1140-1143. -/
def neSve (eq : α → α → Bool) (a b : Vec n α) : Fin n → Bool := svcmp (fun x y => !(eq x y)) a b

/-! ### Selection (egg/platform_arm.py:1149-1182) -/

/-- `if_else1` on NEON: egg/platform_arm.py:1151-1152, 1170-1171. -/
def ifElse1 (l a b : Reg n w) : Reg n w := vbsl l a b
/-- `if_else1` of f16 without hardware support (lanes are the bits of f32):
egg/platform_arm.py:1153-1164. -/
def ifElse1F16 (l a b : Reg n 32 × Reg n 32) : Reg n 32 × Reg n 32 :=
  (ifElse1 l.1 a.1 b.1, ifElse1 l.2 a.2 b.2)
/-- `if_else1` of f64 on neon128: egg/platform_arm.py:1165-1169. -/
def ifElse1F64 (l : Reg 2 64) (a b : Vec 2 α) : Vec 2 α :=
  ![if l 0 != 0#64 then a 0 else b 0, if l 1 != 0#64 then a 1 else b 1]
/-- `if_else1` on SVE: egg/platform_arm.py:1180-1182. -/
def ifElse1Sve (l : Fin n → Bool) (a b : Vec n α) : Vec n α := svsel l a b
/-- `if_else1` on SVE with `sve_emulate_bool`: egg/platform_arm.py:1173-1179. -/
def ifElse1SveEmul (l : Reg n w) (a b : Vec n α) : Vec n α := svsel (toPredicate l) a b

/-! ### Masks and logicals (egg/platform_arm.py:2039-2073, 2139-2165) -/

/-- `to_mask` on NEON: the bits of the logical, egg/platform_arm.py:2040-2044, 2072-2073. -/
def toMask (l : Reg n w) : Reg n w := l
/-- `to_mask` on SVE: egg/platform_arm.py:2063-2071. -/
def toMaskSve (w : Nat) (l : Fin n → Bool) : Reg n w :=
  svsel l (fun _ => BitVec.ofInt w (-1)) (fun _ => 0#w)
/-- `to_logical` on NEON; for floats the bits are compared as unsigned integers:
egg/platform_arm.py:2139-2151. -/
def toLogical (a : Reg n w) : Reg n w := ne w (fun x y => x == y) a (fun _ => 0#w)
/-- `to_logical` on neon128 for 64-bit types: egg/platform_arm.py:2139-2151. -/
def toLogical64 (a : Reg 2 64) : Reg 2 64 := ne64 (fun x y => x == y) a (fun _ => 0#64)
/-- `to_logical` on SVE: egg/platform_arm.py:2139-2151. -/
def toLogicalSve (a : Reg n w) : Fin n → Bool := neSve (fun x y => x == y) a (fun _ => 0#w)

/-- `reinterpretl` from a 16-bit integer type to f16 without hardware support:
egg/platform_arm.py:1531-1544. -/
def reinterpretlToF16 (l : Reg (n + n) 16) : Reg n 32 × Reg n 32 :=
  halves fun i => if l i != 0#16 then BitVec.ofInt 32 (-1) else 0#32
/-- `reinterpretl` from f16 without hardware support: egg/platform_arm.py:1545-1555. -/
def reinterpretlFromF16 (l : Reg n 32 × Reg n 32) : Reg (n + n) 16 := fun i =>
  if cat l.1 l.2 i != 0#32 then BitVec.ofInt 16 (-1) else 0#16

/-- `loadla`, `loadlu`: `notl(eq(load(p), set1(0)))`, egg/platform_arm.py:1402-1410. -/
def loadl (w : Nat) (eq : α → α → Bool) (zero : α) (v : Vec n α) : Reg n w :=
  notl (cmp w eq v (fun _ => zero))
/-- The same on SVE: egg/platform_arm.py:1402-1410. -/
def loadlSve (eq : α → α → Bool) (zero : α) (v : Vec n α) : Fin n → Bool :=
  notlSve (cmpSve eq v (fun _ => zero))
/-- The vector stored by `storela`, `storelu`: `if_else1(l, set1(1), set1(0))`,
egg/platform_arm.py:1415-1426. -/
def storel (one zero : BitVec w) (l : Reg n w) : Reg n w := ifElse1 l (fun _ => one) (fun _ => zero)
/-- The same on SVE: egg/platform_arm.py:1415-1426. -/
def storelSve (one zero : α) (l : Fin n → Bool) : Vec n α := ifElse1Sve l (fun _ => one) (fun _ => zero)

/-! ### Iota and reverse -/

/-- `iota` of integers on NEON: the buffer `{ (typ)0, (typ)1, ... }`, egg/platform_arm.py:2092-2097. -/
def iota (t : ITy) (n : Nat) : Reg n t.w := fun i => t.cast (i : Nat)
/-- `iota` of integers on SVE: `svindex(0, 1)`, egg/platform_arm.py:2079-2081. -/
def iotaSve (w n : Nat) : Reg n w := svindex n 0#w 1#w

/-- `vrev64q`: the lanes of each 64-bit half are reversed; `k` lanes per half. NEON semantics, not
code of the repo. -/
def vrev64 {k : Nat} (v : Vec (k + k) α) : Vec (k + k) α := fun i =>
  if h : i.val < k then v ⟨k - 1 - i, by omega⟩ else v ⟨k + (k - 1 - (i - k)), by omega⟩
/-- `vcombine(vget_high(v), vget_low(v))`. NEON semantics, not code of the repo. -/
def swapHalves {k : Nat} (v : Vec (k + k) α) : Vec (k + k) α := cat (halves v).2 (halves v).1

/-- `reverse` on NEON for 8-, 16- and 32-bit types: egg/platform_arm.py:1767-1771. -/
def reverse {k : Nat} (v : Vec (k + k) α) : Vec (k + k) α := swapHalves (vrev64 v)
/-- `reverse` on NEON for 64-bit types: egg/platform_arm.py:1753-1761. -/
def reverse64 (v : Vec (1 + 1) α) : Vec (1 + 1) α := swapHalves v
/-- `reverse` of f16 without hardware support: egg/platform_arm.py:1762-1766. -/
def reverseF16 {k : Nat} (v : Vec (k + k) α × Vec (k + k) α) : Vec (k + k) α × Vec (k + k) α :=
  (reverse v.2, reverse v.1)
/-- `reverse` on SVE, `svrev`: egg/platform_arm.py:1751-1752. -/
def reverseSve (v : Vec n α) : Vec n α := fun i => v i.rev

end Nsimd.Arm
