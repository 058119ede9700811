import Verif.Model.ScalarInt
import Verif.Model.Fp16

/-!
# The CPU emulation backend (egg/platform_cpu.py)

A register of `n` lanes of `α` is `Fin n → α` (the C struct `{ v0; ...; v(n-1) }`
of egg/platform_cpu.py:65-82); a logical register has 32-bit lanes.  Every
function is modelled for an arbitrary lane count `n`; the repository fixes
`n = 128 / bits` (egg/platform_cpu.py:40, egg/common.py:264).

Memory maps element addresses to elements; `none` is an address that is not
mapped, and accessing it is undefined behaviour (result `none`).  Pointers of
one element type only are modelled, so an address counts elements.
-/

namespace Nsimd.Cpu

/-- `nsimd_cpu_v{typ}`: egg/platform_cpu.py:65-73. -/
abbrev Vec (n : Nat) (α : Type) := Fin n → α
/-- `nsimd_cpu_vl{typ}`: lanes of type `unsigned int`, egg/platform_cpu.py:75-82. -/
abbrev LVec (n : Nat) := Fin n → BitVec 32
/-- Memory seen through a pointer of one element type; C memory model, not code
of the repo. C language rule, not code of the repo. -/
abbrev Mem (M : Type) := Int → Option M

/-- How an element type is held in memory (`M`) and in a lane (`α`), and its
constants.  `dec`/`enc` are the conversions that egg/platform_cpu.py:196-319
inserts around memory accesses (`nsimd_u16_to_f32` and `nsimd_f32_to_u16` for
`f16`, nothing for the other types); `isZero` is `== (typ)0`. -/
structure Elem (M α : Type) where
  dec : M → Option α
  enc : α → M
  zero : α
  one : α
  isZero : α → Bool

/-- Integer types: no conversion, egg/platform_cpu.py:202, 274, 289, 316. -/
def intElem (t : ITy) : Elem (BitVec t.w) (BitVec t.w) where
  dec := some
  enc := id
  zero := t.cast 0
  one := t.cast 1
  isZero x := t.val x = 0

/-- `f16`: `u16` in memory, `f32` in a lane, egg/platform_cpu.py:197-199, 268-270,
284-286, 308-312. `== 0.0f` holds for both zeros. -/
def f16Elem : Elem (BitVec 16) (BitVec 32) where
  dec := Fp16.u16ToF32
  enc := Fp16.f32ToU16
  zero := 0#32
  one := 0x3f800000#32
  isZero x := x &&& 0x7fffffff#32 = 0#32

/-- `f32` as its bit pattern: no conversion, egg/platform_cpu.py:202, 274, 289, 316. -/
def f32Elem : Elem (BitVec 32) (BitVec 32) where
  dec := some
  enc := id
  zero := 0#32
  one := 0x3f800000#32
  isZero x := x &&& 0x7fffffff#32 = 0#32

/-- `f64` as its bit pattern: no conversion, egg/platform_cpu.py:202, 274, 289, 316. -/
def f64Elem : Elem (BitVec 64) (BitVec 64) where
  dec := some
  enc := id
  zero := 0#64
  one := 0x3ff0000000000000#64
  isZero x := x &&& 0x7fffffffffffffff#64 = 0#64

variable {n : Nat} {M α : Type}

/-- `func_body`: one statement `ret.v{i} = ...;` per lane,
egg/platform_cpu.py:117-126. Undefined if one of the statements is. -/
def body (f : Fin n → Option α) : Option (Vec n α) :=
  if h : ∀ i, (f i).isSome then some fun i => (f i).get (h i) else none

/-- `ptr[a] = v;` C semantics, not code of the repo. -/
def write (m : Mem M) (a : Int) (v : M) : Option (Mem M) :=
  if (m a).isSome then some fun x => if x = a then some v else m x else none

/-- A sequence of store statements, one per element of `l`: `repeat_stmt`,
egg/platform_cpu.py:117-118. `act x = none` is a statement whose `if` is not
taken. -/
def stores {ι : Type} (l : List ι) (act : ι → Option (Int × M)) (m : Mem M) : Option (Mem M) :=
  l.foldlM (fun m x => match act x with
    | none => some m
    | some (a, v) => write m a v) m

/-! ### Lane-wise operators -/

variable (t : ITy)

/-- `op2('+')`: egg/platform_cpu.py:130-133, 674. -/
def add (a b : Vec n (BitVec t.w)) : Option (Vec n (BitVec t.w)) :=
  body fun i => (t.prom (t.val (a i) + t.val (b i))).map t.cast
/-- `op2('-')`: egg/platform_cpu.py:130-133, 677. -/
def sub (a b : Vec n (BitVec t.w)) : Option (Vec n (BitVec t.w)) :=
  body fun i => (t.prom (t.val (a i) - t.val (b i))).map t.cast
/-- `op2('*')`: egg/platform_cpu.py:130-133, 675. -/
def mul (a b : Vec n (BitVec t.w)) : Option (Vec n (BitVec t.w)) :=
  body fun i => (t.prom (t.val (a i) * t.val (b i))).map t.cast
/-- `op2('/')`: egg/platform_cpu.py:130-133, 676. -/
def div (a b : Vec n (BitVec t.w)) : Option (Vec n (BitVec t.w)) :=
  body fun i => if t.val (b i) = 0 then none
    else (t.prom (Int.tdiv (t.val (a i)) (t.val (b i)))).map t.cast

/-- `scalar_impl` with one vector argument (`neg`, `abs`, `notb`):
egg/platform_cpu.py:155-164. -/
def scalar1 (f : α → Option α) (a : Vec n α) : Option (Vec n α) := body fun i => f (a i)
/-- `scalar_impl` with two vector arguments: egg/platform_cpu.py:155-164. -/
def scalar2 (f : α → α → Option α) (a b : Vec n α) : Option (Vec n α) :=
  body fun i => f (a i) (b i)
/-- `scalar_impl` with three vector arguments: egg/platform_cpu.py:155-164. -/
def scalar3 (f : α → α → α → Option α) (a b c : Vec n α) : Option (Vec n α) :=
  body fun i => f (a i) (b i) (c i)
/-- `scalar_impl` for `shl`, `shr`, `shra` (scalar count): egg/platform_cpu.py:158-159. -/
def scalarShift (f : α → Int → Option α) (a : Vec n α) (s : Int) : Option (Vec n α) :=
  body fun i => f (a i) s

/-- `cmp2`: `(u32)(a op b ? -1 : 0)`, egg/platform_cpu.py:168-174. -/
def cmp2 (op : α → α → Bool) (a b : Vec n α) : LVec n :=
  fun i => ITy.u32.cast (if op (a i) (b i) then -1 else 0)

/-- The six comparisons on integers, egg/platform_cpu.py:698-703. -/
inductive Cmp | eq | ne | gt | ge | lt | le
  deriving DecidableEq

/-- C comparison of two values of type `t`; both operands are promoted to the
same type without change of value. egg/platform_cpu.py:698-703. -/
def Cmp.op : Cmp → BitVec t.w → BitVec t.w → Bool
  | .eq, a, b => t.val a = t.val b
  | .ne, a, b => t.val a ≠ t.val b
  | .gt, a, b => t.val a > t.val b
  | .ge, a, b => t.val a ≥ t.val b
  | .lt, a, b => t.val a < t.val b
  | .le, a, b => t.val a ≤ t.val b

/-- `lop2('|')`: egg/platform_cpu.py:137-139, 681. -/
def orl (a b : LVec n) : LVec n := fun i => a i ||| b i
/-- `lop2('&')`: egg/platform_cpu.py:137-139, 685. -/
def andl (a b : LVec n) : LVec n := fun i => a i &&& b i
/-- `lop2('^')`: egg/platform_cpu.py:137-139, 687. -/
def xorl (a b : LVec n) : LVec n := fun i => a i ^^^ b i
/-- `landnot2`: egg/platform_cpu.py:143-145. -/
def andnotl (a b : LVec n) : LVec n := fun i => a i &&& (~~~ (b i))
/-- `lnot1`: egg/platform_cpu.py:149-151. -/
def notl (a : LVec n) : LVec n := fun i => ~~~ (a i)
/-- `set1l`: egg/platform_cpu.py:190-192. -/
def set1l (n : Nat) (b : Int) : LVec n := fun _ => ITy.u32.cast (if b ≠ 0 then -1 else 0)
/-- `set1` on the types other than `f16`: egg/platform_cpu.py:178-186. For `f16`
the argument is first converted (`e.dec`). -/
def set1 (e : Elem M α) (n : Nat) (x : M) : Option (Vec n α) := body fun _ => e.dec x
/-- `reinterpretl1`: egg/platform_cpu.py:358-360. -/
def reinterpretl (a : LVec n) : LVec n := fun i => a i
/-- `if_else1`: egg/platform_cpu.py:323-328. -/
def ifElse1 (m : LVec n) (a b : Vec n α) : Vec n α := fun i => if m i ≠ 0#32 then a i else b i

/-- `all_any` with `&&`: egg/platform_cpu.py:332-343. -/
def all (a : LVec n) : Int :=
  if (List.finRange n).all fun i => a i = BitVec.allOnes 32 then -1 else 0
/-- `all_any` with `||`: egg/platform_cpu.py:332-343. -/
def any (a : LVec n) : Int :=
  if (List.finRange n).any fun i => a i = BitVec.allOnes 32 then -1 else 0
/-- `nbtrue1`: egg/platform_cpu.py:374-379. The counter never exceeds `n`, so the
C `int` is a Lean `Int`. -/
def nbtrue (a : LVec n) : Int :=
  (List.finRange n).foldl (fun acc i => acc + if a i = BitVec.allOnes 32 then 1 else 0) 0

/-- `iota` on integers: egg/platform_cpu.py:545-548. -/
def iota (n : Nat) : Vec n (BitVec t.w) := fun i => t.cast (i : Nat)

/-- `mask_for_loop_tail`: `in0 + i < in1 ? (u32)-1 : (u32)0` with `int` operands,
egg/platform_cpu.py:538-541. -/
def maskForLoopTail (n : Nat) (in0 in1 : Int) : Option (LVec n) :=
  body fun i => (ITy.i32.prom (in0 + (i : Nat))).map fun s =>
    if s < in1 then BitVec.allOnes 32 else 0#32

/-! ### Conversions between register types -/

/-- `reinterpret1` between two different types of one size: store to a byte
buffer as one type, load as the other, egg/platform_cpu.py:347-354. The two
in-memory formats have the same bits, so the buffer is a vector of patterns. -/
def reinterpret {w : Nat} {α β : Type} (e : Elem (BitVec w) α) (e' : Elem (BitVec w) β)
    (a : Vec n α) : Option (Vec n β) :=
  body fun i => e'.dec (e.enc (a i))

/-- `to_logical1`: egg/platform_cpu.py:443-459 (the reinterpretation to the unsigned
type is `enc`; for unsigned types it is absent, and `enc` is the identity). -/
def toLogical {w : Nat} (e : Elem (BitVec w) α) (a : Vec n α) : LVec n :=
  fun i => if e.enc (a i) = 0#w then 0#32 else BitVec.allOnes 32

/-- `to_mask1` for types other than `f16`: egg/platform_cpu.py:463-468, 478-482. -/
def toMask {w : Nat} (e : Elem (BitVec w) α) (l : LVec n) : Option (Vec n α) :=
  body fun i => e.dec (if l i ≠ 0#32 then BitVec.allOnes w else 0#w)

/-- `to_mask1` for `f16`: the logical lane becomes the `f32` lane through a union,
egg/platform_cpu.py:469-476. -/
def toMaskF16 (l : LVec n) : Vec n (BitVec 32) := fun i => l i

/-- `convert1` between integer types: egg/platform_cpu.py:364-370. -/
def cvt (t t' : ITy) (a : Vec n (BitVec t.w)) : Vec n (BitVec t'.w) :=
  fun i => t'.cast (t.val (a i))

/-- `upcvt1` between integer types, `n` lanes out of `2n`:
egg/platform_cpu.py:404-417. -/
def upcvt (t t' : ITy) (a : Vec (2 * n) (BitVec t.w)) :
    Vec n (BitVec t'.w) × Vec n (BitVec t'.w) :=
  (fun i => t'.cast (t.val (a ⟨i, by omega⟩)), fun i => t'.cast (t.val (a ⟨i + n, by omega⟩)))

/-- `downcvt2` between integer types: egg/platform_cpu.py:421-434. Written per
destination lane instead of as two runs of assignments. -/
def downcvt (t t' : ITy) (a b : Vec n (BitVec t.w)) : Vec (2 * n) (BitVec t'.w) :=
  fun j => if h : j < n then t'.cast (t.val (a ⟨j, h⟩)) else t'.cast (t.val (b ⟨j - n, by omega⟩))

/-! ### zip and unzip (even lane count `2 * h`) -/

variable {h : Nat}

/-- `zip_half("ziplo")`: `ret.v(2i) = a.v(i); ret.v(2i+1) = b.v(i)` for `i < n/2`,
egg/platform_cpu.py:486-499. Written per destination lane. -/
def ziplo (a b : Vec (2 * h) α) : Vec (2 * h) α :=
  fun k => if k.val % 2 = 0 then a ⟨k / 2, by omega⟩ else b ⟨k / 2, by omega⟩
/-- `zip_half("ziphi")`: the same from source lane `i + n/2`,
egg/platform_cpu.py:492-495. -/
def ziphi (a b : Vec (2 * h) α) : Vec (2 * h) α :=
  fun k => if k.val % 2 = 0 then a ⟨k / 2 + h, by omega⟩ else b ⟨k / 2 + h, by omega⟩
/-- `unzip_half("unziplo")`: egg/platform_cpu.py:506-512. -/
def unziplo (a b : Vec (2 * h) α) : Vec (2 * h) α :=
  fun k => if hk : k.val < h then a ⟨2 * k, by omega⟩ else b ⟨2 * (k - h), by omega⟩
/-- `unzip_half("unziphi")`: egg/platform_cpu.py:513-519. -/
def unziphi (a b : Vec (2 * h) α) : Vec (2 * h) α :=
  fun k => if hk : k.val < h then a ⟨2 * k + 1, by omega⟩ else b ⟨2 * (k - h) + 1, by omega⟩
/-- `zip`: egg/platform_cpu.py:524-528. -/
def zip (a b : Vec (2 * h) α) : Vec (2 * h) α × Vec (2 * h) α := (ziplo a b, ziphi a b)
/-- `unzip`: egg/platform_cpu.py:530-534. -/
def unzip (a b : Vec (2 * h) α) : Vec (2 * h) α × Vec (2 * h) α := (unziplo a b, unziphi a b)

/-! ### Memory -/

variable (e : Elem M α)

/-- `load` (aligned and unaligned are the same code): egg/platform_cpu.py:196-206. -/
def load (n : Nat) (m : Mem M) (p : Int) : Option (Vec n α) :=
  body fun i => (m (p + (i : Nat))).bind e.dec

/-- `maskoz_load`, `o` variant: egg/platform_cpu.py:210-226. -/
def maskoLoad (l : LVec n) (m : Mem M) (p : Int) (o : Vec n α) : Option (Vec n α) :=
  body fun i => if l i ≠ 0#32 then (m (p + (i : Nat))).bind e.dec else some (o i)

/-- `maskoz_load`, `z` variant: egg/platform_cpu.py:210-226. -/
def maskzLoad (l : LVec n) (m : Mem M) (p : Int) : Option (Vec n α) :=
  body fun i => if l i ≠ 0#32 then (m (p + (i : Nat))).bind e.dec else some e.zero

/-- `store`: egg/platform_cpu.py:283-290. -/
def store (m : Mem M) (p : Int) (v : Vec n α) : Option (Mem M) :=
  stores (List.finRange n) (fun i => some (p + (i : Nat), e.enc (v i))) m

/-- `mask_store`: egg/platform_cpu.py:294-303. -/
def maskStore (l : LVec n) (m : Mem M) (p : Int) (v : Vec n α) : Option (Mem M) :=
  stores (List.finRange n)
    (fun i => if l i ≠ 0#32 then some (p + (i : Nat), e.enc (v i)) else none) m

/-- `loadl`: egg/platform_cpu.py:266-279. -/
def loadl (n : Nat) (m : Mem M) (p : Int) : Option (LVec n) :=
  body fun i => ((m (p + (i : Nat))).bind e.dec).map fun x =>
    ITy.u32.cast (if e.isZero x then 0 else -1)

/-- `storel`: egg/platform_cpu.py:307-319. -/
def storel (m : Mem M) (p : Int) (l : LVec n) : Option (Mem M) :=
  stores (List.finRange n)
    (fun i => some (p + (i : Nat), e.enc (if l i = 0#32 then e.zero else e.one))) m

/-- `load_deg234`: `ret.v{j}.v{i} = in0[deg * i + j]`, egg/platform_cpu.py:230-244. -/
def loadDeg (deg n : Nat) (m : Mem M) (p : Int) : Option (Fin deg → Vec n α) :=
  body fun j => body fun i => (m (p + (deg * (i : Nat) + (j : Nat) : Nat))).bind e.dec

/-- `store_deg234`: `in0[deg * i + j] = in{j+1}.v{i}`, `i` outer and `j` inner,
egg/platform_cpu.py:248-262. -/
def storeDeg {deg : Nat} (m : Mem M) (p : Int) (v : Fin deg → Vec n α) : Option (Mem M) :=
  stores ((List.finRange n).flatMap fun i => (List.finRange deg).map fun j => (i, j))
    (fun x => some (p + (deg * (x.1 : Nat) + (x.2 : Nat) : Nat), e.enc (v x.2 x.1))) m

/-- `gather`: `in0[in1.v{i}]`, egg/platform_cpu.py:552-558. The offsets are given as
the numbers the lanes of `in1` denote. -/
def gather (m : Mem M) (p : Int) (off : Vec n Int) : Option (Vec n α) :=
  body fun i => (m (p + off i)).bind e.dec

/-- `gather_linear`: `in0[{i} * in1]` with an `int` product,
egg/platform_cpu.py:562-568. -/
def gatherLinear (n : Nat) (m : Mem M) (p : Int) (step : Int) : Option (Vec n α) :=
  body fun i => (ITy.i32.prom ((i : Nat) * step)).bind fun k => (m (p + k)).bind e.dec

/-- `maskoz_gather`, `o` variant: egg/platform_cpu.py:572-587. -/
def maskoGather (l : LVec n) (m : Mem M) (p : Int) (off : Vec n Int) (o : Vec n α) :
    Option (Vec n α) :=
  body fun i => if l i ≠ 0#32 then (m (p + off i)).bind e.dec else some (o i)

/-- `maskoz_gather`, `z` variant: egg/platform_cpu.py:572-587. -/
def maskzGather (l : LVec n) (m : Mem M) (p : Int) (off : Vec n Int) : Option (Vec n α) :=
  body fun i => if l i ≠ 0#32 then (m (p + off i)).bind e.dec else some e.zero

/-- `scatter`: egg/platform_cpu.py:591-597. -/
def scatter (m : Mem M) (p : Int) (off : Vec n Int) (v : Vec n α) : Option (Mem M) :=
  stores (List.finRange n) (fun i => some (p + off i, e.enc (v i))) m

/-- `scatter_linear`: `in0[{i} * in1] = in2.v{i}` with an `int` product,
egg/platform_cpu.py:601-607. Undefined if one of the products overflows. -/
def scatterLinear (m : Mem M) (p : Int) (step : Int) (v : Vec n α) : Option (Mem M) :=
  (body fun i : Fin n => ITy.i32.prom ((i : Nat) * step)).bind fun off =>
    stores (List.finRange n) (fun i => some (p + off i, e.enc (v i))) m

/-- `mask_scatter`: egg/platform_cpu.py:611-619. -/
def maskScatter (l : LVec n) (m : Mem M) (p : Int) (off : Vec n Int) (v : Vec n α) :
    Option (Mem M) :=
  stores (List.finRange n) (fun i => if l i ≠ 0#32 then some (p + off i, e.enc (v i)) else none) m

end Nsimd.Cpu
