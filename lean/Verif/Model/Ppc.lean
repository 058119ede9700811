import Verif.Model.Arm
import Verif.Model.Cpu
import Verif.Model.CpuExpr

/-!
# Lane operators of the POWER back end (egg/platform_ppc.py)

Registers are `Reg n w`; a native logical is a register whose lanes are all ones or zero.  On VMX
the 64-bit types are structs `{ v0, v1 }` handled by the scalar operators (`emulate_64`,
egg/platform_ppc.py:86-110); they are seen as registers of two lanes.  f16 vectors are pairs of
f32 registers.
-/

namespace Nsimd.Ppc
open Nsimd.X86 (Reg)
open Nsimd.Cpu (Vec Mem Elem LBin)

variable {n w : Nat}

/-! ### Lanes -/

/-- `vec_insert(x, v, i)`: lane `i` becomes `x`. Power intrinsics semantics, not code of the
repo. -/
def insertLane {α : Type} (v : Vec n α) (i : Fin n) (x : α) : Vec n α :=
  fun j => if j = i then x else v j

/-- The code that fills a register lane by lane: `ret = vec_splats(x0); ret = vec_insert(x1, ret,
1); ...`, egg/platform_ppc.py:144-152, 1657-1663, 1685-1690.  `none` is an undefined access. -/
def fromLanes {α : Type} (x : Fin (n + 1) → Option α) : Option (Vec (n + 1) α) :=
  (x 0).bind fun x0 =>
    ((List.finRange (n + 1)).drop 1).foldlM
      (fun v i => (x i).map fun xi => insertLane v i xi) (fun _ => x0)

/-! ### Shifts (egg/platform_ppc.py:871-876) -/

/-- `vec_sl`, `vec_sr`: the count is taken modulo `w`.
Power intrinsics semantics, not code of the repo. -/
def vecSl (x c : BitVec w) : BitVec w := x <<< (c.toNat % w)
/-- `vec_sr`: logical shift, count modulo `w`. Power intrinsics semantics, not code of the repo. -/
def vecSr (x c : BitVec w) : BitVec w := x >>> (c.toNat % w)
/-- `vec_sra`: algebraic shift of the bits, also for unsigned types, count modulo `w`.
Power intrinsics semantics, not code of the repo. -/
def vecSra (x c : BitVec w) : BitVec w := x.sshiftRight (c.toNat % w)

/-- `shl`: `vec_sl(a0, vec_splats((uN)a1))`, egg/platform_ppc.py:871-876. -/
def shl (t : ITy) (x : BitVec t.w) (s : Int) : BitVec t.w := vecSl x (t.cast s)
/-- `shr`: `vec_sr(a0, vec_splats((uN)a1))`, egg/platform_ppc.py:871-876. -/
def shr (t : ITy) (x : BitVec t.w) (s : Int) : BitVec t.w := vecSr x (t.cast s)
/-- `shra`: `vec_sra(a0, vec_splats((uN)a1))`, egg/platform_ppc.py:871-876. -/
def shra (t : ITy) (x : BitVec t.w) (s : Int) : BitVec t.w := vecSra x (t.cast s)

/-! ### Logicals -/

/-- The lane `(u64)(l ? -1 : 0)` of `emulate_64`, egg/platform_ppc.py:105-106. -/
def boolLane64 (l : Bool) : BitVec 64 := ITy.u64.cast (if l then -1 else 0)
/-- The argument `(int)(v & ((u64)1))` of `emulate_64`, egg/platform_ppc.py:90-91. -/
def argLane64 (v : BitVec 64) : BitVec 32 := ITy.i32.cast (ITy.u64.val (v &&& 1#64))

/-- `andl`, `orl`, `xorl`, `andnotl` of native types: `vec_and`, `vec_or`, `vec_xor`, `vec_andc`,
egg/platform_ppc.py:823-827. -/
def lop2 (o : LBin) (a b : Reg n w) : Reg n w := fun i =>
  match o with
  | .andl => a i &&& b i
  | .orl => a i ||| b i
  | .xorl => a i ^^^ b i
  | .andnotl => a i &&& ~~~ b i
/-- `notl` of native types: `vec_nor(a0, a0)`, egg/platform_ppc.py:857-860. -/
def lnot1 (a : Reg n w) : Reg n w := fun i => ~~~ (a i ||| a i)
/-- The scalar operators on `int`s: egg/scalar.py:466-470. -/
def scalarLop (o : LBin) : BitVec 32 → BitVec 32 → BitVec 32 :=
  match o with
  | .andl => Scalar.andl | .orl => Scalar.orl | .xorl => Scalar.xorl | .andnotl => Scalar.andnotl
/-- `andl`, `orl`, `xorl`, `andnotl` of 64-bit types on VMX: `emulate_64`,
egg/platform_ppc.py:102-110, 824-825. -/
def lop2_64 (o : LBin) (a b : Reg n 64) : Reg n 64 := fun i =>
  boolLane64 (scalarLop o (argLane64 (a i)) (argLane64 (b i)) != 0#32)
/-- `notl` of 64-bit types on VMX: egg/platform_ppc.py:102-110, 858-859. -/
def lnot1_64 (a : Reg n 64) : Reg n 64 := fun i =>
  boolLane64 (Scalar.notl (argLane64 (a i)) != 0#32)
/-- `set1l` of native types, egg/platform_ppc.py:909-914. -/
def set1l (n w : Nat) (b : Int) : Reg n w :=
  if b ≠ 0 then fun _ => BitVec.ofInt w (-1) else fun _ => 0#w
/-- `set1l` of 64-bit types on VMX, egg/platform_ppc.py:904-908. -/
def set1l_64 (n : Nat) (b : Int) : Reg n 64 := fun _ => boolLane64 (b ≠ 0)
/-- `to_logical` of integers: `ne(a0, 0)`, that is `vec_cmpeq` then `vec_nor`,
egg/platform_ppc.py:920-924, 1829-1831. -/
def toLogical (a : Reg n w) : Reg n w := fun i =>
  let tmp := if a i = 0#w then BitVec.allOnes w else 0#w
  ~~~ (tmp ||| tmp)
/-- `to_logical` of 64-bit types on VMX, egg/platform_ppc.py:1814-1828. -/
def toLogical_64 (a : Reg n 64) : Reg n 64 := fun i => boolLane64 (a i != 0#64)

/-- `if_else1` of native types: `vec_sel(a2, a1, a0)`, bits of `a1` where the mask bit is one,
egg/platform_ppc.py:941. -/
def ifElse1 (l a b : Reg n w) : Reg n w := fun i => (b i &&& ~~~ l i) ||| (a i &&& l i)
/-- `if_else1` of 64-bit types on VMX: `a0.v ? a1.v : a2.v`, egg/platform_ppc.py:936-940. -/
def ifElse1_64 (l a b : Reg n 64) : Reg n 64 := fun i => if l i ≠ 0#64 then a i else b i

/-- `all` of native types: `vec_all_ne(a0, 0)`, egg/platform_ppc.py:1057; 64-bit types on VMX:
`v0 && v1`, egg/platform_ppc.py:1054-1056. -/
def all (a : Reg n w) : Bool := (List.finRange n).all fun i => a i != 0#w
/-- `any` of native types: `vec_any_ne(a0, 0)`, egg/platform_ppc.py:1057; 64-bit types on VMX:
`v0 || v1`, egg/platform_ppc.py:1054-1056. -/
def any (a : Reg n w) : Bool := (List.finRange n).any fun i => a i != 0#w
/-- `nbtrue` of native types: `(vec_extract(a0, 0) ? 1 : 0) + ...`,
egg/platform_ppc.py:1070-1073. -/
def nbtrue (a : Reg n w) : Option Int :=
  (List.finRange n).foldlM (fun acc i => ITy.i32.prom (acc + if a i ≠ 0#w then 1 else 0)) 0
/-- `nbtrue` of 64-bit types on VMX: `-(int)((i64)v0 + (i64)v1)`, egg/platform_ppc.py:1067-1069. -/
def nbtrue_64 (a : Reg 2 64) : Option Int :=
  (ITy.i64.prom ((a 0).toInt + (a 1).toInt)).bind fun s =>
    ITy.i32.prom (-(ITy.i32.cast s).toInt)

/-! ### fma, fms, fnma, fnms of integers (egg/platform_ppc.py:973-993) -/

/-- `vec_add(vec_mul(a0, a1), a2)`, egg/platform_ppc.py:977-979. -/
def fma (a b c : BitVec w) : BitVec w := a * b + c
/-- `vec_sub(vec_mul(a0, a1), a2)`, egg/platform_ppc.py:980-982. -/
def fms (a b c : BitVec w) : BitVec w := a * b - c
/-- `vec_sub(a2, vec_mul(a0, a1))`, egg/platform_ppc.py:983-985. -/
def fnma (a b c : BitVec w) : BitVec w := c - a * b
/-- `vec_sub(neg(a2), vec_mul(a0, a1))`, egg/platform_ppc.py:986-988; `neg` is `vec_neg` or
`0 - a`, egg/platform_ppc.py:997-1003. -/
def fnms (a b c : BitVec w) : BitVec w := -c - a * b

/-! ### Integer conversions (egg/platform_ppc.py:1339-1465) -/

/-- `vec_unpackh`, `vec_unpackl` of signed lanes: the first and last halves, sign extended.
Power intrinsics semantics, not code of the repo. -/
def vecUnpack (w' : Nat) (hi : Bool) (a : Reg (n * 2) w) : Reg n w' := fun i =>
  (if hi then a ⟨i, by omega⟩ else a ⟨n + i, by omega⟩).signExtend w'

/-- `upcvt` of i8 and i16: `vec_unpackh`, `vec_unpackl`, egg/platform_ppc.py:1396-1402. -/
def upcvtS (w' : Nat) (a : Reg (n * 2) w) : Reg n w' × Reg n w' :=
  (vecUnpack w' true a, vecUnpack w' false a)
/-- `upcvt` of u8 and u16: the sign extended lanes and the mask `0xFF..F` of `w` bits,
egg/platform_ppc.py:1380-1395. -/
def upcvtU (w' : Nat) (a : Reg (n * 2) w) : Reg n w' × Reg n w' :=
  (fun i => vecUnpack w' true a i &&& BitVec.ofNat w' (2 ^ w - 1),
   fun i => vecUnpack w' false a i &&& BitVec.ofNat w' (2 ^ w - 1))
/-- `upcvt` of i32 and u32: `(to_typ)vec_extract(a0, i)` lane by lane,
egg/platform_ppc.py:1403-1420. -/
def upcvt32 (s d : ITy) (a : Reg 4 s.w) : Reg 2 d.w × Reg 2 d.w :=
  let ret0 := insertLane (fun _ => d.cast (s.val (a 0))) (1 : Fin 2) (d.cast (s.val (a 1)))
  let ret1 := insertLane (fun _ => d.cast (s.val (a 2))) (1 : Fin 2) (d.cast (s.val (a 3)))
  (ret0, ret1)
/-- `upcvt` of integers to integers: dispatch on the source type, egg/platform_ppc.py:1380-1420. -/
def upcvt (s d : ITy) (a : Reg (n * 2) s.w) : Reg n d.w × Reg n d.w :=
  if s.sgn then upcvtS d.w a else upcvtU d.w a

/-- `downcvt` of integers: `vec_pack(a0, a1)`, the low halves of the lanes of both arguments,
egg/platform_ppc.py:1442-1445. -/
def downcvt (w' : Nat) (a b : Reg n w) : Reg (n * 2) w' := fun i =>
  if h : i.val < n then (a ⟨i, h⟩).setWidth w' else (b ⟨i - n, by omega⟩).setWidth w'
/-- `downcvt` of 64-bit integers: `vec_splats` and three `vec_insert`,
egg/platform_ppc.py:1424-1441. -/
def downcvt64 (s d : ITy) (a b : Reg 2 s.w) : Reg 4 d.w :=
  let ret : Reg 4 d.w := fun _ => d.cast (s.val (a 0))
  let ret := insertLane ret 1 (d.cast (s.val (a 1)))
  let ret := insertLane ret 2 (d.cast (s.val (b 0)))
  insertLane ret 3 (d.cast (s.val (b 1)))

/-! ### Memory -/

section Mem
variable {M α : Type} (e : Elem M α)

/-- `gather` of native types: `a0[vec_extract(a1, i)]` lane by lane, egg/platform_ppc.py:1657-1663;
64-bit types on VMX, egg/platform_ppc.py:1651-1656. -/
def gather (m : Mem M) (p : Int) (off : Vec (n + 1) Int) : Option (Vec (n + 1) α) :=
  fromLanes fun i => (m (p + off i)).bind e.dec
/-- One member of the result of `gather` of f16: every statement reads
`a0[vec_extract(a1, 0)]`, egg/platform_ppc.py:1635-1642. -/
def gatherF16Half (m : Mem M) (p : Int) (off : Vec 8 Int) : Option (Vec 4 α) :=
  fromLanes (n := 3) fun _ => (m (p + off 0)).bind e.dec
/-- `gather` of f16, egg/platform_ppc.py:1633-1650. -/
def gatherF16 (m : Mem M) (p : Int) (off : Vec 8 Int) : Option (Vec 4 α × Vec 4 α) :=
  (gatherF16Half e m p off).bind fun v0 => (gatherF16Half e m p off).map fun v1 => (v0, v1)

/-- `gather_linear`: `a0[a1 * i]` lane by lane with an `int` product, egg/platform_ppc.py:1680-1690;
the first lane reads `a0[0]`. -/
def gatherLinear (n : Nat) (m : Mem M) (p step : Int) : Option (Vec (n + 1) α) :=
  fromLanes fun i => if i = 0 then (m p).bind e.dec
    else (ITy.i32.prom (step * (i : Nat))).bind fun k => (m (p + k)).bind e.dec

/-- The statements `a0[vec_extract(a1, i)] = vec_extract(a2, i);` in lane order: `scatter`,
egg/platform_ppc.py:1602-1628. -/
def scatter (m : Mem M) (p : Int) (off : Vec n Int) (v : Vec n α) : Option (Mem M) :=
  Cpu.stores (List.finRange n) (fun i => some (p + off i, e.enc (v i))) m

/-- `scatter_linear`: `a0[a1 * i] = vec_extract(a2, i)` with `int` products (the products are
computed first in the model), egg/platform_ppc.py:1693-1709. -/
def scatterLinear (m : Mem M) (p step : Int) (v : Vec n α) : Option (Mem M) :=
  (Cpu.body fun i : Fin n => ITy.i32.prom (step * (i : Nat))).bind fun off =>
    Cpu.stores (List.finRange n) (fun i => some (p + off i, e.enc (v i))) m

/-- `masko_load`, `maskz_load` of native types: start from zero and insert every lane, either
`a1[i]` or lane `i` of `o`, egg/platform_ppc.py:1755-1766; 64-bit types on VMX,
egg/platform_ppc.py:1743-1754.  For the `z` variant `o` is zero. -/
def maskozLoad (l : Reg n w) (m : Mem M) (p : Int) (o : Vec n α) : Option (Vec n α) :=
  (List.finRange n).foldlM (fun v i =>
    if l i ≠ 0#w then ((m (p + (i : Nat))).bind e.dec).map fun x => insertLane v i x
    else some (insertLane v i (o i))) (fun _ => e.zero)

/-- `masko_load`, `maskz_load` of f16: lanes 0 to 3 inserted in `v0`, which starts from zero, and
4 to 7 in `v1`, which starts from `v0`, egg/platform_ppc.py:1714-1742. -/
def maskozLoadF16 (l : Reg 4 w × Reg 4 w) (m : Mem M) (p : Int) (o : Vec 4 α × Vec 4 α) :
    Option (Vec 4 α × Vec 4 α) :=
  ((List.finRange 4).foldlM (fun v i =>
    (if l.1 i ≠ 0#w then (m (p + (i : Nat))).bind e.dec else some (o.1 i)).map fun x =>
      insertLane v i x) (fun _ => e.zero)).bind fun v0 =>
  ((List.finRange 4).foldlM (fun v i =>
    (if l.2 i ≠ 0#w then (m (p + ((4 + i : Nat)))).bind e.dec else some (o.2 i)).map fun x =>
      insertLane v i x) v0).map fun v1 => (v0, v1)

/-- `mask_store`: `if (vec_extract(a0, i)) a1[i] = vec_extract(a2, i);` lane by lane,
egg/platform_ppc.py:1770-1807. -/
def maskStore (l : Reg n w) (m : Mem M) (p : Int) (v : Vec n α) : Option (Mem M) :=
  Cpu.stores (List.finRange n)
    (fun i => if l i ≠ 0#w then some (p + (i : Nat), e.enc (v i)) else none) m

end Mem
end Nsimd.Ppc
