import Verif.Model.Cpu

/-!
# Packs of the advanced C++ API (include/nsimd/cxx_adv_api.hpp, egg/gen_adv_cxx_api.py)

A `pack<T, N>` holds `N` registers.  The functions on packs are generated from one template
per signature; the model has one definition per signature shape, taking the base operator
as argument.  In the template for `N` registers the base operator is applied to the `car`s and
the function calls itself on the `cdr`s with every pointer argument `a` replaced by
`a + len_`; all other arguments are passed unchanged.  Base operators are those of the CPU
back end (`Verif.Model.Cpu`), with any number `L` of lanes.
-/

namespace Nsimd.Pack
open Nsimd.Cpu

/-- `pack<T, N, SimdExt>` and `packl<T, N, SimdExt>` with registers of type `R`: one register for
`N = 1`, otherwise members `car` and `cdr`. include/nsimd/cxx_adv_api.hpp:44-134, 152-222. -/
inductive Pack (R : Type) : Nat → Type where
  | one (car : R) : Pack R 1
  | more {n : Nat} (car : R) (cdr : Pack R (n + 1)) : Pack R (n + 2)

/-- Member `car`, include/nsimd/cxx_adv_api.hpp:56, 108. -/
def Pack.car {R : Type} : {N : Nat} → Pack R N → R
  | _, .one c => c
  | _, .more c _ => c

/-- Member `cdr`, include/nsimd/cxx_adv_api.hpp:109. -/
def Pack.cdr {R : Type} {n : Nat} : Pack R (n + 2) → Pack R (n + 1)
  | .more _ d => d

/-- `packx1`, ..., `packx4`: members `v0`, ..., `v{K-1}`.
include/nsimd/cxx_adv_api.hpp:234-470. -/
abbrev Packx (R : Type) (K N : Nat) := Fin K → Pack R N

variable {R A B C M α : Type} {L K : Nat}

/-! ### The generated templates -/

/-- Template for signatures without vector argument (`v f c*`, `v f c* p`, `v f`, `l f p p`):
egg/gen_adv_cxx_api.py:30-143 with `need_tmpl_pack`.  `N` is the template argument; `p` the
pointer, `len_` its increment. -/
def unroll0 (f : Int → Option R) (len_ : Int) : (N : Nat) → Int → Option (Pack R N)
  | 0, _ => none
  | 1, p => (f p).map .one
  | n + 2, p => (f p).bind fun car => (unroll0 f len_ (n + 1) (p + len_)).map (.more car)

/-- Template for signatures with one vector argument: egg/gen_adv_cxx_api.py:30-143. -/
def unroll1 (f : Int → A → Option R) (len_ : Int) :
    (N : Nat) → Int → Pack A N → Option (Pack R N)
  | 0, _, _ => none
  | 1, p, a => (f p a.car).map .one
  | n + 2, p, a =>
    (f p a.car).bind fun car => (unroll1 f len_ (n + 1) (p + len_) a.cdr).map (.more car)

/-- Template for signatures with two vector arguments: egg/gen_adv_cxx_api.py:30-143. -/
def unroll2 (f : Int → A → B → Option R) (len_ : Int) :
    (N : Nat) → Int → Pack A N → Pack B N → Option (Pack R N)
  | 0, _, _, _ => none
  | 1, p, a, b => (f p a.car b.car).map .one
  | n + 2, p, a, b =>
    (f p a.car b.car).bind fun car =>
      (unroll2 f len_ (n + 1) (p + len_) a.cdr b.cdr).map (.more car)

/-- Template for signatures with three vector arguments: egg/gen_adv_cxx_api.py:30-143. -/
def unroll3 (f : Int → A → B → C → Option R) (len_ : Int) :
    (N : Nat) → Int → Pack A N → Pack B N → Pack C N → Option (Pack R N)
  | 0, _, _, _, _ => none
  | 1, p, a, b, c => (f p a.car b.car c.car).map .one
  | n + 2, p, a, b, c =>
    (f p a.car b.car c.car).bind fun car =>
      (unroll3 f len_ (n + 1) (p + len_) a.cdr b.cdr c.cdr).map (.more car)

/-- Template for `vx{K} f c*`: `ret.set_car(car.v0, ...)`, `ret.set_cdr(cdr.v0, ...)`.
egg/gen_adv_cxx_api.py:79-97, include/nsimd/cxx_adv_api.hpp:302-328. -/
def unrollx0 (f : Int → Option (Fin K → R)) (len_ : Int) :
    (N : Nat) → Int → Option (Packx R K N)
  | 0, _ => none
  | 1, p => (f p).map fun car j => .one (car j)
  | n + 2, p =>
    (f p).bind fun car =>
      (unrollx0 f len_ (n + 1) (p + len_)).map fun cdr j => .more (car j) (cdr j)

/-- Template for `vx2 f v v` (`zip`, `unzip`): `ret.set_car(car.v0, car.v1)`,
`ret.set_cdr(cdr.v0, cdr.v1)`.  egg/gen_adv_cxx_api.py:79-97. -/
def unrollx2 (f : A → B → Fin K → R) : (N : Nat) → Pack A N → Pack B N → Packx R K N
  | 0, a, _ => nomatch a
  | 1, a, b => fun j => .one (f a.car b.car j)
  | n + 2, a, b => fun j => .more (f a.car b.car j) (unrollx2 f (n + 1) a.cdr b.cdr j)

/-- Template for stores: no result, memory `m` is threaded through the calls.
egg/gen_adv_cxx_api.py:30-143 (one vector argument). -/
def unrollSt1 (f : Int → A → Mem M → Option (Mem M)) (len_ : Int) :
    (N : Nat) → Int → Pack A N → Mem M → Option (Mem M)
  | 0, _, _, _ => none
  | 1, p, a, m => f p a.car m
  | n + 2, p, a, m =>
    (f p a.car m).bind fun m => unrollSt1 f len_ (n + 1) (p + len_) a.cdr m

/-- Template for stores with two vector arguments (`mask_storeu1`, `scatter`):
egg/gen_adv_cxx_api.py:30-143. -/
def unrollSt2 (f : Int → A → B → Mem M → Option (Mem M)) (len_ : Int) :
    (N : Nat) → Int → Pack A N → Pack B N → Mem M → Option (Mem M)
  | 0, _, _, _, _ => none
  | 1, p, a, b, m => f p a.car b.car m
  | n + 2, p, a, b, m =>
    (f p a.car b.car m).bind fun m => unrollSt2 f len_ (n + 1) (p + len_) a.cdr b.cdr m

/-- Template for `store2*`, `store3*`, `store4*` (K vector arguments):
egg/gen_adv_cxx_api.py:30-143. -/
def unrollStx (f : Int → (Fin K → A) → Mem M → Option (Mem M)) (len_ : Int) :
    (N : Nat) → Int → Packx A K N → Mem M → Option (Mem M)
  | 0, _, _, _ => none
  | 1, p, a, m => f p (fun j => (a j).car) m
  | n + 2, p, a, m =>
    (f p (fun j => (a j).car) m).bind fun m =>
      unrollStx f len_ (n + 1) (p + len_) (fun j => (a j).cdr) m

/-! ### Instances -/

/-- `len(pack<T, N>)`: `N * len(T(), SimdExt())`, include/nsimd/cxx_adv_api.hpp:495-498. -/
def len (N L : Nat) : Nat := N * L

/-- `len(packx{K}<T, N>)`: `K * N * len(T(), SimdExt())`,
include/nsimd/cxx_adv_api.hpp:505-522. -/
def lenx (K N L : Nat) : Nat := K * N * L

/-- `int len_ = len(pack<T, 1, SimdExt>());`: egg/gen_adv_cxx_api.py:107-122. -/
def len_ (L : Nat) : Int := len 1 L

variable (e : Elem M α)

/-- `pack<T, N>` `loada`/`loadu`, signature `v loada c*` (egg/operators.py:640-641). -/
def load (N L : Nat) (m : Mem M) (p : Int) : Option (Pack (Vec L α) N) :=
  unroll0 (Cpu.load e L m) (len_ L) N p

/-- `loadla`/`loadlu` (`l loadla c*`, egg/operators.py:687-692). -/
def loadl (N L : Nat) (m : Mem M) (p : Int) : Option (Pack (LVec L) N) :=
  unroll0 (Cpu.loadl e L m) (len_ L) N p

/-- `masko_loada1`/`masko_loadu1` (`v masko_loada1 l c* v`, egg/operators.py:646-647). -/
def maskoLoad {N : Nat} (l : Pack (LVec L) N) (m : Mem M) (p : Int) (o : Pack (Vec L α) N) :
    Option (Pack (Vec L α) N) :=
  unroll2 (fun q l o => Cpu.maskoLoad e l m q o) (len_ L) N p l o

/-- `maskz_loada1`/`maskz_loadu1` (`v maskz_loada1 l c*`, egg/operators.py:652-653). -/
def maskzLoad {N : Nat} (l : Pack (LVec L) N) (m : Mem M) (p : Int) :
    Option (Pack (Vec L α) N) :=
  unroll1 (fun q l => Cpu.maskzLoad e l m q) (len_ L) N p l

/-- `load{K}a`/`load{K}u`: `len_ = len(packx{K}<T, 1>())` (egg/operators.py:658-686,
egg/gen_adv_cxx_api.py:119-122 with `need_tmpl_pack`). -/
def loadDeg (K N L : Nat) (m : Mem M) (p : Int) : Option (Packx (Vec L α) K N) :=
  unrollx0 (Cpu.loadDeg e K L m) (lenx K 1 L) N p

/-- `storea`/`storeu` (`_ storea * v`, egg/operators.py:695-699, 730-734). -/
def store {N : Nat} (m : Mem M) (p : Int) (v : Pack (Vec L α) N) : Option (Mem M) :=
  unrollSt1 (fun q a m => Cpu.store e m q a) (len_ L) N p v m

/-- `storela`/`storelu` (`_ storela * l`, egg/operators.py:838-850). -/
def storel {N : Nat} (m : Mem M) (p : Int) (v : Pack (LVec L) N) : Option (Mem M) :=
  unrollSt1 (fun q a m => Cpu.storel e m q a) (len_ L) N p v m

/-- `mask_storea1`/`mask_storeu1` (`_ mask_storea1 l * v`, egg/operators.py:701-705, 736-740). -/
def maskStore {N : Nat} (l : Pack (LVec L) N) (m : Mem M) (p : Int) (v : Pack (Vec L α) N) :
    Option (Mem M) :=
  unrollSt2 (fun q l a m => Cpu.maskStore e l m q a) (len_ L) N p l v m

/-- `store{K}a`/`store{K}u`: `len_ = {K} * len(pack<T, 1>())`
(egg/operators.py:707-728, 742-764, egg/gen_adv_cxx_api.py:108-118). -/
def storeDeg {N : Nat} (m : Mem M) (p : Int) (v : Packx (Vec L α) K N) : Option (Mem M) :=
  unrollStx (fun q a m => Cpu.storeDeg e m q a) (K * len_ L) N p v m

/-- `gather` (`v gather c* vi`, egg/operators.py:766-768). -/
def gather {N : Nat} (m : Mem M) (p : Int) (off : Pack (Vec L Int) N) :
    Option (Pack (Vec L α) N) :=
  unroll1 (fun q off => Cpu.gather e m q off) (len_ L) N p off

/-- `gather_linear` (`v gather_linear c* p`, egg/operators.py:775-777). -/
def gatherLinear (N L : Nat) (m : Mem M) (p step : Int) : Option (Pack (Vec L α) N) :=
  unroll0 (fun q => Cpu.gatherLinear e L m q step) (len_ L) N p

/-- `scatter` (`_ scatter * vi v`, egg/operators.py:808-810). -/
def scatter {N : Nat} (m : Mem M) (p : Int) (off : Pack (Vec L Int) N)
    (v : Pack (Vec L α) N) : Option (Mem M) :=
  unrollSt2 (fun q off a m => Cpu.scatter e m q off a) (len_ L) N p off v m

/-- `scatter_linear` (`_ scatter_linear * p v`, egg/operators.py:818-820). -/
def scatterLinear {N : Nat} (m : Mem M) (p step : Int) (v : Pack (Vec L α) N) :
    Option (Mem M) :=
  unrollSt1 (fun q a m => Cpu.scatterLinear e m q step a) (len_ L) N p v m

/-- `iota` (`v iota`, egg/operators.py:1264-1266). No pointer argument. -/
def iota (t : ITy) (N L : Nat) : Option (Pack (Vec L (BitVec t.w)) N) :=
  unroll0 (fun _ => some (Cpu.iota (t := t) L)) 0 N 0

/-- `mask_for_loop_tail` (`l mask_for_loop_tail p p`, egg/operators.py:1271-1273). No pointer
argument. -/
def maskForLoopTail (N L : Nat) (in0 in1 : Int) : Option (Pack (LVec L) N) :=
  unroll0 (fun _ => Cpu.maskForLoopTail L in0 in1) 0 N 0

/-- Operators with one vector argument and no pointer, such as `abs`: egg/gen_adv_cxx_api.py:30-143. -/
def map1 {N : Nat} (f : A → Option R) (a : Pack A N) : Option (Pack R N) :=
  unroll1 (fun _ => f) 0 N 0 a

/-- Operators with two vector arguments and no pointer, such as `add`, `eq`, `andl`,
`downcvt`: egg/gen_adv_cxx_api.py:30-143. -/
def map2 {N : Nat} (f : A → B → Option R) (a : Pack A N) (b : Pack B N) : Option (Pack R N) :=
  unroll2 (fun _ => f) 0 N 0 a b

/-- Operators with three vector arguments and no pointer, such as `fma`:
egg/gen_adv_cxx_api.py:30-143; also `if_else`, include/nsimd/cxx_adv_api.hpp:733-756. -/
def map3 {N : Nat} (f : A → B → C → Option R) (a : Pack A N) (b : Pack B N) (c : Pack C N) :
    Option (Pack R N) :=
  unroll3 (fun _ => f) 0 N 0 a b c

/-- `zip` (`vx2 zip v v`, egg/operators.py:1237-1241). -/
def zip {N h : Nat} (a b : Pack (Vec (2 * h) α) N) : Packx (Vec (2 * h) α) 2 N :=
  unrollx2 (fun x y j => if j = 0 then (Cpu.zip x y).1 else (Cpu.zip x y).2) N a b

/-- `unzip` (`vx2 unzip v v`, egg/operators.py:1243-1247). -/
def unzip {N h : Nat} (a b : Pack (Vec (2 * h) α) N) : Packx (Vec (2 * h) α) 2 N :=
  unrollx2 (fun x y j => if j = 0 then (Cpu.unzip x y).1 else (Cpu.unzip x y).2) N a b

/-- `operator+=`, ..., `operator^=`: car then cdr, include/nsimd/cxx_adv_api.hpp:596-709.
`f` is the base operator. -/
def assign (f : A → A → Option A) : (N : Nat) → Pack A N → Pack A N → Option (Pack A N)
  | 0, _, _ => none
  | 1, a, b => (f a.car b.car).map .one
  | n + 2, a, b =>
    (f a.car b.car).bind fun car => (assign f (n + 1) a.cdr b.cdr).map (.more car)

/-- The constructor that splats, include/nsimd/cxx_adv_api.hpp:60-62, 111-113. -/
def splat (N L : Nat) (x : M) : Option (Pack (Vec L α) N) :=
  unroll0 (fun _ => Cpu.set1 e L x) 0 N 0

/-- `all`: `all(a0.car) && all(a0.cdr)`, include/nsimd/cxx_adv_api.hpp:543-551. `int` result. -/
def all : (N : Nat) → Pack (LVec L) N → Int
  | 0, _ => 0
  | 1, a => Cpu.all a.car
  | n + 2, a => if Cpu.all a.car ≠ 0 ∧ all (n + 1) a.cdr ≠ 0 then 1 else 0

/-- `any`: `any(a0.car) || any(a0.cdr)`, include/nsimd/cxx_adv_api.hpp:556-564. `int` result. -/
def any : (N : Nat) → Pack (LVec L) N → Int
  | 0, _ => 0
  | 1, a => Cpu.any a.car
  | n + 2, a => if Cpu.any a.car ≠ 0 ∨ any (n + 1) a.cdr ≠ 0 then 1 else 0

/-- `nbtrue`: `nbtrue(a0.car) + nbtrue(a0.cdr)`, include/nsimd/cxx_adv_api.hpp:569-577.
Simplified: the count fits an `int`. -/
def nbtrue : (N : Nat) → Pack (LVec L) N → Int
  | 0, _ => 0
  | 1, a => Cpu.nbtrue a.car
  | n + 2, a => Cpu.nbtrue a.car + nbtrue (n + 1) a.cdr

/-- `addv`: `addv(a0.car) + addv(a0.cdr)`, include/nsimd/cxx_adv_api.hpp:530-538.  `base` is the
base `addv`, `+` the addition of `T`. -/
def addv {S : Type} [Add S] [Inhabited S] (base : R → S) : (N : Nat) → Pack R N → S
  | 0, _ => default
  | 1, a => base a.car
  | n + 2, a => base a.car + addv base (n + 1) a.cdr

/-! ### to_pack and to_pack_interleave -/

/-- `to_pack_recurs_helper<T, N, _, t, which, SimdExt, packx>::to_pack(from_packx, from_pack)`:
include/nsimd/cxx_adv_api.hpp:1235-1296.  `none`: the instantiation does not compile. -/
def toPackHelper {N : Nat} (from_packx : Packx R K N) :
    (t : Nat) → {j : Nat} → (which : Nat) → Pack R j → Option (Pack R t)
  | 0, _, _, _ => none
  | 1, _, _, .one c => some (.one c)
  | 1, _, _, .more _ _ => none
  | t + 2, _, which, .one c =>
    if h : which + 1 < K then
      (toPackHelper from_packx (t + 1) (which + 1) (from_packx ⟨which + 1, h⟩)).map (.more c)
    else none
  | t + 2, _, which, .more c d => (toPackHelper from_packx (t + 1) which d).map (.more c)

/-- Body of `to_pack` for `N > 1` with `to_pack_unroll_ix = t + 2`:
include/nsimd/cxx_adv_api.hpp:1298-1311. -/
def toPackN {n : Nat} (from_packx : Packx R (K + 1) (n + 2)) : (t : Nat) → Option (Pack R t)
  | 0 => none
  | 1 => none
  | t + 2 =>
    (toPackHelper from_packx (t + 1) 0 (from_packx 0).cdr).map (.more (from_packx 0).car)

/-- `to_pack` for `N = 1`, K = 1, ..., 4 written out: the cars of the members in order.
include/nsimd/cxx_adv_api.hpp:1191-1229. -/
def toPack1 : (K : Nat) → Packx R (K + 1) 1 → Pack R (K + 1)
  | 0, v => .one (v 0).car
  | K + 1, v => .more (v 0).car (toPack1 K fun j => v j.succ)

/-- `to_pack(packx{K}<T, N>)` with result `pack<T, soa_num_packs * N>`:
include/nsimd/cxx_adv_api.hpp:1164-1311. -/
def toPack : (N : Nat) → Packx R (K + 1) N → Option (Pack R ((K + 1) * N))
  | 0, _ => none
  | 1, v => some (by rw [Nat.mul_one]; exact toPack1 K v)
  | _ + 2, v => toPackN v _

/-- `to_pack_interleave(packx{K}<T, N>)`, K = 2, 3, 4: the cars of the members, then the
function on the cdrs. include/nsimd/cxx_adv_api.hpp:1347-1439.  The resulting pack is given as
the list of its registers. -/
def toPackInterleave : (N : Nat) → Packx R K N → List R
  | 0, _ => []
  | 1, v => List.ofFn fun j => (v j).car
  | n + 2, v => (List.ofFn fun j => (v j).car) ++ toPackInterleave (n + 1) fun j => (v j).cdr

end Nsimd.Pack
