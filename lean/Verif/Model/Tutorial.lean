import Verif.Model.Cpu

/-!
# examples/tutorial.cpp on the CPU backend, `T = i8`
-/

namespace Nsimd.Tutorial
open Nsimd.Cpu

/-- Body of the loop of `uppercase_scalar`: examples/tutorial.cpp:10-14. The sum is an
`int`, converted back to `i8` by the assignment. -/
def up (x : BitVec 8) : BitVec 8 :=
  if ITy.i8.val x ≥ 97 ∧ ITy.i8.val x ≤ 122 then ITy.i8.cast (ITy.i8.val x + (65 - 97)) else x

/-- `uppercase_scalar` from index `i` for `cnt` more iterations:
examples/tutorial.cpp:8-16. -/
def scalarLoop (p q : Int) : Nat → Int → Mem (BitVec 8) → Option (Mem (BitVec 8))
  | 0, _, m => some m
  | cnt + 1, i, m =>
    (m (p + i)).bind fun x => (write m (q + i) (up x)).bind fun m => scalarLoop p q cnt (i + 1) m

/-- `uppercase_scalar`: examples/tutorial.cpp:8-16. -/
def uppercaseScalar (p q : Int) (N : Nat) (m : Mem (BitVec 8)) : Option (Mem (BitVec 8)) :=
  scalarLoop p q N 0 m

/-- The pack computation of examples/tutorial.cpp:28-31 and 36. Comparisons and sums
of a pack with a scalar `s` are those with `set1((T)s)`. -/
def upPack {n : Nat} (text : Vec n (BitVec 8)) : Option (Vec n (BitVec 8)) :=
  let mask := andl (cmp2 (Cmp.op .i8 .ge) text fun _ => ITy.i8.cast 97)
    (cmp2 (Cmp.op .i8 .le) text fun _ => ITy.i8.cast 122)
  (Cpu.add .i8 text fun _ => ITy.i8.cast (65 - 97)).map fun thenPack => ifElse1 mask thenPack text

/-- `for (i = 0; i + l <= n; i += l)`: examples/tutorial.cpp:26-33. Returns the final
`i` and memory; `none` is undefined behaviour or lack of fuel. -/
def simdLoop (l : Nat) (N p q : Int) : Nat → Int → Mem (BitVec 8) →
    Option (Int × Mem (BitVec 8))
  | 0, _, _ => none
  | fuel + 1, i, m =>
    (ITy.i32.prom (i + l)).bind fun s =>
    if s ≤ N then
      (load (intElem .i8) l m (p + i)).bind fun text =>
      (upPack text).bind fun r =>
      (store (intElem .i8) m (q + i) r).bind fun m =>
      simdLoop l N p q fuel s m
    else some (i, m)

/-- `uppercase_simd`: examples/tutorial.cpp:19-38. -/
def uppercaseSimd (l : Nat) (p q : Int) (N : Nat) (m : Mem (BitVec 8)) : Option (Mem (BitVec 8)) :=
  (simdLoop l N p q (N + 1) 0 m).bind fun (i, m) =>
  (maskForLoopTail l i N).bind fun mask =>
  (maskzLoad (intElem .i8) mask m (p + i)).bind fun text =>
  (upPack text).bind fun r =>
  maskStore (intElem .i8) mask m (q + i) r

end Nsimd.Tutorial
