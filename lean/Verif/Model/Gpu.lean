import Verif.Model.ScalarInt

/-!
# Operator bodies on GPUs (egg/cuda.py, egg/rocm.py, egg/oneapi.py)

`egg/rocm.py` calls `egg/cuda.py`, so `Cuda` stands for both.  Integer bodies are C expressions;
bodies on floats are modelled for the fused operators and f16 `min`/`max`, for any lane type, with the
arithmetic of the device as parameters.
-/

namespace Nsimd.Gpu
open ITy

/-- The Python test `name in list`. Python semantics, not code of the repo. -/
def isIn (name : String) (l : List String) : Bool := l.contains name

namespace Cuda
variable (t : ITy)

/-- `'add': 'return ({typ})({in0} + {in1});'`, egg/cuda.py:246. -/
def add (a b : BitVec t.w) : Option (BitVec t.w) := do return t.cast (← t.prom (t.val a + t.val b))
/-- egg/cuda.py:247. -/
def sub (a b : BitVec t.w) : Option (BitVec t.w) := do return t.cast (← t.prom (t.val a - t.val b))
/-- egg/cuda.py:248. -/
def mul (a b : BitVec t.w) : Option (BitVec t.w) := do return t.cast (← t.prom (t.val a * t.val b))
/-- egg/cuda.py:249. -/
def div (a b : BitVec t.w) : Option (BitVec t.w) := do
  if t.val b = 0 then none else return t.cast (← t.prom (Int.tdiv (t.val a) (t.val b)))
/-- egg/cuda.py:250. -/
def neg (a : BitVec t.w) : Option (BitVec t.w) := do return t.cast (← t.prom (- t.val a))

/-- `lt`, egg/cuda.py:254. -/
def lt (a b : BitVec t.w) : Bool := t.val a < t.val b
/-- egg/cuda.py:255. -/
def gt (a b : BitVec t.w) : Bool := t.val a > t.val b
/-- egg/cuda.py:256. -/
def le (a b : BitVec t.w) : Bool := t.val a ≤ t.val b
/-- egg/cuda.py:257. -/
def ge (a b : BitVec t.w) : Bool := t.val a ≥ t.val b
/-- egg/cuda.py:258. -/
def ne (a b : BitVec t.w) : Bool := t.val a ≠ t.val b
/-- egg/cuda.py:259. -/
def eq (a b : BitVec t.w) : Bool := t.val a = t.val b

/-- `shl`, egg/cuda.py:260. -/
def shl (a : BitVec t.w) (s : Int) : Option (BitVec t.w) := do return t.cast (← t.shlP (t.val a) s)

/-- `gpu_reinterpret({utyp}(), a)`: the bits read as an unsigned integer, egg/cuda.py:76-95. -/
def asUnsigned (a : BitVec t.w) : Int := a.toNat

/-- `shr`: unsigned types shift directly, signed types through the unsigned type,
egg/cuda.py:266-273. -/
def shr (a : BitVec t.w) (s : Int) : Option (BitVec t.w) := do
  if t.sgn = false then return t.cast (← t.shrP (t.val a) s)
  else return t.cast (← t.utyp.shrP (asUnsigned t a) s)

/-- `shra`: egg/cuda.py:266-286. -/
def shra (a : BitVec t.w) (s : Int) : Option (BitVec t.w) := do
  if t.sgn = false then return t.cast (← t.shrP (t.val a) s)
  else if s = 0 then return a
  else if t.val a ≥ 0 then return t.cast (← t.utyp.shrP (asUnsigned t a) s)
  else
    let mask := t.cast (← t.utyp.shlP (asUnsigned t (t.cast (-1))) (t.w - s))
    return mask ||| t.cast (← t.utyp.shrP (asUnsigned t a) s)

/-- `adds`: the body of the scalar operator, egg/cuda.py:288-292. -/
def adds (a b : BitVec t.w) : Option (BitVec t.w) := Scalar.adds t a b

/-- `subs`: the body of the scalar operator on unsigned types, `gpu_adds(a, (typ)(-b))` on signed
types, egg/cuda.py:294-301. -/
def subs (a b : BitVec t.w) : Option (BitVec t.w) := do
  if t.sgn = false then Scalar.subs t a b
  else adds t a (t.cast (← t.prom (- t.val b)))

/-- Whether the generator puts a minus sign before the first operand. The list has one element, the
string with a comma in it, egg/cuda.py:304. -/
def negFirst (name : String) : Bool := isIn name ["fnma, fnms"]
/-- The same before the last operand, egg/cuda.py:305. -/
def negLast (name : String) : Bool := isIn name ["fnms, fms"]

/-- `fma`, `fms`, `fnma`, `fnms` on integers: `return {neg}{in0} * {in1} + ({op}{in2});`,
egg/cuda.py:303-312. -/
def fused (name : String) (a b c : BitVec t.w) : Option (BitVec t.w) := do
  let x ← (if negFirst name then t.prom (- t.val a) else some (t.val a) : Option Int)
  let p ← t.prom (x * t.val b)
  let y ← (if negLast name then t.prom (- t.val c) else some (t.val c) : Option Int)
  return t.cast (← t.prom (p + y))

/-- The same on f32 and f64 (`fma` of the device), egg/cuda.py:303-309, and on f16 with `__hfma`,
egg/cuda.py:37-41. -/
def fusedF {F : Type} (fma : F → F → F → F) (neg : F → F) (name : String) (a b c : F) : F :=
  fma (if negFirst name then neg a else a) b (if negLast name then neg c else c)

/-- `min` on integers, egg/cuda.py:317-319. -/
def min (a b : BitVec t.w) : BitVec t.w := t.cast (if t.val a < t.val b then t.val a else t.val b)
/-- `max` on integers, egg/cuda.py:320-322. -/
def max (a b : BitVec t.w) : BitVec t.w := t.cast (if t.val a > t.val b then t.val a else t.val b)
/-- `abs` on integers, `({typ})({in0} > 0 ? {in0} : -{in0})`, egg/cuda.py:323-325. -/
def abs (a : BitVec t.w) : Option (BitVec t.w) := do
  if t.val a > 0 then return t.cast (t.val a) else return t.cast (← t.prom (- t.val a))

/-- `min` and `max` of f16 on devices with f16 arithmetic: the condition is the name of the comparison
function (`if (__hlt)`), which is not null, egg/cuda.py:42-48. -/
def minmaxF16 {F : Type} (a b : F) : F :=
  let functionNotNull := true
  if functionNotNull then a else b

/-- `min` of f16 on other devices: `__float2half(fminf(...))`, egg/cuda.py:61-71, 328-343. -/
def minmaxF16Emul {F H : Type} (widen : H → F) (narrow : F → H) (op : F → F → F) (a b : H) : H :=
  narrow (op (widen a) (widen b))

/-- `orb`, through the unsigned type, egg/cuda.py:196-218. -/
def orb (a b : BitVec t.w) : BitVec t.w := a ||| b
/-- egg/cuda.py:196-218. -/
def andb (a b : BitVec t.w) : BitVec t.w := a &&& b
/-- egg/cuda.py:196-218. -/
def andnotb (a b : BitVec t.w) : BitVec t.w := a &&& ~~~ b
/-- egg/cuda.py:196-218. -/
def notb (a : BitVec t.w) : BitVec t.w := ~~~ a
/-- egg/cuda.py:196-218. -/
def xorb (a b : BitVec t.w) : BitVec t.w := a ^^^ b

/-- Logical operators on `bool`, egg/cuda.py:186-194. -/
def andl (a b : Bool) : Bool := a && b
/-- egg/cuda.py:188. -/
def orl (a b : Bool) : Bool := a || b
/-- `a ^ b` on `bool`, egg/cuda.py:189. -/
def xorl (a b : Bool) : Bool := a ^^ b
/-- egg/cuda.py:190. -/
def andnotl (a b : Bool) : Bool := a && !b
/-- egg/cuda.py:191. -/
def notl (a : Bool) : Bool := !a

/-- `to_mask`: `({utyp})({in0} ? -1 : 0)` reinterpreted, egg/cuda.py:228-232. -/
def toMask (l : Bool) : BitVec t.w := t.cast (if l then -1 else 0)
/-- `to_logical`: `{in0} == ({typ})0 ? false : true`; floats compare their bits,
egg/cuda.py:234-239. -/
def toLogical (a : BitVec t.w) : Bool := if a = 0#t.w then false else true

end Cuda

namespace OneApi
variable (t : ITy)

/-- `adds` on integers: `sycl::add_sat`, egg/oneapi.py:330-336. -/
def adds (a b : BitVec t.w) : BitVec t.w :=
  t.cast (Max.max t.minv (Min.min t.maxv (t.val a + t.val b)))
/-- `subs` on integers: `sycl::sub_sat`, egg/oneapi.py:338-344. -/
def subs (a b : BitVec t.w) : BitVec t.w :=
  t.cast (Max.max t.minv (Min.min t.maxv (t.val a - t.val b)))
/-- `abs` of signed integers: `({typ})sycl::abs({in0})`, which returns the magnitude in the unsigned
type, egg/oneapi.py:386-393. -/
def abs (a : BitVec t.w) : BitVec t.w := t.cast (if t.val a < 0 then - t.val a else t.val a)

/-- The minus sign before the first operand of a fused operator, egg/oneapi.py:92, 349. -/
def negFirst (name : String) : Bool := isIn name ["fnma", "fnms"]
/-- The minus sign before the last operand, egg/oneapi.py:93, 350. -/
def negLast (name : String) : Bool := isIn name ["fnms", "fms"]
/-- `fma`, `fms`, `fnma`, `fnms` on floats, egg/oneapi.py:347-352. -/
def fusedF {F : Type} (fma : F → F → F → F) (neg : F → F) (name : String) (a b c : F) : F :=
  fma (if negFirst name then neg a else a) b (if negLast name then neg c else c)
/-- The same on f16, through f32, egg/oneapi.py:91-101. -/
def fusedF16 {F H : Type} (widen : H → F) (narrow : F → H) (fma : F → F → F → F) (neg : F → F)
    (name : String) (a b c : H) : H := narrow (fusedF fma neg name (widen a) (widen b) (widen c))
/-- The same on integers: the scalar operators, egg/oneapi.py:353-355. -/
def fused (name : String) (a b c : BitVec t.w) : Option (BitVec t.w) :=
  if name = "fms" then Scalar.fms t a b c
  else if name = "fnma" then Scalar.fnma t a b c
  else if name = "fnms" then Scalar.fnms t a b c
  else Scalar.fma t a b c

end OneApi
end Nsimd.Gpu
