import Verif.Model.CInt
import Verif.Model.Cpu
import Verif.Model.X86Int
import Verif.Model.Round

/-!
# x86 conversions

`cvt`, `upcvt` and `downcvt` of egg/platform_x86.py. Integer lanes are bit vectors, float lanes (f16 lanes
are f32 lanes on x86) are `Round.Fl`; `rnd` is the rounding of the destination format. Conversions of
integers to floats do not overflow. `none` is undefined behaviour.
-/

namespace Nsimd.X86Cvt

open Nsimd Nsimd.X86 Nsimd.Cpu Nsimd.Round

variable {n : Nat}

/-- The x86 extensions as distinguished by the three functions: egg/platform_x86.py:33-39; SSE2 and SSE4.2
differ in `cvt` only. -/
inductive Ext | sse2 | sse42 | avx | avx2 | knl | skylake
  deriving DecidableEq

/-! ### Scalar conversions -/

/-- Rounding toward zero. C language rule, not code of the repo. -/
def truncZ (q : ℚ) : ℤ := if 0 ≤ q then ⌊q⌋ else ⌈q⌉

/-- Rounding to nearest, ties to even: the default mode of MXCSR. Intel semantics, not code of the repo. -/
def rne (q : ℚ) : ℤ :=
  if q - ⌊q⌋ < 1 / 2 then ⌊q⌋
  else if 1 / 2 < q - ⌊q⌋ then ⌊q⌋ + 1
  else if ⌊q⌋ % 2 = 0 then ⌊q⌋ else ⌊q⌋ + 1

/-- `(typ)x` of a float: undefined if the truncated value does not fit. C language rule, not code of the
repo. -/
def castFI (t : ITy) : Fl → Option (BitVec t.w)
  | .fin q => if t.minv ≤ truncZ q ∧ truncZ q ≤ t.maxv then some (t.cast (truncZ q)) else none
  | _ => none

/-- `(f32)v`, `(f64)v` of an integer. C language rule, not code of the repo. -/
def castIF (rnd : ℚ → ℚ) (t : ITy) (v : BitVec t.w) : Fl := .fin (rnd (t.val v))

/-- `cvtps_epi32`, `cvtps_epu32`, `cvtpd_epi64`, `cvtpd_epu64`: rounds according to MXCSR; out of range
values give the integer indefinite value. Intel semantics, not code of the repo. -/
def cvtI (t : ITy) : Fl → BitVec t.w
  | .fin q => if t.minv ≤ rne q ∧ rne q ≤ t.maxv then t.cast (rne q)
      else if t.sgn then t.cast t.minv else t.cast t.maxv
  | _ => if t.sgn then t.cast t.minv else t.cast t.maxv

/-! ### Moving lanes -/

section Lanes
variable {α β : Type}

/-- `extract(.., LO, ..)` on lanes of any type: egg/platform_x86.py:354-389. -/
def lo (v : Vec (n + n) α) : Vec n α := fun i => v ⟨i, by omega⟩

/-- `extract(.., HI, ..)`: egg/platform_x86.py:354-389. -/
def hi (v : Vec (n + n) α) : Vec n α := fun i => v ⟨n + i, by omega⟩

/-- `setr`: egg/platform_x86.py:391-413. Also the array `src` filled by two stores,
egg/platform_x86.py:3017-3018. -/
def setr (a b : Vec n α) : Vec (n + n) α := fun i =>
  if h : i.val < n then a ⟨i, h⟩ else b ⟨i - n, by omega⟩

/-- `emulate`: store, `out[i] = (to_typ)in[i]` for all lanes, load, egg/platform_x86.py:2348-2356. -/
def emulate (f : α → Option β) (a : Vec n α) : Option (Vec n β) := body fun i => f (a i)

end Lanes

/-! ### Integers -/

/-- `_mm_unpacklo_epi*(a, b)` read with lanes of twice the size. Intel semantics, not code of the repo. -/
def unpacklo {w : Nat} (a b : Reg (n + n) w) : Reg n (w + w) := fun i => lo b i ++ lo a i

/-- `_mm_unpackhi_epi*(a, b)`, the same. Intel semantics, not code of the repo. -/
def unpackhi {w : Nat} (a b : Reg (n + n) w) : Reg n (w + w) := fun i => hi b i ++ hi a i

/-- `cvtepi*_epi*`, `cvtepu*_epi*`: sign or zero extension. Intel semantics, not code of the repo. -/
def cvtep (s d : ITy) (a : Reg n s.w) : Reg n d.w := fun i =>
  if s.sgn then (a i).signExtend d.w else (a i).setWidth d.w

/-- `upcvt` between integers on SSE: egg/platform_x86.py:2907-2920. -/
def upcvtSse (s d : ITy) (h : s.w + s.w = d.w) (a : Reg (n + n) s.w) : Reg n d.w × Reg n d.w :=
  if s.sgn then
    let mask : Reg (n + n) s.w := fun i => cmpgt 0 (a i)
    (fun i => (unpacklo a mask i).cast h, fun i => (unpackhi a mask i).cast h)
  else
    (fun i => (unpacklo a (fun _ => 0) i).cast h, fun i => (unpackhi a (fun _ => 0) i).cast h)

/-- `with_intrinsic` between integers: egg/platform_x86.py:2843-2850. -/
def upcvtIntr (s d : ITy) (a : Reg (n + n) s.w) : Reg n d.w × Reg n d.w :=
  (cvtep s d (lo a), cvtep s d (hi a))

/-- `split_trick`: egg/platform_x86.py:2885-2898. -/
def splitTrick {α β : Type} (op : Vec (n + n) α → Vec n β × Vec n β) (a : Vec (n + n + (n + n)) α) :
    Vec (n + n) β × Vec (n + n) β :=
  let ret2 := op (lo a)
  let v0 := setr ret2.1 ret2.2
  let ret2 := op (hi a)
  let v1 := setr ret2.1 ret2.2
  (v0, v1)

/-- `upcvt` between integers, `d` twice as wide as `s`: the choice of egg/platform_x86.py:2907-2938. The
lower extensions called by `split_trick` are sse42 and avx2 (line 2895). -/
def upcvtII (x : Ext) (s d : ITy) (h : s.w + s.w = d.w) (a : Reg (n + n + (n + n)) s.w) :
    Reg (n + n) d.w × Reg (n + n) d.w :=
  match x with
  | .sse2 | .sse42 => upcvtSse s d h a
  | .avx => splitTrick (upcvtSse s d h) a
  | .avx2 => upcvtIntr s d a
  | .knl =>
    match s with
    | .i16 | .u16 | .i32 | .u32 => upcvtIntr _ d a
    | s => splitTrick (upcvtIntr s d) a
  | .skylake => upcvtIntr s d a

/-- The emulation of `downcvt`: two stores, one loop, one load, egg/platform_x86.py:3007-3025. -/
def downcvtEmul {α β : Type} (f : α → Option β) (a b : Vec n α) : Option (Vec (n + n) β) :=
  emulate f (setr a b)

/-- `downcvt` between integers, `d` half as wide as `s`: egg/platform_x86.py:2992-3025. -/
def downcvtII (x : Ext) (s d : ITy) (a b : Reg n s.w) : Option (Reg (n + n) d.w) :=
  let intr := some (setr (fun i => (a i).setWidth d.w) (fun i => (b i).setWidth d.w))
  let emul := downcvtEmul (fun v => some (d.cast (s.val v))) a b
  match x with
  | .knl =>
    if (s = .i32 ∨ s = .i64) ∧ d.sgn then intr else emul
  | .skylake =>
    if ((s = .i32 ∨ s = .i64) ∧ d.sgn) ∨ (s = .i16 ∧ d = .i8) then intr else emul
  | _ => emul

/-- `cvt` between integers: `return a0`, egg/platform_x86.py:2294-2297. -/
def cvtII (s d : ITy) (h : s.w = d.w) (a : Reg n s.w) : Reg n d.w := fun i => (a i).cast h

/-! ### Integers to floats -/

/-- The conversions between `t` and the float of its size that have an instruction:
egg/platform_x86.py:2357-2378. -/
def usesInstr (x : Ext) (t : ITy) : Bool :=
  match t, x with
  | .i32, _ => true
  | .u32, .knl | .u32, .skylake => true
  | .i64, .skylake | .u64, .skylake => true
  | _, _ => false

/-- `cvt` of i32, u32 to f32 and of i64, u64 to f64: egg/platform_x86.py:2357-2373. The instructions round
according to MXCSR (to nearest), as the emulation does. -/
def cvtIF (x : Ext) (rnd : ℚ → ℚ) (s : ITy) (a : Reg n s.w) : Option (Vec n Fl) :=
  if usesInstr x s then some fun i => .fin (rnd (s.val (a i)))
  else emulate (fun v => some (castIF rnd s v)) a

/-- `_mm_unpackhi_epi64(v, v)`: the high half, twice. Intel semantics, not code of the repo. -/
def unpackhi64Self {α : Type} (v : Vec (n + n) α) : Vec (n + n) α := setr (hi v) (hi v)

/-- `cvt` of i16, u16 to f16: egg/platform_x86.py:2298-2333. On SSE `cvtepi16_epi32` uses the low half of
its argument. `rnd` is the rounding to f32, the format of the lanes. -/
def cvtI16F16 (x : Ext) (rnd : ℚ → ℚ) (s : ITy) (a : Reg (n + n) s.w) : Option (Vec n Fl × Vec n Fl) :=
  let throughEpi32 (getlo gethi : Reg n s.w) : Vec n Fl × Vec n Fl :=
    (fun i => castIF rnd .i32 (cvtep s .i32 getlo i), fun i => castIF rnd .i32 (cvtep s .i32 gethi i))
  match x with
  | .sse42 => some (throughEpi32 (lo a) (lo (unpackhi64Self a)))
  | .avx2 | .knl | .skylake => some (throughEpi32 (lo a) (hi a))
  | .sse2 | .avx => do
    let v0 ← emulate (fun v => some (castIF rnd s v)) (lo a)
    let v1 ← emulate (fun v => some (castIF rnd s v)) (hi a)
    return (v0, v1)

/-- `_mm_shuffle_epi32(v, imm)` on lanes of 32 bits. Intel semantics, not code of the repo. -/
def shuffleEpi32 {α : Type} (imm : Nat) (v : Vec 4 α) : Vec 4 α := fun i =>
  v ⟨(imm >>> (2 * i.val)) % 4, by omega⟩

/-- `upcvt` of i32 to f64 on SSE: egg/platform_x86.py:2815-2825, 2836-2842. `cvtepi32_pd` converts the two
low lanes, exactly. -/
def upcvtI32F64Sse (a : Reg 4 32) : Vec 2 Fl × Vec 2 Fl :=
  let upper := shuffleEpi32 14 a
  (fun i => .fin (ITy.i32.val (a ⟨i, by omega⟩)), fun i => .fin (ITy.i32.val (upper ⟨i, by omega⟩)))

/-- `upcvt` of i32 to f64 with AVX and above: egg/platform_x86.py:2836-2842. -/
def upcvtI32F64 (a : Reg (n + n) 32) : Vec n Fl × Vec n Fl :=
  (fun i => .fin (ITy.i32.val (lo a i)), fun i => .fin (ITy.i32.val (hi a i)))

/-- `int_float` of `upcvt`, i16, u16 to f32 and u32 to f64: `upcvt` to the integer type `m` of the size of
the float, then `cvt`: egg/platform_x86.py:2865-2876. -/
def upcvtIF (x : Ext) (rnd : ℚ → ℚ) (s m : ITy) (h : s.w + s.w = m.w) (a : Reg (n + n + (n + n)) s.w) :
    Option (Vec (n + n) Fl × Vec (n + n) Fl) := do
  let tmp := upcvtII x s m h a
  let v0 ← cvtIF x rnd m tmp.1
  let v1 ← cvtIF x rnd m tmp.2
  return (v0, v1)

/-- `upcvt` of i8, u8 to f16: through i16, u16, egg/platform_x86.py:2792-2800. Each of the two f16
registers has two halves. -/
def upcvtI8F16 (x : Ext) (rnd : ℚ → ℚ) (s m : ITy) (h : s.w + s.w = m.w)
    (a : Reg (n + n + (n + n)) s.w) :
    Option ((Vec n Fl × Vec n Fl) × (Vec n Fl × Vec n Fl)) := do
  let buf := upcvtII x s m h a
  let v0 ← cvtI16F16 x rnd m buf.1
  let v1 ← cvtI16F16 x rnd m buf.2
  return (v0, v1)

/-- `downcvt` of i64 to f32 with AVX-512: through i32, egg/platform_x86.py:3000-3005. -/
def downcvtI64F32_512 (rnd : ℚ → ℚ) (a b : Reg n 64) : Vec (n + n) Fl :=
  let t : Reg (n + n) 32 := setr (fun i => (a i).setWidth 32) (fun i => (b i).setWidth 32)
  fun i => .fin (rnd (ITy.i32.val (t i)))

/-- `downcvt` of i64, u64 to f32: egg/platform_x86.py:2992-3025. -/
def downcvt64F32 (x : Ext) (rnd : ℚ → ℚ) (s : ITy) (h : s.w = 64) (a b : Reg n s.w) :
    Option (Vec (n + n) Fl) :=
  let emul := downcvtEmul (fun v => some (castIF rnd s v)) a b
  match x with
  | .knl | .skylake =>
    if s.sgn then some (downcvtI64F32_512 rnd (fun i => (a i).cast h) (fun i => (b i).cast h)) else emul
  | _ => emul

/-- `downcvt` of i32, u32 to f16: the two halves converted to f32, egg/platform_x86.py:2974-2979. -/
def downcvt32F16 (x : Ext) (rnd : ℚ → ℚ) (s : ITy) (a b : Reg n s.w) : Option (Vec n Fl × Vec n Fl) := do
  let v0 ← cvtIF x rnd s a
  let v1 ← cvtIF x rnd s b
  return (v0, v1)

/-! ### Floats to integers -/

/-- `cvt` of f32 to i32, u32 and of f64 to i64, u64: egg/platform_x86.py:2357-2378. -/
def cvtFI (x : Ext) (d : ITy) (a : Vec n Fl) : Option (Reg n d.w) :=
  if usesInstr x d then some fun i => cvtI d (a i) else emulate (castFI d) a

/-- `cvt` of f16 to i16, u16: egg/platform_x86.py:2334-2346. -/
def cvtF16I16 (d : ITy) (a : Vec n Fl × Vec n Fl) : Option (Reg (n + n) d.w) := do
  let o0 ← emulate (castFI d) a.1
  let o1 ← emulate (castFI d) a.2
  return setr o0 o1

/-- `upcvt` of f16 to i32, u32: egg/platform_x86.py:2785-2790. -/
def upcvtF16I32 (x : Ext) (d : ITy) (a : Vec n Fl × Vec n Fl) : Option (Reg n d.w × Reg n d.w) := do
  let v0 ← cvtFI x d a.1
  let v1 ← cvtFI x d a.2
  return (v0, v1)

/-- `int_float` of `upcvt`, f32 to i64, u64: `cvt` to the integer type `m` of the size of the float, then
`upcvt`: egg/platform_x86.py:2877-2883. -/
def upcvtFI (x : Ext) (m d : ITy) (h : m.w + m.w = d.w) (a : Vec (n + n + (n + n)) Fl) :
    Option (Reg (n + n) d.w × Reg (n + n) d.w) := do
  let t ← cvtFI x m a
  return upcvtII x m d h t

/-- `downcvt` of f32 to i16, u16 and of f64 to i32, u32: egg/platform_x86.py:3007-3025. -/
def downcvtFI (d : ITy) (a b : Vec n Fl) : Option (Reg (n + n) d.w) := downcvtEmul (castFI d) a b

/-- `downcvt` of f16 to i8, u8: four stores, one loop, one load, egg/platform_x86.py:2944-2964. -/
def downcvtF16I8 (d : ITy) (a b : Vec n Fl × Vec n Fl) : Option (Reg (n + n + (n + n)) d.w) :=
  emulate (castFI d) (setr (setr a.1 a.2) (setr b.1 b.2))

/-! ### Floats to floats -/

/-- `upcvt` of f32 to f64 on SSE: egg/platform_x86.py:2826-2829, 2843-2850; `_mm_shuffle_pd(v, v, 1)`
exchanges the halves, `cvtps_pd` converts the two low lanes, exactly. -/
def upcvtF32F64Sse (a : Vec 4 Fl) : Vec 2 Fl × Vec 2 Fl :=
  let upper : Vec 4 Fl := setr (n := 2) (hi (n := 2) a) (lo (n := 2) a)
  (fun i => a ⟨i, by omega⟩, fun i => upper ⟨i, by omega⟩)

/-- `upcvt` of f32 to f64 with AVX (`split_trick`) and above: egg/platform_x86.py:2843-2850, 2925-2938. -/
def upcvtF32F64 (x : Ext) (a : Vec (2 + 2 + (2 + 2)) Fl) : Vec (2 + 2) Fl × Vec (2 + 2) Fl :=
  match x with
  | .avx => splitTrick (n := 2) upcvtF32F64Sse a
  | _ => (lo a, hi a)

/-- `upcvt` of f16 to f32: egg/platform_x86.py:2778-2784. -/
def upcvtF16F32 (a : Vec n Fl × Vec n Fl) : Vec n Fl × Vec n Fl := (a.1, a.2)

/-- `downcvt` of f32 to f16: egg/platform_x86.py:2967-2973. The lanes stay f32. -/
def downcvtF32F16 (a b : Vec n Fl) : Vec n Fl × Vec n Fl := (a, b)

/-- `_mm_movelh_ps(a, b)`: the low halves of both. Intel semantics, not code of the repo. -/
def movelh {α : Type} (a b : Vec (n + n) α) : Vec (n + n) α := setr (lo a) (lo b)

/-- `downcvt` of f64 to f32 on SSE: `_mm_cvtpd_ps` clears the two high lanes, egg/platform_x86.py:2982-2986.
`narrow` is the rounding of a double to a float. -/
def downcvtF64F32Sse (narrow : Fl → Fl) (a b : Vec 2 Fl) : Vec (2 + 2) Fl :=
  let c (v : Vec 2 Fl) : Vec (2 + 2) Fl := setr (fun i => narrow (v i)) (fun _ => .fin 0)
  movelh (c a) (c b)

/-- `downcvt` of f64 to f32 with AVX and above: egg/platform_x86.py:2987-2990. -/
def downcvtF64F32 (narrow : Fl → Fl) (a b : Vec n Fl) : Vec (n + n) Fl :=
  setr (fun i => narrow (a i)) (fun i => narrow (b i))

end Nsimd.X86Cvt
