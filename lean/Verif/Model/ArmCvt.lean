import Verif.Model.Arm
import Verif.Model.Fp16
import Verif.Model.X86Cvt

/-!
# ARM conversions between integers and floats

`cvt`, `upcvt` and `downcvt` of egg/platform_arm.py as far as floats are concerned. Integer lanes are bit
vectors, float lanes are `Round.Fl`; `r16`, `r32`, `r64` take an exact value to the float of that size (they
give an infinity on overflow). `none` is undefined behaviour.
-/

namespace Nsimd.ArmCvt

open Nsimd Nsimd.X86 Nsimd.Cpu Nsimd.Round
open Nsimd.X86Cvt (truncZ castFI emulate lo hi setr)

variable {n : Nat} {α β : Type}

/-- The ARM extensions as distinguished by the three functions; `sve` also stands for the SVE of fixed
lengths: egg/platform_arm.py:64-66. -/
inductive Ext | neon128 | aarch64 | sve
  deriving DecidableEq

/-! ### Instructions -/

/-- `vcvtq_{s,u}{16,32,64}`, `svcvt_{s,u}{16,32,64}` of one lane, FCVTZS, FCVTZU: toward zero, saturating,
NaN gives 0. Arm semantics, not code of the repo. -/
def fcvtz (t : ITy) : Fl → BitVec t.w
  | .nan => t.cast 0
  | .inf s => if s then t.cast t.minv else t.cast t.maxv
  | .fin q =>
    if truncZ q < t.minv then t.cast t.minv
    else if t.maxv < truncZ q then t.cast t.maxv
    else t.cast (truncZ q)

/-- `vcvt_f32_f64`, `vcvt_f16_f32`, `(f32)x` of one lane: infinities and NaN are kept. Arm semantics, not
code of the repo. -/
def narrow (r : ℚ → Fl) : Fl → Fl
  | .fin q => r q
  | x => x

/-- `svzip1(a, a)`: the low half, every lane twice. Arm semantics, not code of the repo. -/
def zip1Self (a : Vec (n + n) α) : Vec (n + n) α := fun i => a ⟨i / 2, by omega⟩

/-- `svzip2(a, a)`: the high half, every lane twice. Arm semantics, not code of the repo. -/
def zip2Self (a : Vec (n + n) α) : Vec (n + n) α := fun i => a ⟨n + i / 2, by omega⟩

/-- `svcvt` to a wider type: reads the even lanes. Arm semantics, not code of the repo. -/
def svcvtWide (f : α → β) (a : Vec (n + n) α) : Vec n β := fun i => f (a ⟨2 * i, by omega⟩)

/-- `svcvt` to a narrower type: writes the even lanes and leaves the odd ones unspecified (`junk`). Arm
semantics, not code of the repo. -/
def svcvtNarrow (f : α → β) (junk : Vec (n + n) β) (a : Vec n α) : Vec (n + n) β := fun i =>
  if i.val % 2 = 0 then f (a ⟨i / 2, by omega⟩) else junk i

/-- `svuzp1`: the even lanes of both arguments. Arm semantics, not code of the repo. -/
def uzp1 (a b : Vec (n + n) α) : Vec (n + n) α := fun i =>
  if h : i.val < n then a ⟨2 * i, by omega⟩ else b ⟨2 * (i - n), by omega⟩

/-- `svreinterpret` to lanes of half the size, little endian. Arm semantics, not code of the repo. -/
def svHalves (w' : Nat) {w : Nat} (r : Reg n w) : Reg (n + n) w' := fun i =>
  ((r ⟨i / 2, by omega⟩) >>> (w' * (i.val % 2))).setWidth w'

/-! ### Conversions of the same size -/

/-- `cvt` of i32, u32 to f32, of i64, u64 to f64 and, with half precision instructions, of i16, u16 to f16:
`vcvtq`, `svcvt_x`, egg/platform_arm.py:1605-1607, 1648-1666; on neon128 the two casts of
egg/platform_arm.py:1638-1642. All round to nearest. -/
def cvtIF (r : ℚ → Fl) (s : ITy) (a : Reg n s.w) : Vec n Fl := fun i => r (s.val (a i))

/-- `to_f16_with_f32`: i16, u16 to the two f32 registers standing for an f16 one,
egg/platform_arm.py:1608-1621. -/
def cvtIF16 (r32 : ℚ → Fl) (s : ITy) (a : Reg (n + n) s.w) : Vec n Fl × Vec n Fl :=
  (fun i => r32 (s.val (lo a i)), fun i => r32 (s.val (hi a i)))

/-- `cvt` of f32 to i32, u32, of f64 to i64, u64 and, with half precision instructions, of f16 to i16, u16:
egg/platform_arm.py:1605-1607, 1648-1666; the two casts for f64 on neon128 are lines 1643-1647. -/
def cvtFI (x : Ext) (d : ITy) (a : Vec n Fl) : Option (Reg n d.w) :=
  if x = .neon128 ∧ d.w = 64 then emulate (castFI d) a else some fun i => fcvtz d (a i)

/-- `from_f16_with_f32`: eight casts, egg/platform_arm.py:1622-1632. -/
def cvtF16I (d : ITy) (a : Vec n Fl × Vec n Fl) : Option (Reg (n + n) d.w) := do
  let b0 ← emulate (castFI d) a.1
  let b1 ← emulate (castFI d) a.2
  return setr b0 b1

/-! ### Conversions to the next larger size -/

/-- `vmovl_{s,u}` of one half. Arm semantics, not code of the repo. -/
def movl (s m : ITy) (a : Reg n s.w) : Reg n m.w := fun i => Arm.movl s.sgn (a i)

/-- `upcvt` of i16, u16 to f32, of i32, u32 to f64 and of i8, u8 to f16 with half precision instructions:
on NEON `upcvt` to the integer type `m` of the size of the float, then `cvt`, egg/platform_arm.py:1898-1907;
on SVE `svcvt` of `svunpklo`, `svunpkhi`, egg/platform_arm.py:1926-1935. -/
def upcvtIF (r : ℚ → Fl) (s m : ITy) (a : Reg (n + n) s.w) : Vec n Fl × Vec n Fl :=
  let tmp := (movl s m (lo a), movl s m (hi a))
  (cvtIF r m tmp.1, cvtIF r m tmp.2)

/-- `upcvt` of i8, u8 to f16 without half precision instructions: egg/platform_arm.py:1898-1907, 1608-1621. -/
def upcvtIF16 (r32 : ℚ → Fl) (s m : ITy) (a : Reg (n + n + (n + n)) s.w) :
    (Vec n Fl × Vec n Fl) × (Vec n Fl × Vec n Fl) :=
  let tmp := (movl s m (lo a), movl s m (hi a))
  (cvtIF16 r32 m tmp.1, cvtIF16 r32 m tmp.2)

/-- `upcvt` of f32 to f64 and, with half precision instructions, of f16 to f32: the low and the high half,
converted exactly, egg/platform_arm.py:1851-1880; on SVE `svcvt` of `svzip1`, `svzip2`,
egg/platform_arm.py:1936-1943. -/
def upcvtFF (x : Ext) (a : Vec (n + n) Fl) : Vec n Fl × Vec n Fl :=
  match x with
  | .sve => (svcvtWide id (zip1Self a), svcvtWide id (zip2Self a))
  | _ => (lo a, hi a)

/-- `upcvt` of f32 to i64, u64 and, with half precision instructions, of f16 to i32, u32: on NEON `upcvt` to
the float of the size of the integer, then `cvt`, egg/platform_arm.py:1898-1907; on SVE `svcvt` of `svzip1`,
`svzip2`, egg/platform_arm.py:1936-1943. -/
def upcvtFI (x : Ext) (d : ITy) (a : Vec (n + n) Fl) : Option (Reg n d.w × Reg n d.w) :=
  match x with
  | .sve => some (svcvtWide (fcvtz d) (zip1Self a), svcvtWide (fcvtz d) (zip2Self a))
  | x => do
    let tmp := upcvtFF x a
    let v0 ← cvtFI x d tmp.1
    let v1 ← cvtFI x d tmp.2
    return (v0, v1)

/-- `upcvt` of f16 to i32, u32 without half precision instructions: the two f32 registers, then `cvt`,
egg/platform_arm.py:1858-1863, 1898-1907. -/
def upcvtF16I (x : Ext) (d : ITy) (a : Vec n Fl × Vec n Fl) : Option (Reg n d.w × Reg n d.w) := do
  let v0 ← cvtFI x d a.1
  let v1 ← cvtFI x d a.2
  return (v0, v1)

/-! ### Conversions to the next smaller size -/

/-- `downcvt` of f64 to f32 and, with half precision instructions, of f32 to f16: egg/platform_arm.py:1950-1970;
on SVE `svuzp1` of two `svcvt`, egg/platform_arm.py:2005-2010. -/
def downcvtFF (x : Ext) (r : ℚ → Fl) (junk junk' : Vec (n + n) Fl) (a b : Vec n Fl) : Vec (n + n) Fl :=
  match x with
  | .sve => uzp1 (svcvtNarrow (narrow r) junk a) (svcvtNarrow (narrow r) junk' b)
  | _ => setr (fun i => narrow r (a i)) (fun i => narrow r (b i))

/-- `downcvt` of i64, u64 to f32 and, with half precision instructions, of i32, u32 to f16: on NEON `cvt` to
the float of the size of the integer (`rw`), then `downcvt` (`rn`), egg/platform_arm.py:1983-1988; on SVE
`svuzp1` of two `svcvt`, egg/platform_arm.py:2005-2010. -/
def downcvtIF (x : Ext) (rw rn : ℚ → Fl) (s : ITy) (junk junk' : Vec (n + n) Fl) (a b : Reg n s.w) :
    Vec (n + n) Fl :=
  match x with
  | .sve => uzp1 (svcvtNarrow (fun v => rn (s.val v)) junk a) (svcvtNarrow (fun v => rn (s.val v)) junk' b)
  | x => downcvtFF x rn junk junk' (cvtIF rw s a) (cvtIF rw s b)

/-- `downcvt` of i32, u32 to f16 without half precision instructions: the two registers converted to f32,
egg/platform_arm.py:1966-1970, 1983-1988. -/
def downcvtIF16 (r32 : ℚ → Fl) (s : ITy) (a b : Reg n s.w) : Vec n Fl × Vec n Fl :=
  (cvtIF r32 s a, cvtIF r32 s b)

/-- `downcvt` of f64 to i32, u32, of f32 to i16, u16 and, with half precision instructions, of f16 to i8, u8:
`cvt` to the integer `m` of the size of the float, then `downcvt`: `vmovn` on NEON,
egg/platform_arm.py:1972-1976, 1983-1988; `svreinterpret` and `svuzp1` on SVE, egg/platform_arm.py:1996-2004. -/
def downcvtFI (x : Ext) (m d : ITy) (a b : Vec n Fl) : Option (Reg (n + n) d.w) := do
  let a' ← cvtFI x m a
  let b' ← cvtFI x m b
  match x with
  | .sve => return uzp1 (svHalves d.w a') (svHalves d.w b')
  | _ => return setr (fun i => (a' i).setWidth d.w) (fun i => (b' i).setWidth d.w)

/-- `downcvt` of f16 to i8, u8 without half precision instructions: `cvt` to 16 bits by casts, then `vmovn`,
egg/platform_arm.py:1983-1988, 1622-1632, 1972-1976. -/
def downcvtF16I (m d : ITy) (a b : Vec n Fl × Vec n Fl) : Option (Reg (n + n + (n + n)) d.w) := do
  let a' ← cvtF16I m a
  let b' ← cvtF16I m b
  return setr (fun i => (a' i).setWidth d.w) (fun i => (b' i).setWidth d.w)

/-! ### Reinterpretation of f16 without half precision instructions -/

/-- `to_f16_with_f32` of `reinterpret`: egg/platform_arm.py:1680-1693. -/
def reinterpretToF16 (s : ITy) (a : Reg (n + n) s.w) : Option (Reg n 32 × Reg n 32) := do
  let v0 ← emulate (fun v => Fp16.u16ToF32 (ITy.u16.cast (s.val v))) (lo a)
  let v1 ← emulate (fun v => Fp16.u16ToF32 (ITy.u16.cast (s.val v))) (hi a)
  return (v0, v1)

/-- `from_f16_with_f32` of `reinterpret`: egg/platform_arm.py:1694-1704. -/
def reinterpretFromF16 (d : ITy) (a : Reg n 32 × Reg n 32) : Reg (n + n) d.w :=
  setr (fun i => d.cast (ITy.u16.val (Fp16.f32ToU16 (a.1 i)))) (fun i => d.cast (ITy.u16.val (Fp16.f32ToU16 (a.2 i))))

end Nsimd.ArmCvt
