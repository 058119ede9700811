import Verif.Model.PpcLane
import Verif.Model.ArmCvt

/-!
# POWER conversions between integers and floats

`cvt`, `upcvt`, `downcvt` and `reinterpret` of egg/platform_ppc.py as far as floats are concerned. Integer
lanes are bit vectors, float lanes (f16 vectors are two f32 registers) are `Round.Fl`; `r32`, `r64` take an
exact value to the float of that size. `none` is undefined behaviour. The structs of two scalars of VMX are
seen as registers of two lanes.
-/

namespace Nsimd.PpcCvt

open Nsimd Nsimd.Cpu Nsimd.Round
open Nsimd.X86 (Reg)
open Nsimd.X86Cvt (truncZ castFI castIF emulate lo hi setr)
open Nsimd.Ppc (Ext emulated fromLanes insertLane)

variable {n : Nat} {α β : Type}

/-! ### Instructions -/

/-- `vec_cts(v, 0)`, `vec_ctu(v, 0)` of one lane: toward zero, saturating; the value for NaN depends on the
instruction selected (`nan`). Power intrinsics semantics, not code of the repo. -/
def vecCt (t : ITy) (nan : BitVec t.w) : Fl → BitVec t.w
  | .nan => nan
  | f => ArmCvt.fcvtz t f

/-- `vec_pack(a, b)`: the low halves of the lanes of both. Power intrinsics semantics, not code of the repo. -/
def vecPack (w' : Nat) {w : Nat} (a b : Reg n w) : Reg (n + n) w' :=
  setr (fun i => (a i).setWidth w') (fun i => (b i).setWidth w')

/-- `vec_unpackh`: sign extension of the first half of the lanes. Power intrinsics semantics, not code of
the repo. -/
def vecUnpackh (w' : Nat) {w : Nat} (a : Reg (n + n) w) : Reg n w' := fun i => (lo a i).signExtend w'

/-- `vec_unpackl`: sign extension of the second half. Power intrinsics semantics, not code of the repo. -/
def vecUnpackl (w' : Nat) {w : Nat} (a : Reg (n + n) w) : Reg n w' := fun i => (hi a i).signExtend w'

/-! ### Conversions of the same size -/

/-- `cvt` of f16 to u16, i16: `vec_pack` of two `vec_ctu` (`m` is u32) or `vec_cts` (`m` is i32),
egg/platform_ppc.py:1135-1144. -/
def cvtF16I (m d : ITy) (nan : BitVec m.w) (a : Vec n Fl × Vec n Fl) : Reg (n + n) d.w :=
  vecPack d.w (fun i => vecCt m nan (a.1 i)) (fun i => vecCt m nan (a.2 i))

/-- `cvt` of u16 to f16: sign extension, mask, `vec_ctf`, egg/platform_ppc.py:1145-1154. -/
def cvtU16F16 (r32 : ℚ → Fl) (a : Reg (n + n) 16) : Vec n Fl × Vec n Fl :=
  let mask := 0xFFFF#32
  (fun i => r32 (ITy.i32.val (vecUnpackh 32 a i &&& mask)),
   fun i => r32 (ITy.i32.val (vecUnpackl 32 a i &&& mask)))

/-- `cvt` of i16 to f16: egg/platform_ppc.py:1155-1159. -/
def cvtI16F16 (r32 : ℚ → Fl) (a : Reg (n + n) 16) : Vec n Fl × Vec n Fl :=
  (fun i => r32 (ITy.i32.val (vecUnpackh 32 a i)), fun i => r32 (ITy.i32.val (vecUnpackl 32 a i)))

/-- `cvt` of f32 to i32, u32 and of f64 to i64, u64: the scalar operator (a cast, egg/scalar.py:288) for
64 bits on VMX, egg/platform_ppc.py:1160-1164, else `vec_cts`, `vec_ctu`, egg/platform_ppc.py:1165-1168. -/
def cvtFI (x : Ext) (d : ITy) (nan : BitVec d.w) (a : Vec n Fl) : Option (Reg n d.w) :=
  if emulated x d then emulate (castFI d) a else some fun i => vecCt d nan (a i)

/-- `cvt` of i32, u32 to f32 and of i64, u64 to f64: two casts for 64 bits on VMX,
egg/platform_ppc.py:1160-1164, else `vec_ctf`, egg/platform_ppc.py:1169-1170; both round to nearest. -/
def cvtIF (r : ℚ → Fl) (s : ITy) (a : Reg n s.w) : Vec n Fl := fun i => r (s.val (a i))

/-! ### Conversions to the next larger size -/

/-- `upcvt` of i8, u8 (`s`) to i16 (`m`), of i16 to i32 and u16 to u32: `vec_unpackh`, `vec_unpackl` with a
mask for unsigned lanes, egg/platform_ppc.py:1383-1404. -/
def upcvtII (s m : ITy) (a : Reg (n + n) s.w) : Reg n m.w × Reg n m.w :=
  if s.sgn then (vecUnpackh m.w a, vecUnpackl m.w a)
  else
    let mask := BitVec.ofNat m.w (2 ^ s.w - 1)
    (fun i => vecUnpackh m.w a i &&& mask, fun i => vecUnpackl m.w a i &&& mask)

/-- `upcvt` of i8, u8 to f16, through i16: egg/platform_ppc.py:1340-1346. -/
def upcvt8F16 (r32 : ℚ → Fl) (s : ITy) (a : Reg (n + n + (n + n)) s.w) :
    (Vec n Fl × Vec n Fl) × (Vec n Fl × Vec n Fl) :=
  let tmp := upcvtII s .i16 a
  (cvtI16F16 r32 tmp.1, cvtI16F16 r32 tmp.2)

/-- `upcvt` of i16 to f32 through i32 and of u16 to f32 through u32 (`m`): egg/platform_ppc.py:1374-1382. -/
def upcvt16F32 (r32 : ℚ → Fl) (s m : ITy) (a : Reg (n + n) s.w) : Vec n Fl × Vec n Fl :=
  let tmp := upcvtII s m a
  (cvtIF r32 m tmp.1, cvtIF r32 m tmp.2)

/-- The two registers of two lanes filled lane by lane from four lanes: `ret.v0 = vec_splats((to_typ)
vec_extract(a0, 0)); ret.v0 = vec_insert((to_typ)vec_extract(a0, 1), ret.v0, 1);` and so on,
egg/platform_ppc.py:1358-1373, 1405-1420; VMX assigns the four members. -/
def upcvtCast (f : α → Option β) (a : Vec (2 + 2) α) : Option (Vec 2 β × Vec 2 β) := do
  let v0 ← fromLanes (n := 1) fun i => f (a ⟨i, by omega⟩)
  let v1 ← fromLanes (n := 1) fun i => f (a ⟨2 + i, by omega⟩)
  return (v0, v1)

/-- `upcvt` of f32 to i64, u64: egg/platform_ppc.py:1358-1373. -/
def upcvtF32I (d : ITy) (a : Vec (2 + 2) Fl) : Option (Reg 2 d.w × Reg 2 d.w) := upcvtCast (castFI d) a

/-- `upcvt` of f32 to f64: egg/platform_ppc.py:1358-1373. -/
def upcvtF32F64 (a : Vec (2 + 2) Fl) : Option (Vec 2 Fl × Vec 2 Fl) := upcvtCast some a

/-- `upcvt` of i32, u32 to f64, through i64, u64: egg/platform_ppc.py:1374-1382, 1405-1420. -/
def upcvt32F64 (r64 : ℚ → Fl) (s m : ITy) (a : Reg (2 + 2) s.w) : Option (Vec 2 Fl × Vec 2 Fl) := do
  let tmp ← upcvtCast (fun v => some (m.cast (s.val v))) a
  return (cvtIF r64 m tmp.1, cvtIF r64 m tmp.2)

/-- `upcvt` of f16 to f32: egg/platform_ppc.py:1347-1351. -/
def upcvtF16F32 (a : Vec n Fl × Vec n Fl) : Vec n Fl × Vec n Fl := (a.1, a.2)

/-- `upcvt` of f16 to i32, u32: egg/platform_ppc.py:1352-1357. -/
def upcvtF16I (d : ITy) (nan : BitVec d.w) (a : Vec n Fl × Vec n Fl) : Reg n d.w × Reg n d.w :=
  (fun i => vecCt d nan (a.1 i), fun i => vecCt d nan (a.2 i))

/-! ### Conversions to the next smaller size -/

/-- The register of four lanes filled lane by lane from two registers of two: egg/platform_ppc.py:1425-1440. -/
def downcvtCast (f : α → Option β) (a b : Vec 2 α) : Option (Vec (2 + 2) β) :=
  fromLanes (n := 3) fun i => if h : i.val < 2 then f (a ⟨i, h⟩) else f (b ⟨i - 2, by omega⟩)

/-- `downcvt` of f64 to i32, u32: egg/platform_ppc.py:1425-1440. -/
def downcvtF64I (d : ITy) (a b : Vec 2 Fl) : Option (Reg (2 + 2) d.w) := downcvtCast (castFI d) a b

/-- `downcvt` of f64 to f32: egg/platform_ppc.py:1425-1440. -/
def downcvtF64F32 (r32 : ℚ → Fl) (a b : Vec 2 Fl) : Option (Vec (2 + 2) Fl) :=
  downcvtCast (fun f => some (ArmCvt.narrow r32 f)) a b

/-- `downcvt` of i64, u64 to f32: egg/platform_ppc.py:1425-1440. -/
def downcvtI64F32 (r32 : ℚ → Fl) (s : ITy) (a b : Reg 2 s.w) : Option (Vec (2 + 2) Fl) :=
  downcvtCast (fun v => some (r32 (s.val v))) a b

/-- `downcvt` of i32, u32 to f16: egg/platform_ppc.py:1453-1457. -/
def downcvtI32F16 (r32 : ℚ → Fl) (s : ITy) (a b : Reg n s.w) : Vec n Fl × Vec n Fl :=
  (cvtIF r32 s a, cvtIF r32 s b)

/-- `downcvt` of f32 to f16: egg/platform_ppc.py:1445-1449. The lanes stay f32. -/
def downcvtF32F16 (a b : Vec n Fl) : Vec n Fl × Vec n Fl := (a, b)

/-- `downcvt` of f32 to i16, u16: `vec_pack` of two `vec_cts` (`m` is i32) or `vec_ctu` (`m` is u32),
egg/platform_ppc.py:1450-1452. -/
def downcvtF32I (m d : ITy) (nan : BitVec m.w) (a b : Vec n Fl) : Reg (n + n) d.w :=
  vecPack d.w (fun i => vecCt m nan (a i)) (fun i => vecCt m nan (b i))

/-- `downcvt` of f16 to i8, u8: egg/platform_ppc.py:1458-1465. -/
def downcvtF16I (m d : ITy) (nan : BitVec m.w) (a b : Vec n Fl × Vec n Fl) : Reg (n + n + (n + n)) d.w :=
  vecPack d.w
    (vecPack 16 (fun i => vecCt m nan (a.1 i)) fun i => vecCt m nan (a.2 i))
    (vecPack 16 (fun i => vecCt m nan (b.1 i)) fun i => vecCt m nan (b.2 i))

/-! ### Reinterpretation of f16 -/

/-- `reinterpret` of u16, i16 to f16: splat and inserts, egg/platform_ppc.py:1225-1270; `s` is the type of
the integers, `nsimd_scalar_reinterpret_u16_i16` the conversion to u16 (egg/scalar.py:219-271). -/
def reinterpretToF16 (s : ITy) (a : Reg (4 + 4) s.w) : Option (Reg 4 32 × Reg 4 32) := do
  let v0 ← fromLanes (n := 3) fun i => Fp16.u16ToF32 (ITy.u16.cast (s.val (a ⟨i, by omega⟩)))
  let v1 ← fromLanes (n := 3) fun i => Fp16.u16ToF32 (ITy.u16.cast (s.val (a ⟨4 + i, by omega⟩)))
  return (v0, v1)

/-- `reinterpret` of f16 to u16, i16: splat and inserts, egg/platform_ppc.py:1186-1224. -/
def reinterpretFromF16 (d : ITy) (a : Reg 4 32 × Reg 4 32) : Option (Reg (4 + 4) d.w) :=
  fromLanes (n := 7) fun i => some (d.cast (ITy.u16.val (Fp16.f32ToU16
    (if h : i.val < 4 then a.1 ⟨i, h⟩ else a.2 ⟨i - 4, by omega⟩))))

end Nsimd.PpcCvt
