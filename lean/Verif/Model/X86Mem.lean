import Verif.Model.X86Mask
import Verif.Model.X86Lane

/-!
# Masked, indexed and f16 memory operators of the x86 back end (egg/platform_x86.py)

Memory is addressed by element, as in `Cpu.Mem`; alignment is not modelled (the aligned and
unaligned variants differ by the intrinsic only).  A loop `for (i...) buf[i] = ...` over a local
buffer is `Cpu.body`: iteration `i` writes `buf[i]` only.  The lanes of the offset register are
signed integers of the width of the type, read through `offset_buf`.
-/

namespace Nsimd.X86
open Nsimd.Cpu (Vec Mem Elem)

variable {n w : Nat} {M α : Type}

/-- Two halves one after the other: an f16 register is a pair of f32 registers, the arrays
`buf`, `mask` hold `v0` at `0` and `v1` at `le2`, egg/platform_x86.py:806-807, 819-820. -/
def cat (a b : Vec n α) : Vec (n + n) α := fun i =>
  if h : i.val < n then a ⟨i, h⟩ else b ⟨i - n, by omega⟩
/-- The two halves of a buffer: `ret.v0 = loadu(buf); ret.v1 = loadu(buf + le2);`,
egg/platform_x86.py:826-827. -/
def halves (v : Vec (n + n) α) : Vec n α × Vec n α :=
  (fun i => v ⟨i, by omega⟩, fun i => v ⟨n + i, by omega⟩)

/-! ### Instructions (Intel semantics) -/

/-- `_mm256_maskload_ps/pd/epi32/epi64`: lanes whose mask has its top bit clear are zero and not
read. Intel semantics, not code of the repo. -/
def maskload (l : Reg n w) (m : Mem (BitVec w)) (p : Int) : Option (Reg n w) :=
  Cpu.body fun i => if (l i).msb then m (p + (i : Nat)) else some 0#w

/-- `_mm256_maskstore_ps/pd/epi32/epi64`: lanes whose mask has its top bit set are written.
Intel semantics, not code of the repo. -/
def maskstore (l : Reg n w) (m : Mem (BitVec w)) (p : Int) (v : Reg n w) : Option (Mem (BitVec w)) :=
  Cpu.stores (List.finRange n) (fun i => if (l i).msb then some (p + (i : Nat), v i) else none) m

/-- `_mm_maskmoveu_si128(v, l, p)`: the bytes whose mask byte has its top bit set are written.
On a `w`-bit lane: nothing if no byte is selected, else the selected bytes are merged into the
element in memory. Intel semantics, not code of the repo. -/
def maskmoveu (l : Reg n w) (m : Mem (BitVec w)) (p : Int) (v : Reg n w) : Option (Mem (BitVec w)) :=
  (List.finRange n).foldlM (fun m i =>
    if blendvEpi8 0#w (BitVec.allOnes w) (l i) = 0#w then some m
    else (m (p + (i : Nat))).bind fun old => Cpu.write m (p + (i : Nat)) (blendvEpi8 old (v i) (l i))) m

/-- `_mm512_mask_load{,u}`: lanes whose bit is clear come from `src` and are not read
(`maskz_` is `src = 0`). Intel semantics, not code of the repo. -/
def maskLoad512i (src : Reg n w) (k : BitVec n) (m : Mem (BitVec w)) (p : Int) : Option (Reg n w) :=
  Cpu.body fun i => if k.getLsbD i then m (p + (i : Nat)) else some (src i)

/-- `_mm512_mask_store{,u}`. Intel semantics, not code of the repo. -/
def maskStore512i (k : BitVec n) (m : Mem (BitVec w)) (p : Int) (v : Reg n w) :
    Option (Mem (BitVec w)) :=
  Cpu.stores (List.finRange n) (fun i => if k.getLsbD i then some (p + (i : Nat), v i) else none) m

/-- `_mm256_i{w}gather`, `_mm512_i{w}gather` with the scale equal to the element size: element
number `sext(idx[i])`. Intel semantics, not code of the repo. -/
def gatherI (m : Mem (BitVec w)) (p : Int) (off : Reg n w) : Option (Reg n w) :=
  Cpu.body fun i => m (p + (off i).toInt)

/-- `_mm256_mask_i{w}gather(src, base, idx, mask, scale)`: the top bit of the mask lane.
Intel semantics, not code of the repo. -/
def maskGather256i (src : Reg n w) (m : Mem (BitVec w)) (p : Int) (off l : Reg n w) :
    Option (Reg n w) :=
  Cpu.body fun i => if (l i).msb then m (p + (off i).toInt) else some (src i)

/-- `_mm512_mask_i{w}gather(src, k, idx, base, scale)`. Intel semantics, not code of the repo. -/
def maskGather512i (src : Reg n w) (k : BitVec n) (m : Mem (BitVec w)) (p : Int) (off : Reg n w) :
    Option (Reg n w) :=
  Cpu.body fun i => if k.getLsbD i then m (p + (off i).toInt) else some (src i)

/-- `_mm512_i{w}scatter` and `_mm512_mask_i{w}scatter` with the scale equal to the element size:
writes to the same element are ordered from the lowest lane to the highest.
Intel semantics, not code of the repo. -/
def maskScatter512i (k : BitVec n) (m : Mem (BitVec w)) (p : Int) (off v : Reg n w) :
    Option (Mem (BitVec w)) :=
  Cpu.stores (List.finRange n)
    (fun i => if k.getLsbD i then some (p + (off i).toInt, v i) else none) m

/-- `_mm_shuffle_epi32(v, imm)` on 16-bit lanes. Intel semantics, not code of the repo. -/
def shuffleEpi32 (imm : Nat) (v : Reg 8 16) : Reg 8 16 :=
  fun i => v ⟨2 * ((imm >>> (2 * (i.val / 2))) % 4) + i.val % 2, by omega⟩

/-- `_mm_shuffle_pd(a, b, 0)` on 16-bit lanes: the low halves of `a` and `b`.
Intel semantics, not code of the repo. -/
def shufflePd0 (a b : Reg 8 16) : Reg 8 16 := fun i =>
  if h : i.val < 4 then a ⟨i, by omega⟩ else b ⟨i - 4, by omega⟩

/-! ### Conditions -/

/-- `mask[i] != 0` where the logical register was stored in `mask`,
egg/platform_x86.py:843-847, 3763-3767, 3907-3913. -/
def condBuf (l : Reg n w) : Fin n → Bool := fun i => l i != 0#w
/-- `(mask >> i) & 1` with `u64 mask = (u64)in0`, egg/platform_x86.py:838-841, 3758-3761,
3914-3917. -/
def condMask (k : BitVec n) : Fin n → Bool := fun i => ((k.setWidth 64 >>> i.val) &&& 1#64) != 0#64
/-- The f16 conditions on AVX-512: the mask is stored as floats, `1.0f` where the bit is set
(`_mm512_maskz_mov_ps(in0, set1(1.0f))`), and its bits compared with 0,
egg/platform_x86.py:810-813, 822. -/
def condF512 (k : BitVec n) : Fin n → Bool := fun i =>
  (if k.getLsbD i then 0x3f800000#32 else 0#32) != 0#32

/-! ### Masked loads (egg/platform_x86.py:802-909) -/

section
variable (e : Elem M α)

/-- The loop `if (cond) buf[i] = in1[i];` from `buf = oz`, egg/platform_x86.py:848-858. -/
def maskozLoadBuf (c : Fin n → Bool) (m : Mem M) (p : Int) (o : Vec n α) : Option (Vec n α) :=
  Cpu.body fun i => if c i then (m (p + (i : Nat))).bind e.dec else some (o i)

/-- Masked loads of f16 before AVX-512, egg/platform_x86.py:803-831. -/
def maskozLoadF16 (l0 l1 : Reg n 32) (m : Mem M) (p : Int) (o0 o1 : Vec n α) :
    Option (Vec n α × Vec n α) :=
  (maskozLoadBuf e (cat (condBuf l0) (condBuf l1)) m p (cat o0 o1)).map halves
/-- Masked loads of f16 on AVX-512, egg/platform_x86.py:803-831. -/
def maskozLoadF16_512 (k0 k1 : BitVec n) (m : Mem M) (p : Int) (o0 o1 : Vec n α) :
    Option (Vec n α × Vec n α) :=
  (maskozLoadBuf e (cat (condF512 k0) (condF512 k1)) m p (cat o0 o1)).map halves

/-- `masko_load` of floats on AVX and AVX2 and of 32/64-bit integers on AVX:
`blendv(in2, maskload(in1, in0), in0)`, egg/platform_x86.py:866-875, 888-900. -/
def maskoLoadAvx (l : Reg n w) (m : Mem (BitVec w)) (p : Int) (o : Reg n w) : Option (Reg n w) :=
  (maskload l m p).map fun v i => blendv (o i) (v i) (l i)
/-- `masko_load` of 32/64-bit integers on AVX2: `blendv_epi8(in2, maskload(in1, in0), in0)`,
egg/platform_x86.py:877-887. -/
def maskoLoadAvx2 (l : Reg n w) (m : Mem (BitVec w)) (p : Int) (o : Reg n w) : Option (Reg n w) :=
  (maskload l m p).map fun v i => blendvEpi8 (o i) (v i) (l i)

/-! ### Masked stores (egg/platform_x86.py:1057-1135) -/

/-- The loop `if (cond) in1[i] = buf[i];`, egg/platform_x86.py:1091-1102. -/
def maskStoreBuf (c : Fin n → Bool) (m : Mem M) (p : Int) (v : Vec n α) : Option (Mem M) :=
  Cpu.stores (List.finRange n) (fun i => if c i then some (p + (i : Nat), e.enc (v i)) else none) m
/-- `mask_store` of f16 before AVX-512, egg/platform_x86.py:1058-1080. -/
def maskStoreF16 (l0 l1 : Reg n 32) (m : Mem M) (p : Int) (v0 v1 : Vec n α) : Option (Mem M) :=
  maskStoreBuf e (cat (condBuf l0) (condBuf l1)) m p (cat v0 v1)
/-- `mask_store` of f16 on AVX-512, egg/platform_x86.py:1058-1080. -/
def maskStoreF16_512 (k0 k1 : BitVec n) (m : Mem M) (p : Int) (v0 v1 : Vec n α) : Option (Mem M) :=
  maskStoreBuf e (cat (condF512 k0) (condF512 k1)) m p (cat v0 v1)

/-- `mask_store` of 8- and 16-bit integers on AVX and AVX2: the SSE4.2 operator on both halves, the
second at `in1 + le2`, egg/platform_x86.py:1103-1113. -/
def maskStoreAvxSmall (l : Reg (n + n) w) (m : Mem (BitVec w)) (p : Int) (v : Reg (n + n) w) :
    Option (Mem (BitVec w)) :=
  (maskmoveu (lower l) m p (lower v)).bind fun m =>
    maskmoveu (upper l) m (p + (((n + n) / 2 : Nat) : Int)) (upper v)

/-! ### Scatter (egg/platform_x86.py:3653-3777) -/

/-- The loop `in0[offset_buf[i]] = buf[i];`, egg/platform_x86.py:3665-3674; f16 the same with
`nsimd_f32_to_f16`, egg/platform_x86.py:3654-3664. -/
def scatterBuf (m : Mem M) (p : Int) (off : Reg n w) (v : Vec n α) : Option (Mem M) :=
  Cpu.stores (List.finRange n) (fun i => some (p + (off i).toInt, e.enc (v i))) m

/-- The loop `if (cond) in1[offset_buf[i]] = buf[i];`, egg/platform_x86.py:3768-3777. -/
def maskScatterBuf (c : Fin n → Bool) (m : Mem M) (p : Int) (off : Reg n w) (v : Vec n α) :
    Option (Mem M) :=
  Cpu.stores (List.finRange n)
    (fun i => if c i then some (p + (off i).toInt, e.enc (v i)) else none) m
/-- `mask_scatter` of f16 before AVX-512, egg/platform_x86.py:3725-3752. -/
def maskScatterF16 (l0 l1 : Reg n 32) (m : Mem M) (p : Int) (off : Reg (n + n) 16) (v0 v1 : Vec n α) :
    Option (Mem M) :=
  maskScatterBuf e (cat (condBuf l0) (condBuf l1)) m p off (cat v0 v1)
/-- `mask_scatter` of f16 on AVX-512, egg/platform_x86.py:3725-3752. -/
def maskScatterF16_512 (k0 k1 : BitVec n) (m : Mem M) (p : Int) (off : Reg (n + n) 16)
    (v0 v1 : Vec n α) : Option (Mem M) :=
  maskScatterBuf e (cat (condF512 k0) (condF512 k1)) m p off (cat v0 v1)

/-- `scatter_linear`, emulation (and f16): `in0[i * in1] = buf[i]` with `int` products (computed
first in the model), egg/platform_x86.py:3683-3691, 3701-3706. -/
def scatterLinearBuf (m : Mem M) (p step : Int) (v : Vec n α) : Option (Mem M) :=
  (Cpu.body fun i : Fin n => ITy.i32.prom ((i : Nat) * step)).bind fun off =>
    Cpu.stores (List.finRange n) (fun i => some (p + off i, e.enc (v i))) m

/-- `scatter_linear` on AVX-512: the AVX2 operator on both halves, the second from
`in0 + (leo2 * in1)` with an `int` product, egg/platform_x86.py:3692-3700. -/
def scatterLinear512 (op : Mem M → Int → Int → Vec n α → Option (Mem M)) (m : Mem M) (p step : Int)
    (v : Vec (n + n) α) : Option (Mem M) :=
  (op m p step (halves v).1).bind fun m =>
    (ITy.i32.prom ((((n + n) / 2 : Nat) : Int) * step)).bind fun k => op m (p + k) step (halves v).2

/-! ### Gather (egg/platform_x86.py:3783-3975) -/

/-- The loop `buf[i] = in0[offset_buf[i]];`, egg/platform_x86.py:3797-3808; f16 the same with
`nsimd_f16_to_f32`, egg/platform_x86.py:3784-3796. -/
def gatherBuf (m : Mem M) (p : Int) (off : Reg n w) : Option (Vec n α) :=
  Cpu.body fun i => (m (p + (off i).toInt)).bind e.dec

/-- The loop `if (cond) buf[i] = in1[offset_buf[i]];` from `buf = oz`,
egg/platform_x86.py:3924-3937. -/
def maskozGatherBuf (c : Fin n → Bool) (m : Mem M) (p : Int) (off : Reg n w) (o : Vec n α) :
    Option (Vec n α) :=
  Cpu.body fun i => if c i then (m (p + (off i).toInt)).bind e.dec else some (o i)
/-- Masked gathers of f16 before AVX-512, egg/platform_x86.py:3879-3899. -/
def maskozGatherF16 (l0 l1 : Reg n 32) (m : Mem M) (p : Int) (off : Reg (n + n) 16)
    (o0 o1 : Vec n α) : Option (Vec n α × Vec n α) :=
  (maskozGatherBuf e (cat (condBuf l0) (condBuf l1)) m p off (cat o0 o1)).map halves
/-- Masked gathers of f16 on AVX-512, egg/platform_x86.py:3879-3899. -/
def maskozGatherF16_512 (k0 k1 : BitVec n) (m : Mem M) (p : Int) (off : Reg (n + n) 16)
    (o0 o1 : Vec n α) : Option (Vec n α × Vec n α) :=
  (maskozGatherBuf e (cat (condF512 k0) (condF512 k1)) m p off (cat o0 o1)).map halves

/-- `gather_linear`, emulation (and f16): `buf[i] = in0[i * in1]`,
egg/platform_x86.py:3831-3848. -/
def gatherLinearBuf (n : Nat) (m : Mem M) (p step : Int) : Option (Vec n α) :=
  Cpu.body fun i : Fin n => (ITy.i32.prom ((i : Nat) * step)).bind fun k => (m (p + k)).bind e.dec

end

/-- `scatter_linear` with `get_lane`: `in0[i * in1] = get_lane(in2, i);`, one statement per lane
with the literal `i`, egg/platform_x86.py:3707-3718. -/
def scatterLinearTrick (x : Ext) (t : ITy) (m : Mem (BitVec t.w)) (p step : Int)
    (v : BitVec x.bits) : Option (Mem (BitVec t.w)) :=
  (List.range (x.le t)).foldlM (fun m (i : Nat) =>
    (ITy.i32.prom ((i : Int) * step)).bind fun k => Cpu.write m (p + k) (getLane x t v i)) m

/-- `gather_linear` with `set_lane` from an undefined register, egg/platform_x86.py:3851-3863. -/
def gatherLinearTrick (x : Ext) (t : ITy) (undef : BitVec x.bits) (m : Mem (BitVec t.w))
    (p step : Int) : Option (BitVec x.bits) :=
  (List.range (x.le t)).foldlM (fun ret (i : Nat) =>
    ((ITy.i32.prom ((i : Int) * step)).bind fun k => m (p + k)).map fun s => setLane x t ret s i) undef

/-- `gather_linear` on AVX-512: the AVX2 operator twice, the second time from
`in0 + (leo2 * in1)`, egg/platform_x86.py:3865-3872. -/
def gatherLinear512 (op : Mem M → Int → Int → Option (Vec n α)) (m : Mem M) (p step : Int) :
    Option (Vec (n + n) α) :=
  (op m p step).bind fun lo =>
    (ITy.i32.prom ((((n + n) / 2 : Nat) : Int) * step)).bind fun k =>
      (op m (p + k) step).map fun hi => cat lo hi

/-! ### f16 loads and stores (egg/platform_x86.py:735-798, 997-1053) -/

section
variable (e : Elem (BitVec 16) α)

/-- `load` of f16 on SSE with F16C: `_mm_cvtph_ps` of the low four elements, then of the register
shuffled by 14, egg/platform_x86.py:740-746. `e.dec` is one lane of `cvtph`. -/
def loadF16Sse (m : Mem (BitVec 16)) (p : Int) : Option (Vec 4 α × Vec 4 α) :=
  (Cpu.body fun i : Fin 8 => m (p + (i : Nat))).bind fun v =>
    (Cpu.body fun i : Fin 4 => e.dec (v ⟨i, by omega⟩)).bind fun v0 =>
      let v := shuffleEpi32 14 v
      (Cpu.body fun i : Fin 4 => e.dec (v ⟨i, by omega⟩)).map fun v1 => (v0, v1)
/-- `load` of f16 on SSE without F16C, egg/platform_x86.py:747-761. -/
def loadF16SseSoft (m : Mem (BitVec 16)) (p : Int) : Option (Vec 4 α × Vec 4 α) :=
  (Cpu.body fun i : Fin 4 => (m (p + (i : Nat))).bind e.dec).bind fun v0 =>
    (Cpu.body fun i : Fin 4 => (m (p + 4 + (i : Nat))).bind e.dec).map fun v1 => (v0, v1)
/-- `load` of f16 on AVX (`n = 8`) and AVX-512 (`n = 16`): the second half one register of 16-bit
elements further, egg/platform_x86.py:762-796; the loops without F16C are the same. -/
def loadF16Wide (n : Nat) (m : Mem (BitVec 16)) (p : Int) : Option (Vec n α × Vec n α) :=
  (Cpu.body fun i : Fin n => (m (p + (i : Nat))).bind e.dec).bind fun v0 =>
    (Cpu.body fun i : Fin n => (m (p + n + (i : Nat))).bind e.dec).map fun v1 => (v0, v1)

/-- `store` of f16 on SSE with F16C: `_mm_cvtps_ph` puts four elements in the low half and zero in
the high half of `v0` and `v1`, `_mm_shuffle_pd(v0, v1, 0)` joins the low halves,
egg/platform_x86.py:1001-1009. `e.enc` is one lane of `cvtps_ph`. -/
def storeF16Sse (m : Mem (BitVec 16)) (p : Int) (v : Vec 4 α × Vec 4 α) : Option (Mem (BitVec 16)) :=
  let v0 : Reg 8 16 := fun i => if h : i.val < 4 then e.enc (v.1 ⟨i, h⟩) else 0#16
  let v1 : Reg 8 16 := fun i => if h : i.val < 4 then e.enc (v.2 ⟨i, h⟩) else 0#16
  Cpu.stores (List.finRange 8) (fun i => some (p + (i : Nat), shufflePd0 v0 v1 i)) m
/-- `store` of f16 without F16C on SSE (`n = 4`), and on AVX (`n = 8`) and AVX-512 (`n = 16`): the
first half, then the second half `n` elements further, egg/platform_x86.py:1010-1049. -/
def storeF16Wide {n : Nat} (m : Mem (BitVec 16)) (p : Int) (v : Vec n α × Vec n α) :
    Option (Mem (BitVec 16)) :=
  (Cpu.stores (List.finRange n) (fun i => some (p + (i : Nat), e.enc (v.1 i))) m).bind fun m =>
    Cpu.stores (List.finRange n) (fun i => some (p + n + (i : Nat), e.enc (v.2 i))) m
end

end Nsimd.X86
