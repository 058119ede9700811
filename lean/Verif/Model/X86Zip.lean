import Verif.Model.X86Deg

/-!
# ziplo, ziphi, unziplo, unziphi of the x86 back end (egg/platform_x86.py:3314-3607)

The arguments `a` and `b` are the registers `in0` and `in1`.  `w` is the element size in bytes.
-/

namespace Nsimd.X86

/-- The two functions generated by each template: `ziplo`/`ziphi`, `unziplo`/`unziphi`.
egg/platform_x86.py:3314 and 3420, parameter `func`. -/
inductive Half where
  | lo
  | hi
  deriving DecidableEq

/-- `extract(simd_ext, typ, hl, var)` with `hl = LO if func == 'ziplo' else HI`,
egg/platform_x86.py:3356, 3396. -/
def exHalf (f : Half) (h : Nat) (a : Sh) : Sh :=
  match f with
  | .lo => exlo h a
  | .hi => exhi h a

/-- `ziplo`/`ziphi` on SSE, egg/platform_x86.py:3323-3325. -/
def zipSse (w : Nat) (f : Half) (a b : Sh) : Sh :=
  match f with
  | .lo => unpacklo w a b
  | .hi => unpackhi w a b

/-- `ziplo`/`ziphi` on AVX and AVX2, egg/platform_x86.py:3355-3367. -/
def zipAvx (w : Nat) (f : Half) (a b : Sh) : Sh :=
  let v_tmp0 := exHalf f 16 a
  let v_tmp1 := exHalf f 16 b
  let vres_lo := unpacklo w v_tmp0 v_tmp1
  let vres_hi := unpackhi w v_tmp0 v_tmp1
  setr 16 vres_lo vres_hi

/-- `ziplo`/`ziphi` on AVX-512, egg/platform_x86.py:3395-3408. -/
def zipAvx512 (w : Nat) (f : Half) (a b : Sh) : Sh :=
  let v_tmp0 := exHalf f 32 a
  let v_tmp1 := exHalf f 32 b
  let vres_lo := zipAvx w .lo v_tmp0 v_tmp1
  let vres_hi := zipAvx w .hi v_tmp0 v_tmp1
  setr 32 vres_lo vres_hi

/-- `nsimd_{ziplo,ziphi}_{isa}_{t}`: the instruction set dispatch of
egg/platform_x86.py:3314-3408. -/
def zipHalf : Isa → Nat → Half → Sh → Sh → Sh
  | .sse2 => zipSse
  | .sse42 => zipSse
  | .avx => zipAvx
  | .avx2 => zipAvx
  | .avx512 => zipAvx512

/-- Member `v0` or `v1` used by the f16 templates: `k = '0' if func == 'ziplo' else '1'`,
egg/platform_x86.py:3322, 3331-3334, 3388. -/
def member (f : Half) (v : Sh × Sh) : Sh :=
  match f with
  | .lo => v.1
  | .hi => v.2

/-- `ziplo`/`ziphi` of f16 vectors, which are pairs `{v0, v1}` of f32 registers:
egg/platform_x86.py:3317-3322 (SSE), 3330-3354 (AVX), 3369-3394 (AVX-512). -/
def zipHalfF16 (isa : Isa) (f : Half) (a b : Sh × Sh) : Sh × Sh :=
  let v0 := member f a
  let v1 := member f b
  match isa with
  | .sse2 => (unpacklo 4 v0 v1, unpackhi 4 v0 v1)
  | .sse42 => (unpacklo 4 v0 v1, unpackhi 4 v0 v1)
  | .avx | .avx2 =>
    let v_tmp0 := exlo 16 v0
    let v_tmp1 := exlo 16 v1
    let v_tmp2 := exhi 16 v0
    let v_tmp3 := exhi 16 v1
    (setr 16 (unpacklo 4 v_tmp0 v_tmp1) (unpackhi 4 v_tmp0 v_tmp1),
      setr 16 (unpacklo 4 v_tmp2 v_tmp3) (unpackhi 4 v_tmp2 v_tmp3))
  | .avx512 =>
    let lo0 := exlo 32 v0
    let lo1 := exlo 32 v1
    let hi0 := exhi 32 v0
    let hi1 := exhi 32 v1
    (setr 32 (zipAvx 4 .lo lo0 lo1) (zipAvx 4 .hi lo0 lo1),
      setr 32 (zipAvx 4 .lo hi0 hi1) (zipAvx 4 .hi hi0 hi1))

/-- `_MM_SHUFFLE(2, 0, 2, 0)` for `unziplo`, `_MM_SHUFFLE(3, 1, 3, 1)` for `unziphi`,
egg/platform_x86.py:3444-3445. -/
def unzipMask : Half → Nat
  | .lo => mmShuffle 2 0 2 0
  | .hi => mmShuffle 3 1 3 1

/-- The fallback loop on arrays in memory for registers of `R` bytes with one byte elements:
`tab` holds `in0` then `in1`, `res[i] = tab[2 * i + offset]`.
egg/platform_x86.py:3421-3431. -/
def unzipLoop (R : Nat) (f : Half) (a b : Sh) : Sh :=
  .sel (fun i =>
    let j := 2 * i + (match f with | .lo => 0 | .hi => 1)
    if j < R then .fst j else .snd (j - R)) a b

/-- `unziplo`/`unziphi` on SSE of elements of `w` bytes, egg/platform_x86.py:3433-3484. -/
def unzipSse (w : Nat) (f : Half) (a b : Sh) : Sh :=
  match w with
  | 4 => shuffle_ps a b (unzipMask f)
  | 8 => shuffle_pd a b (match f with | .lo => 0 | .hi => 3)
  | 2 =>
    let v_tmp0 := shufflelo_epi16 a (mmShuffle 3 1 2 0)
    let v_tmp0 := shufflehi_epi16 v_tmp0 (mmShuffle 3 1 2 0)
    let v_tmp1 := shufflelo_epi16 b (mmShuffle 3 1 2 0)
    let v_tmp1 := shufflehi_epi16 v_tmp1 (mmShuffle 3 1 2 0)
    shuffle_ps v_tmp0 v_tmp1 (unzipMask f)
  | _ => unzipLoop 16 f a b

/-- `ret_template` with `t = 'ps'`, egg/platform_x86.py:3486-3503. -/
def unzipTemplPs (f : Half) (v0 v1 : Sh) : Sh :=
  let v_tmp0 := permute2f128 v0 v0 0x01
  let v_tmp0 := shuffle_ps v0 v_tmp0 (unzipMask f)
  let v_tmp1 := permute2f128 v1 v1 0x01
  let v_tmp1 := shuffle_ps v1 v_tmp1 (unzipMask f)
  permute2f128 v_tmp0 v_tmp1 0x20

/-- `ret_template` with `t = 'pd'`, egg/platform_x86.py:3486-3492, 3525-3540. -/
def unzipTemplPd (f : Half) (v0 v1 : Sh) : Sh :=
  let mask := match f with | .lo => 0x00 | .hi => 0x03
  let v_tmp0 := permute2f128 v0 v0 0x01
  let v_tmp0 := shuffle_pd v0 v_tmp0 mask
  let v_tmp1 := permute2f128 v1 v1 0x01
  let v_tmp1 := shuffle_pd v1 v_tmp1 mask
  permute2f128 v_tmp0 v_tmp1 0x20

/-- `unziplo`/`unziphi` on AVX and AVX2, egg/platform_x86.py:3485-3557. -/
def unzipAvx (w : Nat) (f : Half) (a b : Sh) : Sh :=
  match w with
  | 4 => unzipTemplPs f a b
  | 8 => unzipTemplPd f a b
  | 2 =>
    let v_tmp0_hi := exhi 16 a
    let v_tmp0_lo := exlo 16 a
    let v_tmp1_hi := exhi 16 b
    let v_tmp1_lo := exlo 16 b
    let v_tmp0_lo := unzipSse 2 f v_tmp0_lo v_tmp0_hi
    let v_tmp1_lo := unzipSse 2 f v_tmp1_lo v_tmp1_hi
    setr 16 v_tmp0_lo v_tmp1_lo
  | _ => unzipLoop 32 f a b

/-- `unziplo`/`unziphi` on AVX-512, egg/platform_x86.py:3588-3601. -/
def unzipAvx512 (w : Nat) (f : Half) (a b : Sh) : Sh :=
  let v00 := exlo 32 a
  let v01 := exhi 32 a
  let v10 := exlo 32 b
  let v11 := exhi 32 b
  let v00 := unzipAvx w f v00 v01
  let v01 := unzipAvx w f v10 v11
  setr 32 v00 v01

/-- `nsimd_{unziplo,unziphi}_{isa}_{t}`: the instruction set dispatch of
egg/platform_x86.py:3420-3601. -/
def unzipHalf : Isa → Nat → Half → Sh → Sh → Sh
  | .sse2 => unzipSse
  | .sse42 => unzipSse
  | .avx => unzipAvx
  | .avx2 => unzipAvx
  | .avx512 => unzipAvx512

/-- `unziplo`/`unziphi` of f16 vectors: egg/platform_x86.py:3447-3455 (SSE), 3509-3524 (AVX),
3559-3587 (AVX-512). -/
def unzipHalfF16 (isa : Isa) (f : Half) (a b : Sh × Sh) : Sh × Sh :=
  match isa with
  | .sse2 | .sse42 => (shuffle_ps a.1 a.2 (unzipMask f), shuffle_ps b.1 b.2 (unzipMask f))
  | .avx | .avx2 => (unzipTemplPs f a.1 a.2, unzipTemplPs f b.1 b.2)
  | .avx512 =>
    (setr 32 (unzipAvx 4 f (exlo 32 a.1) (exhi 32 a.1)) (unzipAvx 4 f (exlo 32 a.2) (exhi 32 a.2)),
      setr 32 (unzipAvx 4 f (exlo 32 b.1) (exhi 32 b.1))
        (unzipAvx 4 f (exlo 32 b.2) (exhi 32 b.2)))

/-- Run of a two-argument operator: result when `in0` holds `a` and `in1` holds `b`.
Not code of the repo. -/
def run2 (op : Sh → Sh → Sh) (junk a b : Bytes) : Bytes :=
  (op (.inp 0) (.inp 1)).eval (fun k => if k = 0 then a else b) junk

/-- Run of a two-argument operator on f16 vectors: the registers `v0`, `v1` of the result.
Not code of the repo. -/
def run2F16 (op : Sh × Sh → Sh × Sh → Sh × Sh) (junk : Bytes) (a b : Bytes × Bytes) :
    Bytes × Bytes :=
  let env : Nat → Bytes := fun k =>
    if k = 0 then a.1 else if k = 1 then a.2 else if k = 2 then b.1 else b.2
  let r := op (.inp 0, .inp 1) (.inp 2, .inp 3)
  (r.1.eval env junk, r.2.eval env junk)

end Nsimd.X86
