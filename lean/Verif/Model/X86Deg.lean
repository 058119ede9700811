import Verif.Model.X86Shuffle

/-!
# Degree 2, 3 and 4 loads and stores of the x86 back end (egg/x86_load_store_deg234.py)

One definition per code template.  For a load, `.inp k` is the `k`-th register loaded from
memory (`get_load_v0v1`, `get_load_v0v1v2`, `get_load_v0v1v2v3`, lines 38-47, 532-545,
1564-1575) and the list holds `ret.v0`, `ret.v1`, ...  For a store, `.inp k` is the `k`-th
argument register and the list holds the registers written at consecutive addresses
(`store2` lines 368-380, `store3` 1730-1747, `store4` 1125-1145).
Constant arguments such as `(3 << 4) | 1` are given by value.
-/

namespace Nsimd.X86

/-- `for (k = 0; k < n; ++k) s = f(s)`: the loops of egg/x86_load_store_deg234.py:1635-1652,
1666-1680, 1802-1832, 1890-1910. -/
def iter {α : Type} : Nat → (α → α) → α → α
  | 0, _, s => s
  | n + 1, f, s => iter n f (f s)

/-- `load2` of i8/u8 on SSE2, egg/x86_load_store_deg234.py:70-80. -/
def load2_sse2_8 : List Sh :=
  let A1 : Sh := unpacklo 1 (.inp 0) (.inp 1)
  let B2 : Sh := unpackhi 1 (.inp 0) (.inp 1)
  let A3 : Sh := unpacklo 1 A1 B2
  let B4 : Sh := unpackhi 1 A1 B2
  let A5 : Sh := unpacklo 1 A3 B4
  let B6 : Sh := unpackhi 1 A3 B4
  let ret0 : Sh := unpacklo 1 A5 B6
  let ret1 : Sh := unpackhi 1 A5 B6
  [ret0, ret1]

/-- `load2` of i8/u8 on SSE4.2, egg/x86_load_store_deg234.py:57-65. -/
def load2_sse42_8 : List Sh :=
  let mask : List Int := (mmSet [15, 13, 11, 9, 7, 5, 3, 1, 14, 12, 10, 8, 6, 4, 2, 0])
  let A0 : Sh := shuffle_epi8 (.inp 0) mask
  let B0 : Sh := shuffle_epi8 (.inp 1) mask
  let ret0 : Sh := perm64 A0 B0 0 0
  let ret1 : Sh := perm64 A0 B0 1 1
  [ret0, ret1]

/-- `load2` of i16/u16 on SSE2, egg/x86_load_store_deg234.py:97-105. -/
def load2_sse2_16 : List Sh :=
  let v2 : Sh := unpacklo 2 (.inp 0) (.inp 1)
  let v3 : Sh := unpackhi 2 (.inp 0) (.inp 1)
  let v5 : Sh := unpacklo 2 v2 v3
  let v6 : Sh := unpackhi 2 v2 v3
  let ret0 : Sh := unpacklo 2 v5 v6
  let ret1 : Sh := unpackhi 2 v5 v6
  [ret0, ret1]

/-- `load2` of i16/u16 on SSE4.2, egg/x86_load_store_deg234.py:84-92. -/
def load2_sse42_16 : List Sh :=
  let mask : List Int := (mmSet [15, 14, 11, 10, 7, 6, 3, 2, 13, 12, 9, 8, 5, 4, 1, 0])
  let A0 : Sh := shuffle_epi8 (.inp 0) mask
  let B0 : Sh := shuffle_epi8 (.inp 1) mask
  let ret0 : Sh := perm64 A0 B0 0 0
  let ret1 : Sh := perm64 A0 B0 1 1
  [ret0, ret1]

/-- `load2` of i32/u32/f32 on SSE2 and SSE4.2, egg/x86_load_store_deg234.py:107-113. -/
def load2_sse_32 : List Sh :=
  let A0 : Sh := unpacklo 4 (.inp 0) (.inp 1)
  let B0 : Sh := unpackhi 4 (.inp 0) (.inp 1)
  let ret0 : Sh := unpacklo 4 A0 B0
  let ret1 : Sh := unpackhi 4 A0 B0
  [ret0, ret1]

/-- `load2` of i64/u64/f64 on SSE2 and SSE4.2, egg/x86_load_store_deg234.py:115-119. -/
def load2_sse_64 : List Sh :=
  let ret0 : Sh := unpacklo 8 (.inp 0) (.inp 1)
  let ret1 : Sh := unpackhi 8 (.inp 0) (.inp 1)
  [ret0, ret1]

/-- `load2` of i8/u8 on AVX, egg/x86_load_store_deg234.py:153-176. -/
def load2_avx_8 : List Sh :=
  let v0a : Sh := exlo 16 (.inp 0)
  let v0b : Sh := exhi 16 (.inp 0)
  let v1a : Sh := exlo 16 (.inp 1)
  let v1b : Sh := exhi 16 (.inp 1)
  let mask : List Int := (mmSet [15, 13, 11, 9, 7, 5, 3, 1, 14, 12, 10, 8, 6, 4, 2, 0])
  let A0a : Sh := shuffle_epi8 v0a mask
  let B0a : Sh := shuffle_epi8 v1a mask
  let A1a : Sh := perm64 A0a B0a 0 0
  let B1a : Sh := perm64 A0a B0a 1 1
  let A0b : Sh := shuffle_epi8 v0b mask
  let B0b : Sh := shuffle_epi8 v1b mask
  let A1b : Sh := perm64 A0b B0b 0 0
  let B1b : Sh := perm64 A0b B0b 1 1
  let ret0 : Sh := setr 16 A1a A1b
  let ret1 : Sh := setr 16 B1a B1b
  [ret0, ret1]

/-- `load2` of i8/u8 on AVX2, egg/x86_load_store_deg234.py:134-150. -/
def load2_avx2_8 : List Sh :=
  let mask : List Int := [0, 2, 4, 6, 8, 10, 12, 14, 1, 3, 5, 7, 9, 11, 13, 15, 0, 2, 4, 6, 8,
      10, 12, 14, 1, 3, 5, 7, 9, 11, 13, 15]
  let A1 : Sh := shuffle_epi8 (.inp 0) mask
  let B1 : Sh := shuffle_epi8 (.inp 1) mask
  let A2 : Sh := permute4x64 A1 (mmShuffle 3 1 2 0)
  let B2 : Sh := permute4x64 B1 (mmShuffle 3 1 2 0)
  let ret0 : Sh := permute2f128 A2 B2 32
  let ret1 : Sh := permute2f128 A2 B2 49
  [ret0, ret1]

/-- `load2` of i16/u16 on AVX, egg/x86_load_store_deg234.py:198-222. -/
def load2_avx_16 : List Sh :=
  let Aa : Sh := exlo 16 (.inp 0)
  let Ba : Sh := exhi 16 (.inp 0)
  let Ab : Sh := exlo 16 (.inp 1)
  let Bb : Sh := exhi 16 (.inp 1)
  let mask : List Int := (mmSet [15, 14, 11, 10, 7, 6, 3, 2, 13, 12, 9, 8, 5, 4, 1, 0])
  let XY0 : Sh := shuffle_epi8 Aa mask
  let XY1 : Sh := shuffle_epi8 Ba mask
  let Xa : Sh := perm64 XY0 XY1 0 0
  let Ya : Sh := perm64 XY0 XY1 1 1
  let XY0 : Sh := shuffle_epi8 Ab mask
  let XY1 : Sh := shuffle_epi8 Bb mask
  let Xb : Sh := perm64 XY0 XY1 0 0
  let Yb : Sh := perm64 XY0 XY1 1 1
  let ret0 : Sh := setr 16 Xa Xb
  let ret1 : Sh := setr 16 Ya Yb
  [ret0, ret1]

/-- `load2` of i16/u16 on AVX2, egg/x86_load_store_deg234.py:186-195. -/
def load2_avx2_16 : List Sh :=
  let A1 : Sh := unpacklo 2 (.inp 0) (.inp 1)
  let B1 : Sh := unpackhi 2 (.inp 0) (.inp 1)
  let A2 : Sh := unpacklo 2 A1 B1
  let B2 : Sh := unpackhi 2 A1 B1
  let ret0 : Sh := unpacklo 2 A2 B2
  let ret1 : Sh := unpackhi 2 A2 B2
  [ret0, ret1]

/-- `load2` of f32 on AVX and AVX2 (also i32/u32 on AVX, lines 247-251),
egg/x86_load_store_deg234.py:228-234. -/
def load2_avx_f32 : List Sh :=
  let A1 : Sh := unpacklo 4 (.inp 0) (.inp 1)
  let B1 : Sh := unpackhi 4 (.inp 0) (.inp 1)
  let ret0 : Sh := unpacklo 4 A1 B1
  let ret1 : Sh := unpackhi 4 A1 B1
  [ret0, ret1]

/-- `load2` of i32/u32 on AVX2, egg/x86_load_store_deg234.py:238-244. -/
def load2_avx2_i32 : List Sh :=
  let A1 : Sh := unpacklo 4 (.inp 0) (.inp 1)
  let B1 : Sh := unpackhi 4 (.inp 0) (.inp 1)
  let ret0 : Sh := unpacklo 4 A1 B1
  let ret1 : Sh := unpackhi 4 A1 B1
  [ret0, ret1]

/-- `load2` of f64 on AVX and AVX2 (also i64/u64 on AVX, lines 268-272),
egg/x86_load_store_deg234.py:253-257. -/
def load2_avx_f64 : List Sh :=
  let ret0 : Sh := unpacklo 8 (.inp 0) (.inp 1)
  let ret1 : Sh := unpackhi 8 (.inp 0) (.inp 1)
  [ret0, ret1]

/-- `load2` of i64/u64 on AVX2, egg/x86_load_store_deg234.py:261-265. -/
def load2_avx2_i64 : List Sh :=
  let ret0 : Sh := unpacklo 8 (.inp 0) (.inp 1)
  let ret1 : Sh := unpackhi 8 (.inp 0) (.inp 1)
  [ret0, ret1]

/-- `load2` of i8/u8 on AVX-512, egg/x86_load_store_deg234.py:285-315. -/
def load2_avx512_8 : List Sh :=
  let A0 : Sh := exlo 32 (.inp 0)
  let B0 : Sh := exhi 32 (.inp 0)
  let C0 : Sh := exlo 32 (.inp 1)
  let D0 : Sh := exhi 32 (.inp 1)
  let mask : List Int := [0, 2, 4, 6, 8, 10, 12, 14, 1, 3, 5, 7, 9, 11, 13, 15, 0, 2, 4, 6, 8,
      10, 12, 14, 1, 3, 5, 7, 9, 11, 13, 15]
  let A1 : Sh := shuffle_epi8 A0 mask
  let B1 : Sh := shuffle_epi8 B0 mask
  let C1 : Sh := shuffle_epi8 C0 mask
  let D1 : Sh := shuffle_epi8 D0 mask
  let A2 : Sh := permute4x64 A1 (mmShuffle 3 1 2 0)
  let B2 : Sh := permute4x64 B1 (mmShuffle 3 1 2 0)
  let C2 : Sh := permute4x64 C1 (mmShuffle 3 1 2 0)
  let D2 : Sh := permute4x64 D1 (mmShuffle 3 1 2 0)
  let A3 : Sh := permute2f128 A2 B2 32
  let B3 : Sh := permute2f128 A2 B2 49
  let C3 : Sh := permute2f128 C2 D2 32
  let D3 : Sh := permute2f128 C2 D2 49
  let ret0 : Sh := setr 32 A3 C3
  let ret1 : Sh := setr 32 B3 D3
  [ret0, ret1]

/-- `load2` of i16/u16 on AVX-512, egg/x86_load_store_deg234.py:320-344. -/
def load2_avx512_16 : List Sh :=
  let A0a : Sh := exlo 32 (.inp 0)
  let B0a : Sh := exhi 32 (.inp 0)
  let A0b : Sh := exlo 32 (.inp 1)
  let B0b : Sh := exhi 32 (.inp 1)
  let A1 : Sh := unpacklo 2 A0a B0a
  let B1 : Sh := unpackhi 2 A0a B0a
  let A2 : Sh := unpacklo 2 A1 B1
  let B2 : Sh := unpackhi 2 A1 B1
  let A3a : Sh := unpacklo 2 A2 B2
  let B3a : Sh := unpackhi 2 A2 B2
  let A1 : Sh := unpacklo 2 A0b B0b
  let B1 : Sh := unpackhi 2 A0b B0b
  let A2 : Sh := unpacklo 2 A1 B1
  let B2 : Sh := unpackhi 2 A1 B1
  let A3b : Sh := unpacklo 2 A2 B2
  let B3b : Sh := unpackhi 2 A2 B2
  let ret0 : Sh := setr 32 A3a A3b
  let ret1 : Sh := setr 32 B3a B3b
  [ret0, ret1]

/-- `load2` of i32/u32/f32 on AVX-512, egg/x86_load_store_deg234.py:349-357. -/
def load2_avx512_32 : List Sh :=
  let mask1 : List Int := [0, 2, 4, 6, 8, 10, 12, 14, 16, 18, 20, 22, 24, 26, 28, 30]
  let mask2 : List Int := [1, 3, 5, 7, 9, 11, 13, 15, 17, 19, 21, 23, 25, 27, 29, 31]
  let ret0 : Sh := permutex2var 4 (.inp 0) mask1 (.inp 1)
  let ret1 : Sh := permutex2var 4 (.inp 0) mask2 (.inp 1)
  [ret0, ret1]

/-- `load2` of i64/u64/f64 on AVX-512, egg/x86_load_store_deg234.py:360-364. -/
def load2_avx512_64 : List Sh :=
  let ret0 : Sh := unpacklo 8 (.inp 0) (.inp 1)
  let ret1 : Sh := unpackhi 8 (.inp 0) (.inp 1)
  [ret0, ret1]

/-- `store2` of i8/u8 on SSE2 and SSE4.2, egg/x86_load_store_deg234.py:378-379. -/
def store2_normal_8 : List Sh :=
  [(unpacklo 1 (.inp 0) (.inp 1)), (unpackhi 1 (.inp 0) (.inp 1))]

/-- `store2` of i16/u16 on SSE2, SSE4.2 and AVX2, egg/x86_load_store_deg234.py:378-379. -/
def store2_normal_16 : List Sh :=
  [(unpacklo 2 (.inp 0) (.inp 1)), (unpackhi 2 (.inp 0) (.inp 1))]

/-- `store2` of i32/u32/f32 on SSE2, SSE4.2, AVX2 and of f32 on AVX,
egg/x86_load_store_deg234.py:378-379. -/
def store2_normal_32 : List Sh :=
  [(unpacklo 4 (.inp 0) (.inp 1)), (unpackhi 4 (.inp 0) (.inp 1))]

/-- `store2` of i64/u64/f64 on SSE2, SSE4.2, AVX2 and of f64 on AVX,
egg/x86_load_store_deg234.py:378-379. -/
def store2_normal_64 : List Sh :=
  [(unpacklo 8 (.inp 0) (.inp 1)), (unpackhi 8 (.inp 0) (.inp 1))]

/-- `store2` of i8/u8 on AVX, egg/x86_load_store_deg234.py:413-427. -/
def store2_avx_8 : List Sh :=
  let v0a : Sh := exlo 16 (.inp 0)
  let v0b : Sh := exhi 16 (.inp 0)
  let v1a : Sh := exlo 16 (.inp 1)
  let v1b : Sh := exhi 16 (.inp 1)
  let A1a : Sh := unpacklo 1 v0a v1a
  let B1a : Sh := unpackhi 1 v0a v1a
  let A1b : Sh := unpacklo 1 v0b v1b
  let B1b : Sh := unpackhi 1 v0b v1b
  let A1 : Sh := setr 16 A1a A1b
  let B1 : Sh := setr 16 B1a B1b
  [A1, B1]

/-- `store2` of i8/u8 on AVX2, egg/x86_load_store_deg234.py:393-406. -/
def store2_avx2_8 : List Sh :=
  let A1 : Sh := permute2f128 (.inp 0) (.inp 1) 32
  let B1 : Sh := permute2f128 (.inp 0) (.inp 1) 49
  let A2 : Sh := permute4x64 A1 (mmShuffle 3 1 2 0)
  let B2 : Sh := permute4x64 B1 (mmShuffle 3 1 2 0)
  let mask : List Int := [0, 8, 1, 9, 2, 10, 3, 11, 4, 12, 5, 13, 6, 14, 7, 15, 0, 8, 1, 9, 2,
      10, 3, 11, 4, 12, 5, 13, 6, 14, 7, 15]
  [(shuffle_epi8 A2 mask), (shuffle_epi8 B2 mask)]

/-- `store2` of i16/u16 on AVX, egg/x86_load_store_deg234.py:433-447. -/
def store2_avx_16 : List Sh :=
  let Xa : Sh := exlo 16 (.inp 0)
  let Xb : Sh := exhi 16 (.inp 0)
  let Ya : Sh := exlo 16 (.inp 1)
  let Yb : Sh := exhi 16 (.inp 1)
  let A0 : Sh := unpacklo 2 Xa Ya
  let B0 : Sh := unpackhi 2 Xa Ya
  let A1 : Sh := unpacklo 2 Xb Yb
  let B1 : Sh := unpackhi 2 Xb Yb
  let A : Sh := setr 16 A0 B0
  let B : Sh := setr 16 A1 B1
  [A, B]

/-- `store2` of i32/u32 on AVX (through f32), egg/x86_load_store_deg234.py:457-462. -/
def store2_avx_i32 : List Sh :=
  let v0 : Sh := .inp 0
  let v1 : Sh := .inp 1
  [(unpacklo 4 v0 v1), (unpackhi 4 v0 v1)]

/-- `store2` of i64/u64 on AVX (through f64), egg/x86_load_store_deg234.py:457-462. -/
def store2_avx_i64 : List Sh :=
  let v0 : Sh := .inp 0
  let v1 : Sh := .inp 1
  [(unpacklo 8 v0 v1), (unpackhi 8 v0 v1)]

/-- `store2` of i8/u8 on AVX-512, egg/x86_load_store_deg234.py:467-493. -/
def store2_avx512_8 : List Sh :=
  let A1 : Sh := exlo 32 (.inp 0)
  let B1 : Sh := exhi 32 (.inp 0)
  let C1 : Sh := exlo 32 (.inp 1)
  let D1 : Sh := exhi 32 (.inp 1)
  let A2 : Sh := permute2f128 A1 C1 32
  let B2 : Sh := permute2f128 A1 C1 49
  let C2 : Sh := permute2f128 B1 D1 32
  let D2 : Sh := permute2f128 B1 D1 49
  let A3 : Sh := permute4x64 A2 (mmShuffle 3 1 2 0)
  let B3 : Sh := permute4x64 B2 (mmShuffle 3 1 2 0)
  let C3 : Sh := permute4x64 C2 (mmShuffle 3 1 2 0)
  let D3 : Sh := permute4x64 D2 (mmShuffle 3 1 2 0)
  let mask : List Int := [0, 8, 1, 9, 2, 10, 3, 11, 4, 12, 5, 13, 6, 14, 7, 15, 0, 8, 1, 9, 2,
      10, 3, 11, 4, 12, 5, 13, 6, 14, 7, 15]
  let A4 : Sh := shuffle_epi8 A3 mask
  let B4 : Sh := shuffle_epi8 B3 mask
  let C4 : Sh := shuffle_epi8 C3 mask
  let D4 : Sh := shuffle_epi8 D3 mask
  [(setr 32 A4 B4), (setr 32 C4 D4)]

/-- `store2` of i16/u16 on AVX-512, egg/x86_load_store_deg234.py:499-510. -/
def store2_avx512_16 : List Sh :=
  let A0a : Sh := exlo 32 (.inp 0)
  let A0b : Sh := exhi 32 (.inp 0)
  let B0a : Sh := exlo 32 (.inp 1)
  let B0b : Sh := exhi 32 (.inp 1)
  let A1a : Sh := unpacklo 2 A0a B0a
  let B1a : Sh := unpackhi 2 A0a B0a
  let A1b : Sh := unpacklo 2 A0b B0b
  let B1b : Sh := unpackhi 2 A0b B0b
  [(setr 32 A1a B1a), (setr 32 A1b B1b)]

/-- `store2` of i32/u32/f32 on AVX-512, egg/x86_load_store_deg234.py:516-523. -/
def store2_avx512_32 : List Sh :=
  let mask1 : List Int := [0, 16, 1, 17, 2, 18, 3, 19, 4, 20, 5, 21, 6, 22, 7, 23]
  let mask2 : List Int := [8, 24, 9, 25, 10, 26, 11, 27, 12, 28, 13, 29, 14, 30, 15, 31]
  [(permutex2var 4 (.inp 0) mask1 (.inp 1)), (permutex2var 4 (.inp 0) mask2 (.inp 1))]

/-- `store2` of i64/u64/f64 on AVX-512, egg/x86_load_store_deg234.py:526-527. -/
def store2_avx512_64 : List Sh :=
  [(unpacklo 8 (.inp 0) (.inp 1)), (unpackhi 8 (.inp 0) (.inp 1))]

/-- `load4` of i8/u8 on SSE2, egg/x86_load_store_deg234.py:584-605. -/
def load4_sse2_8 : List Sh :=
  let A1 : Sh := unpacklo 1 (.inp 0) (.inp 2)
  let B1 : Sh := unpackhi 1 (.inp 0) (.inp 2)
  let C1 : Sh := unpacklo 1 (.inp 1) (.inp 3)
  let D1 : Sh := unpackhi 1 (.inp 1) (.inp 3)
  let A2 : Sh := unpacklo 1 A1 C1
  let B2 : Sh := unpackhi 1 A1 C1
  let C2 : Sh := unpacklo 1 B1 D1
  let D2 : Sh := unpackhi 1 B1 D1
  let A3 : Sh := unpacklo 1 A2 C2
  let B3 : Sh := unpackhi 1 A2 C2
  let C3 : Sh := unpacklo 1 B2 D2
  let D3 : Sh := unpackhi 1 B2 D2
  let ret0 : Sh := unpacklo 1 A3 C3
  let ret1 : Sh := unpackhi 1 A3 C3
  let ret2 : Sh := unpacklo 1 B3 D3
  let ret3 : Sh := unpackhi 1 B3 D3
  [ret0, ret1, ret2, ret3]

/-- `load4` of i8/u8 on SSE4.2, egg/x86_load_store_deg234.py:555-581. -/
def load4_sse42_8 : List Sh :=
  let mask : List Int := (mmSet [15, 11, 7, 3, 14, 10, 6, 2, 13, 9, 5, 1, 12, 8, 4, 0])
  let A1 : Sh := shuffle_epi8 (.inp 0) mask
  let B1 : Sh := shuffle_epi8 (.inp 1) mask
  let C1 : Sh := shuffle_epi8 (.inp 2) mask
  let D1 : Sh := shuffle_epi8 (.inp 3) mask
  let A2 : Sh := shuffle_pd A1 B1 (mmShuffle2 0 0)
  let A3 : Sh := shuffle_pd C1 D1 (mmShuffle2 0 0)
  let C2 : Sh := shuffle_pd A1 B1 (mmShuffle2 1 1)
  let C3 : Sh := shuffle_pd C1 D1 (mmShuffle2 1 1)
  let ret0 : Sh := shuffle_ps A2 A3 (mmShuffle 2 0 2 0)
  let ret1 : Sh := shuffle_ps A2 A3 (mmShuffle 3 1 3 1)
  let ret2 : Sh := shuffle_ps C2 C3 (mmShuffle 2 0 2 0)
  let ret3 : Sh := shuffle_ps C2 C3 (mmShuffle 3 1 3 1)
  [ret0, ret1, ret2, ret3]

/-- `load4` of i16/u16 on SSE2 and SSE4.2, egg/x86_load_store_deg234.py:608-624. -/
def load4_sse_16 : List Sh :=
  let E : Sh := unpacklo 2 (.inp 0) (.inp 1)
  let F : Sh := unpackhi 2 (.inp 0) (.inp 1)
  let G : Sh := unpacklo 2 (.inp 2) (.inp 3)
  let H : Sh := unpackhi 2 (.inp 2) (.inp 3)
  let I : Sh := unpacklo 2 E F
  let J : Sh := unpackhi 2 E F
  let K : Sh := unpacklo 2 G H
  let L : Sh := unpackhi 2 G H
  let ret0 : Sh := unpacklo 8 I K
  let ret1 : Sh := unpackhi 8 I K
  let ret2 : Sh := unpacklo 8 J L
  let ret3 : Sh := unpackhi 8 J L
  [ret0, ret1, ret2, ret3]

/-- `load4` of i32/u32/f32 on SSE2 and SSE4.2, egg/x86_load_store_deg234.py:627-639. -/
def load4_sse_32 : List Sh :=
  let A1 : Sh := unpacklo 4 (.inp 0) (.inp 2)
  let B1 : Sh := unpackhi 4 (.inp 0) (.inp 2)
  let C1 : Sh := unpacklo 4 (.inp 1) (.inp 3)
  let D1 : Sh := unpackhi 4 (.inp 1) (.inp 3)
  let ret0 : Sh := unpacklo 4 A1 C1
  let ret1 : Sh := unpackhi 4 A1 C1
  let ret2 : Sh := unpacklo 4 B1 D1
  let ret3 : Sh := unpackhi 4 B1 D1
  [ret0, ret1, ret2, ret3]

/-- `load4` of i64/u64/f64 on SSE2 and SSE4.2, egg/x86_load_store_deg234.py:642-648. -/
def load4_sse_64 : List Sh :=
  let ret0 : Sh := unpacklo 8 (.inp 0) (.inp 2)
  let ret1 : Sh := unpackhi 8 (.inp 0) (.inp 2)
  let ret2 : Sh := unpacklo 8 (.inp 1) (.inp 3)
  let ret3 : Sh := unpackhi 8 (.inp 1) (.inp 3)
  [ret0, ret1, ret2, ret3]

/-- `load4` of i8/u8 on AVX, egg/x86_load_store_deg234.py:698-760. -/
def load4_avx_8 : List Sh :=
  let Aa : Sh := exlo 16 (.inp 0)
  let Ba : Sh := exhi 16 (.inp 0)
  let Ca : Sh := exlo 16 (.inp 1)
  let Da : Sh := exhi 16 (.inp 1)
  let Ab : Sh := exlo 16 (.inp 2)
  let Bb : Sh := exhi 16 (.inp 2)
  let Cb : Sh := exlo 16 (.inp 3)
  let Db : Sh := exhi 16 (.inp 3)
  let mask : List Int := (mmSet [15, 11, 7, 3, 14, 10, 6, 2, 13, 9, 5, 1, 12, 8, 4, 0])
  let A1 : Sh := shuffle_epi8 Aa mask
  let B1 : Sh := shuffle_epi8 Ba mask
  let C1 : Sh := shuffle_epi8 Ca mask
  let D1 : Sh := shuffle_epi8 Da mask
  let A2 : Sh := shuffle_pd A1 B1 (mmShuffle2 0 0)
  let A3 : Sh := shuffle_pd C1 D1 (mmShuffle2 0 0)
  let C2 : Sh := shuffle_pd A1 B1 (mmShuffle2 1 1)
  let C3 : Sh := shuffle_pd C1 D1 (mmShuffle2 1 1)
  let Wa : Sh := shuffle_ps A2 A3 (mmShuffle 2 0 2 0)
  let Xa : Sh := shuffle_ps A2 A3 (mmShuffle 3 1 3 1)
  let Ya : Sh := shuffle_ps C2 C3 (mmShuffle 2 0 2 0)
  let Za : Sh := shuffle_ps C2 C3 (mmShuffle 3 1 3 1)
  let A1 : Sh := shuffle_epi8 Ab mask
  let B1 : Sh := shuffle_epi8 Bb mask
  let C1 : Sh := shuffle_epi8 Cb mask
  let D1 : Sh := shuffle_epi8 Db mask
  let A2 : Sh := shuffle_pd A1 B1 (mmShuffle2 0 0)
  let A3 : Sh := shuffle_pd C1 D1 (mmShuffle2 0 0)
  let C2 : Sh := shuffle_pd A1 B1 (mmShuffle2 1 1)
  let C3 : Sh := shuffle_pd C1 D1 (mmShuffle2 1 1)
  let Wb : Sh := shuffle_ps A2 A3 (mmShuffle 2 0 2 0)
  let Xb : Sh := shuffle_ps A2 A3 (mmShuffle 3 1 3 1)
  let Yb : Sh := shuffle_ps C2 C3 (mmShuffle 2 0 2 0)
  let Zb : Sh := shuffle_ps C2 C3 (mmShuffle 3 1 3 1)
  let ret0 : Sh := setr 16 Wa Wb
  let ret1 : Sh := setr 16 Xa Xb
  let ret2 : Sh := setr 16 Ya Yb
  let ret3 : Sh := setr 16 Za Zb
  [ret0, ret1, ret2, ret3]

/-- `load4` of i8/u8 on AVX2, egg/x86_load_store_deg234.py:667-695. -/
def load4_avx2_8 : List Sh :=
  let mask : List Int := [0, 4, 8, 12, 1, 5, 9, 13, 2, 6, 10, 14, 3, 7, 11, 15, 0, 4, 8, 12, 1,
      5, 9, 13, 2, 6, 10, 14, 3, 7, 11, 15]
  let mask2 : List Int := [0, 4, 1, 5, 2, 6, 3, 7]
  let A1 : Sh := shuffle_epi8 (.inp 0) mask
  let B1 : Sh := shuffle_epi8 (.inp 1) mask
  let C1 : Sh := shuffle_epi8 (.inp 2) mask
  let D1 : Sh := shuffle_epi8 (.inp 3) mask
  let A2 : Sh := permutevar8x32 A1 mask2
  let B2 : Sh := permutevar8x32 B1 mask2
  let C2 : Sh := permutevar8x32 C1 mask2
  let D2 : Sh := permutevar8x32 D1 mask2
  let A3 : Sh := permute2f128 A2 C2 32
  let C3 : Sh := permute2f128 B2 D2 32
  let B3 : Sh := permute2f128 A2 C2 49
  let D3 : Sh := permute2f128 B2 D2 49
  let ret0 : Sh := unpacklo 8 A3 C3
  let ret1 : Sh := unpackhi 8 A3 C3
  let ret2 : Sh := unpacklo 8 B3 D3
  let ret3 : Sh := unpackhi 8 B3 D3
  [ret0, ret1, ret2, ret3]

/-- `load4` of i16/u16 on AVX, egg/x86_load_store_deg234.py:789-850. -/
def load4_avx_16 : List Sh :=
  let Aa : Sh := exlo 16 (.inp 0)
  let Ba : Sh := exhi 16 (.inp 0)
  let Ca : Sh := exlo 16 (.inp 1)
  let Da : Sh := exhi 16 (.inp 1)
  let Ab : Sh := exlo 16 (.inp 2)
  let Bb : Sh := exhi 16 (.inp 2)
  let Cb : Sh := exlo 16 (.inp 3)
  let Db : Sh := exhi 16 (.inp 3)
  let mask : List Int := (mmSet [15, 14, 7, 6, 13, 12, 5, 4, 11, 10, 3, 2, 9, 8, 1, 0])
  let A1 : Sh := shuffle_epi8 Aa mask
  let B1 : Sh := shuffle_epi8 Ba mask
  let C1 : Sh := shuffle_epi8 Ca mask
  let D1 : Sh := shuffle_epi8 Da mask
  let A2 : Sh := shuffle_pd A1 B1 (mmShuffle2 0 0)
  let A3 : Sh := shuffle_pd C1 D1 (mmShuffle2 0 0)
  let C2 : Sh := shuffle_pd A1 B1 (mmShuffle2 1 1)
  let C3 : Sh := shuffle_pd C1 D1 (mmShuffle2 1 1)
  let Wa : Sh := shuffle_ps A2 A3 (mmShuffle 2 0 2 0)
  let Xa : Sh := shuffle_ps A2 A3 (mmShuffle 3 1 3 1)
  let Ya : Sh := shuffle_ps C2 C3 (mmShuffle 2 0 2 0)
  let Za : Sh := shuffle_ps C2 C3 (mmShuffle 3 1 3 1)
  let A1 : Sh := shuffle_epi8 Ab mask
  let B1 : Sh := shuffle_epi8 Bb mask
  let C1 : Sh := shuffle_epi8 Cb mask
  let D1 : Sh := shuffle_epi8 Db mask
  let A2 : Sh := shuffle_pd A1 B1 (mmShuffle2 0 0)
  let A3 : Sh := shuffle_pd C1 D1 (mmShuffle2 0 0)
  let C2 : Sh := shuffle_pd A1 B1 (mmShuffle2 1 1)
  let C3 : Sh := shuffle_pd C1 D1 (mmShuffle2 1 1)
  let Wb : Sh := shuffle_ps A2 A3 (mmShuffle 2 0 2 0)
  let Xb : Sh := shuffle_ps A2 A3 (mmShuffle 3 1 3 1)
  let Yb : Sh := shuffle_ps C2 C3 (mmShuffle 2 0 2 0)
  let Zb : Sh := shuffle_ps C2 C3 (mmShuffle 3 1 3 1)
  let ret0 : Sh := setr 16 Wa Wb
  let ret1 : Sh := setr 16 Xa Xb
  let ret2 : Sh := setr 16 Ya Yb
  let ret3 : Sh := setr 16 Za Zb
  [ret0, ret1, ret2, ret3]

/-- `load4` of i16/u16 on AVX2, egg/x86_load_store_deg234.py:768-786. -/
def load4_avx2_16 : List Sh :=
  let A1 : Sh := unpacklo 2 (.inp 0) (.inp 2)
  let B1 : Sh := unpackhi 2 (.inp 0) (.inp 2)
  let C1 : Sh := unpacklo 2 (.inp 1) (.inp 3)
  let D1 : Sh := unpackhi 2 (.inp 1) (.inp 3)
  let A2 : Sh := unpacklo 2 A1 C1
  let B2 : Sh := unpackhi 2 A1 C1
  let C2 : Sh := unpacklo 2 B1 D1
  let D2 : Sh := unpackhi 2 B1 D1
  let ret0 : Sh := unpacklo 2 A2 C2
  let ret1 : Sh := unpackhi 2 A2 C2
  let ret2 : Sh := unpacklo 2 B2 D2
  let ret3 : Sh := unpackhi 2 B2 D2
  [ret0, ret1, ret2, ret3]

/-- `load4` of f32 on AVX and AVX2 (also i32/u32 on AVX, lines 887-893),
egg/x86_load_store_deg234.py:856-867. -/
def load4_avx_f32 : List Sh :=
  let A1 : Sh := unpacklo 4 (.inp 0) (.inp 2)
  let B1 : Sh := unpackhi 4 (.inp 0) (.inp 2)
  let C1 : Sh := unpacklo 4 (.inp 1) (.inp 3)
  let D1 : Sh := unpackhi 4 (.inp 1) (.inp 3)
  let ret0 : Sh := unpacklo 4 A1 C1
  let ret1 : Sh := unpackhi 4 A1 C1
  let ret2 : Sh := unpacklo 4 B1 D1
  let ret3 : Sh := unpackhi 4 B1 D1
  [ret0, ret1, ret2, ret3]

/-- `load4` of i32/u32 on AVX2, egg/x86_load_store_deg234.py:871-884. -/
def load4_avx2_i32 : List Sh :=
  let A1 : Sh := unpacklo 4 (.inp 0) (.inp 2)
  let B1 : Sh := unpackhi 4 (.inp 0) (.inp 2)
  let C1 : Sh := unpacklo 4 (.inp 1) (.inp 3)
  let D1 : Sh := unpackhi 4 (.inp 1) (.inp 3)
  let ret0 : Sh := unpacklo 4 A1 C1
  let ret1 : Sh := unpackhi 4 A1 C1
  let ret2 : Sh := unpacklo 4 B1 D1
  let ret3 : Sh := unpackhi 4 B1 D1
  [ret0, ret1, ret2, ret3]

/-- `load4` of f64 on AVX and AVX2 (also i64/u64 on AVX, lines 928-934),
egg/x86_load_store_deg234.py:896-908. -/
def load4_avx_f64 : List Sh :=
  let A1 : Sh := permute2f128 (.inp 0) (.inp 2) 32
  let B1 : Sh := permute2f128 (.inp 0) (.inp 2) 49
  let C1 : Sh := permute2f128 (.inp 1) (.inp 3) 32
  let D1 : Sh := permute2f128 (.inp 1) (.inp 3) 49
  let ret0 : Sh := unpacklo 8 A1 C1
  let ret1 : Sh := unpackhi 8 A1 C1
  let ret2 : Sh := unpacklo 8 B1 D1
  let ret3 : Sh := unpackhi 8 B1 D1
  [ret0, ret1, ret2, ret3]

/-- `load4` of i64/u64 on AVX2, egg/x86_load_store_deg234.py:912-925. -/
def load4_avx2_i64 : List Sh :=
  let A1 : Sh := permute2f128 (.inp 0) (.inp 2) 32
  let B1 : Sh := permute2f128 (.inp 0) (.inp 2) 49
  let C1 : Sh := permute2f128 (.inp 1) (.inp 3) 32
  let D1 : Sh := permute2f128 (.inp 1) (.inp 3) 49
  let ret0 : Sh := unpacklo 8 A1 C1
  let ret1 : Sh := unpackhi 8 A1 C1
  let ret2 : Sh := unpacklo 8 B1 D1
  let ret3 : Sh := unpackhi 8 B1 D1
  [ret0, ret1, ret2, ret3]

/-- `load4` of i8/u8 on AVX-512, egg/x86_load_store_deg234.py:952-1016. -/
def load4_avx512_8 : List Sh :=
  let A0a : Sh := exlo 32 (.inp 0)
  let B0a : Sh := exhi 32 (.inp 0)
  let C0a : Sh := exlo 32 (.inp 1)
  let D0a : Sh := exhi 32 (.inp 1)
  let A0b : Sh := exlo 32 (.inp 2)
  let B0b : Sh := exhi 32 (.inp 2)
  let C0b : Sh := exlo 32 (.inp 3)
  let D0b : Sh := exhi 32 (.inp 3)
  let mask : List Int := [0, 4, 8, 12, 1, 5, 9, 13, 2, 6, 10, 14, 3, 7, 11, 15, 0, 4, 8, 12, 1,
      5, 9, 13, 2, 6, 10, 14, 3, 7, 11, 15]
  let mask2 : List Int := [0, 4, 1, 5, 2, 6, 3, 7]
  let A1 : Sh := shuffle_epi8 A0a mask
  let B1 : Sh := shuffle_epi8 B0a mask
  let C1 : Sh := shuffle_epi8 C0a mask
  let D1 : Sh := shuffle_epi8 D0a mask
  let A2 : Sh := permutevar8x32 A1 mask2
  let B2 : Sh := permutevar8x32 B1 mask2
  let C2 : Sh := permutevar8x32 C1 mask2
  let D2 : Sh := permutevar8x32 D1 mask2
  let A3 : Sh := permute2f128 A2 C2 32
  let C3 : Sh := permute2f128 B2 D2 32
  let B3 : Sh := permute2f128 A2 C2 49
  let D3 : Sh := permute2f128 B2 D2 49
  let A4a : Sh := unpacklo 8 A3 C3
  let B4a : Sh := unpackhi 8 A3 C3
  let C4a : Sh := unpacklo 8 B3 D3
  let D4a : Sh := unpackhi 8 B3 D3
  let A1 : Sh := shuffle_epi8 A0b mask
  let B1 : Sh := shuffle_epi8 B0b mask
  let C1 : Sh := shuffle_epi8 C0b mask
  let D1 : Sh := shuffle_epi8 D0b mask
  let A2 : Sh := permutevar8x32 A1 mask2
  let B2 : Sh := permutevar8x32 B1 mask2
  let C2 : Sh := permutevar8x32 C1 mask2
  let D2 : Sh := permutevar8x32 D1 mask2
  let A3 : Sh := permute2f128 A2 C2 32
  let C3 : Sh := permute2f128 B2 D2 32
  let B3 : Sh := permute2f128 A2 C2 49
  let D3 : Sh := permute2f128 B2 D2 49
  let A4b : Sh := unpacklo 8 A3 C3
  let B4b : Sh := unpackhi 8 A3 C3
  let C4b : Sh := unpacklo 8 B3 D3
  let D4b : Sh := unpackhi 8 B3 D3
  let ret0 : Sh := setr 32 A4a A4b
  let ret1 : Sh := setr 32 B4a B4b
  let ret2 : Sh := setr 32 C4a C4b
  let ret3 : Sh := setr 32 D4a D4b
  [ret0, ret1, ret2, ret3]

/-- `load4` of i16/u16 on AVX-512, egg/x86_load_store_deg234.py:1023-1071. -/
def load4_avx512_16 : List Sh :=
  let A0a : Sh := exlo 32 (.inp 0)
  let B0a : Sh := exhi 32 (.inp 0)
  let C0a : Sh := exlo 32 (.inp 1)
  let D0a : Sh := exhi 32 (.inp 1)
  let A0b : Sh := exlo 32 (.inp 2)
  let B0b : Sh := exhi 32 (.inp 2)
  let C0b : Sh := exlo 32 (.inp 3)
  let D0b : Sh := exhi 32 (.inp 3)
  let A1 : Sh := unpacklo 2 A0a C0a
  let B1 : Sh := unpackhi 2 A0a C0a
  let C1 : Sh := unpacklo 2 B0a D0a
  let D1 : Sh := unpackhi 2 B0a D0a
  let A2 : Sh := unpacklo 2 A1 C1
  let B2 : Sh := unpackhi 2 A1 C1
  let C2 : Sh := unpacklo 2 B1 D1
  let D2 : Sh := unpackhi 2 B1 D1
  let A3a : Sh := unpacklo 2 A2 C2
  let B3a : Sh := unpackhi 2 A2 C2
  let C3a : Sh := unpacklo 2 B2 D2
  let D3a : Sh := unpackhi 2 B2 D2
  let A1 : Sh := unpacklo 2 A0b C0b
  let B1 : Sh := unpackhi 2 A0b C0b
  let C1 : Sh := unpacklo 2 B0b D0b
  let D1 : Sh := unpackhi 2 B0b D0b
  let A2 : Sh := unpacklo 2 A1 C1
  let B2 : Sh := unpackhi 2 A1 C1
  let C2 : Sh := unpacklo 2 B1 D1
  let D2 : Sh := unpackhi 2 B1 D1
  let A3b : Sh := unpacklo 2 A2 C2
  let B3b : Sh := unpackhi 2 A2 C2
  let C3b : Sh := unpacklo 2 B2 D2
  let D3b : Sh := unpackhi 2 B2 D2
  let ret0 : Sh := setr 32 A3a A3b
  let ret1 : Sh := setr 32 B3a B3b
  let ret2 : Sh := setr 32 C3a C3b
  let ret3 : Sh := setr 32 D3a D3b
  [ret0, ret1, ret2, ret3]

/-- `load4` of i32/u32/f32 on AVX-512, egg/x86_load_store_deg234.py:1078-1101. -/
def load4_avx512_32 : List Sh :=
  let WXm : List Int := [0, 4, 8, 12, 16, 20, 24, 28, 1, 5, 9, 13, 17, 21, 25, 29]
  let YZm : List Int := [2, 6, 10, 14, 18, 22, 26, 30, 3, 7, 11, 15, 19, 23, 27, 31]
  let Wm : List Int := [0, 1, 2, 3, 4, 5, 6, 7, 16, 17, 18, 19, 20, 21, 22, 23]
  let Xm : List Int := [8, 9, 10, 11, 12, 13, 14, 15, 24, 25, 26, 27, 28, 29, 30, 31]
  let WXa : Sh := permutex2var 4 (.inp 0) WXm (.inp 1)
  let WXb : Sh := permutex2var 4 (.inp 2) WXm (.inp 3)
  let YZa : Sh := permutex2var 4 (.inp 0) YZm (.inp 1)
  let YZb : Sh := permutex2var 4 (.inp 2) YZm (.inp 3)
  let ret0 : Sh := permutex2var 4 WXa Wm WXb
  let ret1 : Sh := permutex2var 4 WXa Xm WXb
  let ret2 : Sh := permutex2var 4 YZa Wm YZb
  let ret3 : Sh := permutex2var 4 YZa Xm YZb
  [ret0, ret1, ret2, ret3]

/-- `load4` of i64/u64/f64 on AVX-512, egg/x86_load_store_deg234.py:1104-1121. -/
def load4_avx512_64 : List Sh :=
  let A1 : Sh := unpacklo 8 (.inp 0) (.inp 1)
  let B1 : Sh := unpacklo 8 (.inp 2) (.inp 3)
  let C1 : Sh := unpackhi 8 (.inp 0) (.inp 1)
  let D1 : Sh := unpackhi 8 (.inp 2) (.inp 3)
  let A_mask : List Int := (mmSet [13, 9, 12, 8, 5, 1, 4, 0])
  let B_mask : List Int := (mmSet [15, 11, 14, 10, 7, 3, 6, 2])
  let ret0 : Sh := permutex2var 8 A1 A_mask B1
  let ret1 : Sh := permutex2var 8 C1 A_mask D1
  let ret2 : Sh := permutex2var 8 A1 B_mask B1
  let ret3 : Sh := permutex2var 8 C1 B_mask D1
  [ret0, ret1, ret2, ret3]

/-- `store4` of i8/u8 on SSE2 and SSE4.2, egg/x86_load_store_deg234.py:1153-1163. -/
def store4_sse_8 : List Sh :=
  let A5 : Sh := unpacklo 1 (.inp 0) (.inp 2)
  let B5 : Sh := unpackhi 1 (.inp 0) (.inp 2)
  let C5 : Sh := unpacklo 1 (.inp 1) (.inp 3)
  let D5 : Sh := unpackhi 1 (.inp 1) (.inp 3)
  let A6 : Sh := unpacklo 1 A5 C5
  let B6 : Sh := unpackhi 1 A5 C5
  let C6 : Sh := unpacklo 1 B5 D5
  let D6 : Sh := unpackhi 1 B5 D5
  [A6, B6, C6, D6]

/-- `store4` of i16/u16 on SSE2 and SSE4.2, egg/x86_load_store_deg234.py:1167-1177. -/
def store4_sse_16 : List Sh :=
  let Q : Sh := unpacklo 2 (.inp 0) (.inp 1)
  let R : Sh := unpackhi 2 (.inp 0) (.inp 1)
  let S : Sh := unpacklo 2 (.inp 2) (.inp 3)
  let T : Sh := unpackhi 2 (.inp 2) (.inp 3)
  let U : Sh := unpacklo 4 Q S
  let V : Sh := unpackhi 4 Q S
  let W : Sh := unpacklo 4 R T
  let X : Sh := unpackhi 4 R T
  [U, V, W, X]

/-- `store4` of i32/u32/f32 on SSE2 and SSE4.2, egg/x86_load_store_deg234.py:1181-1191. -/
def store4_sse_32 : List Sh :=
  let A3 : Sh := unpacklo 4 (.inp 0) (.inp 2)
  let B3 : Sh := unpackhi 4 (.inp 0) (.inp 2)
  let C3 : Sh := unpacklo 4 (.inp 1) (.inp 3)
  let D3 : Sh := unpackhi 4 (.inp 1) (.inp 3)
  let A4 : Sh := unpacklo 4 A3 C3
  let B4 : Sh := unpackhi 4 A3 C3
  let C4 : Sh := unpacklo 4 B3 D3
  let D4 : Sh := unpackhi 4 B3 D3
  [A4, B4, C4, D4]

/-- `store4` of i64/u64/f64 on SSE2 and SSE4.2, egg/x86_load_store_deg234.py:1195-1199. -/
def store4_sse_64 : List Sh :=
  let A0 : Sh := unpacklo 8 (.inp 0) (.inp 1)
  let B0 : Sh := unpacklo 8 (.inp 2) (.inp 3)
  let C0 : Sh := unpackhi 8 (.inp 0) (.inp 1)
  let D0 : Sh := unpackhi 8 (.inp 2) (.inp 3)
  [A0, B0, C0, D0]

/-- `store4` of i8/u8 on AVX, egg/x86_load_store_deg234.py:1237-1271. -/
def store4_avx_8 : List Sh :=
  let Wa : Sh := exlo 16 (.inp 0)
  let Wb : Sh := exhi 16 (.inp 0)
  let Xa : Sh := exlo 16 (.inp 1)
  let Xb : Sh := exhi 16 (.inp 1)
  let Ya : Sh := exlo 16 (.inp 2)
  let Yb : Sh := exhi 16 (.inp 2)
  let Za : Sh := exlo 16 (.inp 3)
  let Zb : Sh := exhi 16 (.inp 3)
  let AA : Sh := unpacklo 1 Wa Ya
  let BB : Sh := unpackhi 1 Wa Ya
  let CC : Sh := unpacklo 1 Xa Za
  let DD : Sh := unpackhi 1 Xa Za
  let A0 : Sh := unpacklo 1 AA CC
  let B0 : Sh := unpackhi 1 AA CC
  let C0 : Sh := unpacklo 1 BB DD
  let D0 : Sh := unpackhi 1 BB DD
  let AA : Sh := unpacklo 1 Wb Yb
  let BB : Sh := unpackhi 1 Wb Yb
  let CC : Sh := unpacklo 1 Xb Zb
  let DD : Sh := unpackhi 1 Xb Zb
  let A1 : Sh := unpacklo 1 AA CC
  let B1 : Sh := unpackhi 1 AA CC
  let C1 : Sh := unpacklo 1 BB DD
  let D1 : Sh := unpackhi 1 BB DD
  let A : Sh := setr 16 A0 B0
  let B : Sh := setr 16 C0 D0
  let C : Sh := setr 16 A1 B1
  let D : Sh := setr 16 C1 D1
  [A, B, C, D]

/-- `store4` of i8/u8 on AVX2, egg/x86_load_store_deg234.py:1218-1233. -/
def store4_avx2_8 : List Sh :=
  let A1 : Sh := unpacklo 1 (.inp 0) (.inp 2)
  let B1 : Sh := unpackhi 1 (.inp 0) (.inp 2)
  let C1 : Sh := unpacklo 1 (.inp 1) (.inp 3)
  let D1 : Sh := unpackhi 1 (.inp 1) (.inp 3)
  let A2 : Sh := permute4x64 A1 (mmShuffle 3 1 2 0)
  let B2 : Sh := permute4x64 B1 (mmShuffle 3 1 2 0)
  let C2 : Sh := permute4x64 C1 (mmShuffle 3 1 2 0)
  let D2 : Sh := permute4x64 D1 (mmShuffle 3 1 2 0)
  let A : Sh := unpacklo 1 A2 C2
  let B : Sh := unpacklo 1 B2 D2
  let C : Sh := unpackhi 1 A2 C2
  let D : Sh := unpackhi 1 B2 D2
  [A, B, C, D]

/-- `store4` of i16/u16 on AVX, egg/x86_load_store_deg234.py:1294-1328. -/
def store4_avx_16 : List Sh :=
  let Wa : Sh := exlo 16 (.inp 0)
  let Wb : Sh := exhi 16 (.inp 0)
  let Xa : Sh := exlo 16 (.inp 1)
  let Xb : Sh := exhi 16 (.inp 1)
  let Ya : Sh := exlo 16 (.inp 2)
  let Yb : Sh := exhi 16 (.inp 2)
  let Za : Sh := exlo 16 (.inp 3)
  let Zb : Sh := exhi 16 (.inp 3)
  let AA : Sh := unpacklo 2 Wa Ya
  let BB : Sh := unpackhi 2 Wa Ya
  let CC : Sh := unpacklo 2 Xa Za
  let DD : Sh := unpackhi 2 Xa Za
  let A0 : Sh := unpacklo 2 AA CC
  let B0 : Sh := unpackhi 2 AA CC
  let C0 : Sh := unpacklo 2 BB DD
  let D0 : Sh := unpackhi 2 BB DD
  let AA : Sh := unpacklo 2 Wb Yb
  let BB : Sh := unpackhi 2 Wb Yb
  let CC : Sh := unpacklo 2 Xb Zb
  let DD : Sh := unpackhi 2 Xb Zb
  let A1 : Sh := unpacklo 2 AA CC
  let B1 : Sh := unpackhi 2 AA CC
  let C1 : Sh := unpacklo 2 BB DD
  let D1 : Sh := unpackhi 2 BB DD
  let A : Sh := setr 16 A0 B0
  let B : Sh := setr 16 C0 D0
  let C : Sh := setr 16 A1 B1
  let D : Sh := setr 16 C1 D1
  [A, B, C, D]

/-- `store4` of i16/u16 on AVX2, egg/x86_load_store_deg234.py:1280-1290. -/
def store4_avx2_16 : List Sh :=
  let A3 : Sh := unpacklo 2 (.inp 0) (.inp 2)
  let B3 : Sh := unpackhi 2 (.inp 0) (.inp 2)
  let C3 : Sh := unpacklo 2 (.inp 1) (.inp 3)
  let D3 : Sh := unpackhi 2 (.inp 1) (.inp 3)
  let A : Sh := unpacklo 2 A3 C3
  let B : Sh := unpackhi 2 A3 C3
  let C : Sh := unpacklo 2 B3 D3
  let D : Sh := unpackhi 2 B3 D3
  [A, B, C, D]

/-- `store4` of f32 on AVX and AVX2 (also i32/u32 on AVX, lines 1365-1369),
egg/x86_load_store_deg234.py:1336-1346. -/
def store4_avx_f32 : List Sh :=
  let A3 : Sh := unpacklo 4 (.inp 0) (.inp 2)
  let B3 : Sh := unpackhi 4 (.inp 0) (.inp 2)
  let C3 : Sh := unpacklo 4 (.inp 1) (.inp 3)
  let D3 : Sh := unpackhi 4 (.inp 1) (.inp 3)
  let A : Sh := unpacklo 4 A3 C3
  let B : Sh := unpackhi 4 A3 C3
  let C : Sh := unpacklo 4 B3 D3
  let D : Sh := unpackhi 4 B3 D3
  [A, B, C, D]

/-- `store4` of i32/u32 on AVX2, egg/x86_load_store_deg234.py:1351-1361. -/
def store4_avx2_i32 : List Sh :=
  let A3 : Sh := unpacklo 4 (.inp 0) (.inp 2)
  let B3 : Sh := unpackhi 4 (.inp 0) (.inp 2)
  let C3 : Sh := unpacklo 4 (.inp 1) (.inp 3)
  let D3 : Sh := unpackhi 4 (.inp 1) (.inp 3)
  let A : Sh := unpacklo 4 A3 C3
  let B : Sh := unpackhi 4 A3 C3
  let C : Sh := unpacklo 4 B3 D3
  let D : Sh := unpackhi 4 B3 D3
  [A, B, C, D]

/-- `store4` of f64 on AVX and AVX2 (also i64/u64 on AVX, lines 1405-1409),
egg/x86_load_store_deg234.py:1373-1383. -/
def store4_avx_f64 : List Sh :=
  let A3 : Sh := permute2f128 (.inp 0) (.inp 2) 32
  let B3 : Sh := permute2f128 (.inp 1) (.inp 3) 32
  let C3 : Sh := permute2f128 (.inp 0) (.inp 2) 49
  let D3 : Sh := permute2f128 (.inp 1) (.inp 3) 49
  let A : Sh := unpacklo 8 A3 B3
  let B : Sh := unpackhi 8 A3 B3
  let C : Sh := unpacklo 8 C3 D3
  let D : Sh := unpackhi 8 C3 D3
  [A, B, C, D]

/-- `store4` of i64/u64 on AVX2, egg/x86_load_store_deg234.py:1389-1401. -/
def store4_avx2_i64 : List Sh :=
  let A3 : Sh := permute2f128 (.inp 0) (.inp 2) 32
  let B3 : Sh := permute2f128 (.inp 1) (.inp 3) 32
  let C3 : Sh := permute2f128 (.inp 0) (.inp 2) 49
  let D3 : Sh := permute2f128 (.inp 1) (.inp 3) 49
  let A : Sh := unpacklo 8 A3 B3
  let B : Sh := unpackhi 8 A3 B3
  let C : Sh := unpacklo 8 C3 D3
  let D : Sh := unpackhi 8 C3 D3
  [A, B, C, D]

/-- `store4` of i8/u8 on AVX-512, egg/x86_load_store_deg234.py:1427-1471. -/
def store4_avx512_8 : List Sh :=
  let A0a : Sh := exlo 32 (.inp 0)
  let A0b : Sh := exhi 32 (.inp 0)
  let B0a : Sh := exlo 32 (.inp 1)
  let B0b : Sh := exhi 32 (.inp 1)
  let C0a : Sh := exlo 32 (.inp 2)
  let C0b : Sh := exhi 32 (.inp 2)
  let D0a : Sh := exlo 32 (.inp 3)
  let D0b : Sh := exhi 32 (.inp 3)
  let A1 : Sh := unpacklo 1 A0a C0a
  let B1 : Sh := unpackhi 1 A0a C0a
  let C1 : Sh := unpacklo 1 B0a D0a
  let D1 : Sh := unpackhi 1 B0a D0a
  let A2 : Sh := permute4x64 A1 (mmShuffle 3 1 2 0)
  let B2 : Sh := permute4x64 B1 (mmShuffle 3 1 2 0)
  let C2 : Sh := permute4x64 C1 (mmShuffle 3 1 2 0)
  let D2 : Sh := permute4x64 D1 (mmShuffle 3 1 2 0)
  let A3a : Sh := unpacklo 1 A2 C2
  let B3a : Sh := unpacklo 1 B2 D2
  let C3a : Sh := unpackhi 1 A2 C2
  let D3a : Sh := unpackhi 1 B2 D2
  let A1 : Sh := unpacklo 1 A0b C0b
  let B1 : Sh := unpackhi 1 A0b C0b
  let C1 : Sh := unpacklo 1 B0b D0b
  let D1 : Sh := unpackhi 1 B0b D0b
  let A2 : Sh := permute4x64 A1 (mmShuffle 3 1 2 0)
  let B2 : Sh := permute4x64 B1 (mmShuffle 3 1 2 0)
  let C2 : Sh := permute4x64 C1 (mmShuffle 3 1 2 0)
  let D2 : Sh := permute4x64 D1 (mmShuffle 3 1 2 0)
  let A3b : Sh := unpacklo 1 A2 C2
  let B3b : Sh := unpacklo 1 B2 D2
  let C3b : Sh := unpackhi 1 A2 C2
  let D3b : Sh := unpackhi 1 B2 D2
  let A : Sh := setr 32 A3a B3a
  let B : Sh := setr 32 C3a D3a
  let C : Sh := setr 32 A3b B3b
  let D : Sh := setr 32 C3b D3b
  [A, B, C, D]

/-- `store4` of i16/u16 on AVX-512, egg/x86_load_store_deg234.py:1479-1513. -/
def store4_avx512_16 : List Sh :=
  let A0a : Sh := exlo 32 (.inp 0)
  let A0b : Sh := exhi 32 (.inp 0)
  let B0a : Sh := exlo 32 (.inp 1)
  let B0b : Sh := exhi 32 (.inp 1)
  let C0a : Sh := exlo 32 (.inp 2)
  let C0b : Sh := exhi 32 (.inp 2)
  let D0a : Sh := exlo 32 (.inp 3)
  let D0b : Sh := exhi 32 (.inp 3)
  let A3 : Sh := unpacklo 2 A0a C0a
  let B3 : Sh := unpackhi 2 A0a C0a
  let C3 : Sh := unpacklo 2 B0a D0a
  let D3 : Sh := unpackhi 2 B0a D0a
  let A4a : Sh := unpacklo 2 A3 C3
  let B4a : Sh := unpackhi 2 A3 C3
  let C4a : Sh := unpacklo 2 B3 D3
  let D4a : Sh := unpackhi 2 B3 D3
  let A3 : Sh := unpacklo 2 A0b C0b
  let B3 : Sh := unpackhi 2 A0b C0b
  let C3 : Sh := unpacklo 2 B0b D0b
  let D3 : Sh := unpackhi 2 B0b D0b
  let A4b : Sh := unpacklo 2 A3 C3
  let B4b : Sh := unpackhi 2 A3 C3
  let C4b : Sh := unpacklo 2 B3 D3
  let D4b : Sh := unpackhi 2 B3 D3
  let A : Sh := setr 32 A4a B4a
  let B : Sh := setr 32 C4a D4a
  let C : Sh := setr 32 A4b B4b
  let D : Sh := setr 32 C4b D4b
  [A, B, C, D]

/-- `store4` of i32/u32/f32 on AVX-512, egg/x86_load_store_deg234.py:1521-1540. -/
def store4_avx512_32 : List Sh :=
  let m1 : List Int := [0, 1, 2, 3, 16, 17, 18, 19, 4, 5, 6, 7, 20, 21, 22, 23]
  let m2 : List Int := [8, 9, 10, 11, 24, 25, 26, 27, 12, 13, 14, 15, 28, 29, 30, 31]
  let m3 : List Int := [0, 4, 16, 20, 1, 5, 17, 21, 2, 6, 18, 22, 3, 7, 19, 23]
  let m4 : List Int := [8, 12, 24, 28, 9, 13, 25, 29, 10, 14, 26, 30, 11, 15, 27, 31]
  let WXa : Sh := permutex2var 4 (.inp 0) m1 (.inp 1)
  let WXb : Sh := permutex2var 4 (.inp 0) m2 (.inp 1)
  let YZa : Sh := permutex2var 4 (.inp 2) m1 (.inp 3)
  let YZb : Sh := permutex2var 4 (.inp 2) m2 (.inp 3)
  let A : Sh := permutex2var 4 WXa m3 YZa
  let B : Sh := permutex2var 4 WXa m4 YZa
  let C : Sh := permutex2var 4 WXb m3 YZb
  let D : Sh := permutex2var 4 WXb m4 YZb
  [A, B, C, D]

/-- `store4` of i64/u64/f64 on AVX-512, egg/x86_load_store_deg234.py:1544-1559. -/
def store4_avx512_64 : List Sh :=
  let A_mask : List Int := [0, 1, 2, 3, 8, 9, 10, 11]
  let B_mask : List Int := [4, 5, 6, 7, 12, 13, 14, 15]
  let C_mask : List Int := [0, 4, 8, 12, 1, 5, 9, 13]
  let D_mask : List Int := [2, 6, 10, 14, 3, 7, 11, 15]
  let A1 : Sh := permutex2var 8 (.inp 0) A_mask (.inp 1)
  let B1 : Sh := permutex2var 8 (.inp 0) B_mask (.inp 1)
  let C1 : Sh := permutex2var 8 (.inp 2) A_mask (.inp 3)
  let D1 : Sh := permutex2var 8 (.inp 2) B_mask (.inp 3)
  let A : Sh := permutex2var 8 A1 C_mask C1
  let B : Sh := permutex2var 8 A1 D_mask C1
  let C : Sh := permutex2var 8 B1 C_mask D1
  let D : Sh := permutex2var 8 B1 D_mask D1
  [A, B, C, D]

/-- `load3` of i8/u8 on SSE2, egg/x86_load_store_deg234.py:1628-1656. -/
def load3_sse2_8 : List Sh :=
  let V0 : Sh := .inp 0
  let V1 : Sh := .inp 1
  let V2 : Sh := .inp 2
  let A0 : Sh := V0
  let B0 : Sh := V1
  let C0 : Sh := V2
  let (A0, B0, C0) := iter 4 (fun ((A0, B0, C0) : Sh × Sh × Sh) =>
      let B0_pd : Sh := B0
      let C0_pd : Sh := C0
      let B1_pd : Sh := shuffle_pd B0_pd B0_pd 1
      let C2_pd : Sh := shuffle_pd C0_pd C0_pd 1
      let B1 : Sh := B1_pd
      let C2 : Sh := C2_pd
      let B3 : Sh := unpackhi 1 A0 C2
      let A4 : Sh := unpacklo 1 A0 B1
      let C5 : Sh := unpackhi 1 B1 C0
      (A4, B3, C5)) (A0, B0, C0)
  let ret0 : Sh := A0
  let ret1 : Sh := B0
  let ret2 : Sh := C0
  [ret0, ret1, ret2]

/-- `load3` of i8/u8 on SSE4.2, egg/x86_load_store_deg234.py:1586-1625. -/
def load3_sse42_8 : List Sh :=
  let A1_mask : List Int := (mmSet [-1, -1, -1, -1, -1, -1, -1, -1, -1, -1, 15, 12, 9, 6, 3, 0])
  let A2_mask : List Int := (mmSet [-1, -1, -1, -1, -1, 14, 11, 8, 5, 2, -1, -1, -1, -1, -1, -1])
  let A3_mask : List Int := (mmSet [13, 10, 7, 4, 1, -1, -1, -1, -1, -1, -1, -1, -1, -1, -1, -1])
  let A4 : Sh := shuffle_epi8 (.inp 0) A1_mask
  let A5 : Sh := shuffle_epi8 (.inp 1) A2_mask
  let A6 : Sh := shuffle_epi8 (.inp 2) A3_mask
  let A4 : Sh := .or A4 A5
  let ret0 : Sh := .or A4 A6
  let B1_mask : List Int := (mmSet [-1, -1, -1, -1, -1, -1, -1, -1, -1, -1, -1, 13, 10, 7, 4, 1])
  let B2_mask : List Int := (mmSet [-1, -1, -1, -1, -1, 15, 12, 9, 6, 3, 0, -1, -1, -1, -1, -1])
  let B3_mask : List Int := (mmSet [14, 11, 8, 5, 2, -1, -1, -1, -1, -1, -1, -1, -1, -1, -1, -1])
  let B4 : Sh := shuffle_epi8 (.inp 0) B1_mask
  let B5 : Sh := shuffle_epi8 (.inp 1) B2_mask
  let B6 : Sh := shuffle_epi8 (.inp 2) B3_mask
  let B4 : Sh := .or B4 B5
  let ret1 : Sh := .or B4 B6
  let C1_mask : List Int := (mmSet [-1, -1, -1, -1, -1, -1, -1, -1, -1, -1, -1, 14, 11, 8, 5, 2])
  let C2_mask : List Int := (mmSet [-1, -1, -1, -1, -1, -1, 13, 10, 7, 4, 1, -1, -1, -1, -1, -1])
  let C3_mask : List Int := (mmSet [15, 12, 9, 6, 3, 0, -1, -1, -1, -1, -1, -1, -1, -1, -1, -1])
  let C4 : Sh := shuffle_epi8 (.inp 0) C1_mask
  let C5 : Sh := shuffle_epi8 (.inp 1) C2_mask
  let C6 : Sh := shuffle_epi8 (.inp 2) C3_mask
  let C4 : Sh := .or C4 C5
  let ret2 : Sh := .or C4 C6
  [ret0, ret1, ret2]

/-- `load3` of i16/u16 on SSE2 and SSE4.2, egg/x86_load_store_deg234.py:1659-1684. -/
def load3_sse_16 : List Sh :=
  let V0 : Sh := .inp 0
  let V1 : Sh := .inp 1
  let V2 : Sh := .inp 2
  let (V0, V1, V2) := iter 3 (fun ((V0, V1, V2) : Sh × Sh × Sh) =>
      let B1_pd : Sh := V1
      let C1_pd : Sh := V2
      let B2_pd : Sh := shuffle_pd B1_pd B1_pd 1
      let C3_pd : Sh := shuffle_pd C1_pd C1_pd 1
      let B2 : Sh := B2_pd
      let C3 : Sh := C3_pd
      let B4 : Sh := unpackhi 2 V0 C3
      let A5 : Sh := unpacklo 2 V0 B2
      let C7 : Sh := unpackhi 2 B2 V2
      (A5, B4, C7)) (V0, V1, V2)
  let ret0 : Sh := V0
  let ret1 : Sh := V1
  let ret2 : Sh := V2
  [ret0, ret1, ret2]

/-- `load3` of f32 on SSE2 and SSE4.2 (also i32/u32, lines 1703-1709),
egg/x86_load_store_deg234.py:1687-1700. -/
def load3_sse_32 : List Sh :=
  let A1 : Sh := shuffle_ps (.inp 2) (.inp 1) (mmShuffle 3 2 1 0)
  let B2 : Sh := shuffle_ps (.inp 0) (.inp 2) (mmShuffle 3 2 1 0)
  let C3 : Sh := shuffle_ps (.inp 1) (.inp 0) (mmShuffle 3 2 1 0)
  let ret0 : Sh := shuffle_ps (.inp 0) A1 (mmShuffle 1 2 3 0)
  let B5 : Sh := shuffle_ps B2 (.inp 1) (mmShuffle 0 3 2 1)
  let ret2 : Sh := shuffle_ps C3 (.inp 2) (mmShuffle 3 0 1 2)
  let ret1 : Sh := shuffle_ps B5 B5 (mmShuffle 1 2 3 0)
  [ret0, ret1, ret2]

/-- `load3` of f64 on SSE2 and SSE4.2 (also i64/u64, lines 1720-1726),
egg/x86_load_store_deg234.py:1712-1717. -/
def load3_sse_64 : List Sh :=
  let ret0 : Sh := shuffle_pd (.inp 0) (.inp 1) 2
  let ret1 : Sh := shuffle_pd (.inp 0) (.inp 2) 1
  let ret2 : Sh := shuffle_pd (.inp 1) (.inp 2) 2
  [ret0, ret1, ret2]

/-- `load3` of i8/u8 on AVX, egg/x86_load_store_deg234.py:2042-2110. -/
def load3_avx_8 : List Sh :=
  let Aa : Sh := exlo 16 (.inp 0)
  let Ba : Sh := exhi 16 (.inp 0)
  let Ca : Sh := exlo 16 (.inp 1)
  let Ab : Sh := exhi 16 (.inp 1)
  let Bb : Sh := exlo 16 (.inp 2)
  let Cb : Sh := exhi 16 (.inp 2)
  let ARm : List Int := (mmSet [-1, -1, -1, -1, -1, -1, -1, -1, -1, -1, 15, 12, 9, 6, 3, 0])
  let BRm : List Int := (mmSet [-1, -1, -1, -1, -1, 14, 11, 8, 5, 2, -1, -1, -1, -1, -1, -1])
  let CRm : List Int := (mmSet [13, 10, 7, 4, 1, -1, -1, -1, -1, -1, -1, -1, -1, -1, -1, -1])
  let AR : Sh := shuffle_epi8 Aa ARm
  let BR : Sh := shuffle_epi8 Ba BRm
  let CR : Sh := shuffle_epi8 Ca CRm
  let R0 : Sh := .or AR BR
  let R0 : Sh := .or R0 CR
  let AR : Sh := shuffle_epi8 Ab ARm
  let BR : Sh := shuffle_epi8 Bb BRm
  let CR : Sh := shuffle_epi8 Cb CRm
  let R1 : Sh := .or AR BR
  let R1 : Sh := .or R1 CR
  let AGm : List Int := (mmSet [-1, -1, -1, -1, -1, -1, -1, -1, -1, -1, -1, 13, 10, 7, 4, 1])
  let BGm : List Int := (mmSet [-1, -1, -1, -1, -1, 15, 12, 9, 6, 3, 0, -1, -1, -1, -1, -1])
  let CGm : List Int := (mmSet [14, 11, 8, 5, 2, -1, -1, -1, -1, -1, -1, -1, -1, -1, -1, -1])
  let AG : Sh := shuffle_epi8 Aa AGm
  let BG : Sh := shuffle_epi8 Ba BGm
  let CG : Sh := shuffle_epi8 Ca CGm
  let G0 : Sh := .or AG BG
  let G0 : Sh := .or G0 CG
  let AG : Sh := shuffle_epi8 Ab AGm
  let BG : Sh := shuffle_epi8 Bb BGm
  let CG : Sh := shuffle_epi8 Cb CGm
  let G1 : Sh := .or AG BG
  let G1 : Sh := .or G1 CG
  let ABm : List Int := (mmSet [-1, -1, -1, -1, -1, -1, -1, -1, -1, -1, -1, 14, 11, 8, 5, 2])
  let BBm : List Int := (mmSet [-1, -1, -1, -1, -1, -1, 13, 10, 7, 4, 1, -1, -1, -1, -1, -1])
  let CBm : List Int := (mmSet [15, 12, 9, 6, 3, 0, -1, -1, -1, -1, -1, -1, -1, -1, -1, -1])
  let AB : Sh := shuffle_epi8 Aa ABm
  let BB : Sh := shuffle_epi8 Ba BBm
  let CB : Sh := shuffle_epi8 Ca CBm
  let B0 : Sh := .or AB BB
  let B0 : Sh := .or B0 CB
  let AB : Sh := shuffle_epi8 Ab ABm
  let BB : Sh := shuffle_epi8 Bb BBm
  let CB : Sh := shuffle_epi8 Cb CBm
  let B1 : Sh := .or AB BB
  let B1 : Sh := .or B1 CB
  let ret0 : Sh := setr 16 R0 R1
  let ret1 : Sh := setr 16 G0 G1
  let ret2 : Sh := setr 16 B0 B1
  [ret0, ret1, ret2]

/-- `load3` of i8/u8 on AVX2, egg/x86_load_store_deg234.py:1967-2039. -/
def load3_avx2_8 : List Sh :=
  let ARmask : List Int := [0, 3, 6, 9, 12, 15, -1, -1, -1, -1, -1, -1, -1, -1, -1, -1, -1, -1,
      -1, -1, -1, -1, 2, 5, 8, 11, 14, -1, -1, -1, -1, -1]
  let BRmask : List Int := [-1, -1, -1, -1, -1, -1, -1, -1, -1, -1, -1, 1, 4, 7, 10, 13, 0, 3, 6,
      9, 12, 15, -1, -1, -1, -1, -1, -1, -1, -1, -1, -1]
  let CRmask : List Int := [-1, -1, -1, -1, -1, -1, 2, 5, 8, 11, 14, -1, -1, -1, -1, -1, -1, -1,
      -1, -1, -1, -1, -1, -1, -1, -1, -1, 1, 4, 7, 10, 13]
  let AR : Sh := shuffle_epi8 (.inp 0) ARmask
  let BR : Sh := shuffle_epi8 (.inp 1) BRmask
  let CR : Sh := shuffle_epi8 (.inp 2) CRmask
  let DR : Sh := permute2f128 AR CR 33
  let R0 : Sh := .or AR BR
  let R1 : Sh := .or BR CR
  let R2 : Sh := permute2f128 R0 R1 48
  let ret0 : Sh := .or DR R2
  let AGmask : List Int := [1, 4, 7, 10, 13, -1, -1, -1, -1, -1, -1, -1, -1, -1, -1, -1, -1, -1,
      -1, -1, -1, 0, 3, 6, 9, 12, 15, -1, -1, -1, -1, -1]
  let BGmask : List Int := [-1, -1, -1, -1, -1, -1, -1, -1, -1, -1, -1, 2, 5, 8, 11, 14, 1, 4, 7,
      10, 13, -1, -1, -1, -1, -1, -1, -1, -1, -1, -1, -1]
  let CGmask : List Int := [-1, -1, -1, -1, -1, 0, 3, 6, 9, 12, 15, -1, -1, -1, -1, -1, -1, -1,
      -1, -1, -1, -1, -1, -1, -1, -1, -1, 2, 5, 8, 11, 14]
  let AG : Sh := shuffle_epi8 (.inp 0) AGmask
  let BG : Sh := shuffle_epi8 (.inp 1) BGmask
  let CG : Sh := shuffle_epi8 (.inp 2) CGmask
  let DG : Sh := permute2f128 AG CG 33
  let G0 : Sh := .or AG BG
  let G1 : Sh := .or BG CG
  let G2 : Sh := permute2f128 G0 G1 48
  let ret1 : Sh := .or DG G2
  let ABmask : List Int := [2, 5, 8, 11, 14, -1, -1, -1, -1, -1, -1, -1, -1, -1, -1, -1, -1, -1,
      -1, -1, -1, 1, 4, 7, 10, 13, -1, -1, -1, -1, -1, -1]
  let BBmask : List Int := [-1, -1, -1, -1, -1, -1, -1, -1, -1, -1, 0, 3, 6, 9, 12, 15, 2, 5, 8,
      11, 14, -1, -1, -1, -1, -1, -1, -1, -1, -1, -1, -1]
  let CBmask : List Int := [-1, -1, -1, -1, -1, 1, 4, 7, 10, 13, -1, -1, -1, -1, -1, -1, -1, -1,
      -1, -1, -1, -1, -1, -1, -1, -1, 0, 3, 6, 9, 12, 15]
  let AB : Sh := shuffle_epi8 (.inp 0) ABmask
  let BB : Sh := shuffle_epi8 (.inp 1) BBmask
  let CB : Sh := shuffle_epi8 (.inp 2) CBmask
  let DB : Sh := permute2f128 AB CB 33
  let B0 : Sh := .or AB BB
  let B1 : Sh := .or BB CB
  let B2 : Sh := permute2f128 B0 B1 48
  let ret2 : Sh := .or DB B2
  [ret0, ret1, ret2]

/-- `load3` of i16/u16 on AVX, egg/x86_load_store_deg234.py:2191-2258. -/
def load3_avx_16 : List Sh :=
  let Aa : Sh := exlo 16 (.inp 0)
  let Ba : Sh := exhi 16 (.inp 0)
  let Ca : Sh := exlo 16 (.inp 1)
  let Ab : Sh := exhi 16 (.inp 1)
  let Bb : Sh := exlo 16 (.inp 2)
  let Cb : Sh := exhi 16 (.inp 2)
  let ARm : List Int := (mmSet [-1, -1, -1, -1, -1, -1, -1, -1, -1, -1, 13, 12, 7, 6, 1, 0])
  let BRm : List Int := (mmSet [-1, -1, -1, -1, 15, 14, 9, 8, 3, 2, -1, -1, -1, -1, -1, -1])
  let CRm : List Int := (mmSet [11, 10, 5, 4, -1, -1, -1, -1, -1, -1, -1, -1, -1, -1, -1, -1])
  let AR : Sh := shuffle_epi8 Aa ARm
  let BR : Sh := shuffle_epi8 Ba BRm
  let CR : Sh := shuffle_epi8 Ca CRm
  let R0 : Sh := .or AR BR
  let R0 : Sh := .or R0 CR
  let AR : Sh := shuffle_epi8 Ab ARm
  let BR : Sh := shuffle_epi8 Bb BRm
  let CR : Sh := shuffle_epi8 Cb CRm
  let R1 : Sh := .or AR BR
  let R1 : Sh := .or R1 CR
  let AGm : List Int := (mmSet [-1, -1, -1, -1, -1, -1, -1, -1, -1, -1, 15, 14, 9, 8, 3, 2])
  let BGm : List Int := (mmSet [-1, -1, -1, -1, -1, -1, 11, 10, 5, 4, -1, -1, -1, -1, -1, -1])
  let CGm : List Int := (mmSet [13, 12, 7, 6, 1, 0, -1, -1, -1, -1, -1, -1, -1, -1, -1, -1])
  let AG : Sh := shuffle_epi8 Aa AGm
  let BG : Sh := shuffle_epi8 Ba BGm
  let CG : Sh := shuffle_epi8 Ca CGm
  let G0 : Sh := .or AG BG
  let G0 : Sh := .or G0 CG
  let AG : Sh := shuffle_epi8 Ab AGm
  let BG : Sh := shuffle_epi8 Bb BGm
  let CG : Sh := shuffle_epi8 Cb CGm
  let G1 : Sh := .or AG BG
  let G1 : Sh := .or G1 CG
  let ABm : List Int := (mmSet [-1, -1, -1, -1, -1, -1, -1, -1, -1, -1, -1, -1, 11, 10, 5, 4])
  let BBm : List Int := (mmSet [-1, -1, -1, -1, -1, -1, 13, 12, 7, 6, 1, 0, -1, -1, -1, -1])
  let CBm : List Int := (mmSet [15, 14, 9, 8, 3, 2, -1, -1, -1, -1, -1, -1, -1, -1, -1, -1])
  let AB : Sh := shuffle_epi8 Aa ABm
  let BB : Sh := shuffle_epi8 Ba BBm
  let CB : Sh := shuffle_epi8 Ca CBm
  let B0 : Sh := .or AB BB
  let B0 : Sh := .or B0 CB
  let AB : Sh := shuffle_epi8 Ab ABm
  let BB : Sh := shuffle_epi8 Bb BBm
  let CB : Sh := shuffle_epi8 Cb CBm
  let B1 : Sh := .or AB BB
  let B1 : Sh := .or B1 CB
  let ret0 : Sh := setr 16 R0 R1
  let ret1 : Sh := setr 16 G0 G1
  let ret2 : Sh := setr 16 B0 B1
  [ret0, ret1, ret2]

/-- `load3` of i16/u16 on AVX2, egg/x86_load_store_deg234.py:2117-2188. -/
def load3_avx2_16 : List Sh :=
  let ARmask : List Int := [0, 1, 6, 7, 12, 13, -1, -1, -1, -1, -1, -1, -1, -1, -1, -1, -1, -1,
      -1, -1, -1, -1, 2, 3, 8, 9, 14, 15, -1, -1, -1, -1]
  let BRmask : List Int := [-1, -1, -1, -1, -1, -1, -1, -1, -1, -1, -1, -1, 4, 5, 10, 11, 0, 1,
      6, 7, 12, 13, -1, -1, -1, -1, -1, -1, -1, -1, -1, -1]
  let CRmask : List Int := [-1, -1, -1, -1, -1, -1, 2, 3, 8, 9, 14, 15, -1, -1, -1, -1, -1, -1,
      -1, -1, -1, -1, -1, -1, -1, -1, -1, -1, 4, 5, 10, 11]
  let AR : Sh := shuffle_epi8 (.inp 0) ARmask
  let BR : Sh := shuffle_epi8 (.inp 1) BRmask
  let CR : Sh := shuffle_epi8 (.inp 2) CRmask
  let DR : Sh := permute2f128 AR CR 33
  let R0 : Sh := .or AR BR
  let R1 : Sh := .or BR CR
  let R2 : Sh := permute2f128 R0 R1 48
  let ret0 : Sh := .or DR R2
  let AGmask : List Int := [2, 3, 8, 9, 14, 15, -1, -1, -1, -1, -1, -1, -1, -1, -1, -1, -1, -1,
      -1, -1, -1, -1, 4, 5, 10, 11, -1, -1, -1, -1, -1, -1]
  let BGmask : List Int := [-1, -1, -1, -1, -1, -1, -1, -1, -1, -1, 0, 1, 6, 7, 12, 13, 2, 3, 8,
      9, 14, 15, -1, -1, -1, -1, -1, -1, -1, -1, -1, -1]
  let CGmask : List Int := [-1, -1, -1, -1, -1, -1, 4, 5, 10, 11, -1, -1, -1, -1, -1, -1, -1, -1,
      -1, -1, -1, -1, -1, -1, -1, -1, 0, 1, 6, 7, 12, 13]
  let AG : Sh := shuffle_epi8 (.inp 0) AGmask
  let BG : Sh := shuffle_epi8 (.inp 1) BGmask
  let CG : Sh := shuffle_epi8 (.inp 2) CGmask
  let DG : Sh := permute2f128 AG CG 33
  let G0 : Sh := .or AG BG
  let G1 : Sh := .or BG CG
  let G2 : Sh := permute2f128 G0 G1 48
  let ret1 : Sh := .or DG G2
  let ABmask : List Int := [4, 5, 10, 11, -1, -1, -1, -1, -1, -1, -1, -1, -1, -1, -1, -1, -1, -1,
      -1, -1, 0, 1, 6, 7, 12, 13, -1, -1, -1, -1, -1, -1]
  let BBmask : List Int := [-1, -1, -1, -1, -1, -1, -1, -1, -1, -1, 2, 3, 8, 9, 14, 15, 4, 5, 10,
      11, -1, -1, -1, -1, -1, -1, -1, -1, -1, -1, -1, -1]
  let CBmask : List Int := [-1, -1, -1, -1, 0, 1, 6, 7, 12, 13, -1, -1, -1, -1, -1, -1, -1, -1,
      -1, -1, -1, -1, -1, -1, -1, -1, 2, 3, 8, 9, 14, 15]
  let AB : Sh := shuffle_epi8 (.inp 0) ABmask
  let BB : Sh := shuffle_epi8 (.inp 1) BBmask
  let CB : Sh := shuffle_epi8 (.inp 2) CBmask
  let DB : Sh := permute2f128 AB CB 33
  let B0 : Sh := .or AB BB
  let B1 : Sh := .or BB CB
  let B2 : Sh := permute2f128 B0 B1 48
  let ret2 : Sh := .or DB B2
  [ret0, ret1, ret2]

/-- `load3` of f32 on AVX (also i32/u32, lines 2354-2359), egg/x86_load_store_deg234.py:2303-2348.
-/
def load3_avx_32 : List Sh :=
  let RAm : List Int := [0, 3, -1, -1, -1, -1, 2, -1]
  let RBm : List Int := [-1, -1, -1, 1, 0, 3, -1, -1]
  let RCm : List Int := [0, 0, 2, 0, 1, 1, 1, 1]
  let GAm : List Int := [1, -1, -1, -1, -1, 0, 3, -1]
  let GBm : List Int := [-1, -1, -1, 2, 5, -1, -1, -1]
  let GCm : List Int := [-1, 0, 3, -1, -1, -1, -1, 6]
  let BAm : List Int := [2, -1, -1, -1, -1, 1, -1, -1]
  let BBm : List Int := [-1, -1, 0, 3, 6, -1, -1, -1]
  let BCm : List Int := [-1, 1, -1, -1, -1, -1, 4, 7]
  let RA : Sh := permutevar_ps (.inp 0) RAm
  let RAi : Sh := permute2f128 RA RA 33
  let RA : Sh := blend 4 RAi RA 3
  let RB : Sh := permutevar_ps (.inp 1) RBm
  let RC : Sh := permutevar_ps (.inp 2) RCm
  let RCi : Sh := permute2f128 RC RC 32
  let RC : Sh := blend 4 RC RCi 64
  let R : Sh := blend 4 RA RB 56
  let ret0 : Sh := blend 4 R RC 192
  let GA : Sh := permutevar_ps (.inp 0) GAm
  let GAi : Sh := permute2f128 GA GA 33
  let GA : Sh := blend 4 GA GAi 6
  let GB : Sh := permutevar_ps (.inp 1) GBm
  let GC : Sh := permutevar_ps (.inp 2) GCm
  let GCi : Sh := permute2f128 GC GC 32
  let GC : Sh := blend 4 GC GCi 96
  let G : Sh := blend 4 GA GB 24
  let ret1 : Sh := blend 4 G GC 224
  let BA : Sh := permutevar_ps (.inp 0) BAm
  let BAi : Sh := permute2f128 BA BA 33
  let BA : Sh := blend 4 BA BAi 2
  let BB : Sh := permutevar_ps (.inp 1) BBm
  let BC : Sh := permutevar_ps (.inp 2) BCm
  let BCi : Sh := permute2f128 BC BC 32
  let BC : Sh := blend 4 BC BCi 32
  let B : Sh := blend 4 BA BB 28
  let ret2 : Sh := blend 4 B BC 224
  [ret0, ret1, ret2]

/-- `load3` of i32/u32/f32 on AVX2, egg/x86_load_store_deg234.py:2263-2297. -/
def load3_avx2_32 : List Sh :=
  let RAm : List Int := [0, 3, 6, -1, -1, -1, -1, -1]
  let RBm : List Int := [-1, -1, -1, 1, 4, 7, -1, -1]
  let RCm : List Int := [-1, -1, -1, -1, -1, -1, 2, 5]
  let GAm : List Int := [1, 4, 7, -1, -1, -1, -1, -1]
  let GBm : List Int := [-1, -1, -1, 2, 5, -1, -1, -1]
  let GCm : List Int := [-1, -1, -1, -1, -1, 0, 3, 6]
  let BAm : List Int := [2, 5, -1, -1, -1, -1, -1, -1]
  let BBm : List Int := [-1, -1, 0, 3, 6, -1, -1, -1]
  let BCm : List Int := [-1, -1, -1, -1, -1, 1, 4, 7]
  let RA : Sh := permutevar8x32 (.inp 0) RAm
  let RB : Sh := permutevar8x32 (.inp 1) RBm
  let RC : Sh := permutevar8x32 (.inp 2) RCm
  let R : Sh := blend 4 RA RB 56
  let ret0 : Sh := blend 4 R RC 192
  let GA : Sh := permutevar8x32 (.inp 0) GAm
  let GB : Sh := permutevar8x32 (.inp 1) GBm
  let GC : Sh := permutevar8x32 (.inp 2) GCm
  let G : Sh := blend 4 GA GB 24
  let ret1 : Sh := blend 4 G GC 224
  let BA : Sh := permutevar8x32 (.inp 0) BAm
  let BB : Sh := permutevar8x32 (.inp 1) BBm
  let BC : Sh := permutevar8x32 (.inp 2) BCm
  let B : Sh := blend 4 BA BB 28
  let ret2 : Sh := blend 4 B BC 224
  [ret0, ret1, ret2]

/-- `load3` of f64 on AVX (also i64/u64, lines 2400-2405), egg/x86_load_store_deg234.py:2378-2394.
-/
def load3_avx_64 : List Sh :=
  let R1 : Sh := permute2f128 (.inp 0) (.inp 2) 33
  let R2 : Sh := permute2f128 (.inp 0) (.inp 1) 48
  let ret0 : Sh := blend 8 R1 R2 5
  let G1 : Sh := permute2f128 (.inp 0) (.inp 1) 48
  let G2 : Sh := permute2f128 (.inp 1) (.inp 2) 48
  let G : Sh := blend 8 G1 G2 5
  let ret1 : Sh := permute_pd G 5
  let B1 : Sh := permute2f128 (.inp 0) (.inp 2) 33
  let B2 : Sh := permute2f128 (.inp 1) (.inp 2) 48
  let ret2 : Sh := blend 8 B1 B2 10
  [ret0, ret1, ret2]

/-- `load3` of i64/u64/f64 on AVX2, egg/x86_load_store_deg234.py:2361-2372. -/
def load3_avx2_64 : List Sh :=
  let A1 : Sh := permute4x64 (.inp 0) (mmShuffle 2 1 3 0)
  let C2 : Sh := permute4x64 (.inp 2) (mmShuffle 3 0 2 1)
  let B3 : Sh := permute2f128 A1 (.inp 1) 33
  let B4 : Sh := permute2f128 (.inp 1) C2 33
  let B5 : Sh := permute4x64 B3 (mmShuffle 3 1 2 0)
  let B6 : Sh := permute4x64 B4 (mmShuffle 3 1 2 0)
  let ret0 : Sh := permute2f128 A1 B6 32
  let ret1 : Sh := permute2f128 B5 B6 48
  let ret2 : Sh := permute2f128 B5 C2 49
  [ret0, ret1, ret2]

/-- `load3` of i8/u8 on AVX-512, egg/x86_load_store_deg234.py:2823-2937. -/
def load3_avx512_8 : List Sh :=
  let A0in : Sh := exlo 32 (.inp 0)
  let B0in : Sh := exhi 32 (.inp 0)
  let C0in : Sh := exlo 32 (.inp 1)
  let A1in : Sh := exhi 32 (.inp 1)
  let B1in : Sh := exlo 32 (.inp 2)
  let C1in : Sh := exhi 32 (.inp 2)
  let ARmask : List Int := [0, 3, 6, 9, 12, 15, -1, -1, -1, -1, -1, -1, -1, -1, -1, -1, -1, -1,
      -1, -1, -1, -1, 2, 5, 8, 11, 14, -1, -1, -1, -1, -1]
  let BRmask : List Int := [-1, -1, -1, -1, -1, -1, -1, -1, -1, -1, -1, 1, 4, 7, 10, 13, 0, 3, 6,
      9, 12, 15, -1, -1, -1, -1, -1, -1, -1, -1, -1, -1]
  let CRmask : List Int := [-1, -1, -1, -1, -1, -1, 2, 5, 8, 11, 14, -1, -1, -1, -1, -1, -1, -1,
      -1, -1, -1, -1, -1, -1, -1, -1, -1, 1, 4, 7, 10, 13]
  let AR : Sh := shuffle_epi8 A0in ARmask
  let BR : Sh := shuffle_epi8 B0in BRmask
  let CR : Sh := shuffle_epi8 C0in CRmask
  let DR : Sh := permute2f128 AR CR 33
  let R0 : Sh := .or AR BR
  let R1 : Sh := .or BR CR
  let R2 : Sh := permute2f128 R0 R1 48
  let R3 : Sh := .or DR R2
  let AR : Sh := shuffle_epi8 A1in ARmask
  let BR : Sh := shuffle_epi8 B1in BRmask
  let CR : Sh := shuffle_epi8 C1in CRmask
  let DR : Sh := permute2f128 AR CR 33
  let R0 : Sh := .or AR BR
  let R1 : Sh := .or BR CR
  let R2 : Sh := permute2f128 R0 R1 48
  let R3b : Sh := .or DR R2
  let AGmask : List Int := [1, 4, 7, 10, 13, -1, -1, -1, -1, -1, -1, -1, -1, -1, -1, -1, -1, -1,
      -1, -1, -1, 0, 3, 6, 9, 12, 15, -1, -1, -1, -1, -1]
  let BGmask : List Int := [-1, -1, -1, -1, -1, -1, -1, -1, -1, -1, -1, 2, 5, 8, 11, 14, 1, 4, 7,
      10, 13, -1, -1, -1, -1, -1, -1, -1, -1, -1, -1, -1]
  let CGmask : List Int := [-1, -1, -1, -1, -1, 0, 3, 6, 9, 12, 15, -1, -1, -1, -1, -1, -1, -1,
      -1, -1, -1, -1, -1, -1, -1, -1, -1, 2, 5, 8, 11, 14]
  let AG : Sh := shuffle_epi8 A0in AGmask
  let BG : Sh := shuffle_epi8 B0in BGmask
  let CG : Sh := shuffle_epi8 C0in CGmask
  let DG : Sh := permute2f128 AG CG 33
  let G0 : Sh := .or AG BG
  let G1 : Sh := .or BG CG
  let G2 : Sh := permute2f128 G0 G1 48
  let G3 : Sh := .or DG G2
  let AG : Sh := shuffle_epi8 A1in AGmask
  let BG : Sh := shuffle_epi8 B1in BGmask
  let CG : Sh := shuffle_epi8 C1in CGmask
  let DG : Sh := permute2f128 AG CG 33
  let G0 : Sh := .or AG BG
  let G1 : Sh := .or BG CG
  let G2 : Sh := permute2f128 G0 G1 48
  let G3b : Sh := .or DG G2
  let ABmask : List Int := [2, 5, 8, 11, 14, -1, -1, -1, -1, -1, -1, -1, -1, -1, -1, -1, -1, -1,
      -1, -1, -1, 1, 4, 7, 10, 13, -1, -1, -1, -1, -1, -1]
  let BBmask : List Int := [-1, -1, -1, -1, -1, -1, -1, -1, -1, -1, 0, 3, 6, 9, 12, 15, 2, 5, 8,
      11, 14, -1, -1, -1, -1, -1, -1, -1, -1, -1, -1, -1]
  let CBmask : List Int := [-1, -1, -1, -1, -1, 1, 4, 7, 10, 13, -1, -1, -1, -1, -1, -1, -1, -1,
      -1, -1, -1, -1, -1, -1, -1, -1, 0, 3, 6, 9, 12, 15]
  let AB : Sh := shuffle_epi8 A0in ABmask
  let BB : Sh := shuffle_epi8 B0in BBmask
  let CB : Sh := shuffle_epi8 C0in CBmask
  let DB : Sh := permute2f128 AB CB 33
  let B0 : Sh := .or AB BB
  let B1 : Sh := .or BB CB
  let B2 : Sh := permute2f128 B0 B1 48
  let B3 : Sh := .or DB B2
  let AB : Sh := shuffle_epi8 A1in ABmask
  let BB : Sh := shuffle_epi8 B1in BBmask
  let CB : Sh := shuffle_epi8 C1in CBmask
  let DB : Sh := permute2f128 AB CB 33
  let B0 : Sh := .or AB BB
  let B1 : Sh := .or BB CB
  let B2 : Sh := permute2f128 B0 B1 48
  let B3b : Sh := .or DB B2
  let ret0 : Sh := setr 32 R3 R3b
  let ret1 : Sh := setr 32 G3 G3b
  let ret2 : Sh := setr 32 B3 B3b
  [ret0, ret1, ret2]

/-- `load3` of i16/u16 on AVX-512, egg/x86_load_store_deg234.py:2944-3058. -/
def load3_avx512_16 : List Sh :=
  let A0a : Sh := exlo 32 (.inp 0)
  let B0a : Sh := exhi 32 (.inp 0)
  let C0a : Sh := exlo 32 (.inp 1)
  let A0b : Sh := exhi 32 (.inp 1)
  let B0b : Sh := exlo 32 (.inp 2)
  let C0b : Sh := exhi 32 (.inp 2)
  let ARmask : List Int := [0, 1, 6, 7, 12, 13, -1, -1, -1, -1, -1, -1, -1, -1, -1, -1, -1, -1,
      -1, -1, -1, -1, 2, 3, 8, 9, 14, 15, -1, -1, -1, -1]
  let BRmask : List Int := [-1, -1, -1, -1, -1, -1, -1, -1, -1, -1, -1, -1, 4, 5, 10, 11, 0, 1,
      6, 7, 12, 13, -1, -1, -1, -1, -1, -1, -1, -1, -1, -1]
  let CRmask : List Int := [-1, -1, -1, -1, -1, -1, 2, 3, 8, 9, 14, 15, -1, -1, -1, -1, -1, -1,
      -1, -1, -1, -1, -1, -1, -1, -1, -1, -1, 4, 5, 10, 11]
  let AR : Sh := shuffle_epi8 A0a ARmask
  let BR : Sh := shuffle_epi8 B0a BRmask
  let CR : Sh := shuffle_epi8 C0a CRmask
  let DR : Sh := permute2f128 AR CR 33
  let R0 : Sh := .or AR BR
  let R1 : Sh := .or BR CR
  let R2 : Sh := permute2f128 R0 R1 48
  let R3a : Sh := .or DR R2
  let AR : Sh := shuffle_epi8 A0b ARmask
  let BR : Sh := shuffle_epi8 B0b BRmask
  let CR : Sh := shuffle_epi8 C0b CRmask
  let DR : Sh := permute2f128 AR CR 33
  let R0 : Sh := .or AR BR
  let R1 : Sh := .or BR CR
  let R2 : Sh := permute2f128 R0 R1 48
  let R3b : Sh := .or DR R2
  let AGmask : List Int := [2, 3, 8, 9, 14, 15, -1, -1, -1, -1, -1, -1, -1, -1, -1, -1, -1, -1,
      -1, -1, -1, -1, 4, 5, 10, 11, -1, -1, -1, -1, -1, -1]
  let BGmask : List Int := [-1, -1, -1, -1, -1, -1, -1, -1, -1, -1, 0, 1, 6, 7, 12, 13, 2, 3, 8,
      9, 14, 15, -1, -1, -1, -1, -1, -1, -1, -1, -1, -1]
  let CGmask : List Int := [-1, -1, -1, -1, -1, -1, 4, 5, 10, 11, -1, -1, -1, -1, -1, -1, -1, -1,
      -1, -1, -1, -1, -1, -1, -1, -1, 0, 1, 6, 7, 12, 13]
  let AG : Sh := shuffle_epi8 A0a AGmask
  let BG : Sh := shuffle_epi8 B0a BGmask
  let CG : Sh := shuffle_epi8 C0a CGmask
  let DG : Sh := permute2f128 AG CG 33
  let G0 : Sh := .or AG BG
  let G1 : Sh := .or BG CG
  let G2 : Sh := permute2f128 G0 G1 48
  let G3a : Sh := .or DG G2
  let AG : Sh := shuffle_epi8 A0b AGmask
  let BG : Sh := shuffle_epi8 B0b BGmask
  let CG : Sh := shuffle_epi8 C0b CGmask
  let DG : Sh := permute2f128 AG CG 33
  let G0 : Sh := .or AG BG
  let G1 : Sh := .or BG CG
  let G2 : Sh := permute2f128 G0 G1 48
  let G3b : Sh := .or DG G2
  let ABmask : List Int := [4, 5, 10, 11, -1, -1, -1, -1, -1, -1, -1, -1, -1, -1, -1, -1, -1, -1,
      -1, -1, 0, 1, 6, 7, 12, 13, -1, -1, -1, -1, -1, -1]
  let BBmask : List Int := [-1, -1, -1, -1, -1, -1, -1, -1, -1, -1, 2, 3, 8, 9, 14, 15, 4, 5, 10,
      11, -1, -1, -1, -1, -1, -1, -1, -1, -1, -1, -1, -1]
  let CBmask : List Int := [-1, -1, -1, -1, 0, 1, 6, 7, 12, 13, -1, -1, -1, -1, -1, -1, -1, -1,
      -1, -1, -1, -1, -1, -1, -1, -1, 2, 3, 8, 9, 14, 15]
  let AB : Sh := shuffle_epi8 A0a ABmask
  let BB : Sh := shuffle_epi8 B0a BBmask
  let CB : Sh := shuffle_epi8 C0a CBmask
  let DB : Sh := permute2f128 AB CB 33
  let B0 : Sh := .or AB BB
  let B1 : Sh := .or BB CB
  let B2 : Sh := permute2f128 B0 B1 48
  let B3a : Sh := .or DB B2
  let AB : Sh := shuffle_epi8 A0b ABmask
  let BB : Sh := shuffle_epi8 B0b BBmask
  let CB : Sh := shuffle_epi8 C0b CBmask
  let DB : Sh := permute2f128 AB CB 33
  let B0 : Sh := .or AB BB
  let B1 : Sh := .or BB CB
  let B2 : Sh := permute2f128 B0 B1 48
  let B3b : Sh := .or DB B2
  let ret0 : Sh := setr 32 R3a R3b
  let ret1 : Sh := setr 32 G3a G3b
  let ret2 : Sh := setr 32 B3a B3b
  [ret0, ret1, ret2]

/-- `load3` of i32/u32/f32 on AVX-512, egg/x86_load_store_deg234.py:3065-3089. -/
def load3_avx512_32 : List Sh :=
  let RABm : List Int := [0, 3, 6, 9, 12, 15, 18, 21, 24, 27, 30, 0, 0, 0, 0, 0]
  let RABCm : List Int := [0, 1, 2, 3, 4, 5, 6, 7, 8, 9, 10, 17, 20, 23, 26, 29]
  let GABm : List Int := [1, 4, 7, 10, 13, 16, 19, 22, 25, 28, 31, 0, 0, 0, 0, 0]
  let GABCm : List Int := [0, 1, 2, 3, 4, 5, 6, 7, 8, 9, 10, 18, 21, 24, 27, 30]
  let BABm : List Int := [2, 5, 8, 11, 14, 17, 20, 23, 26, 29, 0, 0, 0, 0, 0, 0]
  let BABCm : List Int := [0, 1, 2, 3, 4, 5, 6, 7, 8, 9, 16, 19, 22, 25, 28, 31]
  let R : Sh := permutex2var 4 (.inp 0) RABm (.inp 1)
  let ret0 : Sh := permutex2var 4 R RABCm (.inp 2)
  let G : Sh := permutex2var 4 (.inp 0) GABm (.inp 1)
  let ret1 : Sh := permutex2var 4 G GABCm (.inp 2)
  let B : Sh := permutex2var 4 (.inp 0) BABm (.inp 1)
  let ret2 : Sh := permutex2var 4 B BABCm (.inp 2)
  [ret0, ret1, ret2]

/-- `load3` of i64/u64/f64 on AVX-512, egg/x86_load_store_deg234.py:3092-3111. -/
def load3_avx512_64 : List Sh :=
  let R_mask0 : List Int := (mmSet [0, 0, 15, 12, 9, 6, 3, 0])
  let R_mask1 : List Int := (mmSet [13, 10, 5, 4, 3, 2, 1, 0])
  let A1 : Sh := permutex2var 8 (.inp 0) R_mask0 (.inp 1)
  let ret0 : Sh := permutex2var 8 A1 R_mask1 (.inp 2)
  let G_mask0 : List Int := (mmSet [0, 0, 0, 13, 10, 7, 4, 1])
  let G_mask1 : List Int := (mmSet [14, 11, 8, 4, 3, 2, 1, 0])
  let B1 : Sh := permutex2var 8 (.inp 0) G_mask0 (.inp 1)
  let ret1 : Sh := permutex2var 8 B1 G_mask1 (.inp 2)
  let B_mask0 : List Int := (mmSet [0, 0, 0, 14, 11, 8, 5, 2])
  let B_mask1 : List Int := (mmSet [15, 12, 9, 4, 3, 2, 1, 0])
  let C1 : Sh := permutex2var 8 (.inp 0) B_mask0 (.inp 1)
  let ret2 : Sh := permutex2var 8 C1 B_mask1 (.inp 2)
  [ret0, ret1, ret2]

/-- `store3` of i8/u8 on SSE2, egg/x86_load_store_deg234.py:1797-1836. -/
def store3_sse2_8 : List Sh :=
  let A0 : Sh := .inp 0
  let B0 : Sh := .inp 1
  let C0 : Sh := .inp 2
  let (A0, B0, C0) := iter 4 (fun ((A0, B0, C0) : Sh × Sh × Sh) =>
      let A1 : Sh := unpacklo 1 A0 B0
      let A2 : Sh := unpackhi 1 A0 B0
      let A3 : Sh := unpacklo 1 A1 A2
      let A4 : Sh := unpackhi 1 A1 A2
      let A5 : Sh := unpacklo 1 A3 A4
      let A6 : Sh := unpackhi 1 A3 A4
      let A7 : Sh := unpacklo 1 A5 A6
      let B8 : Sh := unpackhi 1 A5 A6
      let C9 : Sh := shuffle_pd C0 C0 1
      let C10 : Sh := unpacklo 1 C0 C9
      let C11 : Sh := shuffle_pd C10 C10 1
      let C12 : Sh := unpacklo 1 C10 C11
      let C13 : Sh := shuffle_pd C12 C12 1
      let C14 : Sh := unpacklo 1 C12 C13
      let B15 : Sh := shuffle_pd C14 B8 0
      let C16 : Sh := shuffle_pd B8 C14 3
      (A7, B15, C16)) (A0, B0, C0)
  [A0, B0, C0]

/-- `store3` of i8/u8 on SSE4.2, egg/x86_load_store_deg234.py:1757-1793. -/
def store3_sse42_8 : List Sh :=
  let A1_mask : List Int := (mmSet [5, -1, -1, 4, -1, -1, 3, -1, -1, 2, -1, -1, 1, -1, -1, 0])
  let A2_mask : List Int := (mmSet [-1, -1, 4, -1, -1, 3, -1, -1, 2, -1, -1, 1, -1, -1, 0, -1])
  let A3_mask : List Int := (mmSet [-1, 4, -1, -1, 3, -1, -1, 2, -1, -1, 1, -1, -1, 0, -1, -1])
  let A4 : Sh := shuffle_epi8 (.inp 0) A1_mask
  let A5 : Sh := shuffle_epi8 (.inp 1) A2_mask
  let A6 : Sh := shuffle_epi8 (.inp 2) A3_mask
  let A4 : Sh := .or A4 A5
  let A4 : Sh := .or A4 A6
  let B1_mask : List Int := (mmSet [-1, 10, -1, -1, 9, -1, -1, 8, -1, -1, 7, -1, -1, 6, -1, -1])
  let B2_mask : List Int := (mmSet [10, -1, -1, 9, -1, -1, 8, -1, -1, 7, -1, -1, 6, -1, -1, 5])
  let B3_mask : List Int := (mmSet [-1, -1, 9, -1, -1, 8, -1, -1, 7, -1, -1, 6, -1, -1, 5, -1])
  let B4 : Sh := shuffle_epi8 (.inp 0) B1_mask
  let B5 : Sh := shuffle_epi8 (.inp 1) B2_mask
  let B6 : Sh := shuffle_epi8 (.inp 2) B3_mask
  let B4 : Sh := .or B4 B5
  let B4 : Sh := .or B4 B6
  let C1_mask : List Int := (mmSet [-1, -1, 15, -1, -1, 14, -1, -1, 13, -1, -1, 12, -1, -1, 11,
      -1])
  let C2_mask : List Int := (mmSet [-1, 15, -1, -1, 14, -1, -1, 13, -1, -1, 12, -1, -1, 11, -1,
      -1])
  let C3_mask : List Int := (mmSet [15, -1, -1, 14, -1, -1, 13, -1, -1, 12, -1, -1, 11, -1, -1,
      10])
  let C4 : Sh := shuffle_epi8 (.inp 0) C1_mask
  let C5 : Sh := shuffle_epi8 (.inp 1) C2_mask
  let C6 : Sh := shuffle_epi8 (.inp 2) C3_mask
  let C4 : Sh := .or C4 C5
  let C4 : Sh := .or C4 C6
  [A4, B4, C4]

/-- `store3` of i16/u16 on SSE2 and SSE4.2, egg/x86_load_store_deg234.py:1885-1914. -/
def store3_sse_16 : List Sh :=
  let A0 : Sh := .inp 0
  let B0 : Sh := .inp 1
  let C0 : Sh := .inp 2
  let (A0, B0, C0) := iter 3 (fun ((A0, B0, C0) : Sh × Sh × Sh) =>
      let A1 : Sh := shufflelo_epi16 A0 (mmShuffle 3 1 2 0)
      let A2 : Sh := shufflehi_epi16 A1 (mmShuffle 3 1 2 0)
      let B3 : Sh := shufflelo_epi16 B0 (mmShuffle 3 1 2 0)
      let B4 : Sh := shufflehi_epi16 B3 (mmShuffle 3 1 2 0)
      let C5 : Sh := shufflelo_epi16 C0 (mmShuffle 3 1 2 0)
      let C6 : Sh := shufflehi_epi16 C5 (mmShuffle 3 1 2 0)
      let A2_ps : Sh := A2
      let B4_ps : Sh := B4
      let C6_ps : Sh := C6
      let A0_ps : Sh := shuffle_ps A2_ps B4_ps (mmShuffle 2 0 2 0)
      let B0_ps : Sh := shuffle_ps C6_ps A2_ps (mmShuffle 3 1 2 0)
      let C0_ps : Sh := shuffle_ps B4_ps C6_ps (mmShuffle 3 1 3 1)
      (A0_ps, B0_ps, C0_ps)) (A0, B0, C0)
  [A0, B0, C0]

/-- `store3` of f32 on SSE2 and SSE4.2 (also i32/u32, lines 1931-1934),
egg/x86_load_store_deg234.py:1918-1926. -/
def store3_sse_32 : List Sh :=
  let A1 : Sh := shuffle_ps (.inp 0) (.inp 1) (mmShuffle 2 0 2 0)
  let B2 : Sh := shuffle_ps (.inp 2) (.inp 0) (mmShuffle 3 1 2 0)
  let C3 : Sh := shuffle_ps (.inp 1) (.inp 2) (mmShuffle 3 1 3 1)
  let A4 : Sh := shuffle_ps A1 B2 (mmShuffle 2 0 2 0)
  let B5 : Sh := shuffle_ps C3 A1 (mmShuffle 3 1 2 0)
  let C6 : Sh := shuffle_ps B2 C3 (mmShuffle 3 1 3 1)
  [A4, B5, C6]

/-- `store3` of f64 on SSE2 and SSE4.2 (also i64/u64, lines 1946-1949),
egg/x86_load_store_deg234.py:1938-1941. -/
def store3_sse_64 : List Sh :=
  let A0 : Sh := unpacklo 8 (.inp 0) (.inp 1)
  let B0 : Sh := shuffle_pd (.inp 2) (.inp 0) 2
  let C0 : Sh := unpackhi 8 (.inp 1) (.inp 2)
  [A0, B0, C0]

/-- `store3` of i8/u8 on AVX, egg/x86_load_store_deg234.py:2488-2553. -/
def store3_avx_8 : List Sh :=
  let Ra : Sh := exlo 16 (.inp 0)
  let Rb : Sh := exhi 16 (.inp 0)
  let Ga : Sh := exlo 16 (.inp 1)
  let Gb : Sh := exhi 16 (.inp 1)
  let Ba : Sh := exlo 16 (.inp 2)
  let Bb : Sh := exhi 16 (.inp 2)
  let RAm : List Int := (mmSet [5, -1, -1, 4, -1, -1, 3, -1, -1, 2, -1, -1, 1, -1, -1, 0])
  let GAm : List Int := (mmSet [-1, -1, 4, -1, -1, 3, -1, -1, 2, -1, -1, 1, -1, -1, 0, -1])
  let BAm : List Int := (mmSet [-1, 4, -1, -1, 3, -1, -1, 2, -1, -1, 1, -1, -1, 0, -1, -1])
  let RA : Sh := shuffle_epi8 Ra RAm
  let GA : Sh := shuffle_epi8 Ga GAm
  let BA : Sh := shuffle_epi8 Ba BAm
  let A0 : Sh := .or RA GA
  let A0 : Sh := .or A0 BA
  let RA : Sh := shuffle_epi8 Rb RAm
  let GA : Sh := shuffle_epi8 Gb GAm
  let BA : Sh := shuffle_epi8 Bb BAm
  let A1 : Sh := .or RA GA
  let A1 : Sh := .or A1 BA
  let RBm : List Int := (mmSet [-1, 10, -1, -1, 9, -1, -1, 8, -1, -1, 7, -1, -1, 6, -1, -1])
  let GBm : List Int := (mmSet [10, -1, -1, 9, -1, -1, 8, -1, -1, 7, -1, -1, 6, -1, -1, 5])
  let BBm : List Int := (mmSet [-1, -1, 9, -1, -1, 8, -1, -1, 7, -1, -1, 6, -1, -1, 5, -1])
  let RB : Sh := shuffle_epi8 Ra RBm
  let GB : Sh := shuffle_epi8 Ga GBm
  let BB : Sh := shuffle_epi8 Ba BBm
  let B0 : Sh := .or RB GB
  let B0 : Sh := .or B0 BB
  let RB : Sh := shuffle_epi8 Rb RBm
  let GB : Sh := shuffle_epi8 Gb GBm
  let BB : Sh := shuffle_epi8 Bb BBm
  let B1 : Sh := .or RB GB
  let B1 : Sh := .or B1 BB
  let RCm : List Int := (mmSet [-1, -1, 15, -1, -1, 14, -1, -1, 13, -1, -1, 12, -1, -1, 11, -1])
  let GCm : List Int := (mmSet [-1, 15, -1, -1, 14, -1, -1, 13, -1, -1, 12, -1, -1, 11, -1, -1])
  let BCm : List Int := (mmSet [15, -1, -1, 14, -1, -1, 13, -1, -1, 12, -1, -1, 11, -1, -1, 10])
  let RC : Sh := shuffle_epi8 Ra RCm
  let GC : Sh := shuffle_epi8 Ga GCm
  let BC : Sh := shuffle_epi8 Ba BCm
  let C0 : Sh := .or RC GC
  let C0 : Sh := .or C0 BC
  let RC : Sh := shuffle_epi8 Rb RCm
  let GC : Sh := shuffle_epi8 Gb GCm
  let BC : Sh := shuffle_epi8 Bb BCm
  let C1 : Sh := .or RC GC
  let C1 : Sh := .or C1 BC
  let A : Sh := setr 16 A0 B0
  let B : Sh := setr 16 C0 A1
  let C : Sh := setr 16 B1 C1
  [A, B, C]

/-- `store3` of i8/u8 on AVX2, egg/x86_load_store_deg234.py:2421-2484. -/
def store3_avx2_8 : List Sh :=
  let RACm : List Int := [0, -1, -1, 1, -1, -1, 2, -1, -1, 3, -1, -1, 4, -1, -1, 5, -1, 27, -1,
      -1, 28, -1, -1, 29, -1, -1, 30, -1, -1, 31, -1, -1]
  let RBBm : List Int := [-1, 11, -1, -1, 12, -1, -1, 13, -1, -1, 14, -1, -1, 15, -1, -1, 16, -1,
      -1, 17, -1, -1, 18, -1, -1, 19, -1, -1, 20, -1, -1, 21]
  let RCAm : List Int := [-1, -1, 22, -1, -1, 23, -1, -1, 24, -1, -1, 25, -1, -1, 26, -1, -1, -1,
      6, -1, -1, 7, -1, -1, 8, -1, -1, 9, -1, -1, 10, -1]
  let GACm : List Int := [-1, 0, -1, -1, 1, -1, -1, 2, -1, -1, 3, -1, -1, 4, -1, -1, -1, -1, 27,
      -1, -1, 28, -1, -1, 29, -1, -1, 30, -1, -1, 31, -1]
  let GBBm : List Int := [-1, -1, 11, -1, -1, 12, -1, -1, 13, -1, -1, 14, -1, -1, 15, -1, -1, 16,
      -1, -1, 17, -1, -1, 18, -1, -1, 19, -1, -1, 20, -1, -1]
  let GCAm : List Int := [21, -1, -1, 22, -1, -1, 23, -1, -1, 24, -1, -1, 25, -1, -1, 26, 5, -1,
      -1, 6, -1, -1, 7, -1, -1, 8, -1, -1, 9, -1, -1, 10]
  let BACm : List Int := [-1, -1, 0, -1, -1, 1, -1, -1, 2, -1, -1, 3, -1, -1, 4, -1, 26, -1, -1,
      27, -1, -1, 28, -1, -1, 29, -1, -1, 30, -1, -1, 31]
  let BBBm : List Int := [10, -1, -1, 11, -1, -1, 12, -1, -1, 13, -1, -1, 14, -1, -1, 15, -1, -1,
      16, -1, -1, 17, -1, -1, 18, -1, -1, 19, -1, -1, 20, -1]
  let BCAm : List Int := [-1, 21, -1, -1, 22, -1, -1, 23, -1, -1, 24, -1, -1, 25, -1, -1, -1, 5,
      -1, -1, 6, -1, -1, 7, -1, -1, 8, -1, -1, 9, -1, -1]
  let RAC : Sh := shuffle_epi8 (.inp 0) RACm
  let GAC : Sh := shuffle_epi8 (.inp 1) GACm
  let BAC : Sh := shuffle_epi8 (.inp 2) BACm
  let RBB : Sh := shuffle_epi8 (.inp 0) RBBm
  let GBB : Sh := shuffle_epi8 (.inp 1) GBBm
  let BBB : Sh := shuffle_epi8 (.inp 2) BBBm
  let RCA : Sh := shuffle_epi8 (.inp 0) RCAm
  let GCA : Sh := shuffle_epi8 (.inp 1) GCAm
  let BCA : Sh := shuffle_epi8 (.inp 2) BCAm
  let AC : Sh := .or RAC GAC
  let AC : Sh := .or AC BAC
  let B : Sh := .or RBB GBB
  let B : Sh := .or B BBB
  let CA : Sh := .or RCA GCA
  let CA : Sh := .or CA BCA
  let A : Sh := permute2f128 AC CA 32
  let C : Sh := permute2f128 AC CA 19
  [A, B, C]

/-- `store3` of i16/u16 on AVX, egg/x86_load_store_deg234.py:2628-2693. -/
def store3_avx_16 : List Sh :=
  let Ra : Sh := exlo 16 (.inp 0)
  let Rb : Sh := exhi 16 (.inp 0)
  let Ga : Sh := exlo 16 (.inp 1)
  let Gb : Sh := exhi 16 (.inp 1)
  let Ba : Sh := exlo 16 (.inp 2)
  let Bb : Sh := exhi 16 (.inp 2)
  let RAm : List Int := (mmSet [-1, -1, 5, 4, -1, -1, -1, -1, 3, 2, -1, -1, -1, -1, 1, 0])
  let GAm : List Int := (mmSet [5, 4, -1, -1, -1, -1, 3, 2, -1, -1, -1, -1, 1, 0, -1, -1])
  let BAm : List Int := (mmSet [-1, -1, -1, -1, 3, 2, -1, -1, -1, -1, 1, 0, -1, -1, -1, -1])
  let RA : Sh := shuffle_epi8 Ra RAm
  let GA : Sh := shuffle_epi8 Ga GAm
  let BA : Sh := shuffle_epi8 Ba BAm
  let A0 : Sh := .or RA GA
  let A0 : Sh := .or A0 BA
  let RA : Sh := shuffle_epi8 Rb RAm
  let GA : Sh := shuffle_epi8 Gb GAm
  let BA : Sh := shuffle_epi8 Bb BAm
  let A1 : Sh := .or RA GA
  let A1 : Sh := .or A1 BA
  let RBm : List Int := (mmSet [11, 10, -1, -1, -1, -1, 9, 8, -1, -1, -1, -1, 7, 6, -1, -1])
  let GBm : List Int := (mmSet [-1, -1, -1, -1, 9, 8, -1, -1, -1, -1, 7, 6, -1, -1, -1, -1])
  let BBm : List Int := (mmSet [-1, -1, 9, 8, -1, -1, -1, -1, 7, 6, -1, -1, -1, -1, 5, 4])
  let RB : Sh := shuffle_epi8 Ra RBm
  let GB : Sh := shuffle_epi8 Ga GBm
  let BB : Sh := shuffle_epi8 Ba BBm
  let B0 : Sh := .or RB GB
  let B0 : Sh := .or B0 BB
  let RB : Sh := shuffle_epi8 Rb RBm
  let GB : Sh := shuffle_epi8 Gb GBm
  let BB : Sh := shuffle_epi8 Bb BBm
  let B1 : Sh := .or RB GB
  let B1 : Sh := .or B1 BB
  let RCm : List Int := (mmSet [-1, -1, -1, -1, 15, 14, -1, -1, -1, -1, 13, 12, -1, -1, -1, -1])
  let GCm : List Int := (mmSet [-1, -1, 15, 14, -1, -1, -1, -1, 13, 12, -1, -1, -1, -1, 11, 10])
  let BCm : List Int := (mmSet [15, 14, -1, -1, -1, -1, 13, 12, -1, -1, -1, -1, 11, 10, -1, -1])
  let RC : Sh := shuffle_epi8 Ra RCm
  let GC : Sh := shuffle_epi8 Ga GCm
  let BC : Sh := shuffle_epi8 Ba BCm
  let C0 : Sh := .or RC GC
  let C0 : Sh := .or C0 BC
  let RC : Sh := shuffle_epi8 Rb RCm
  let GC : Sh := shuffle_epi8 Gb GCm
  let BC : Sh := shuffle_epi8 Bb BCm
  let C1 : Sh := .or RC GC
  let C1 : Sh := .or C1 BC
  let A : Sh := setr 16 A0 B0
  let B : Sh := setr 16 C0 A1
  let C : Sh := setr 16 B1 C1
  [A, B, C]

/-- `store3` of i16/u16 on AVX2, egg/x86_load_store_deg234.py:2561-2624. -/
def store3_avx2_16 : List Sh :=
  let RACm : List Int := [0, 1, -1, -1, -1, -1, 2, 3, -1, -1, -1, -1, 4, 5, -1, -1, -1, -1, -1,
      -1, 12, 13, -1, -1, -1, -1, 14, 15, -1, -1, -1, -1]
  let RBBm : List Int := [-1, -1, -1, -1, 12, 13, -1, -1, -1, -1, 14, 15, -1, -1, -1, -1, 0, 1,
      -1, -1, -1, -1, 2, 3, -1, -1, -1, -1, 4, 5, -1, -1]
  let RCAm : List Int := [-1, -1, 6, 7, -1, -1, -1, -1, 8, 9, -1, -1, -1, -1, 10, 11, -1, -1, 6,
      7, -1, -1, -1, -1, 8, 9, -1, -1, -1, -1, 10, 11]
  let GACm : List Int := [-1, -1, 0, 1, -1, -1, -1, -1, 2, 3, -1, -1, -1, -1, 4, 5, 10, 11, -1,
      -1, -1, -1, 12, 13, -1, -1, -1, -1, 14, 15, -1, -1]
  let GBBm : List Int := [10, 11, -1, -1, -1, -1, 12, 13, -1, -1, -1, -1, 14, 15, -1, -1, -1, -1,
      0, 1, -1, -1, -1, -1, 2, 3, -1, -1, -1, -1, 4, 5]
  let GCAm : List Int := [-1, -1, -1, -1, 6, 7, -1, -1, -1, -1, 8, 9, -1, -1, -1, -1, -1, -1, -1,
      -1, 6, 7, -1, -1, -1, -1, 8, 9, -1, -1, -1, -1]
  let BACm : List Int := [-1, -1, -1, -1, 0, 1, -1, -1, -1, -1, 2, 3, -1, -1, -1, -1, -1, -1, 10,
      11, -1, -1, -1, -1, 12, 13, -1, -1, -1, -1, 14, 15]
  let BBBm : List Int := [-1, -1, 10, 11, -1, -1, -1, -1, 12, 13, -1, -1, -1, -1, 14, 15, -1, -1,
      -1, -1, 0, 1, -1, -1, -1, -1, 2, 3, -1, -1, -1, -1]
  let BCAm : List Int := [4, 5, -1, -1, -1, -1, 6, 7, -1, -1, -1, -1, 8, 9, -1, -1, 4, 5, -1, -1,
      -1, -1, 6, 7, -1, -1, -1, -1, 8, 9, -1, -1]
  let RAC : Sh := shuffle_epi8 (.inp 0) RACm
  let GAC : Sh := shuffle_epi8 (.inp 1) GACm
  let BAC : Sh := shuffle_epi8 (.inp 2) BACm
  let RBB : Sh := shuffle_epi8 (.inp 0) RBBm
  let GBB : Sh := shuffle_epi8 (.inp 1) GBBm
  let BBB : Sh := shuffle_epi8 (.inp 2) BBBm
  let RCA : Sh := shuffle_epi8 (.inp 0) RCAm
  let GCA : Sh := shuffle_epi8 (.inp 1) GCAm
  let BCA : Sh := shuffle_epi8 (.inp 2) BCAm
  let AC : Sh := .or RAC GAC
  let AC : Sh := .or AC BAC
  let B : Sh := .or RBB GBB
  let B : Sh := .or B BBB
  let CA : Sh := .or RCA GCA
  let CA : Sh := .or CA BCA
  let A : Sh := permute2f128 AC CA 32
  let C : Sh := permute2f128 AC CA 19
  [A, B, C]

/-- `store3` of f32 on AVX (also i32/u32, lines 2783-2786),
egg/x86_load_store_deg234.py:2739-2775. -/
def store3_avx_32 : List Sh :=
  let RAm : List Int := [0, -1, -1, 1, -1, -1, 2, -1]
  let RBm : List Int := [-1, 3, -1, -1, 4, -1, -1, 5]
  let RCm : List Int := [-1, -1, 6, -1, -1, 7, -1, -1]
  let GAm : List Int := [-1, 0, -1, -1, 1, -1, -1, 2]
  let GBm : List Int := [-1, -1, 3, -1, -1, 4, -1, -1]
  let GCm : List Int := [5, -1, -1, 6, -1, -1, 7, -1]
  let BAm : List Int := [-1, -1, 0, -1, -1, 1, -1, -1]
  let BBm : List Int := [2, -1, -1, 3, -1, -1, 4, -1]
  let BCm : List Int := [-1, 5, -1, -1, 6, -1, -1, 7]
  let RA : Sh := permutevar_ps (.inp 0) RAm
  let RB : Sh := permutevar_ps (.inp 0) RBm
  let RC : Sh := permutevar_ps (.inp 0) RCm
  let GA : Sh := permutevar_ps (.inp 1) GAm
  let GB : Sh := permutevar_ps (.inp 1) GBm
  let GC : Sh := permutevar_ps (.inp 1) GCm
  let BA : Sh := permutevar_ps (.inp 2) BAm
  let BB : Sh := permutevar_ps (.inp 2) BBm
  let BC : Sh := permutevar_ps (.inp 2) BCm
  let A1 : Sh := blend 4 RA GA 146
  let A1 : Sh := blend 4 A1 BA 36
  let B : Sh := blend 4 RB GB 36
  let B : Sh := blend 4 B BB 73
  let C1 : Sh := blend 4 RC GC 73
  let C1 : Sh := blend 4 C1 BC 146
  let A : Sh := permute2f128 A1 C1 32
  let C : Sh := permute2f128 A1 C1 49
  [A, B, C]

/-- `store3` of i32/u32/f32 on AVX2, egg/x86_load_store_deg234.py:2699-2732. -/
def store3_avx2_32 : List Sh :=
  let RAm : List Int := [0, -1, -1, 1, -1, -1, 2, -1]
  let RBm : List Int := [-1, 3, -1, -1, 4, -1, -1, 5]
  let RCm : List Int := [-1, -1, 6, -1, -1, 7, -1, -1]
  let GAm : List Int := [-1, 0, -1, -1, 1, -1, -1, 2]
  let GBm : List Int := [-1, -1, 3, -1, -1, 4, -1, -1]
  let GCm : List Int := [5, -1, -1, 6, -1, -1, 7, -1]
  let BAm : List Int := [-1, -1, 0, -1, -1, 1, -1, -1]
  let BBm : List Int := [2, -1, -1, 3, -1, -1, 4, -1]
  let BCm : List Int := [-1, 5, -1, -1, 6, -1, -1, 7]
  let RA : Sh := permutevar8x32 (.inp 0) RAm
  let RB : Sh := permutevar8x32 (.inp 0) RBm
  let RC : Sh := permutevar8x32 (.inp 0) RCm
  let GA : Sh := permutevar8x32 (.inp 1) GAm
  let GB : Sh := permutevar8x32 (.inp 1) GBm
  let GC : Sh := permutevar8x32 (.inp 1) GCm
  let BA : Sh := permutevar8x32 (.inp 2) BAm
  let BB : Sh := permutevar8x32 (.inp 2) BBm
  let BC : Sh := permutevar8x32 (.inp 2) BCm
  let A : Sh := blend 4 RA GA 146
  let A : Sh := blend 4 A BA 36
  let B : Sh := blend 4 RB GB 36
  let B : Sh := blend 4 B BB 73
  let C : Sh := blend 4 RC GC 73
  let C : Sh := blend 4 C BC 146
  [A, B, C]

/-- `store3` of f64 on AVX and AVX2 (also i64/u64, lines 2803-2806),
egg/x86_load_store_deg234.py:2790-2799. -/
def store3_avx_64 : List Sh :=
  let invv1 : Sh := permute_pd (.inp 1) 5
  let A1C0 : Sh := blend 8 (.inp 0) (.inp 2) 5
  let A0B1 : Sh := blend 8 (.inp 0) invv1 10
  let B0C1 : Sh := blend 8 invv1 (.inp 2) 10
  let A : Sh := permute2f128 A0B1 A1C0 32
  let B : Sh := blend 8 B0C1 A0B1 12
  let C : Sh := permute2f128 A1C0 B0C1 49
  [A, B, C]

/-- `store3` of i8/u8 on AVX-512, egg/x86_load_store_deg234.py:3126-3225. -/
def store3_avx512_8 : List Sh :=
  let R0 : Sh := exlo 32 (.inp 0)
  let R1 : Sh := exhi 32 (.inp 0)
  let G0 : Sh := exlo 32 (.inp 1)
  let G1 : Sh := exhi 32 (.inp 1)
  let B0 : Sh := exlo 32 (.inp 2)
  let B1 : Sh := exhi 32 (.inp 2)
  let RACm : List Int := [0, -1, -1, 1, -1, -1, 2, -1, -1, 3, -1, -1, 4, -1, -1, 5, -1, 27, -1,
      -1, 28, -1, -1, 29, -1, -1, 30, -1, -1, 31, -1, -1]
  let RBBm : List Int := [-1, 11, -1, -1, 12, -1, -1, 13, -1, -1, 14, -1, -1, 15, -1, -1, 16, -1,
      -1, 17, -1, -1, 18, -1, -1, 19, -1, -1, 20, -1, -1, 21]
  let RCAm : List Int := [-1, -1, 22, -1, -1, 23, -1, -1, 24, -1, -1, 25, -1, -1, 26, -1, -1, -1,
      6, -1, -1, 7, -1, -1, 8, -1, -1, 9, -1, -1, 10, -1]
  let GACm : List Int := [-1, 0, -1, -1, 1, -1, -1, 2, -1, -1, 3, -1, -1, 4, -1, -1, -1, -1, 27,
      -1, -1, 28, -1, -1, 29, -1, -1, 30, -1, -1, 31, -1]
  let GBBm : List Int := [-1, -1, 11, -1, -1, 12, -1, -1, 13, -1, -1, 14, -1, -1, 15, -1, -1, 16,
      -1, -1, 17, -1, -1, 18, -1, -1, 19, -1, -1, 20, -1, -1]
  let GCAm : List Int := [21, -1, -1, 22, -1, -1, 23, -1, -1, 24, -1, -1, 25, -1, -1, 26, 5, -1,
      -1, 6, -1, -1, 7, -1, -1, 8, -1, -1, 9, -1, -1, 10]
  let BACm : List Int := [-1, -1, 0, -1, -1, 1, -1, -1, 2, -1, -1, 3, -1, -1, 4, -1, 26, -1, -1,
      27, -1, -1, 28, -1, -1, 29, -1, -1, 30, -1, -1, 31]
  let BBBm : List Int := [10, -1, -1, 11, -1, -1, 12, -1, -1, 13, -1, -1, 14, -1, -1, 15, -1, -1,
      16, -1, -1, 17, -1, -1, 18, -1, -1, 19, -1, -1, 20, -1]
  let BCAm : List Int := [-1, 21, -1, -1, 22, -1, -1, 23, -1, -1, 24, -1, -1, 25, -1, -1, -1, 5,
      -1, -1, 6, -1, -1, 7, -1, -1, 8, -1, -1, 9, -1, -1]
  let RAC : Sh := shuffle_epi8 R0 RACm
  let GAC : Sh := shuffle_epi8 G0 GACm
  let BAC : Sh := shuffle_epi8 B0 BACm
  let AC0 : Sh := .or RAC GAC
  let AC0 : Sh := .or AC0 BAC
  let RBB : Sh := shuffle_epi8 R0 RBBm
  let GBB : Sh := shuffle_epi8 G0 GBBm
  let BBB : Sh := shuffle_epi8 B0 BBBm
  let BB0 : Sh := .or RBB GBB
  let BB0 : Sh := .or BB0 BBB
  let RCA : Sh := shuffle_epi8 R0 RCAm
  let GCA : Sh := shuffle_epi8 G0 GCAm
  let BCA : Sh := shuffle_epi8 B0 BCAm
  let CA0 : Sh := .or RCA GCA
  let CA0 : Sh := .or CA0 BCA
  let AA0 : Sh := permute2f128 AC0 CA0 32
  let CC0 : Sh := permute2f128 AC0 CA0 19
  let RAC : Sh := shuffle_epi8 R1 RACm
  let GAC : Sh := shuffle_epi8 G1 GACm
  let BAC : Sh := shuffle_epi8 B1 BACm
  let AC1 : Sh := .or RAC GAC
  let AC1 : Sh := .or AC1 BAC
  let RBB : Sh := shuffle_epi8 R1 RBBm
  let GBB : Sh := shuffle_epi8 G1 GBBm
  let BBB : Sh := shuffle_epi8 B1 BBBm
  let BB1 : Sh := .or RBB GBB
  let BB1 : Sh := .or BB1 BBB
  let RCA : Sh := shuffle_epi8 R1 RCAm
  let GCA : Sh := shuffle_epi8 G1 GCAm
  let BCA : Sh := shuffle_epi8 B1 BCAm
  let CA1 : Sh := .or RCA GCA
  let CA1 : Sh := .or CA1 BCA
  let AA1 : Sh := permute2f128 AC1 CA1 32
  let CC1 : Sh := permute2f128 AC1 CA1 19
  let A : Sh := setr 32 AA0 BB0
  let B : Sh := setr 32 CC0 AA1
  let C : Sh := setr 32 BB1 CC1
  [A, B, C]

/-- `store3` of i16/u16 on AVX-512, egg/x86_load_store_deg234.py:3233-3331. -/
def store3_avx512_16 : List Sh :=
  let R0a : Sh := exlo 32 (.inp 0)
  let R0b : Sh := exhi 32 (.inp 0)
  let G0a : Sh := exlo 32 (.inp 1)
  let G0b : Sh := exhi 32 (.inp 1)
  let B0a : Sh := exlo 32 (.inp 2)
  let B0b : Sh := exhi 32 (.inp 2)
  let RACm : List Int := [0, 1, -1, -1, -1, -1, 2, 3, -1, -1, -1, -1, 4, 5, -1, -1, -1, -1, -1,
      -1, 12, 13, -1, -1, -1, -1, 14, 15, -1, -1, -1, -1]
  let RBBm : List Int := [-1, -1, -1, -1, 12, 13, -1, -1, -1, -1, 14, 15, -1, -1, -1, -1, 0, 1,
      -1, -1, -1, -1, 2, 3, -1, -1, -1, -1, 4, 5, -1, -1]
  let RCAm : List Int := [-1, -1, 6, 7, -1, -1, -1, -1, 8, 9, -1, -1, -1, -1, 10, 11, -1, -1, 6,
      7, -1, -1, -1, -1, 8, 9, -1, -1, -1, -1, 10, 11]
  let GACm : List Int := [-1, -1, 0, 1, -1, -1, -1, -1, 2, 3, -1, -1, -1, -1, 4, 5, 10, 11, -1,
      -1, -1, -1, 12, 13, -1, -1, -1, -1, 14, 15, -1, -1]
  let GBBm : List Int := [10, 11, -1, -1, -1, -1, 12, 13, -1, -1, -1, -1, 14, 15, -1, -1, -1, -1,
      0, 1, -1, -1, -1, -1, 2, 3, -1, -1, -1, -1, 4, 5]
  let GCAm : List Int := [-1, -1, -1, -1, 6, 7, -1, -1, -1, -1, 8, 9, -1, -1, -1, -1, -1, -1, -1,
      -1, 6, 7, -1, -1, -1, -1, 8, 9, -1, -1, -1, -1]
  let BACm : List Int := [-1, -1, -1, -1, 0, 1, -1, -1, -1, -1, 2, 3, -1, -1, -1, -1, -1, -1, 10,
      11, -1, -1, -1, -1, 12, 13, -1, -1, -1, -1, 14, 15]
  let BBBm : List Int := [-1, -1, 10, 11, -1, -1, -1, -1, 12, 13, -1, -1, -1, -1, 14, 15, -1, -1,
      -1, -1, 0, 1, -1, -1, -1, -1, 2, 3, -1, -1, -1, -1]
  let BCAm : List Int := [4, 5, -1, -1, -1, -1, 6, 7, -1, -1, -1, -1, 8, 9, -1, -1, 4, 5, -1, -1,
      -1, -1, 6, 7, -1, -1, -1, -1, 8, 9, -1, -1]
  let RAC : Sh := shuffle_epi8 R0a RACm
  let GAC : Sh := shuffle_epi8 G0a GACm
  let BAC : Sh := shuffle_epi8 B0a BACm
  let RBB : Sh := shuffle_epi8 R0a RBBm
  let GBB : Sh := shuffle_epi8 G0a GBBm
  let BBB : Sh := shuffle_epi8 B0a BBBm
  let RCA : Sh := shuffle_epi8 R0a RCAm
  let GCA : Sh := shuffle_epi8 G0a GCAm
  let BCA : Sh := shuffle_epi8 B0a BCAm
  let AC : Sh := .or RAC GAC
  let AC : Sh := .or AC BAC
  let BBa : Sh := .or RBB GBB
  let BBa : Sh := .or BBa BBB
  let CA : Sh := .or RCA GCA
  let CA : Sh := .or CA BCA
  let AAa : Sh := permute2f128 AC CA 32
  let CCa : Sh := permute2f128 AC CA 19
  let RAC : Sh := shuffle_epi8 R0b RACm
  let GAC : Sh := shuffle_epi8 G0b GACm
  let BAC : Sh := shuffle_epi8 B0b BACm
  let RBB : Sh := shuffle_epi8 R0b RBBm
  let GBB : Sh := shuffle_epi8 G0b GBBm
  let BBB : Sh := shuffle_epi8 B0b BBBm
  let RCA : Sh := shuffle_epi8 R0b RCAm
  let GCA : Sh := shuffle_epi8 G0b GCAm
  let BCA : Sh := shuffle_epi8 B0b BCAm
  let AC : Sh := .or RAC GAC
  let AC : Sh := .or AC BAC
  let BBb : Sh := .or RBB GBB
  let BBb : Sh := .or BBb BBB
  let CA : Sh := .or RCA GCA
  let CA : Sh := .or CA BCA
  let AAb : Sh := permute2f128 AC CA 32
  let CCb : Sh := permute2f128 AC CA 19
  let A : Sh := setr 32 AAa BBa
  let B : Sh := setr 32 CCa AAb
  let C : Sh := setr 32 BBb CCb
  [A, B, C]

/-- `store3` of i32/u32/f32 on AVX-512, egg/x86_load_store_deg234.py:3339-3359. -/
def store3_avx512_32 : List Sh :=
  let ARGm : List Int := [0, 16, 0, 1, 17, 0, 2, 18, 0, 3, 19, 0, 4, 20, 0, 5]
  let ARGBm : List Int := [0, 1, 16, 3, 4, 17, 6, 7, 18, 9, 10, 19, 12, 13, 20, 15]
  let BRGm : List Int := [21, 0, 6, 22, 0, 7, 23, 0, 8, 24, 0, 9, 25, 0, 10, 26]
  let BRGBm : List Int := [0, 21, 2, 3, 22, 5, 6, 23, 8, 9, 24, 11, 12, 25, 14, 15]
  let CRGm : List Int := [0, 11, 27, 0, 12, 28, 0, 13, 29, 0, 14, 30, 0, 15, 31, 0]
  let CRGBm : List Int := [26, 1, 2, 27, 4, 5, 28, 7, 8, 29, 10, 11, 30, 13, 14, 31]
  let A : Sh := permutex2var 4 (.inp 0) ARGm (.inp 1)
  let A : Sh := permutex2var 4 A ARGBm (.inp 2)
  let B : Sh := permutex2var 4 (.inp 0) BRGm (.inp 1)
  let B : Sh := permutex2var 4 B BRGBm (.inp 2)
  let C : Sh := permutex2var 4 (.inp 0) CRGm (.inp 1)
  let C : Sh := permutex2var 4 C CRGBm (.inp 2)
  [A, B, C]

/-- `store3` of i64/u64/f64 on AVX-512, egg/x86_load_store_deg234.py:3364-3379. -/
def store3_avx512_64 : List Sh :=
  let A_mask0 : List Int := (mmSet [10, 2, 0, 9, 1, 0, 8, 0])
  let A_mask1 : List Int := (mmSet [7, 6, 9, 4, 3, 8, 1, 0])
  let A1 : Sh := permutex2var 8 (.inp 0) A_mask0 (.inp 1)
  let A2 : Sh := permutex2var 8 A1 A_mask1 (.inp 2)
  let B_mask0 : List Int := (mmSet [5, 0, 12, 4, 0, 11, 3, 0])
  let B_mask1 : List Int := (mmSet [7, 12, 5, 4, 11, 2, 1, 10])
  let B1 : Sh := permutex2var 8 (.inp 0) B_mask0 (.inp 1)
  let B2 : Sh := permutex2var 8 B1 B_mask1 (.inp 2)
  let C_mask0 : List Int := (mmSet [0, 15, 7, 0, 14, 6, 0, 13])
  let C_mask1 : List Int := (mmSet [15, 6, 5, 14, 3, 2, 13, 0])
  let C1 : Sh := permutex2var 8 (.inp 0) C_mask0 (.inp 1)
  let C2 : Sh := permutex2var 8 C1 C_mask1 (.inp 2)
  [A2, B2, C2]

/-! ### Dispatch (egg/platform_x86.py:916-994) -/

/-- The x86 instruction sets; `avx512` stands for avx512_knl and avx512_skylake, which share
the code, egg/x86_load_store_deg234.py:25-27. -/
inductive Isa where
  | sse2 | sse42 | avx | avx2 | avx512
  deriving DecidableEq

/-- Element types, up to signedness, which no template depends on: egg/common.py:221-224.
f16 goes through u16 (egg/platform_x86.py:917-930). -/
inductive ETy where
  | i8 | i16 | i32 | f32 | i64 | f64
  deriving DecidableEq

/-- Degree of a load or store: egg/platform_x86.py:916-994. -/
inductive Deg where
  | two | three | four
  deriving DecidableEq

/-- Register size in bytes: egg/platform_x86.py:62-80. -/
def Isa.bytes : Isa → Nat
  | .sse2 | .sse42 => 16
  | .avx | .avx2 => 32
  | .avx512 => 64

/-- Element size in bytes: egg/common.py:287-293. -/
def ETy.bytes : ETy → Nat
  | .i8 => 1
  | .i16 => 2
  | .i32 | .f32 => 4
  | .i64 | .f64 => 8

/-- Number of interleaved streams: egg/platform_x86.py:916-994. -/
def Deg.num : Deg → Nat
  | .two => 2
  | .three => 3
  | .four => 4

/-- `load_deg234`: egg/platform_x86.py:916-952 with the `if typ in ...` dispatch of
egg/x86_load_store_deg234.py. -/
def loadDeg : Isa → Deg → ETy → List Sh
  | .sse2, .two, .i8 => load2_sse2_8
  | .sse2, .two, .i16 => load2_sse2_16
  | .sse2, .two, .i32 => load2_sse_32
  | .sse2, .two, .f32 => load2_sse_32
  | .sse2, .two, .i64 => load2_sse_64
  | .sse2, .two, .f64 => load2_sse_64
  | .sse42, .two, .i8 => load2_sse42_8
  | .sse42, .two, .i16 => load2_sse42_16
  | .sse42, .two, .i32 => load2_sse_32
  | .sse42, .two, .f32 => load2_sse_32
  | .sse42, .two, .i64 => load2_sse_64
  | .sse42, .two, .f64 => load2_sse_64
  | .avx, .two, .i8 => load2_avx_8
  | .avx, .two, .i16 => load2_avx_16
  | .avx, .two, .i32 => load2_avx_f32
  | .avx, .two, .f32 => load2_avx_f32
  | .avx, .two, .i64 => load2_avx_f64
  | .avx, .two, .f64 => load2_avx_f64
  | .avx2, .two, .i8 => load2_avx2_8
  | .avx2, .two, .i16 => load2_avx2_16
  | .avx2, .two, .i32 => load2_avx2_i32
  | .avx2, .two, .f32 => load2_avx_f32
  | .avx2, .two, .i64 => load2_avx2_i64
  | .avx2, .two, .f64 => load2_avx_f64
  | .avx512, .two, .i8 => load2_avx512_8
  | .avx512, .two, .i16 => load2_avx512_16
  | .avx512, .two, .i32 => load2_avx512_32
  | .avx512, .two, .f32 => load2_avx512_32
  | .avx512, .two, .i64 => load2_avx512_64
  | .avx512, .two, .f64 => load2_avx512_64
  | .sse2, .three, .i8 => load3_sse2_8
  | .sse2, .three, .i16 => load3_sse_16
  | .sse2, .three, .i32 => load3_sse_32
  | .sse2, .three, .f32 => load3_sse_32
  | .sse2, .three, .i64 => load3_sse_64
  | .sse2, .three, .f64 => load3_sse_64
  | .sse42, .three, .i8 => load3_sse42_8
  | .sse42, .three, .i16 => load3_sse_16
  | .sse42, .three, .i32 => load3_sse_32
  | .sse42, .three, .f32 => load3_sse_32
  | .sse42, .three, .i64 => load3_sse_64
  | .sse42, .three, .f64 => load3_sse_64
  | .avx, .three, .i8 => load3_avx_8
  | .avx, .three, .i16 => load3_avx_16
  | .avx, .three, .i32 => load3_avx_32
  | .avx, .three, .f32 => load3_avx_32
  | .avx, .three, .i64 => load3_avx_64
  | .avx, .three, .f64 => load3_avx_64
  | .avx2, .three, .i8 => load3_avx2_8
  | .avx2, .three, .i16 => load3_avx2_16
  | .avx2, .three, .i32 => load3_avx2_32
  | .avx2, .three, .f32 => load3_avx2_32
  | .avx2, .three, .i64 => load3_avx2_64
  | .avx2, .three, .f64 => load3_avx2_64
  | .avx512, .three, .i8 => load3_avx512_8
  | .avx512, .three, .i16 => load3_avx512_16
  | .avx512, .three, .i32 => load3_avx512_32
  | .avx512, .three, .f32 => load3_avx512_32
  | .avx512, .three, .i64 => load3_avx512_64
  | .avx512, .three, .f64 => load3_avx512_64
  | .sse2, .four, .i8 => load4_sse2_8
  | .sse2, .four, .i16 => load4_sse_16
  | .sse2, .four, .i32 => load4_sse_32
  | .sse2, .four, .f32 => load4_sse_32
  | .sse2, .four, .i64 => load4_sse_64
  | .sse2, .four, .f64 => load4_sse_64
  | .sse42, .four, .i8 => load4_sse42_8
  | .sse42, .four, .i16 => load4_sse_16
  | .sse42, .four, .i32 => load4_sse_32
  | .sse42, .four, .f32 => load4_sse_32
  | .sse42, .four, .i64 => load4_sse_64
  | .sse42, .four, .f64 => load4_sse_64
  | .avx, .four, .i8 => load4_avx_8
  | .avx, .four, .i16 => load4_avx_16
  | .avx, .four, .i32 => load4_avx_f32
  | .avx, .four, .f32 => load4_avx_f32
  | .avx, .four, .i64 => load4_avx_f64
  | .avx, .four, .f64 => load4_avx_f64
  | .avx2, .four, .i8 => load4_avx2_8
  | .avx2, .four, .i16 => load4_avx2_16
  | .avx2, .four, .i32 => load4_avx2_i32
  | .avx2, .four, .f32 => load4_avx_f32
  | .avx2, .four, .i64 => load4_avx2_i64
  | .avx2, .four, .f64 => load4_avx_f64
  | .avx512, .four, .i8 => load4_avx512_8
  | .avx512, .four, .i16 => load4_avx512_16
  | .avx512, .four, .i32 => load4_avx512_32
  | .avx512, .four, .f32 => load4_avx512_32
  | .avx512, .four, .i64 => load4_avx512_64
  | .avx512, .four, .f64 => load4_avx512_64

/-- `store_deg234`: egg/platform_x86.py:957-994 with the `if typ in ...` dispatch of
egg/x86_load_store_deg234.py. -/
def storeDeg : Isa → Deg → ETy → List Sh
  | .sse2, .two, .i8 => store2_normal_8
  | .sse2, .two, .i16 => store2_normal_16
  | .sse2, .two, .i32 => store2_normal_32
  | .sse2, .two, .f32 => store2_normal_32
  | .sse2, .two, .i64 => store2_normal_64
  | .sse2, .two, .f64 => store2_normal_64
  | .sse42, .two, .i8 => store2_normal_8
  | .sse42, .two, .i16 => store2_normal_16
  | .sse42, .two, .i32 => store2_normal_32
  | .sse42, .two, .f32 => store2_normal_32
  | .sse42, .two, .i64 => store2_normal_64
  | .sse42, .two, .f64 => store2_normal_64
  | .avx, .two, .i8 => store2_avx_8
  | .avx, .two, .i16 => store2_avx_16
  | .avx, .two, .i32 => store2_avx_i32
  | .avx, .two, .f32 => store2_normal_32
  | .avx, .two, .i64 => store2_avx_i64
  | .avx, .two, .f64 => store2_normal_64
  | .avx2, .two, .i8 => store2_avx2_8
  | .avx2, .two, .i16 => store2_normal_16
  | .avx2, .two, .i32 => store2_normal_32
  | .avx2, .two, .f32 => store2_normal_32
  | .avx2, .two, .i64 => store2_normal_64
  | .avx2, .two, .f64 => store2_normal_64
  | .avx512, .two, .i8 => store2_avx512_8
  | .avx512, .two, .i16 => store2_avx512_16
  | .avx512, .two, .i32 => store2_avx512_32
  | .avx512, .two, .f32 => store2_avx512_32
  | .avx512, .two, .i64 => store2_avx512_64
  | .avx512, .two, .f64 => store2_avx512_64
  | .sse2, .three, .i8 => store3_sse2_8
  | .sse2, .three, .i16 => store3_sse_16
  | .sse2, .three, .i32 => store3_sse_32
  | .sse2, .three, .f32 => store3_sse_32
  | .sse2, .three, .i64 => store3_sse_64
  | .sse2, .three, .f64 => store3_sse_64
  | .sse42, .three, .i8 => store3_sse42_8
  | .sse42, .three, .i16 => store3_sse_16
  | .sse42, .three, .i32 => store3_sse_32
  | .sse42, .three, .f32 => store3_sse_32
  | .sse42, .three, .i64 => store3_sse_64
  | .sse42, .three, .f64 => store3_sse_64
  | .avx, .three, .i8 => store3_avx_8
  | .avx, .three, .i16 => store3_avx_16
  | .avx, .three, .i32 => store3_avx_32
  | .avx, .three, .f32 => store3_avx_32
  | .avx, .three, .i64 => store3_avx_64
  | .avx, .three, .f64 => store3_avx_64
  | .avx2, .three, .i8 => store3_avx2_8
  | .avx2, .three, .i16 => store3_avx2_16
  | .avx2, .three, .i32 => store3_avx2_32
  | .avx2, .three, .f32 => store3_avx2_32
  | .avx2, .three, .i64 => store3_avx_64
  | .avx2, .three, .f64 => store3_avx_64
  | .avx512, .three, .i8 => store3_avx512_8
  | .avx512, .three, .i16 => store3_avx512_16
  | .avx512, .three, .i32 => store3_avx512_32
  | .avx512, .three, .f32 => store3_avx512_32
  | .avx512, .three, .i64 => store3_avx512_64
  | .avx512, .three, .f64 => store3_avx512_64
  | .sse2, .four, .i8 => store4_sse_8
  | .sse2, .four, .i16 => store4_sse_16
  | .sse2, .four, .i32 => store4_sse_32
  | .sse2, .four, .f32 => store4_sse_32
  | .sse2, .four, .i64 => store4_sse_64
  | .sse2, .four, .f64 => store4_sse_64
  | .sse42, .four, .i8 => store4_sse_8
  | .sse42, .four, .i16 => store4_sse_16
  | .sse42, .four, .i32 => store4_sse_32
  | .sse42, .four, .f32 => store4_sse_32
  | .sse42, .four, .i64 => store4_sse_64
  | .sse42, .four, .f64 => store4_sse_64
  | .avx, .four, .i8 => store4_avx_8
  | .avx, .four, .i16 => store4_avx_16
  | .avx, .four, .i32 => store4_avx_f32
  | .avx, .four, .f32 => store4_avx_f32
  | .avx, .four, .i64 => store4_avx_f64
  | .avx, .four, .f64 => store4_avx_f64
  | .avx2, .four, .i8 => store4_avx2_8
  | .avx2, .four, .i16 => store4_avx2_16
  | .avx2, .four, .i32 => store4_avx2_i32
  | .avx2, .four, .f32 => store4_avx_f32
  | .avx2, .four, .i64 => store4_avx2_i64
  | .avx2, .four, .f64 => store4_avx_f64
  | .avx512, .four, .i8 => store4_avx512_8
  | .avx512, .four, .i16 => store4_avx512_16
  | .avx512, .four, .i32 => store4_avx512_32
  | .avx512, .four, .f32 => store4_avx512_32
  | .avx512, .four, .i64 => store4_avx512_64
  | .avx512, .four, .f64 => store4_avx512_64

/-! ### Effect on memory -/

/-- `nsimd_load{deg}{a,u}`: register `r` returned when the memory at `a0` holds the bytes `m`.
The `k`-th vector load reads the bytes from `k` times the register size on,
egg/x86_load_store_deg234.py:38-47, 532-545, 1564-1575.  Simplified: the bytes are mapped
(and aligned for the aligned form). -/
def loadRun (isa : Isa) (d : Deg) (t : ETy) (junk : Bytes) (m : Bytes) (r : Nat) : Bytes :=
  ((loadDeg isa d t).getD r (.inp 0)).eval (fun k j => m (k * isa.bytes + j)) junk

/-- `nsimd_store{deg}{a,u}`: the memory at `a0` after storing the registers `v`, given its
contents `m` before. The `r`-th vector store writes the bytes from `r` times the register
size on, egg/x86_load_store_deg234.py:368-380, 1125-1145, 1730-1747.  Simplified: the bytes
are mapped (and aligned for the aligned form). -/
def storeRun (isa : Isa) (d : Deg) (t : ETy) (junk : Bytes) (v : Nat → Bytes) (m : Bytes) :
    Bytes := fun x =>
  if x < d.num * isa.bytes then
    ((storeDeg isa d t).getD (x / isa.bytes) (.inp 0)).eval v junk (x % isa.bytes)
  else m x

end Nsimd.X86
