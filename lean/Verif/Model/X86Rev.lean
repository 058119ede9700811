import Verif.Model.X86Deg

/-!
# reverse of the x86 back end (egg/platform_x86.py:2487-2675)

The argument `a` is the register `in0`.
-/

namespace Nsimd.X86

/-- The x86 extensions, egg/platform_x86.py:33-39. -/
inductive Simd where
  | sse2 | sse42 | avx | avx2 | knl | skylake
  deriving DecidableEq

/-- The instruction set of an extension, for the functions that do not distinguish
`avx512_knl` from `avx512_skylake`: egg/platform_x86.py:37-39. -/
def Simd.isa : Simd → Isa
  | .sse2 => .sse2
  | .sse42 => .sse42
  | .avx => .avx
  | .avx2 => .avx2
  | .knl => .avx512
  | .skylake => .avx512

/-! ### Intrinsics -/

/-- `_mm_srli_epi16(a, 8)` (`w = 2`) and `_mm512_srli_epi32(a, 16)` (`w = 4`): each lane of `w`
bytes shifted right by half its size. Intel semantics, not code of the repo. -/
def srliHalf (w : Nat) (a : Sh) : Sh :=
  .sel (fun i => if i % w < w / 2 then .fst (i + w / 2) else .zero) a a

/-- `_mm_slli_epi16(a, 8)` (`w = 2`) and `_mm512_slli_epi32(a, 16)` (`w = 4`): each lane of `w`
bytes shifted left by half its size. Intel semantics, not code of the repo. -/
def slliHalf (w : Nat) (a : Sh) : Sh :=
  .sel (fun i => if i % w < w / 2 then .zero else .fst (i - w / 2)) a a

/-- `_mm{,256}_shuffle_epi32(a, imm)`. Intel semantics, not code of the repo. -/
def shuffle_epi32 (a : Sh) (imm : Nat) : Sh := shuffle_ps a a imm

/-- `_mm512_permutexvar_epi16/epi32/ps/epi64(idx, a)` with lanes of `w` bytes.
Intel semantics, not code of the repo. -/
def permutexvar (w : Nat) (idx : List Int) (a : Sh) : Sh :=
  .sel (fun i => .fst ((idx.getD (i / w) 0).toNat % (64 / w) * w + i % w)) a a

/-- `_mm256_insertf128_si256(a, b, 0)`, `_mm512_insertf64x4(a, b, 0)`: replaces the lower half.
Intel semantics, not code of the repo. -/
def insertLo (h : Nat) (a b : Sh) : Sh :=
  .sel (fun i => if i < h then .snd i else .fst i) a b

/-- The 16-bit lanes of a list of 32-bit lanes (lane 0 first).
Machine representation, not code of the repo. -/
def lanes16 (l : List Int) : List Int := l.flatMap fun x => [x % 65536, x / 65536]

/-! ### The generator -/

/-- 8-bit types on SSE2, egg/platform_x86.py:2490-2498. -/
def rev8Sse2 (a : Sh) : Sh :=
  let a := shufflehi_epi16 a (mmShuffle 0 1 2 3)
  let a := shufflelo_epi16 a (mmShuffle 0 1 2 3)
  let a := shuffle_pd a a 1
  .or (srliHalf 2 a) (slliHalf 2 a)

/-- The mask of the 8-bit reversal, egg/platform_x86.py:2500-2501, 2507-2508, 2510-2511. -/
def mask8 : List Int := mmSet [0, 1, 2, 3, 4, 5, 6, 7, 8, 9, 10, 11, 12, 13, 14, 15]
/-- The 256-bit mask of the 8-bit reversal, egg/platform_x86.py:2517-2521, 2529-2533,
2534-2538. -/
def mask8x2 : List Int := mmSet
  [0, 1, 2, 3, 4, 5, 6, 7, 8, 9, 10, 11, 12, 13, 14, 15,
   16, 17, 18, 19, 20, 21, 22, 23, 24, 25, 26, 27, 28, 29, 30, 31]
/-- The mask of the 16-bit reversal, egg/platform_x86.py:2557-2558, 2563, 2566. -/
def mask16 : List Int := mmSet [1, 0, 3, 2, 5, 4, 7, 6, 9, 8, 11, 10, 13, 12, 15, 14]
/-- The 256-bit mask of the 16-bit reversal, egg/platform_x86.py:2573-2577. -/
def mask16x2 : List Int := mmSet
  [1, 0, 3, 2, 5, 4, 7, 6, 9, 8, 11, 10, 13, 12, 15, 14,
   17, 16, 19, 18, 21, 20, 23, 22, 25, 24, 27, 26, 29, 28, 31, 30]

/-- 8- and 16-bit types on AVX: each half is reversed and written to the other half,
egg/platform_x86.py:2504-2514, 2559-2569. -/
def revAvxSmall (mask : List Int) (a : Sh) : Sh :=
  let r0 := shuffle_epi8 (exlo 16 a) mask
  let r1 := shuffle_epi8 (exhi 16 a) mask
  let a := insertHi 16 a r0
  insertLo 16 a r1

/-- 8- and 16-bit types on AVX2, egg/platform_x86.py:2515-2523, 2570-2579. -/
def revAvx2Small (mask : List Int) (a : Sh) : Sh :=
  let a := shuffle_epi8 a mask
  permute2f128 a a 1

/-- 8-bit types on AVX-512, egg/platform_x86.py:2524-2542. (The arguments of
`_mm512_insertf64x4` are integer vectors there, which needs lax vector conversions.) -/
def rev8Avx512 (a : Sh) : Sh :=
  let r0 := shuffle_epi8 (exlo 32 a) mask8x2
  let r1 := shuffle_epi8 (exhi 32 a) mask8x2
  let r0 := permute2f128 r0 r0 1
  let r1 := permute2f128 r1 r1 1
  let a := insertHi 32 a r0
  insertLo 32 a r1

/-- 16-bit types on SSE2, egg/platform_x86.py:2545-2551. -/
def rev16Sse2 (a : Sh) : Sh :=
  let a := shufflehi_epi16 a (mmShuffle 0 1 2 3)
  let a := shufflelo_epi16 a (mmShuffle 0 1 2 3)
  shuffle_pd a a 1

/-- The 32-bit index vector of AVX-512, egg/platform_x86.py:2583-2584, 2617-2619, 2658-2659. -/
def idx32 : List Int := mmSet [0, 1, 2, 3, 4, 5, 6, 7, 8, 9, 10, 11, 12, 13, 14, 15]

/-- 16-bit types on AVX-512 KNL, egg/platform_x86.py:2581-2588. -/
def rev16Knl (a : Sh) : Sh :=
  let a := permutexvar 4 idx32 a
  .or (srliHalf 4 a) (slliHalf 4 a)

/-- 16-bit types on AVX-512 Skylake, egg/platform_x86.py:2590-2597: the 16-bit indices are
written as 32-bit constants `(i << 16) | j`. -/
def rev16Skylake (a : Sh) : Sh :=
  permutexvar 2 (lanes16 (mmSet
    [0 * 65536 + 1, 2 * 65536 + 3, 4 * 65536 + 5, 6 * 65536 + 7,
     8 * 65536 + 9, 10 * 65536 + 11, 12 * 65536 + 13, 14 * 65536 + 15,
     16 * 65536 + 17, 18 * 65536 + 19, 20 * 65536 + 21, 22 * 65536 + 23,
     24 * 65536 + 25, 26 * 65536 + 27, 28 * 65536 + 29, 30 * 65536 + 31])) a

/-- `nsimd_reverse_{simd_ext}_{typ}`, egg/platform_x86.py:2487-2675; `none` where the generated
code is not C: `_mm512_permute_mm512_set_epi64(...), {in0})` for f64 on AVX-512 (lines
2672-2675). -/
def reverse : Simd → ETy → Option (Sh → Sh)
  | .sse2, .i8 => some rev8Sse2
  | .sse42, .i8 => some fun a => shuffle_epi8 a mask8
  | .avx, .i8 => some (revAvxSmall mask8)
  | .avx2, .i8 => some (revAvx2Small mask8x2)
  | .knl, .i8 | .skylake, .i8 => some rev8Avx512
  | .sse2, .i16 => some rev16Sse2
  | .sse42, .i16 => some fun a => shuffle_epi8 a mask16
  | .avx, .i16 => some (revAvxSmall mask16)
  | .avx2, .i16 => some (revAvx2Small mask16x2)
  | .knl, .i16 => some rev16Knl
  | .skylake, .i16 => some rev16Skylake
  | .sse2, .i32 | .sse42, .i32 => some fun a => shuffle_epi32 a (mmShuffle 0 1 2 3)
  | .avx, .i32 => some fun a =>
      let a := shuffle_ps a a (mmShuffle 0 1 2 3)
      permute2f128 a a 1
  | .avx2, .i32 => some fun a =>
      let a := shuffle_epi32 a (mmShuffle 0 1 2 3)
      permute2f128 a a 1
  | .knl, .i32 | .skylake, .i32 => some (permutexvar 4 idx32)
  | .sse2, .i64 | .sse42, .i64 => some fun a => shuffle_pd a a 1
  | .avx, .i64 => some fun a =>
      let a := shuffle_pd a a (1 * 4 + 1)
      permute2f128 a a 1
  | .avx2, .i64 => some fun a => permute4x64 a (mmShuffle 0 1 2 3)
  | .knl, .i64 | .skylake, .i64 => some (permutexvar 8 (mmSet [0, 1, 2, 3, 4, 5, 6, 7]))
  | .sse2, .f32 | .sse42, .f32 => some fun a => shuffle_ps a a (mmShuffle 0 1 2 3)
  | .avx, .f32 | .avx2, .f32 => some fun a =>
      let a := shuffle_ps a a (mmShuffle 0 1 2 3)
      permute2f128 a a 1
  | .knl, .f32 | .skylake, .f32 => some (permutexvar 4 idx32)
  | .sse2, .f64 | .sse42, .f64 => some fun a => shuffle_pd a a 1
  | .avx, .f64 => some fun a =>
      let a := shuffle_pd a a (1 * 4 + 1)
      permute2f128 a a 1
  | .avx2, .f64 => some fun a => permute4x64 a (mmShuffle 0 1 2 3)
  | .knl, .f64 | .skylake, .f64 => none

/-- `nsimd_reverse_{simd_ext}_f16`, egg/platform_x86.py:2637-2641: each of the two f32 registers
is reversed in place. -/
def reverseF16 (s : Simd) (a : Sh × Sh) : Option (Sh × Sh) := do
  let rev ← reverse s .f32
  return (rev a.1, rev a.2)

/-- Run of a one-argument operator: result when `in0` holds `a`. Not code of the repo. -/
def run1 (op : Sh → Sh) (junk a : Bytes) : Bytes := (op (.inp 0)).eval (fun _ => a) junk

/-- Run of a one-argument operator on f16 vectors. Not code of the repo. -/
def run1F16 (op : Sh × Sh → Option (Sh × Sh)) (junk : Bytes) (a : Bytes × Bytes) :
    Option (Bytes × Bytes) :=
  (op (.inp 0, .inp 1)).map fun r =>
    (r.1.eval (fun k => if k = 0 then a.1 else a.2) junk,
      r.2.eval (fun k => if k = 0 then a.1 else a.2) junk)

end Nsimd.X86
