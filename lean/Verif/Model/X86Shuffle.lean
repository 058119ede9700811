/-!
# Byte shuffles of the x86 back end

The degree 2/3/4 loads and stores and the zip/unzip operators of the x86 back end are
straight line sequences of intrinsics that only move bytes around (plus `or` with zero
bytes).  A register is modelled as a function from byte number to byte; the code is modelled
as an expression `Sh` over the input registers, one constructor application per intrinsic.
Casts between vector types of the same size (`_mm_castsi128_pd`, ...) move no byte and are
omitted.
-/

namespace Nsimd.X86

/-- Where an intrinsic takes one output byte from: constant zero, byte `j` of the first
operand, byte `j` of the second operand, or an undefined byte.
Intel semantics, not code of the repo. -/
inductive Pick where
  | zero
  | fst (j : Nat)
  | snd (j : Nat)
  | undef

/-- A value of a vector type: an input register, the result of an intrinsic that selects
bytes of two operands, or the result of `_mm_or_si128`/`_mm256_or_si256`.
Syntax of the expressions in egg/x86_load_store_deg234.py and egg/platform_x86.py:3310-3605. -/
inductive Sh where
  | inp (k : Nat)
  | sel (f : Nat → Pick) (a b : Sh)
  | or (a b : Sh)

/-- Contents of a vector register: byte `i` of the register. Not code of the repo. -/
abbrev Bytes := Nat → BitVec 8

/-- Value of an expression when the inputs hold `env k` and the bytes left undefined by a
widening cast hold `junk`. Intel semantics, not code of the repo. -/
def Sh.eval (env : Nat → Bytes) (junk : Bytes) : Sh → Bytes
  | .inp k, i => env k i
  | .sel f a b, i =>
    match f i with
    | .zero => 0
    | .fst j => a.eval env junk j
    | .snd j => b.eval env junk j
    | .undef => junk i
  | .or a b, i => a.eval env junk i ||| b.eval env junk i

/-! ### Intrinsics (Intel semantics)

Each is given for all register sizes at once: byte `i` of the result for `i` below the size.
-/

/-- `_mm{,256,512}_unpacklo_epi8/epi16/epi32/ps/epi64/pd` with lanes of `w` bytes: interleaves
the lower halves of each 128-bit block. Intel semantics, not code of the repo. -/
def unpacklo (w : Nat) (a b : Sh) : Sh :=
  .sel (fun i =>
    let e := i % 16 / w
    let j := 16 * (i / 16) + e / 2 * w + i % w
    if e % 2 = 0 then .fst j else .snd j) a b

/-- `_mm{,256,512}_unpackhi_epi8/epi16/epi32/ps/epi64/pd` with lanes of `w` bytes: interleaves
the upper halves of each 128-bit block. Intel semantics, not code of the repo. -/
def unpackhi (w : Nat) (a b : Sh) : Sh :=
  .sel (fun i =>
    let e := i % 16 / w
    let j := 16 * (i / 16) + 8 + e / 2 * w + i % w
    if e % 2 = 0 then .fst j else .snd j) a b

/-- `_mm{,256}_shuffle_epi8(a, mask)`: within each 128-bit block, byte `mask[i] % 16`, or zero
when bit 7 of the mask byte is set. Intel semantics, not code of the repo. -/
def shuffle_epi8 (a : Sh) (mask : List Int) : Sh :=
  .sel (fun i =>
    let m := mask.getD i 0
    if m < 0 then .zero else .fst (16 * (i / 16) + m.toNat % 16)) a a

/-- `_mm{,256}_shuffle_pd(a, b, imm)`: within each 128-bit block a double of `a` then a double of
`b`, each chosen by one bit of `imm`. Intel semantics, not code of the repo. -/
def shuffle_pd (a b : Sh) (imm : Nat) : Sh :=
  .sel (fun i =>
    let e := i / 8
    let j := 16 * (i / 16) + 8 * (imm / 2 ^ e % 2) + i % 8
    if e % 2 = 0 then .fst j else .snd j) a b

/-- `_mm{,256}_shuffle_ps(a, b, imm)`: within each 128-bit block two floats of `a` then two of
`b`, each chosen by two bits of `imm`. Intel semantics, not code of the repo. -/
def shuffle_ps (a b : Sh) (imm : Nat) : Sh :=
  .sel (fun i =>
    let e := i / 4 % 4
    let j := 16 * (i / 16) + 4 * (imm / 4 ^ e % 4) + i % 4
    if e < 2 then .fst j else .snd j) a b

/-- `_mm_shufflelo_epi16(a, imm)`: permutes the four low 16-bit lanes.
Intel semantics, not code of the repo. -/
def shufflelo_epi16 (a : Sh) (imm : Nat) : Sh :=
  .sel (fun i => if i < 8 then .fst (2 * (imm / 4 ^ (i / 2) % 4) + i % 2) else .fst i) a a

/-- `_mm_shufflehi_epi16(a, imm)`: permutes the four high 16-bit lanes.
Intel semantics, not code of the repo. -/
def shufflehi_epi16 (a : Sh) (imm : Nat) : Sh :=
  .sel (fun i =>
    if i < 8 then .fst i else .fst (8 + 2 * (imm / 4 ^ ((i - 8) / 2) % 4) + i % 2)) a a

/-- `_mm256_permute4x64_epi64/pd(a, imm)`. Intel semantics, not code of the repo. -/
def permute4x64 (a : Sh) (imm : Nat) : Sh :=
  .sel (fun i => .fst (8 * (imm / 4 ^ (i / 8) % 4) + i % 8)) a a

/-- `_mm256_permute2f128_ps/pd/si256(a, b, imm)` and `_mm256_permute2x128_si256`: each half is
one of the four halves of `a`, `b`, or zero if bit 3 of its control is set.
Intel semantics, not code of the repo. -/
def permute2f128 (a b : Sh) (imm : Nat) : Sh :=
  .sel (fun i =>
    let c := imm / 16 ^ (i / 16) % 16
    if 8 ≤ c then .zero
    else if c % 4 < 2 then .fst (16 * (c % 4) + i % 16) else .snd (16 * (c % 4 - 2) + i % 16)) a b

/-- `_mm256_permutevar8x32_epi32/ps(a, idx)`: lane `idx[e] % 8`.
Intel semantics, not code of the repo. -/
def permutevar8x32 (a : Sh) (idx : List Int) : Sh :=
  .sel (fun i => .fst (4 * (idx.getD (i / 4) 0 % 8).toNat + i % 4)) a a

/-- `_mm256_permutevar_ps(a, idx)`: within each 128-bit block, lane `idx[e] % 4`.
Intel semantics, not code of the repo. -/
def permutevar_ps (a : Sh) (idx : List Int) : Sh :=
  .sel (fun i => .fst (16 * (i / 16) + 4 * (idx.getD (i / 4) 0 % 4).toNat + i % 4)) a a

/-- `_mm256_permute_pd(a, imm)`: within each 128-bit block, the double chosen by one bit of
`imm`. Intel semantics, not code of the repo. -/
def permute_pd (a : Sh) (imm : Nat) : Sh :=
  .sel (fun i => .fst (16 * (i / 16) + 8 * (imm / 2 ^ (i / 8) % 2) + i % 8)) a a

/-- `_mm256_blend_ps/epi32` (`w = 4`) and `_mm256_blend_pd` (`w = 8`): lane `e` of `b` when bit `e`
of `imm` is set, of `a` otherwise. Intel semantics, not code of the repo. -/
def blend (w : Nat) (a b : Sh) (imm : Nat) : Sh :=
  .sel (fun i => if imm / 2 ^ (i / w) % 2 = 1 then .snd i else .fst i) a b

/-- `_mm512_permutex2var_epi32/ps` (`w = 4`) and `_epi64/pd` (`w = 8`): lane `idx[e]` of the
concatenation of `a` and `b`. Intel semantics, not code of the repo. -/
def permutex2var (w : Nat) (a : Sh) (idx : List Int) (b : Sh) : Sh :=
  .sel (fun i =>
    let n := 64 / w
    let k := (idx.getD (i / w) 0).toNat % (2 * n)
    if k < n then .fst (k * w + i % w) else .snd ((k - n) * w + i % w)) a b

/-! ### Helpers of the generator -/

/-- `_MM_SHUFFLE(d, c, b, a)`. Intel's macro, not code of the repo. -/
def mmShuffle (d c b a : Nat) : Nat := 64 * d + 16 * c + 4 * b + a

/-- `_MM_SHUFFLE2(b, a)`. Intel's macro, not code of the repo. -/
def mmShuffle2 (b a : Nat) : Nat := 2 * b + a

/-- `_mm_set_epi8`, `_mm512_set_epi64`: arguments from the highest lane down.
Intel semantics, not code of the repo. -/
def mmSet (l : List Int) : List Int := l.reverse

/-- `perm64(var1, var2, ind1, ind2)`: egg/x86_load_store_deg234.py:32-35. -/
def perm64 (a b : Sh) (ind1 ind2 : Nat) : Sh := shuffle_pd a b (mmShuffle2 ind1 ind2)

/-- `extract(simd_ext, typ, LO, var)` for a register of `2 * h` bytes: the lower half,
egg/platform_x86.py:354-389 (a narrowing cast). -/
def exlo (h : Nat) (a : Sh) : Sh := .sel (fun i => if i < h then .fst i else .undef) a a

/-- `extract(simd_ext, typ, HI, var)` for a register of `2 * h` bytes: the upper half,
egg/platform_x86.py:354-389 (`_mm256_extractf128_*`, `_mm512_extracti64x4_epi64`, ...). -/
def exhi (h : Nat) (a : Sh) : Sh := .sel (fun i => if i < h then .fst (h + i) else .undef) a a

/-- Widening cast such as `_mm256_castsi128_si256` from `h` to `2 * h` bytes: the upper half is
undefined. Intel semantics, not code of the repo. -/
def widen (h : Nat) (a : Sh) : Sh := .sel (fun i => if i < h then .fst i else .undef) a a

/-- `_mm256_insertf128_*(a, b, 1)`, `_mm512_inserti64x4(a, b, 1)`: replaces the upper half.
Intel semantics, not code of the repo. -/
def insertHi (h : Nat) (a b : Sh) : Sh :=
  .sel (fun i => if i < h then .fst i else .snd (i - h)) a b

/-- `setr(simd_ext, typ, var1, var2)` building a register of `2 * h` bytes:
egg/platform_x86.py:391-415. -/
def setr (h : Nat) (a b : Sh) : Sh := insertHi h (widen h a) b

end Nsimd.X86
