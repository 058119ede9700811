/-!
# Horizontal sums

`addv` of every back end, over an arbitrary type of lanes with an arbitrary addition, so that no
algebraic law of the addition can be used.  The final conversion `nsimd_f32_to_f16` of the f16
versions is the argument `cvt`.
-/

namespace Nsimd.Addv

variable {α β : Type} (add : α → α → α)

/-- Lane-wise addition: `_mm_add_ps`, `_mm_add_pd`, `_mm256_add_pd`, `vadd`.  Intel and Arm
semantics, not code of the repo. -/
def vadd {n : Nat} (a b : Fin n → α) : Fin n → α := fun i => add (a i) (b i)

/-- `_mm_shuffle_ps(a, b, imm)`. Intel semantics, not code of the repo. -/
def shufflePs (imm : Nat) (a b : Fin 4 → α) : Fin 4 → α := fun i =>
  let k : Fin 4 := ⟨imm / 4 ^ i.val % 4, Nat.mod_lt _ (by decide)⟩
  if i.val < 2 then a k else b k

/-- `_mm_shuffle_pd(a, b, imm)`. Intel semantics, not code of the repo. -/
def shufflePd (imm : Nat) (a b : Fin 2 → α) : Fin 2 → α := fun i =>
  let k : Fin 2 := ⟨imm / 2 ^ i.val % 2, Nat.mod_lt _ (by decide)⟩
  if i.val < 1 then a k else b k

/-- Part `k` of `n` lanes: `_mm256_extractf128`, `_mm512_extractf32x4`, `_mm512_extractf64x4`,
`vget_low`, `vget_high`. Intel and Arm semantics, not code of the repo. -/
def part {m : Nat} (n k : Nat) (h : n * k + n ≤ m) (a : Fin m → α) : Fin n → α :=
  fun i => a ⟨n * k + i.val, by omega⟩

/-- The last two steps shared by all f32 versions: shuffles 0xb1 and 0x4e, then lane 0,
egg/platform_x86.py:2688-2691. -/
def tail32 (v : Fin 4 → α) : α :=
  let tmp := vadd add v (shufflePs 0xb1 v v)
  vadd add tmp (shufflePs 0x4e tmp tmp) 0

/-- SSE f64: egg/platform_x86.py:2682-2686. -/
def sse64 (v : Fin 2 → α) : α := vadd add v (shufflePd 0x01 v v) 0

/-- SSE f32: egg/platform_x86.py:2687-2692. -/
def sse32 (v : Fin 4 → α) : α := tail32 add v

/-- SSE f16, two f32 registers: egg/platform_x86.py:2693-2702. -/
def sse16 (cvt : α → β) (v : Fin 2 → Fin 4 → α) : β :=
  cvt (add (tail32 add (v 0)) (tail32 add (v 1)))

/-- AVX f64: egg/platform_x86.py:2704-2709. -/
def avx64 (v : Fin 4 → α) : α :=
  let tmp := vadd add (part 2 1 (by decide) v) (part 2 0 (by decide) v)
  vadd add tmp (shufflePd 0x01 tmp tmp) 0

/-- AVX f32: egg/platform_x86.py:2710-2716. -/
def avx32 (v : Fin 8 → α) : α :=
  tail32 add (vadd add (part 4 1 (by decide) v) (part 4 0 (by decide) v))

/-- AVX f16: egg/platform_x86.py:2717-2731. -/
def avx16 (cvt : α → β) (v : Fin 2 → Fin 8 → α) : β :=
  cvt (add (avx32 add (v 0)) (avx32 add (v 1)))

/-- AVX-512 f64: egg/platform_x86.py:2733-2740. -/
def avx512_64 (v : Fin 8 → α) : α :=
  avx64 add (vadd add (part 4 0 (by decide) v) (part 4 1 (by decide) v))

/-- AVX-512 f32: egg/platform_x86.py:2741-2750. -/
def avx512_32 (v : Fin 16 → α) : α :=
  tail32 add (vadd add
    (vadd add (part 4 0 (by decide) v) (part 4 1 (by decide) v))
    (vadd add (part 4 2 (by decide) v) (part 4 3 (by decide) v)))

/-- AVX-512 f16: egg/platform_x86.py:2751-2771. -/
def avx512_16 (cvt : α → β) (v : Fin 2 → Fin 16 → α) : β :=
  cvt (add (avx512_32 add (v 0)) (avx512_32 add (v 1)))

/-- `vext(a, b, k)`: `n` consecutive lanes of the concatenation, from lane `k`.
Arm semantics, not code of the repo. -/
def vext {n : Nat} (k : Nat) (a b : Fin n → α) : Fin n → α := fun i =>
  if h : k + i.val < n then a ⟨k + i.val, h⟩ else b ⟨(k + i.val - n) % n, Nat.mod_lt _ (by omega)⟩

/-- NEON f64, a pair of scalars: egg/platform_arm.py:1779-1780. -/
def neon64 (v : Fin 2 → α) : α := add (v 0) (v 1)

/-- NEON f32: egg/platform_arm.py:1799-1805. -/
def neon32 (v : Fin 4 → α) : α :=
  let tmp := vadd add (part 2 0 (by decide) v) (part 2 1 (by decide) v)
  vadd add tmp (vext 1 tmp tmp) 0

/-- NEON and AArch64 f16 without NSIMD_ARM_FP16: egg/platform_arm.py:1789-1798, 1826-1835. -/
def neon16 (cvt : α → β) (v : Fin 2 → Fin 4 → α) : β :=
  cvt (add (neon32 add (v 0)) (neon32 add (v 1)))

/-- NEON and AArch64 f16 with NSIMD_ARM_FP16: egg/platform_arm.py:1783-1788, 1820-1825. -/
def neonFp16 (v : Fin 8 → α) : α :=
  let tmp := vadd add (part 4 0 (by decide) v) (part 4 1 (by decide) v)
  let tmp := vadd add tmp (vext 3 tmp tmp)
  let tmp := vadd add tmp (vext 0 tmp tmp)
  tmp 0

/-- `svaddv`, on registers of a power of two lanes: recursive sum of halves; `vaddvq_f32` and
`vaddvq_f64` are the cases of four and two lanes.  Called by egg/platform_arm.py:1836-1839;
Arm semantics, not code of the repo. -/
def svaddv : (k : Nat) → (Fin (2 ^ k) → α) → α
  | 0, v => v 0
  | k + 1, v =>
    add (svaddv k (part (2 ^ k) 0 (by rw [Nat.pow_succ]; omega) v))
      (svaddv k (part (2 ^ k) 1 (by rw [Nat.pow_succ]; omega) v))

/-- `x0 + x1 + ...`, parsed from the left: the CPU back end (egg/platform_cpu.py:394-400) and the
native types of VMX and VSX (egg/platform_ppc.py:1315-1318). -/
def sequential {n : Nat} (v : Fin (n + 1) → α) : α :=
  ((List.finRange n).map fun i => v i.succ).foldl add (v 0)

/-- CPU f16: the f32 lanes are summed, then converted, egg/platform_cpu.py:397-398. -/
def cpu16 {n : Nat} (cvt : α → β) (v : Fin (n + 1) → α) : β := cvt (sequential add v)

/-- POWER f16: egg/platform_ppc.py:1309-1312. -/
def ppc16 (cvt : α → β) (v : Fin 2 → Fin 4 → α) : β :=
  cvt (add (sequential add (v 0)) (sequential add (v 1)))

end Nsimd.Addv
