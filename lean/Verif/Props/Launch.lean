import Verif.Model.Launch
import Mathlib.Tactic.Ring

/-!
# C40: GPU launches cover all items exactly once
-/

namespace Nsimd.Props.Launch

open Nsimd Nsimd.Launch

/-- The indices `0 .. n-1`, each once. Specification. -/
def all (n : Nat) : List Int := (List.range n).map Int.ofNat

theorem i64_prom_some {v : Int} (h1 : -2 ^ 63 ≤ v) (h2 : v < 2 ^ 63) : ITy.i64.prom v = some v := by
  unfold ITy.prom
  rw [if_pos rfl, if_pos]
  have hw : ITy.i64.promW - 1 = 63 := rfl
  rw [hw]
  exact ⟨h1, h2⟩

theorem threads_linear (grid block : Nat) :
    (threads grid block).map (fun p => p.2 + p.1 * block) = List.range (grid * block) := by
  unfold threads
  induction grid with
  | zero => simp
  | succ g ih =>
    rw [List.range_succ, List.flatMap_append, List.map_append, ih, Nat.succ_mul, List.range_add]
    congr 1
    simp only [List.flatMap_cons, List.flatMap_nil, List.append_nil, List.map_map]
    apply List.map_congr_left
    intro t _
    show t + g * block = g * block + t
    omega

theorem filter_range (n N : Nat) (h : n ≤ N) :
    (((List.range N).map Int.ofNat).filter fun i => decide (i < (n : Int))) = all n := by
  obtain ⟨k, rfl⟩ := Nat.exists_eq_add_of_le h
  rw [List.range_add, List.map_append, List.filter_append]
  have h1 : (((List.range n).map Int.ofNat).filter fun i => decide (i < (n : Int))) = all n := by
    apply List.filter_eq_self.mpr
    intro a ha
    obtain ⟨x, hx, rfl⟩ := List.mem_map.mp ha
    have := List.mem_range.mp hx
    exact decide_eq_true (by show (x : Int) < n; omega)
  have h2 : ((((List.range k).map (n + ·)).map Int.ofNat).filter fun i => decide (i < (n : Int))) = [] := by
    apply List.filter_eq_nil_iff.mpr
    intro a ha
    obtain ⟨x, hx, rfl⟩ := List.mem_map.mp ha
    obtain ⟨y, -, rfl⟩ := List.mem_map.mp hx
    simp
  rw [h1, h2, List.append_nil]

/-- If every thread computes its linear number and there are at least `n` threads, the guard selects
`0 .. n-1`. -/
theorem run_all (grid block : Nat) (idx : Nat → Nat × Nat → Int) (n : Nat) (hn : n ≤ grid * block)
    (hi : ∀ p ∈ threads grid block, idx block p = ((p.2 + p.1 * block : Nat) : Int)) :
    run grid block idx n = all n := by
  unfold run
  have e : (threads grid block).map (idx block) = (List.range (grid * block)).map Int.ofNat := by
    rw [← threads_linear, List.map_map]
    exact List.map_congr_left hi
  rw [e]
  exact filter_range n _ hn

theorem thread_lt {grid block : Nat} {p : Nat × Nat} (hp : p ∈ threads grid block) :
    p.2 + p.1 * block < grid * block := by
  have : p.2 + p.1 * block ∈ List.range (grid * block) := by
    rw [← threads_linear]
    exact List.mem_map.mpr ⟨p, hp, rfl⟩
  exact List.mem_range.mp this

theorem run_int (grid block n : Nat) (hn : n ≤ grid * block) (hg : grid * block ≤ 2 ^ 31) :
    run grid block idxInt n = all n := by
  apply run_all _ _ _ _ hn
  intro p hp
  have := thread_lt hp
  unfold idxInt global32
  rw [BitVec.toInt_eq_toNat_cond, BitVec.toNat_ofNat, Nat.mod_eq_of_lt (by omega), if_pos (by omega)]

theorem run_size (grid block n : Nat) (hn : n ≤ grid * block) (hg : grid * block ≤ 2 ^ 32) :
    run grid block idxSize n = all n := by
  apply run_all _ _ _ _ hn
  intro p hp
  have := thread_lt hp
  unfold idxSize global32
  rw [BitVec.toNat_ofNat, Nat.mod_eq_of_lt (by omega)]

theorem run_sycl (grid block n : Nat) (hn : n ≤ grid * block) (hg : grid * block ≤ 2 ^ 64) :
    run grid block idxSycl n = all n := by
  apply run_all _ _ _ _ hn
  intro p hp
  have := thread_lt hp
  unfold idxSycl
  rw [BitVec.toNat_ofNat, Nat.mod_eq_of_lt (by omega)]

theorem run_syclInt (grid block n : Nat) (hn : n ≤ grid * block) (hg : grid * block ≤ 2 ^ 31) :
    run grid block idxSyclInt n = all n := by
  apply run_all _ _ _ _ hn
  intro p hp
  have := thread_lt hp
  unfold idxSyclInt
  rw [BitVec.toInt_eq_toNat_cond, BitVec.toNat_ofNat, Nat.mod_eq_of_lt (by omega), if_pos (by omega)]

/-- Number of blocks. Specification. -/
def blocks (n b : Nat) : Nat := (n + b - 1) / b

theorem blocks_le (n b : Nat) (hb : 0 < b) : n ≤ blocks n b * b ∧ blocks n b * b ≤ n + b - 1 := by
  unfold blocks
  have h1 := Nat.div_add_mod (n + b - 1) b
  have h2 := Nat.mod_lt (n + b - 1) hb
  have h3 : b * ((n + b - 1) / b) = (n + b - 1) / b * b := Nat.mul_comm _ _
  omega

theorem kernelParam_blocks (be : Backend) (n b : Nat) (hb : 0 < b) (h : n + b < 2 ^ 63) :
    kernelParam be n b = some (match be with
      | .oneapi => ((b * blocks n b : Nat) : Int)
      | _ => ((blocks n b : Nat) : Int)) := by
  have hle := (blocks_le n b hb).2
  unfold kernelParam
  rw [i64_prom_some (by omega) (by omega)]
  simp only [bind, Option.bind]
  rw [i64_prom_some (by omega) (by omega)]
  unfold cdiv
  dsimp only
  rw [if_neg (by omega)]
  have e : ((n : Int) + b - 1).tdiv b = ((blocks n b : Nat) : Int) := by
    have : (n : Int) + b - 1 = ((n + b - 1 : Nat) : Int) := by omega
    rw [this]
    exact (Int.ofNat_tdiv _ _).symm
  simp only [e]
  cases be
  · rfl
  · rfl
  · dsimp only
    have : (b : Int) * ((blocks n b : Nat) : Int) = ((b * blocks n b : Nat) : Int) := by push_cast; rfl
    rw [this]
    have : b * blocks n b = blocks n b * b := Nat.mul_comm _ _
    exact i64_prom_some (by omega) (by omega)

theorem u32_cast (n : Nat) (h : n < 2 ^ 32) : (ITy.u32.cast (n : Int)).toNat = n := by
  show (BitVec.ofInt 32 (n : Int)).toNat = _
  rw [BitVec.toNat_ofInt]
  show ((n : Int) % ((2 ^ 32 : Nat) : Int)).toNat = _
  omega

theorem u64_cast (n : Nat) (h : n < 2 ^ 64) : (ITy.u64.cast (n : Int)).toNat = n := by
  show (BitVec.ofInt 64 (n : Int)).toNat = _
  rw [BitVec.toNat_ofInt]
  show ((n : Int) % ((2 ^ 64 : Nat) : Int)).toNat = _
  omega

theorem i32_cast (n : Nat) (h : n < 2 ^ 31) : (ITy.i32.cast (n : Int)).toInt = n := by
  show (BitVec.ofInt 32 (n : Int)).toInt = _
  rw [BitVec.toInt_ofInt]
  exact Int.bmod_eq_of_le (by omega) (by omega)

theorem blocks_le_self (n b : Nat) (hb : 0 < b) : blocks n b ≤ n := by
  have h := (blocks_le n b hb).2
  by_contra hc
  have h1 : (n + 1) * b ≤ blocks n b * b := Nat.mul_le_mul_right b (by omega)
  have h2 : n ≤ n * b := Nat.le_mul_of_pos_right n hb
  have h3 : (n + 1) * b = n * b + b := Nat.succ_mul n b
  omega

/-- Largest number of threads for which the indices of a backend do not wrap around: `int` on CUDA,
32-bit unsigned arithmetic on ROCm, `size_t` on oneAPI. Specification, not code of the repo. -/
def limit : Backend → Nat
  | .cuda => 2 ^ 31
  | .rocm => 2 ^ 32
  | .oneapi => 2 ^ 63

/-- C40, `spmd_launch_kernel_1d`: each index below `n` is handled by exactly one thread and no other index
is handled, as long as the grid rounded up to whole blocks does not exceed what the thread index can
express. Missing: larger grids, see `spmd_cuda_counterexample` and `spmd_rocm_counterexample`. -/
theorem spmd_covers_partial (be : Backend) (n b : Nat) (hb : 0 < b) (hl : n + b - 1 ≤ limit be)
    (h63 : n + b < 2 ^ 63) (hn : be = .cuda → n < 2 ^ 31) :
    spmd be n b = some (all n) := by
  have hle := blocks_le n b hb
  have hbs := blocks_le_self n b hb
  unfold spmd
  rw [kernelParam_blocks be n b hb h63]
  cases be
  · have hn := hn rfl
    have hl : n + b - 1 ≤ 2 ^ 31 := hl
    simp only [bind, Option.bind]
    rw [u32_cast _ (by omega), u32_cast _ (by omega), i32_cast _ hn]
    exact congrArg some (run_int _ _ _ hle.1 (by omega))
  · have hl : n + b - 1 ≤ 2 ^ 32 := hl
    simp only [bind, Option.bind]
    rw [u64_cast _ (by omega), u64_cast _ (by omega), u64_cast _ (by omega)]
    exact congrArg some (run_size _ _ _ hle.1 (by omega))
  · have hl : n + b - 1 ≤ 2 ^ 63 := hl
    simp only [bind, Option.bind]
    have hc : b * blocks n b = blocks n b * b := Nat.mul_comm _ _
    rw [u64_cast _ (by omega), u64_cast _ (by omega), u64_cast _ (by omega), Nat.mul_div_cancel_left _ hb]
    exact congrArg some (run_sycl _ _ _ hle.1 (by omega))

theorem mem_run {grid block : Nat} {idx : Nat → Nat × Nat → Int} {n : Int} {b t : Nat} (hb : b < grid)
    (ht : t < block) (hi : idx block (b, t) < n) : idx block (b, t) ∈ run grid block idx n := by
  unfold run
  rw [List.mem_filter]
  refine ⟨List.mem_map.mpr ⟨(b, t), ?_, rfl⟩, decide_eq_true hi⟩
  unfold threads
  exact List.mem_flatMap.mpr ⟨b, List.mem_range.mpr hb, List.mem_map.mpr ⟨t, List.mem_range.mpr ht, rfl⟩⟩

/-- CUDA, `n = 2^31 - 1` items in blocks of 100 threads: the last thread sees a negative index, passes the
guard and runs the body out of bounds. -/
theorem spmd_cuda_counterexample :
    ∃ l, spmd .cuda (2 ^ 31 - 1) 100 = some l ∧ (-2147483597 : Int) ∈ l := by
  have hk := kernelParam_blocks .cuda (2 ^ 31 - 1) 100 (by omega) (by omega)
  have hbk : blocks (2 ^ 31 - 1) 100 = 21474837 := by decide
  refine ⟨run 21474837 100 idxInt (2 ^ 31 - 1), ?_, ?_⟩
  · unfold spmd
    have e : ((2 ^ 31 - 1 : Nat) : Int) = 2 ^ 31 - 1 := by decide
    have e' : ((100 : Nat) : Int) = 100 := rfl
    rw [e, e'] at hk
    rw [hk, hbk]
    simp only [bind, Option.bind]
    have h1 : (ITy.u32.cast ((21474837 : Nat) : Int)).toNat = 21474837 := by decide
    have h2 : (ITy.u32.cast (100 : Int)).toNat = 100 := by decide
    have h3 : (ITy.i32.cast (2 ^ 31 - 1 : Int)).toInt = 2 ^ 31 - 1 := by decide
    rw [h1, h2, h3]
    rfl
  · have hv : idxInt 100 (21474836, 99) = -2147483597 := by decide
    rw [← hv]
    exact mem_run (by omega) (by omega) (by rw [hv]; decide)

theorem run_subset {grid block : Nat} {idx : Nat → Nat × Nat → Int} {n i : Int} (h : i ∈ run grid block idx n) :
    ∃ p ∈ threads grid block, idx block p = i := by
  unfold run at h
  obtain ⟨p, hp, e⟩ := List.mem_map.mp (List.mem_filter.mp h).1
  exact ⟨p, hp, e⟩

/-- ROCm, `n = 2^32 + 1` items: the 32-bit product wraps, item `2^32` is not handled. -/
theorem spmd_rocm_counterexample :
    ∃ l, spmd .rocm (2 ^ 32 + 1) 128 = some l ∧ (2 ^ 32 : Int) ∉ l := by
  have hk := kernelParam_blocks .rocm (2 ^ 32 + 1) 128 (by omega) (by omega)
  have e : ((2 ^ 32 + 1 : Nat) : Int) = 2 ^ 32 + 1 := by decide
  have e' : ((128 : Nat) : Int) = 128 := rfl
  rw [e, e'] at hk
  unfold spmd
  rw [hk]
  refine ⟨_, rfl, ?_⟩
  intro h
  obtain ⟨p, -, hp⟩ := run_subset h
  unfold idxSize global32 at hp
  have := (BitVec.ofNat 32 (p.2 + p.1 * (ITy.u64.cast (128 : Int)).toNat)).isLt
  omega

/-- C40, assignment to a tet1d output on a GPU, `n > 0`, same restriction (the index is an `int` on every
backend). -/
theorem tet1d_covers_partial (be : Backend) (n b : Nat) (hn : 0 < n) (hb : 0 < b)
    (hl : n + b - 1 ≤ 2 ^ 31) : tet1d be n b = some (all n) := by
  have hle := blocks_le n b hb
  have hbs := blocks_le_self n b hb
  have hpos : 0 < blocks n b := by
    by_contra hc
    have : blocks n b = 0 := by omega
    rw [this] at hle
    omega
  have hc : b * blocks n b = blocks n b * b := Nat.mul_comm _ _
  have hmax : ITy.u32.maxv = 4294967295 := rfl
  unfold tet1d
  dsimp only
  rw [if_neg (by omega), kernelParam_blocks be n b hb (by omega)]
  simp only [bind, Option.bind]
  rw [if_neg (by omega)]
  cases be
  · dsimp only
    rw [if_neg (by omega)]
    simp only [Int.toNat_natCast]
    exact congrArg some (run_int _ _ _ hle.1 (by omega))
  · dsimp only
    rw [if_neg (by omega)]
    simp only [Int.toNat_natCast]
    exact congrArg some (run_int _ _ _ hle.1 (by omega))
  · dsimp only
    rw [if_neg (by omega)]
    simp only [Int.toNat_natCast]
    rw [Nat.mul_div_cancel_left _ hb]
    exact congrArg some (run_syclInt _ _ _ hle.1 (by omega))

/-- An empty expression fails the assertion `param > 0`. -/
theorem tet1d_empty (be : Backend) (b : Nat) (hb : 0 < b) (h : b < 2 ^ 63) : tet1d be 0 b = none := by
  have hk := kernelParam_blocks be 0 b hb (by omega)
  have h0 : blocks 0 b = 0 := Nat.div_eq_of_lt (by omega)
  rw [h0] at hk
  have hk' : kernelParam be 0 b = some 0 := by
    have e : ((0 : Nat) : Int) = 0 := rfl
    rw [e] at hk
    rw [hk]
    cases be <;> rfl
  unfold tet1d
  dsimp only
  rw [if_neg (by omega), hk']
  simp only [bind, Option.bind]
  split
  · rfl
  · rw [if_pos (by omega)]

theorem fill_blocks (sz : BitVec 64) (h : sz.toNat + 127 < 2 ^ 64) :
    ((sz + 127#64).udiv 128#64).toNat = blocks sz.toNat 128 := by
  show ((sz + 127#64) / 128#64).toNat = _
  rw [BitVec.toNat_udiv, BitVec.toNat_add]
  show (sz.toNat + 127) % 2 ^ 64 / 128 = _
  rw [Nat.mod_eq_of_lt h]
  rfl

/-- C40, `nsimd_fill_dev_mem_func`: every element is filled exactly once, for fewer than `2^31` elements on
CUDA, at most `2^32 - 127` on ROCm and any number on the CPU. -/
theorem fill_covers_partial (sz : BitVec 64) :
    (sz.toNat < 2 ^ 31 → fillCuda sz = all sz.toNat) ∧
    (sz.toNat + 127 ≤ 2 ^ 32 → fillRocm sz = all sz.toNat) ∧
    fillCpu sz = all sz.toNat := by
  have hle := blocks_le sz.toNat 128 (by omega)
  refine ⟨fun h => ?_, fun h => ?_, rfl⟩
  · unfold fillCuda
    have e : (sz.setWidth 32).toInt = sz.toNat := by
      rw [BitVec.toInt_eq_toNat_cond, BitVec.toNat_setWidth, Nat.mod_eq_of_lt (by omega), if_pos (by omega)]
    rw [e, BitVec.toNat_setWidth, fill_blocks sz (by omega), Nat.mod_eq_of_lt (by omega)]
    apply run_int _ _ _ hle.1
    have := hle.2
    omega
  · unfold fillRocm
    rw [fill_blocks sz (by omega)]
    exact run_size _ _ _ hle.1 (by omega)

/-- C40: a negative number of threads per block stands for 128. -/
theorem tet1d_default (be : Backend) (n tp : Int) (h : tp < 0) : tet1d be n tp = tet1d be n 128 := by
  unfold tet1d
  dsimp only
  rw [if_pos h, if_neg (show ¬ (128 : Int) < 0 by omega)]

/-- Number the launch of a tet1d expression passes to the runtime: blocks on CUDA and ROCm, threads on oneAPI.
Specification. -/
def launched (be : Backend) (n b : Nat) : Nat :=
  match be with
  | .oneapi => blocks n b * b
  | _ => blocks n b

/-- C40: the assertions of a tet1d assignment let through exactly the non-empty expressions whose block
size and launch size fit in 32 bits. -/
theorem tet1d_launches (be : Backend) (n b : Nat) (hb : 0 < b) (h63 : n + b < 2 ^ 63) :
    (tet1d be n b).isSome = true ↔ 0 < n ∧ b < 2 ^ 32 ∧ launched be n b < 2 ^ 32 := by
  have hle := blocks_le n b hb
  have hpos : 0 < blocks n b ↔ 0 < n := by
    constructor
    · intro h
      by_contra hc
      have h0 : n = 0 := by omega
      subst h0
      have : blocks 0 b = 0 := Nat.div_eq_of_lt (by omega)
      omega
    · intro h
      by_contra hc
      have h0 : blocks n b = 0 := by omega
      rw [h0] at hle
      omega
  have hposm : 0 < blocks n b * b ↔ 0 < n := by rw [← hpos]; exact Nat.mul_pos_iff_of_pos_right hb
  have hc : b * blocks n b = blocks n b * b := Nat.mul_comm _ _
  have hmax : ITy.u32.maxv = 4294967295 := rfl
  unfold tet1d
  dsimp only
  rw [if_neg (by omega), kernelParam_blocks be n b hb h63]
  simp only [bind, Option.bind]
  have key : ∀ (p : Nat) (f : List Int), (0 < p ↔ 0 < n) →
      ((if ¬ (0 < (b : Int) ∧ (b : Int) ≤ ITy.u32.maxv) then none
        else if ¬ (0 < (p : Int) ∧ (p : Int) ≤ ITy.u32.maxv) then none else some f).isSome = true ↔
        0 < n ∧ b < 2 ^ 32 ∧ p < 2 ^ 32) := by
    intro p f hp
    by_cases h1 : ¬ (0 < (b : Int) ∧ (b : Int) ≤ ITy.u32.maxv)
    · rw [if_pos h1]
      simp only [Option.isSome_none, Bool.false_eq_true, false_iff]
      omega
    · rw [if_neg h1]
      by_cases h2 : ¬ (0 < (p : Int) ∧ (p : Int) ≤ ITy.u32.maxv)
      · rw [if_pos h2]
        simp only [Option.isSome_none, Bool.false_eq_true, false_iff]
        omega
      · rw [if_neg h2]
        simp only [Option.isSome_some, true_iff]
        omega
  cases be
  · exact key _ _ hpos
  · exact key _ _ hpos
  · dsimp only
    rw [hc]
    exact key _ _ hposm

/-- 1000 items in blocks of 128 are launched on every backend; 2^32 items in blocks of 128 are refused by
oneAPI only. -/
example : launched .cuda 1000 128 = 8 ∧ launched .oneapi 1000 128 = 1024 ∧
    launched .cuda (2 ^ 32) 128 < 2 ^ 32 ∧ ¬ launched .oneapi (2 ^ 32) 128 < 2 ^ 32 := by decide

/-- More than `2^31` items: on every backend some thread sees the index `-2^31`, passes the guard and
evaluates the expression out of bounds. -/
theorem tet1d_counterexample (be : Backend) :
    ∃ l, tet1d be (2 ^ 31 + 1) 128 = some l ∧ (-2147483648 : Int) ∈ l := by
  have hk := kernelParam_blocks be (2 ^ 31 + 1) 128 (by omega) (by omega)
  have hbk : blocks (2 ^ 31 + 1) 128 = 16777217 := by decide
  have e : ((2 ^ 31 + 1 : Nat) : Int) = 2 ^ 31 + 1 := by decide
  have e' : ((128 : Nat) : Int) = 128 := rfl
  rw [e, e', hbk] at hk
  unfold tet1d
  dsimp only
  rw [if_neg (by omega), hk]
  simp only [bind, Option.bind]
  rw [if_neg (by decide)]
  cases be
  · refine ⟨run 16777217 128 idxInt (2 ^ 31 + 1), by dsimp only; rw [if_neg (by decide)]; rfl, ?_⟩
    have hv : idxInt 128 (16777216, 0) = -2147483648 := by decide
    rw [← hv]
    exact mem_run (by omega) (by omega) (by rw [hv]; decide)
  · refine ⟨run 16777217 128 idxInt (2 ^ 31 + 1), by dsimp only; rw [if_neg (by decide)]; rfl, ?_⟩
    have hv : idxInt 128 (16777216, 0) = -2147483648 := by decide
    rw [← hv]
    exact mem_run (by omega) (by omega) (by rw [hv]; decide)
  · refine ⟨run 16777217 128 idxSyclInt (2 ^ 31 + 1), by dsimp only; rw [if_neg (by decide)]; rfl, ?_⟩
    have hv : idxSyclInt 128 (16777216, 0) = -2147483648 := by decide
    rw [← hv]
    exact mem_run (by omega) (by omega) (by rw [hv]; decide)

/-- Without a GPU, `nsimd_kernel_param` rounds down: blocks of that number cover the items only if the block
size divides their number. -/
theorem kernelParamCpu_covers (n b : Nat) (hb : 0 < b) :
    ∃ q, kernelParamCpu n b = some q ∧ (n ≤ q * b ↔ b ∣ n) := by
  refine ⟨((n / b : Nat) : Int), ?_, ?_⟩
  · unfold kernelParamCpu cdiv
    rw [if_neg (by omega)]
    exact congrArg some (Int.ofNat_tdiv n b).symm
  · have h1 : (n : Int) ≤ ((n / b : Nat) : Int) * b ↔ n ≤ n / b * b := by
      constructor <;> intro h <;> exact_mod_cast h
    rw [h1]
    have h2 := Nat.div_mul_le_self n b
    constructor
    · intro h
      exact ⟨n / b, by rw [Nat.mul_comm]; omega⟩
    · intro h
      rw [Nat.div_mul_cancel h]

example : kernelParamCpu 1000 128 = some 7 ∧ kernelParam .cuda 1000 128 = some 8 := by decide

/-- A launch with a last block partly idle. -/
example : spmd .cuda 5 3 = some [0, 1, 2, 3, 4] := by decide
example : tet1d .oneapi 5 3 = some [0, 1, 2, 3, 4] := by decide

end Nsimd.Props.Launch
