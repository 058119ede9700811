import Verif.Model.Addv
import Verif.Lemmas.Float
import Mathlib.Algebra.BigOperators.Fin
import Mathlib.Data.Fintype.BigOperators
import Mathlib.Tactic.FinCases
import Mathlib.Tactic.Abel

/-!
# C61: `addv` adds every lane exactly once

The back ends bracket and order the additions differently.  A `SumTree` is a bracketing; the
theorems say that every implementation evaluates a tree in which each lane occurs exactly once.
Exactness in commutative monoids and an error bound for floating point follow for any tree.
-/

namespace Nsimd.Props.Addv
open Nsimd.Addv
open Nsimd.Float (Nearest)
open Nsimd.Props.Round (Rep)

/-- A bracketing of a sum with the operands `ι`. Specification. -/
inductive SumTree (ι : Type) where
  | leaf (i : ι)
  | node (l r : SumTree ι)

namespace SumTree
variable {ι α : Type}

/-- Value of the sum. Specification. -/
def eval (add : α → α → α) (v : ι → α) : SumTree ι → α
  | leaf i => v i
  | node l r => add (l.eval add v) (r.eval add v)

/-- The operands, from left to right. Specification. -/
def leaves : SumTree ι → List ι
  | leaf i => [i]
  | node l r => l.leaves ++ r.leaves

/-- The largest number of additions an operand goes through. Specification. -/
def depth : SumTree ι → Nat
  | leaf _ => 0
  | node l r => max l.depth r.depth + 1

end SumTree

/-- `f` sums each of the lanes `ι` exactly once, and each lane goes through at most `d` additions.
Specification. -/
def SumsOnce (ι : Type) (d : Nat) (f : ∀ α : Type, (α → α → α) → (ι → α) → α) : Prop :=
  ∃ t : SumTree ι, t.leaves.Nodup ∧ (∀ i, i ∈ t.leaves) ∧ t.depth ≤ d ∧
    ∀ (α : Type) (add : α → α → α) (v : ι → α), f α add v = t.eval add v

/-- In a commutative monoid the result is the sum of the lanes. -/
theorem sumsOnce_exact {ι : Type} [Fintype ι] {d : Nat}
    {f : ∀ α : Type, (α → α → α) → (ι → α) → α} (h : SumsOnce ι d f)
    {α : Type} [AddCommMonoid α] (v : ι → α) : f α (· + ·) v = ∑ i, v i := by
  classical
  obtain ⟨t, hnd, hall, -, he⟩ := h
  have hs : ∀ t : SumTree ι, t.eval (· + ·) v = (t.leaves.map v).sum := by
    intro t
    induction t with
    | leaf i => simp [SumTree.eval, SumTree.leaves]
    | node l r hl hr => simp [SumTree.eval, SumTree.leaves, hl, hr]
  rw [he, hs, ← List.sum_toFinset _ hnd]
  congr 1
  ext i
  simp [hall i]

/-- In floating point, rounding to nearest with `p` bits and any rule for ties, gradual underflow
included, the result differs from the sum by at most `(1 + 2^-p)^d - 1` times the sum of the
magnitudes, unless a partial sum overflows. -/
theorem sumsOnce_error {ι : Type} [Fintype ι] {d : Nat}
    {f : ∀ α : Type, (α → α → α) → (ι → α) → α} (h : SumsOnce ι d f)
    {p : Nat} (hp : 1 ≤ p) {emin : ℤ} {rnd : ℚ → ℚ} (hr : Nearest p emin rnd) (v : ι → ℚ)
    (hv : ∀ i, Rep p emin (v i)) :
    |f ℚ (fun a b => rnd (a + b)) v - ∑ i, v i| ≤ ((1 + 1 / 2 ^ p) ^ d - 1) * ∑ i, |v i| := by
  classical
  obtain ⟨t, hnd, hall, hd, he⟩ := h
  set u : ℚ := 1 / 2 ^ p with hu
  have hu0 : 0 ≤ u := by positivity
  have hrep : ∀ t : SumTree ι, Rep p emin (t.eval (fun a b => rnd (a + b)) v) := by
    intro t
    cases t with
    | leaf i => exact hv i
    | node l r => exact hr.rep _
  have habs : ∀ t : SumTree ι, |(t.leaves.map v).sum| ≤ (t.leaves.map fun i => |v i|).sum ∧
      0 ≤ (t.leaves.map fun i => |v i|).sum := by
    intro t
    induction t with
    | leaf i => simp [SumTree.leaves]
    | node l r hl hr =>
      simp only [SumTree.leaves, List.map_append, List.sum_append]
      exact ⟨(abs_add_le _ _).trans (add_le_add hl.1 hr.1), add_nonneg hl.2 hr.2⟩
  have key : ∀ (t : SumTree ι) (d : Nat), t.depth ≤ d →
      |t.eval (fun a b => rnd (a + b)) v - (t.leaves.map v).sum| ≤
        ((1 + u) ^ d - 1) * (t.leaves.map fun i => |v i|).sum := by
    intro t
    induction t with
    | leaf i =>
      intro d _
      simp only [SumTree.eval, SumTree.leaves, List.map_cons, List.map_nil, List.sum_singleton, sub_self,
        abs_zero]
      have : (1 : ℚ) ≤ (1 + u) ^ d := one_le_pow₀ (by linarith)
      exact mul_nonneg (by linarith) (abs_nonneg _)
    | node l r hl hr' =>
      intro d hd
      obtain ⟨d, rfl⟩ : ∃ d', d = d' + 1 := ⟨d - 1, by simp only [SumTree.depth] at hd; omega⟩
      simp only [SumTree.depth] at hd
      have h1 := hl d (by omega)
      have h2 := hr' d (by omega)
      simp only [SumTree.eval, SumTree.leaves, List.map_append, List.sum_append]
      have h3 := hr.rel_add hp (hrep l) (hrep r)
      obtain ⟨a1, a0⟩ := habs l
      obtain ⟨b1, b0⟩ := habs r
      generalize (SumTree.eval (fun a b => rnd (a + b)) v l) = x at *
      generalize (SumTree.eval (fun a b => rnd (a + b)) v r) = y at *
      generalize (List.map v l.leaves).sum = s at *
      generalize (List.map v r.leaves).sum = s' at *
      generalize (List.map (fun i => |v i|) l.leaves).sum = A at *
      generalize (List.map (fun i => |v i|) r.leaves).sum = B at *
      set c : ℚ := (1 + u) ^ d with hc
      have hxs : |x + y| ≤ c * (A + B) := by
        have e : x + y = (x - s) + (y - s') + (s + s') := by ring
        have t1 := abs_add_le ((x - s) + (y - s')) (s + s')
        have t2 := abs_add_le (x - s) (y - s')
        have t3 := abs_add_le s s'
        rw [e]
        linarith
      have e : rnd (x + y) - (s + s') = (rnd (x + y) - (x + y)) + ((x - s) + (y - s')) := by ring
      have t1 := abs_add_le (rnd (x + y) - (x + y)) ((x - s) + (y - s'))
      have t2 := abs_add_le (x - s) (y - s')
      have h4 : |rnd (x + y) - (x + y)| ≤ u * (c * (A + B)) := by
        refine h3.trans ?_
        rw [hu, div_eq_mul_one_div, mul_comm]
        exact mul_le_mul_of_nonneg_left hxs hu0
      rw [e, pow_succ]
      nlinarith [h1, h2, h4]
  have := key t d hd
  have e1 : (t.leaves.map v).sum = ∑ i, v i := by
    rw [← List.sum_toFinset _ hnd]
    congr 1
    ext i
    simp [hall i]
  have e2 : (t.leaves.map fun i => |v i|).sum = ∑ i, |v i| := by
    rw [← List.sum_toFinset _ hnd]
    congr 1
    ext i
    simp [hall i]
  rw [he, ← e1, ← e2]
  exact this

/-- The hypotheses are met by f32 rounding on the lanes 0, 1, 2, 3. -/
example : ∃ rnd, Nearest 24 (-149) rnd ∧ ∀ i : Fin 4, Rep 24 (-149) (i.val : ℚ) := by
  obtain ⟨rnd, h⟩ := Nsimd.Float.exists_nearest (p := 24) (by decide) (-149)
  refine ⟨rnd, h, fun i => ⟨i.val, 0, ?_, by decide, by simp⟩⟩
  rw [abs_of_nonneg (by positivity)]
  have := i.isLt
  norm_num
  omega

open SumTree

/-- SSE. -/
theorem sse_sumsOnce : SumsOnce (Fin 2) 1 (fun _ add v => sse64 add v) ∧
    SumsOnce (Fin 4) 2 (fun _ add v => sse32 add v) ∧
    SumsOnce (Fin 2 × Fin 4) 3 (fun _ add v => sse16 add id (fun k l => v (k, l))) :=
  ⟨⟨node (leaf 0) (leaf 1), by decide, by decide, by decide, fun _ _ _ => rfl⟩,
   ⟨node (node (leaf 0) (leaf 1)) (node (leaf 2) (leaf 3)), by decide, by decide, by decide,
      fun _ _ _ => rfl⟩,
   ⟨node (node (node (leaf (0, 0)) (leaf (0, 1))) (node (leaf (0, 2)) (leaf (0, 3))))
      (node (node (leaf (1, 0)) (leaf (1, 1))) (node (leaf (1, 2)) (leaf (1, 3)))),
      by decide, by decide, by decide, fun _ _ _ => rfl⟩⟩

/-- Sum of the lanes `i` and `j` of every quarter, a helper to write the trees.
Test data or helper, not code of the repo. -/
def pr {ι : Type} (i j : ι) : SumTree ι := node (leaf i) (leaf j)

/-- AVX and AVX2. -/
theorem avx_sumsOnce : SumsOnce (Fin 4) 2 (fun _ add v => avx64 add v) ∧
    SumsOnce (Fin 8) 3 (fun _ add v => avx32 add v) ∧
    SumsOnce (Fin 2 × Fin 8) 4 (fun _ add v => avx16 add id (fun k l => v (k, l))) :=
  ⟨⟨node (pr 2 0) (pr 3 1), by decide, by decide, by decide, fun _ _ _ => rfl⟩,
   ⟨node (node (pr 4 0) (pr 5 1)) (node (pr 6 2) (pr 7 3)), by decide, by decide, by decide,
      fun _ _ _ => rfl⟩,
   ⟨node
      (node (node (pr (0, 4) (0, 0)) (pr (0, 5) (0, 1))) (node (pr (0, 6) (0, 2)) (pr (0, 7) (0, 3))))
      (node (node (pr (1, 4) (1, 0)) (pr (1, 5) (1, 1))) (node (pr (1, 6) (1, 2)) (pr (1, 7) (1, 3)))),
      by decide, by decide, by decide, fun _ _ _ => rfl⟩⟩

/-- Sum of four operands, a helper to write the trees. Test data or helper, not code of the repo. -/
def qu {ι : Type} (i j k l : ι) : SumTree ι := node (pr i j) (pr k l)

/-- AVX-512. -/
theorem avx512_sumsOnce : SumsOnce (Fin 8) 3 (fun _ add v => avx512_64 add v) ∧
    SumsOnce (Fin 16) 4 (fun _ add v => avx512_32 add v) ∧
    SumsOnce (Fin 2 × Fin 16) 5 (fun _ add v => avx512_16 add id (fun k l => v (k, l))) :=
  ⟨⟨node (qu 2 6 0 4) (qu 3 7 1 5), by decide, by decide, by decide, fun _ _ _ => rfl⟩,
   ⟨node (node (qu 0 4 8 12) (qu 1 5 9 13)) (node (qu 2 6 10 14) (qu 3 7 11 15)),
      by decide, by decide, by decide, fun _ _ _ => rfl⟩,
   ⟨node
      (node (node (qu (0, 0) (0, 4) (0, 8) (0, 12)) (qu (0, 1) (0, 5) (0, 9) (0, 13)))
        (node (qu (0, 2) (0, 6) (0, 10) (0, 14)) (qu (0, 3) (0, 7) (0, 11) (0, 15))))
      (node (node (qu (1, 0) (1, 4) (1, 8) (1, 12)) (qu (1, 1) (1, 5) (1, 9) (1, 13)))
        (node (qu (1, 2) (1, 6) (1, 10) (1, 14)) (qu (1, 3) (1, 7) (1, 11) (1, 15)))),
      by decide, by decide, by decide, fun _ _ _ => rfl⟩⟩

/-- NEON and AArch64 without NSIMD_ARM_FP16. -/
theorem neon_sumsOnce_partial : SumsOnce (Fin 2) 1 (fun _ add v => neon64 add v) ∧
    SumsOnce (Fin 4) 2 (fun _ add v => neon32 add v) ∧
    SumsOnce (Fin 2 × Fin 4) 3 (fun _ add v => neon16 add id (fun k l => v (k, l))) :=
  ⟨⟨node (leaf 0) (leaf 1), by decide, by decide, by decide, fun _ _ _ => rfl⟩,
   ⟨qu 0 2 1 3, by decide, by decide, by decide, fun _ _ _ => rfl⟩,
   ⟨node (qu (0, 0) (0, 2) (0, 1) (0, 3)) (qu (1, 0) (1, 2) (1, 1) (1, 3)),
      by decide, by decide, by decide, fun _ _ _ => rfl⟩⟩

/-- With NSIMD_ARM_FP16 lanes 0, 3, 4 and 7 are counted twice and the others are lost. -/
theorem neonFp16_value {α : Type} [AddCommMonoid α] (v : Fin 8 → α) :
    neonFp16 (· + ·) v = 2 • (v 0 + v 3 + v 4 + v 7) := by
  show (v 0 + v 4) + (v 3 + v 7) + ((v 0 + v 4) + (v 3 + v 7)) = _
  abel

/-- Two witnesses: the lane 1 is lost and the lane 0 is counted twice. -/
theorem neonFp16_counterexample :
    neonFp16 (· + ·) (fun i : Fin 8 => if i = 1 then (1 : ℚ) else 0) = 0 ∧
    neonFp16 (· + ·) (fun i : Fin 8 => if i = 0 then (1 : ℚ) else 0) = 2 ∧
    ¬ ∃ d, SumsOnce (Fin 8) d (fun _ add v => neonFp16 add v) := by
  have h1 : neonFp16 (· + ·) (fun i : Fin 8 => if i = 1 then (1 : ℚ) else 0) = 0 := by
    rw [neonFp16_value]; simp
  refine ⟨h1, by rw [neonFp16_value]; simp, ?_⟩
  rintro ⟨d, h⟩
  have := sumsOnce_exact h (fun i : Fin 8 => if i = 1 then (1 : ℚ) else 0)
  rw [h1] at this
  revert this
  simp

/-- SVE registers of any power of two lanes, AArch64 f32 and f64. -/
theorem sve_sumsOnce (k : Nat) : SumsOnce (Fin (2 ^ k)) k (fun _ add v => svaddv add k v) := by
  have key : ∀ (k : Nat) (ι : Type) (g : Fin (2 ^ k) → ι), ∃ t : SumTree ι,
      t.leaves = (List.finRange (2 ^ k)).map g ∧ t.depth ≤ k ∧
      ∀ (α : Type) (add : α → α → α) (v : ι → α),
        svaddv add k (fun i => v (g i)) = t.eval add v := by
    intro k
    induction k with
    | zero =>
      intro ι g
      exact ⟨leaf (g 0), rfl, Nat.le_refl _, fun _ _ _ => rfl⟩
    | succ k ih =>
      intro ι g
      have hk : 2 ^ (k + 1) = 2 ^ k + 2 ^ k := by rw [Nat.pow_succ]; omega
      obtain ⟨l, hl1, hl2, hl3⟩ := ih ι (fun i => g ⟨2 ^ k * 0 + i.val, by omega⟩)
      obtain ⟨r, hr1, hr2, hr3⟩ := ih ι (fun i => g ⟨2 ^ k * 1 + i.val, by omega⟩)
      refine ⟨node l r, ?_, ?_, ?_⟩
      · rw [SumTree.leaves, hl1, hr1]
        apply List.ext_getElem
        · simp [hk]
        · intro i h1 h2
          simp only [List.length_append, List.length_map, List.length_finRange] at h1 h2
          rw [List.getElem_append]
          split
          · simp
          · rename_i hn
            simp only [List.length_map, List.length_finRange] at hn
            simp only [List.getElem_map, List.getElem_finRange, List.length_map,
              List.length_finRange]
            congr 1
            apply Fin.ext
            simp only [Fin.val_cast]
            omega
      · simp only [SumTree.depth]; omega
      · intro α add v
        rw [SumTree.eval, ← hl3, ← hr3]
        rfl
  obtain ⟨t, h1, h2, h3⟩ := key k _ id
  rw [List.map_id] at h1
  exact ⟨t, h1 ▸ List.nodup_finRange _, fun i => h1 ▸ List.mem_finRange i, h2, h3⟩

theorem sequential_tree {ι : Type} {n : Nat} (g : Fin (n + 1) → ι) : ∃ t : SumTree ι,
    t.leaves = (List.finRange (n + 1)).map g ∧ t.depth ≤ n ∧
    ∀ (α : Type) (add : α → α → α) (v : ι → α),
      sequential add (fun i => v (g i)) = t.eval add v := by
  have key : ∀ (l : List ι) (t0 : SumTree ι), ∃ t : SumTree ι, t.leaves = t0.leaves ++ l ∧
      t.depth ≤ t0.depth + l.length ∧ ∀ (α : Type) (add : α → α → α) (v : ι → α),
        (l.map v).foldl add (t0.eval add v) = t.eval add v := by
    intro l
    induction l with
    | nil => intro t0; exact ⟨t0, by simp, by simp, fun _ _ _ => rfl⟩
    | cons j l ih =>
      intro t0
      obtain ⟨t, h1, h2, h3⟩ := ih (node t0 (leaf j))
      refine ⟨t, ?_, ?_, ?_⟩
      · rw [h1]; simp [SumTree.leaves]
      · simp only [SumTree.depth] at h2; simp only [List.length_cons]; omega
      · intro α add v
        rw [List.map_cons, List.foldl_cons]
        exact h3 α add v
  obtain ⟨t, h1, h2, h3⟩ := key ((List.finRange n).map fun i => g i.succ) (leaf (g 0))
  refine ⟨t, ?_, ?_, ?_⟩
  · rw [h1, List.finRange_succ]; simp [SumTree.leaves, Function.comp_def]
  · simpa [SumTree.depth] using h2
  · intro α add v
    rw [← h3]
    simp [sequential, SumTree.eval, Function.comp_def]

/-- The CPU back end, and VMX and VSX. -/
theorem sequential_sumsOnce (n : Nat) :
    SumsOnce (Fin (n + 1)) n (fun _ add v => sequential add v) ∧
    SumsOnce (Fin (n + 1)) n (fun _ add v => cpu16 add id v) := by
  obtain ⟨t, h1, h2, h3⟩ := sequential_tree (n := n) id
  rw [List.map_id] at h1
  have : SumsOnce (Fin (n + 1)) n (fun _ add v => sequential add v) :=
    ⟨t, h1 ▸ List.nodup_finRange _, fun i => h1 ▸ List.mem_finRange i, h2, h3⟩
  exact ⟨this, this⟩

/-- f16 on VMX and VSX. -/
theorem ppc16_sumsOnce :
    SumsOnce (Fin 2 × Fin 4) 4 (fun _ add v => ppc16 add id (fun k l => v (k, l))) :=
  ⟨node (node (node (pr (0, 0) (0, 1)) (leaf (0, 2))) (leaf (0, 3)))
      (node (node (pr (1, 0) (1, 1)) (leaf (1, 2))) (leaf (1, 3))),
    by decide, by decide, by decide, fun _ _ _ => rfl⟩

example : avx512_32 (· + ·) (fun i : Fin 16 => i.val) = 120 := by decide
example : svaddv (· + ·) 3 (fun i : Fin 8 => i.val) = 28 := by decide
example : sequential (· - ·) (fun i : Fin 4 => (10 : Int) - i.val) = -14 := by decide

end Nsimd.Props.Addv
