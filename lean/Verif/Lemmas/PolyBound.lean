import Mathlib.Data.Real.Basic
import Mathlib.Data.Rat.Floor
import Mathlib.Algebra.BigOperators.Intervals
import Mathlib.Algebra.BigOperators.Ring.Finset
import Mathlib.Tactic.Ring
import Mathlib.Tactic.Linarith
import Mathlib.Tactic.Positivity
import Mathlib.Tactic.FieldSimp
import Mathlib.Tactic.NormNum

/-!
# Bounds of polynomials on an interval

A checker on integers, and its soundness over the reals: the interval is divided into pieces, and on each of them the
polynomial is expanded around the middle. No code of the repo.
-/

namespace Nsimd.Poly

/-- Value of the polynomial with coefficients `l`, the constant term first. Spec. -/
def eval (l : List ℚ) (x : ℝ) : ℝ := l.foldr (fun c v => (c : ℝ) + x * v) 0

/-- The same for integers. Proof helper. -/
def evalI (l : List ℤ) (x : ℝ) : ℝ := l.foldr (fun c v => (c : ℝ) + x * v) 0

@[simp] theorem eval_nil (x : ℝ) : eval [] x = 0 := rfl
@[simp] theorem eval_cons (c : ℚ) (l : List ℚ) (x : ℝ) : eval (c :: l) x = c + x * eval l x := rfl
@[simp] theorem evalI_nil (x : ℝ) : evalI [] x = 0 := rfl
@[simp] theorem evalI_cons (c : ℤ) (l : List ℤ) (x : ℝ) : evalI (c :: l) x = c + x * evalI l x := rfl

/-- Sum of polynomials. Proof helper. -/
def addP : List ℤ → List ℤ → List ℤ
  | [], m => m
  | l, [] => l
  | a :: l, b :: m => (a + b) :: addP l m

theorem eval_addP (l m : List ℤ) (x : ℝ) : evalI (addP l m) x = evalI l x + evalI m x := by
  induction l generalizing m with
  | nil => simp [addP]
  | cons a l ih =>
    cases m with
    | nil => simp [addP]
    | cons b m => simp [addP, ih]; ring

theorem eval_map (c : ℤ) (l : List ℤ) (x : ℝ) : evalI (l.map (c * ·)) x = c * evalI l x := by
  induction l with
  | nil => simp
  | cons a l ih => simp only [List.map_cons, evalI_cons, ih]; push_cast; ring

/-- Expansion around `c`. Proof helper. -/
def shift (c : ℤ) : List ℤ → List ℤ
  | [] => []
  | a :: l => let s := shift c l; addP [a] (addP (0 :: s) (s.map (c * ·)))

theorem eval_shift (c : ℤ) (l : List ℤ) (x : ℝ) : evalI (shift c l) x = evalI l (x + c) := by
  induction l with
  | nil => simp [shift]
  | cons a l ih => simp only [shift, eval_addP, evalI_cons, evalI_nil, eval_map, ih]; push_cast; ring

/-- Sum of absolute values at radius `r`. Proof helper. -/
def absEval (r : ℕ) : List ℤ → ℕ
  | [] => 0
  | a :: l => a.natAbs + r * absEval r l

theorem le_absEval (r : ℕ) (l : List ℤ) {x : ℝ} (hx : |x| ≤ r) : |evalI l x| ≤ absEval r l := by
  induction l with
  | nil => simp [absEval]
  | cons a l ih =>
    rw [evalI_cons, absEval]
    push_cast
    refine (abs_add_le _ _).trans ?_
    rw [abs_mul, Nat.cast_natAbs, Int.cast_abs]
    have := mul_le_mul hx ih (abs_nonneg _) (by positivity)
    linarith

/-- `n` pieces of half width `r` from `lo` on, each with its own expansion. Proof helper. -/
def checkI (Q : List ℤ) (E r : ℕ) : ℤ → ℕ → Bool
  | _, 0 => true
  | lo, n + 1 => decide (absEval r (shift (lo + r) Q) ≤ E) && checkI Q E r (lo + 2 * r) n

theorem checkI_sound {Q : List ℤ} {E r : ℕ} {lo : ℤ} {n : ℕ} (h : checkI Q E r lo n = true) (hn : 0 < n) {x : ℝ}
    (h1 : (lo : ℝ) ≤ x) (h2 : x ≤ lo + 2 * r * n) : |evalI Q x| ≤ E := by
  induction n generalizing lo with
  | zero => exact absurd hn (lt_irrefl _)
  | succ n ih =>
    simp only [checkI, Bool.and_eq_true, decide_eq_true_eq] at h
    by_cases hx : x ≤ lo + 2 * r
    · have h3 : |x - ((lo + r : ℤ) : ℝ)| ≤ r := by
        rw [abs_le]; push_cast; constructor <;> linarith
      have h4 := le_absEval r (shift (lo + r) Q) h3
      rw [eval_shift, sub_add_cancel] at h4
      exact h4.trans (by exact_mod_cast h.1)
    · rcases Nat.eq_zero_or_pos n with rfl | hn'
      · exfalso; push_cast at h2; linarith
      · refine ih h.2 hn' ?_ ?_
        · push_cast; linarith
        · push_cast at h2 ⊢; linarith

/-- Integer coefficients in the variable `x * M`, all multiplied by `D`; `none` if one is not an integer. Proof helper. -/
def scale (M : ℕ) (D : ℚ) : List ℚ → Option (List ℤ)
  | [] => some []
  | c :: l =>
    match scale M (D / M) l with
    | none => none
    | some m => if (c * D).den = 1 then some ((c * D).num :: m) else none

theorem eval_scale {M : ℕ} (hM : 0 < M) {D : ℚ} {l : List ℚ} {m : List ℤ} (h : scale M D l = some m) (x : ℝ) :
    evalI m (x * M) = D * eval l x := by
  induction l generalizing D m with
  | nil => simp only [scale, Option.some.injEq] at h; subst h; simp
  | cons c l ih =>
    simp only [scale] at h
    split at h
    · cases h
    · rename_i m' hm'
      split at h
      · rename_i hd
        cases h
        have hc : (((c * D).num : ℤ) : ℝ) = c * D := by
          have : (((c * D).num : ℤ) : ℚ) = c * D := Rat.den_eq_one_iff _ |>.mp hd
          exact_mod_cast congrArg (Rat.cast : ℚ → ℝ) this
        have hM' : (M : ℝ) ≠ 0 := by positivity
        rw [evalI_cons, ih hm', hc, eval_cons]
        push_cast
        field_simp
      · cases h

/-- The whole check: `|l(x)| ≤ ε` for `lo/M ≤ x ≤ (lo + 2 r n)/M`. Proof helper. -/
def check (l : List ℚ) (ε : ℚ) (M : ℕ) (D : ℚ) (lo : ℤ) (r n : ℕ) : Bool :=
  match scale M D l with
  | none => false
  | some Q => checkI Q ⌊D * ε⌋.toNat r lo n && decide (0 < D) && decide (0 < M) && decide (0 < n) && decide (0 ≤ ε)

theorem check_sound {l : List ℚ} {ε : ℚ} {M : ℕ} {D : ℚ} {lo : ℤ} {r n : ℕ} (h : check l ε M D lo r n = true) {x : ℝ}
    (h1 : (lo : ℝ) ≤ x * M) (h2 : x * M ≤ lo + 2 * r * n) : |eval l x| ≤ ε := by
  unfold check at h
  split at h
  · cases h
  · rename_i Q hQ
    simp only [Bool.and_eq_true, decide_eq_true_eq] at h
    obtain ⟨⟨⟨⟨h3, hD⟩, hM⟩, hn⟩, hε⟩ := h
    have h4 := checkI_sound h3 hn h1 h2
    rw [eval_scale hM hQ, abs_mul] at h4
    have hD' : (0 : ℝ) < D := by exact_mod_cast hD
    have h5 : ((⌊D * ε⌋.toNat : ℕ) : ℝ) ≤ D * ε := by
      have h6 : (0 : ℤ) ≤ ⌊D * ε⌋ := Int.floor_nonneg.mpr (by positivity)
      have h7 : ((⌊D * ε⌋.toNat : ℕ) : ℤ) = ⌊D * ε⌋ := Int.toNat_of_nonneg h6
      have h8 : ((⌊D * ε⌋ : ℤ) : ℚ) ≤ D * ε := Int.floor_le _
      have h9 : ((⌊D * ε⌋.toNat : ℕ) : ℚ) ≤ D * ε := by rw [← h7] at h8; exact_mod_cast h8
      exact_mod_cast h9
    rw [abs_of_pos hD'] at h4
    exact le_of_mul_le_mul_left (h4.trans h5) hD'

theorem eval_append (l m : List ℚ) (x : ℝ) : eval (l ++ m) x = eval l x + x ^ l.length * eval m x := by
  induction l with
  | nil => simp
  | cons a l ih => simp only [List.cons_append, eval_cons, ih, List.length_cons]; ring

theorem eval_range (f : ℕ → ℚ) (n : ℕ) (x : ℝ) :
    eval ((List.range n).map f) x = ∑ i ∈ Finset.range n, (f i : ℝ) * x ^ i := by
  induction n with
  | zero => simp
  | succ n ih =>
    rw [List.range_succ, List.map_append, eval_append, ih, Finset.sum_range_succ]
    simp; ring

theorem eval_getD (l : List ℚ) {n : ℕ} (hn : l.length ≤ n) (x : ℝ) :
    eval l x = ∑ i ∈ Finset.range n, ((l.getD i 0 : ℚ) : ℝ) * x ^ i := by
  induction l generalizing n with
  | nil => simp
  | cons a l ih =>
    obtain ⟨m, rfl⟩ : ∃ m, n = m + 1 := ⟨n - 1, by simp at hn; omega⟩
    rw [Finset.sum_range_succ', eval_cons, ih (n := m) (by simpa using hn), Finset.mul_sum]
    simp only [List.getD_cons_succ, List.getD_cons_zero, pow_zero, mul_one]
    rw [add_comm]
    congr 1
    refine Finset.sum_congr rfl fun i _ => ?_
    rw [pow_succ]; ring

/-- The polynomial `l` minus the first `n` terms of the power series with coefficients `f`. Proof helper. -/
def diff (l : List ℚ) (f : ℕ → ℚ) (n : ℕ) : List ℚ := (List.range n).map fun i => l.getD i 0 - f i

theorem eval_diff (l : List ℚ) (f : ℕ → ℚ) {n : ℕ} (hn : l.length ≤ n) (x : ℝ) :
    eval (diff l f n) x = eval l x - ∑ i ∈ Finset.range n, (f i : ℝ) * x ^ i := by
  rw [diff, eval_range, eval_getD l hn, ← Finset.sum_sub_distrib]
  refine Finset.sum_congr rfl fun i _ => ?_
  push_cast; ring

end Nsimd.Poly
