import Mathlib.Data.Nat.Sqrt
import Mathlib.Data.Nat.Cast.Order.Field
import Mathlib.Tactic.Linarith
import Mathlib.Tactic.Positivity
import Mathlib.Tactic.FieldSimp
import Mathlib.Tactic.Ring
import Mathlib.Data.Rat.Cast.Order

/-!
# Newton's iteration for square roots on natural numbers
-/

namespace Nsimd.Newton

/-- One step of the iteration. Proof helper, not code of the repo. -/
def step (A x : Nat) : Nat := (x + A / x) / 2

/-- A step never ends below the root. -/
theorem sqrt_le_step {A x : Nat} (hx : 0 < x) : Nat.sqrt A ≤ step A x := by
  unfold step
  rw [Nat.le_div_iff_mul_le (by decide)]
  -- 2 s ≤ x + A / x
  by_contra hc
  have hdiv : 0 ≤ A / x := Nat.zero_le _
  have hxs : x < 2 * Nat.sqrt A := by
    generalize A / x = q at *
    omega
  have h1 : A / x < 2 * Nat.sqrt A - x := by
    generalize A / x = q at *
    omega
  rw [Nat.div_lt_iff_lt_mul hx] at h1
  have h2 := Nat.sqrt_le' A
  obtain ⟨d, hd⟩ := Nat.exists_eq_add_of_lt hxs
  have : 2 * Nat.sqrt A - x = d + 1 := by omega
  rw [this] at h1
  have h3 : 2 * Nat.sqrt A = x + (d + 1) := by omega
  -- (x + d + 1)^2 / 4 ≤ A < (d+1) x
  nlinarith [sq_nonneg ((x : Int) - (d + 1))]

/-- From above the root, a step goes at least half of the way. -/
theorem step_le {A x : Nat} (hx : Nat.sqrt A < x) :
    step A x ≤ Nat.sqrt A + (x - Nat.sqrt A) / 2 := by
  have h : A / x ≤ Nat.sqrt A := by
    rw [← Nat.lt_succ_iff, Nat.div_lt_iff_lt_mul (by omega)]
    calc A < (Nat.sqrt A + 1) * (Nat.sqrt A + 1) := Nat.lt_succ_sqrt A
      _ ≤ (Nat.sqrt A).succ * x := Nat.mul_le_mul_left _ hx
  unfold step
  omega

/-- From the root, a step goes at most one up. -/
theorem step_root {A : Nat} (hA : 0 < A) : Nat.sqrt A + A / Nat.sqrt A ≤ 2 * Nat.sqrt A + 2 := by
  have hs : 0 < Nat.sqrt A := Nat.sqrt_pos.mpr hA
  have : A / Nat.sqrt A < Nat.sqrt A + 3 := by
    rw [Nat.div_lt_iff_lt_mul hs]
    have := Nat.lt_succ_sqrt A
    have e : (Nat.sqrt A).succ * (Nat.sqrt A).succ = Nat.sqrt A * Nat.sqrt A + 2 * Nat.sqrt A + 1 := by
      rw [Nat.succ_eq_add_one]; ring
    rw [e] at this
    have : (Nat.sqrt A + 3) * Nat.sqrt A = Nat.sqrt A * Nat.sqrt A + 3 * Nat.sqrt A := by ring
    omega
  omega

theorem step_near {A x : Nat} (hA : 0 < A) (h1 : Nat.sqrt A ≤ x) (h2 : x ≤ Nat.sqrt A + 1) :
    step A x ≤ Nat.sqrt A + 1 := by
  rcases Nat.lt_or_eq_of_le h1 with h | h
  · have := step_le h; omega
  · rw [← h]
    have := step_root hA
    unfold step
    omega

theorem iter_ge {A x : Nat} (hA : 0 < A) (hx : 0 < x) (k : Nat) :
    Nat.sqrt A ≤ (step A)^[k + 1] x ∧ 0 < (step A)^[k] x := by
  have hs : 0 < Nat.sqrt A := Nat.sqrt_pos.mpr hA
  induction k with
  | zero => exact ⟨sqrt_le_step hx, hx⟩
  | succ k ih =>
    have hp : 0 < (step A)^[k + 1] x := by omega
    refine ⟨?_, hp⟩
    rw [Function.iterate_succ_apply']
    exact sqrt_le_step hp

/-- Linear convergence. -/
theorem iter_linear {A x : Nat} (hA : 0 < A) (hx : Nat.sqrt A ≤ x) (k : Nat) :
    (step A)^[k] x ≤ Nat.sqrt A + max 1 ((x - Nat.sqrt A) / 2 ^ k) := by
  have hs : 0 < Nat.sqrt A := Nat.sqrt_pos.mpr hA
  have hge : ∀ k, Nat.sqrt A ≤ (step A)^[k] x := by
    intro k
    cases k with
    | zero => exact hx
    | succ k => exact (iter_ge hA (by omega) k).1
  induction k with
  | zero => simp only [Function.iterate_zero, id, Nat.pow_zero, Nat.div_one]; omega
  | succ k ih =>
    rw [Function.iterate_succ_apply']
    by_cases h : (step A)^[k] x ≤ Nat.sqrt A + 1
    · have := step_near hA (hge k) h
      omega
    · have h1 := step_le (show Nat.sqrt A < (step A)^[k] x by omega)
      have h2 : (step A)^[k] x - Nat.sqrt A ≤ (x - Nat.sqrt A) / 2 ^ k := by omega
      have h3 : (x - Nat.sqrt A) / 2 ^ (k + 1) = (x - Nat.sqrt A) / 2 ^ k / 2 := by
        rw [Nat.pow_succ, Nat.div_div_eq_div_mul]
      rw [h3]
      omega

/-- How far the square of `x` is above `A`. Proof helper, not code of the repo. -/
def excess (A x : Nat) : ℚ := ((x : ℚ) ^ 2 - A) / A

/-- Quadratic convergence: the excess `g` becomes at most `g² / (4 (1 + g))`. -/
theorem excess_step {A x : Nat} (hA : 0 < A) (hx : 0 < x) {G : ℚ} (h0 : 0 ≤ excess A x)
    (hG : excess A x ≤ G) : excess A (step A x) ≤ G ^ 2 / (4 * (1 + G)) := by
  have hAq : (0 : ℚ) < A := by exact_mod_cast hA
  have hxq : (0 : ℚ) < x := by exact_mod_cast hx
  have hs : ((step A x : Nat) : ℚ) ≤ ((x : ℚ) + A / x) / 2 := by
    unfold step
    have h1 : (((x + A / x) / 2 : Nat) : ℚ) ≤ ((x + A / x : Nat) : ℚ) / 2 := by
      have := @Nat.cast_div_le ℚ _ _ _ (x + A / x) 2
      simpa using this
    have h2 : ((A / x : Nat) : ℚ) ≤ (A : ℚ) / x := Nat.cast_div_le
    push_cast at h1
    linarith
  have hs0 : (0 : ℚ) ≤ (step A x : Nat) := Nat.cast_nonneg _
  have hsq : ((step A x : Nat) : ℚ) ^ 2 ≤ (((x : ℚ) + A / x) / 2) ^ 2 := pow_le_pow_left₀ hs0 hs 2
  set g := excess A x with hg
  have hx2 : (x : ℚ) ^ 2 = A * (1 + g) := by
    rw [hg]; unfold excess; field_simp; ring
  have hkey : (((x : ℚ) + A / x) / 2) ^ 2 - A = A * (g ^ 2 / (4 * (1 + g))) := by
    have : (((x : ℚ) + A / x) / 2) ^ 2 = ((x : ℚ) ^ 2 + 2 * A + A ^ 2 / (x : ℚ) ^ 2) / 4 := by
      field_simp; ring
    rw [this, hx2]
    have h1g : (1 + g) ≠ 0 := by positivity
    field_simp
    ring
  have hmono : g ^ 2 / (4 * (1 + g)) ≤ G ^ 2 / (4 * (1 + G)) := by
    have hG0 : 0 ≤ G := le_trans h0 hG
    rw [div_le_div_iff₀ (by positivity) (by positivity)]
    have e : G ^ 2 * (4 * (1 + g)) - g ^ 2 * (4 * (1 + G)) = 4 * (G - g) * (G + g + G * g) := by ring
    have : 0 ≤ 4 * (G - g) * (G + g + G * g) := by
      have := sub_nonneg.mpr hG
      positivity
    linarith
  refine le_trans ?_ hmono
  show (((step A x : Nat) : ℚ) ^ 2 - A) / A ≤ _
  rw [div_le_iff₀ hAq]
  calc ((step A x : Nat) : ℚ) ^ 2 - A ≤ (((x : ℚ) + A / x) / 2) ^ 2 - A := by linarith
    _ = g ^ 2 / (4 * (1 + g)) * A := by rw [hkey]; ring

theorem excess_pos {A x : Nat} (hA : 0 < A) (h : Nat.sqrt A < x) : 0 ≤ excess A x := by
  unfold excess
  have hAq : (0 : ℚ) < A := by exact_mod_cast hA
  have : A ≤ x ^ 2 := by
    have h1 := Nat.lt_succ_sqrt A
    have h2 : (Nat.sqrt A).succ * (Nat.sqrt A).succ ≤ x * x := Nat.mul_le_mul h h
    rw [sq]; omega
  have : (A : ℚ) ≤ (x : ℚ) ^ 2 := by exact_mod_cast this
  apply div_nonneg _ hAq.le
  linarith

/-- Nine more steps from an excess of at most 1024 reach the root or one more, for numbers below
`2^64`. -/
theorem iter_nine {A x : Nat} (hA : 0 < A) (hA64 : A < 2 ^ 64) (hx : Nat.sqrt A ≤ x)
    (hg : excess A x ≤ 1024) : (step A)^[9] x ≤ Nat.sqrt A + 1 := by
  have hs : 0 < Nat.sqrt A := Nat.sqrt_pos.mpr hA
  have hge : ∀ k, Nat.sqrt A ≤ (step A)^[k] x := by
    intro k
    cases k with
    | zero => exact hx
    | succ k => exact (iter_ge hA (by omega) k).1
  have near : ∀ k j, (step A)^[k] x ≤ Nat.sqrt A + 1 → (step A)^[j + k] x ≤ Nat.sqrt A + 1 := by
    intro k j h
    induction j with
    | zero => simpa using h
    | succ j ih =>
      rw [show j + 1 + k = (j + k) + 1 by omega, Function.iterate_succ_apply']
      exact step_near hA (hge _) ih
  have stp : ∀ k G, ((step A)^[k] x ≤ Nat.sqrt A + 1 ∨ excess A ((step A)^[k] x) ≤ G) →
      ∀ G', G ^ 2 / (4 * (1 + G)) ≤ G' →
      ((step A)^[k + 1] x ≤ Nat.sqrt A + 1 ∨ excess A ((step A)^[k + 1] x) ≤ G') := by
    intro k G h G' hG'
    by_cases hn : (step A)^[k] x ≤ Nat.sqrt A + 1
    · left
      have := near k 1 hn
      rwa [Nat.add_comm] at this
    · right
      rcases h with h | h
      · exact absurd h hn
      · rw [Function.iterate_succ_apply']
        refine le_trans (excess_step hA (by have := hge k; omega) (excess_pos hA (by omega)) h) hG'
  have h0 : ((step A)^[0] x ≤ Nat.sqrt A + 1 ∨ excess A ((step A)^[0] x) ≤ 1024) := Or.inr hg
  have h1 := stp 0 _ h0 256 (by norm_num)
  have h2 := stp 1 _ h1 64 (by norm_num)
  have h3 := stp 2 _ h2 (1576 / 100) (by norm_num)
  have h4 := stp 3 _ h3 (371 / 100) (by norm_num)
  have h5 := stp 4 _ h4 (731 / 1000) (by norm_num)
  have h6 := stp 5 _ h5 (78 / 1000) (by norm_num)
  have h7 := stp 6 _ h6 (15 / 10000) (by norm_num)
  have h8 := stp 7 _ h7 (6 / 10 ^ 7) (by norm_num)
  have h9 := stp 8 _ h8 (1 / 10 ^ 13) (by norm_num)
  rcases h9 with h | h
  · exact h
  · by_contra hc
    have hc' : Nat.sqrt A + 2 ≤ (step A)^[9] x := by omega
    have hlt := Nat.lt_succ_sqrt A
    set s := Nat.sqrt A with hsdef
    have hs33 : s < 2 ^ 32 := by
      rw [hsdef, Nat.sqrt_lt']
      exact lt_of_lt_of_le hA64 (by norm_num)
    have hAq : (0 : ℚ) < A := by exact_mod_cast hA
    unfold excess at h
    rw [div_le_iff₀ hAq] at h
    have hsq : ((s : ℚ) + 2) ^ 2 ≤ (((step A)^[9] x : Nat) : ℚ) ^ 2 := by
      apply pow_le_pow_left₀ (by positivity)
      exact_mod_cast hc'
    have hA' : (A : ℚ) < ((s : ℚ) + 1) ^ 2 := by
      have : A < (s + 1) ^ 2 := by rw [sq]; exact hlt
      exact_mod_cast this
    have hsq33 : (s : ℚ) < 2 ^ 32 := by exact_mod_cast hs33
    have hs0 : (0 : ℚ) ≤ s := Nat.cast_nonneg _
    have : 2 * (s : ℚ) + 3 ≤ 1 / 10 ^ 13 * ((s : ℚ) + 1) ^ 2 := by nlinarith
    have h2 : 1 / 10 ^ 13 * ((s : ℚ) + 1) ^ 2 ≤ ((s : ℚ) + 1) := by
      have : (s : ℚ) + 1 ≤ 2 ^ 33 := by linarith
      nlinarith
    linarith

end Nsimd.Newton
