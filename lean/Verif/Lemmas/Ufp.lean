import Verif.Model.Ufp
import Mathlib.Tactic.Ring
import Mathlib.Tactic.Linarith
import Mathlib.Algebra.Order.Ring.Int

namespace Nsimd.Ufp

theorem i64_some {x : Int} (h1 : -2 ^ 63 ≤ x) (h2 : x < 2 ^ 63) : i64 x = some x :=
  if_pos ⟨h1, h2⟩

/-- `L` is the bit length of `d`. Proof device, not code of the repo. -/
def IsLen (d L : Nat) : Prop := d < 2 ^ L ∧ (L = 0 ∨ 2 ^ (L - 1) ≤ d)

theorem isLen_unique {d L L' : Nat} (h : IsLen d L) (h' : IsLen d L') : L = L' := by
  have mono : ∀ {x y : Nat}, x ≤ y → 2 ^ x ≤ 2 ^ y := fun h => Nat.pow_le_pow_right (by decide) h
  rcases Nat.lt_trichotomy L L' with h1 | h1 | h1
  · rcases h'.2 with h2 | h2
    · omega
    · have := mono (show L ≤ L' - 1 by omega)
      have := h.1; omega
  · exact h1
  · rcases h.2 with h2 | h2
    · omega
    · have := mono (show L' ≤ L - 1 by omega)
      have := h'.1; omega

theorem i64_pow (i : Nat) (h : i < 63) : i64 (2 ^ i) = some (2 ^ i) := by
  have hp : (2 : Int) ^ i < 2 ^ 63 := pow_lt_pow_right₀ (by norm_num) h
  have hp0 : (0 : Int) < 2 ^ i := by positivity
  exact i64_some (by omega) hp

theorem loop_spec (M d : Nat) (hM : M ≤ 60) (hd : d < 2 ^ (M + 2)) :
    ∀ fuel i, M + 3 ≤ fuel + i → i ≤ M + 2 → (i = 0 ∨ 2 ^ (i - 1) ≤ d) →
      ∃ L, loop M d fuel i = some L ∧ IsLen d L ∧ L ≤ M + 2 := by
  intro fuel
  induction fuel with
  | zero => intro i h1 h2; omega
  | succ n ih =>
    intro i h1 h2 h3
    simp only [loop]
    by_cases hi : i ≤ M + 1
    · rw [if_pos hi]
      rw [i64_pow i (by omega), Option.bind_some]
      by_cases hd2 : (d : Int) ≥ 2 ^ i
      · rw [if_pos hd2]
        exact ih (i + 1) (by omega) (by omega) (Or.inr (by
          rw [Nat.add_sub_cancel]; exact_mod_cast hd2))
      · rw [if_neg hd2]
        refine ⟨i, rfl, ⟨?_, h3⟩, by omega⟩
        have : ((d : Nat) : Int) < ((2 ^ i : Nat) : Int) := by push_cast; omega
        exact_mod_cast this
    · rw [if_neg hi]
      have : i = M + 2 := by omega
      subst this
      exact ⟨_, rfl, ⟨hd, h3⟩, le_refl _⟩

/-- Distance used by `ufp`, in units of the last place of the smaller operand.
Proof device, not code of the repo. -/
def dist (ea eb ma mb : Nat) : Nat :=
  if ea = eb then (if mb ≤ ma then ma - mb else mb - ma)
  else if eb < ea then 2 * ma - mb else 2 * mb - ma

theorem ufp_near (E M a b : Nat) (hM : M ≤ 60)
    (h : a / 2 ^ M % 2 ^ E ≤ b / 2 ^ M % 2 ^ E + 1 ∧ b / 2 ^ M % 2 ^ E ≤ a / 2 ^ M % 2 ^ E + 1) :
    ∃ L : Nat, ufp E M a b = some ((M : Int) + 1 - L) ∧ L ≤ M + 2 ∧
      IsLen (dist (a / 2 ^ M % 2 ^ E) (b / 2 ^ M % 2 ^ E) (a % 2 ^ M + 2 ^ M) (b % 2 ^ M + 2 ^ M))
        L := by
  have hpn : 0 < 2 ^ M := Nat.two_pow_pos M
  have la := Nat.mod_lt a hpn
  have lb := Nat.mod_lt b hpn
  have hP : (2 : Nat) ^ M ≤ 2 ^ 60 := Nat.pow_le_pow_right (by decide) hM
  have hP2 : (2 : Nat) ^ (M + 2) = 4 * 2 ^ M := by rw [pow_add]; ring
  have hPi : (2 : Int) ^ M = ((2 ^ M : Nat) : Int) := by push_cast; rfl
  unfold ufp
  simp only [hPi]
  have hl := fun d hd => loop_spec M d hM hd (M + 3) 0 (by omega) (by omega) (Or.inl rfl)
  rw [hP2] at hl
  generalize a / 2 ^ M % 2 ^ E = ea at *
  generalize b / 2 ^ M % 2 ^ E = eb at *
  generalize a % 2 ^ M = xa at *
  generalize b % 2 ^ M = xb at *
  generalize 2 ^ M = P at *
  rw [if_neg (by omega), i64_some (by omega) (by omega), i64_some (by omega) (by omega)]
  have fin : ∀ (d : Int) (D : Nat), d = D ∨ d = -(D : Int) → D < 4 * P →
      ∃ L : Nat, ((absD d).bind fun d => (loop M d (M + 3) 0).bind fun i =>
        pure ((M : Int) + 1 - i)) = some ((M : Int) + 1 - L) ∧ L ≤ M + 2 ∧ IsLen D L := by
    intro d D hd hD
    obtain ⟨L, h1, h2, h3⟩ := hl D hD
    refine ⟨L, ?_, h3, h2⟩
    have : absD d = some (D : Int) := by
      unfold absD
      split
      · have : d = D := by omega
        rw [this]
      · rw [i64_some (by omega) (by omega)]
        congr 1; omega
    rw [this, Option.bind_some, h1]
    rfl
  simp only [Option.bind_eq_bind, Option.bind_some]
  unfold dist diff
  by_cases he : ea = eb
  · rw [if_pos (by omega), if_pos he, i64_some (by omega) (by omega)]
    simp only [Option.bind_some]
    apply fin
    · split <;> omega
    · split <;> omega
  · rw [if_neg (by omega), if_neg he]
    by_cases hlt : eb < ea
    · rw [if_pos (by omega), if_pos hlt, i64_some (by omega) (by omega)]
      simp only [Option.bind_eq_bind, Option.bind_some]
      rw [i64_some (by omega) (by omega)]
      simp only [Option.bind_some]
      apply fin <;> omega
    · rw [if_neg (by omega), if_neg hlt, i64_some (by omega) (by omega)]
      simp only [Option.bind_eq_bind, Option.bind_some]
      rw [i64_some (by omega) (by omega)]
      simp only [Option.bind_some]
      apply fin <;> omega

theorem ufp_far (E M a b : Nat)
    (h : ¬ (a / 2 ^ M % 2 ^ E ≤ b / 2 ^ M % 2 ^ E + 1 ∧
      b / 2 ^ M % 2 ^ E ≤ a / 2 ^ M % 2 ^ E + 1)) : ufp E M a b = some 0 := by
  unfold ufp
  simp only []
  rw [if_pos (by omega)]

theorem dist_comm (ea eb ma mb : Nat) : dist ea eb ma mb = dist eb ea mb ma := by
  unfold dist
  rcases Nat.lt_trichotomy ea eb with h | h | h <;> (repeat' split) <;> omega

end Nsimd.Ufp
