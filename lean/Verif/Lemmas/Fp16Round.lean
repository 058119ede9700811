import Verif.Lemmas.Fp16
import Mathlib.Algebra.Order.Ring.Abs
import Mathlib.Algebra.Order.Ring.Int

namespace Nsimd.Fp16

/-- `r` is a nearest index to `x` for the increasing map `G`, ties to even,
among the indices up to `top`. Proof device, not code of the repo. -/
def NearestIdx (G : Nat → Nat) (top : Nat) (x : Int) (r : Nat) : Prop :=
  ∀ j, j ≤ top → |(G r : Int) - x| ≤ |(G j : Int) - x| ∧
    (|(G r : Int) - x| = |(G j : Int) - x| → j = r ∨ r % 2 = 0)

theorem nearest_of_bracket {G : Nat → Nat} (hG : StrictMono G) (top : Nat) {x : Int} {k r : Nat}
    (h1 : (G k : Int) ≤ x) (h2 : x ≤ G (k + 1))
    (hr : (r = k ∧ (2 * x < G k + G (k + 1) ∨ (2 * x = G k + G (k + 1) ∧ k % 2 = 0))) ∨
      (r = k + 1 ∧ ((G k + G (k + 1) : Int) < 2 * x ∨
        ((G k + G (k + 1) : Int) = 2 * x ∧ (k + 1) % 2 = 0)))) :
    NearestIdx G top x r := by
  intro j _
  have hlt : G k < G (k + 1) := hG (Nat.lt_succ_self k)
  have hj : (j ≤ k ∧ G j ≤ G k ∧ (G j = G k → j = k)) ∨
      (k + 1 ≤ j ∧ G (k + 1) ≤ G j ∧ (G j = G (k + 1) → j = k + 1)) := by
    rcases Nat.lt_or_ge k j with h | h
    · exact Or.inr ⟨h, hG.monotone h, fun e => hG.injective e⟩
    · exact Or.inl ⟨h, hG.monotone h, fun e => hG.injective e⟩
  rcases hr with ⟨rfl, hr⟩ | ⟨rfl, hr⟩
  · rw [abs_of_nonpos (by omega : (G r : Int) - x ≤ 0)]
    rcases hj with ⟨a, b, c⟩ | ⟨a, b, c⟩
    · rw [abs_of_nonpos (by omega : (G j : Int) - x ≤ 0)]
      exact ⟨by omega, fun e => Or.inl (c (by omega))⟩
    · rw [abs_of_nonneg (by omega : 0 ≤ (G j : Int) - x)]
      exact ⟨by omega, fun e => Or.inr (by omega)⟩
  · rw [abs_of_nonneg (by omega : 0 ≤ (G (k + 1) : Int) - x)]
    rcases hj with ⟨a, b, c⟩ | ⟨a, b, c⟩
    · rw [abs_of_nonpos (by omega : (G j : Int) - x ≤ 0)]
      exact ⟨by omega, fun e => Or.inr (by omega)⟩
    · rw [abs_of_nonneg (by omega : 0 ≤ (G j : Int) - x)]
      exact ⟨by omega, fun e => Or.inl (c (by omega))⟩

/-- Half-precision magnitudes in units of `2^-149`. Proof device, not code of the repo. -/
def G16 (k : Nat) : Nat := mag 10 k * 2 ^ 125

theorem G16_strictMono : StrictMono G16 := fun _ _ h =>
  Nat.mul_lt_mul_of_pos_right (mag_strictMono 10 h) (Nat.two_pow_pos 125)

theorem par_aux (a b : Nat) : ((a + 1) * 2 ^ 10 + b + 1) % 2 = (b + 1) % 2 := by omega

theorem core_normal (u : Nat) (h1 : 0x38800000 ≤ u) (h2 : u < 0x477ff000) :
    NearestIdx G16 0x7c00 (mag 23 u) ((u - 112 * 2 ^ 23 + 0xfff + u / 2 ^ 13 % 2) / 2 ^ 13) := by
  obtain ⟨e, m, rfl, hm⟩ : ∃ e m, u = e * 2 ^ 23 + m ∧ m < 2 ^ 23 :=
    ⟨u / 2 ^ 23, u % 2 ^ 23, by omega, by omega⟩
  have he : 113 ≤ e := by omega
  obtain ⟨f, rfl⟩ : ∃ f, e = f + 113 := ⟨e - 113, by omega⟩
  have hX : mag 23 ((f + 113) * 2 ^ 23 + m) = (2 ^ 23 + m) * 2 ^ (f + 112) := by
    rw [mag_of_parts 23 _ _ (by omega) hm]; rfl
  have hk : G16 ((f + 1) * 2 ^ 10 + m / 2 ^ 13) = (2 ^ 23 + (m - m % 2 ^ 13)) * 2 ^ (f + 112) := by
    unfold G16
    rw [mag_of_parts 10 _ _ (by omega) (by omega)]
    rw [show 2 ^ 23 + (m - m % 2 ^ 13) = (2 ^ 10 + m / 2 ^ 13) * 2 ^ 13 by omega]
    rw [Nat.mul_assoc, Nat.mul_assoc, ← pow_add, ← pow_add]
    rw [show f + 1 - 1 + 125 = 13 + (f + 112) by omega]
  have hk1 : G16 ((f + 1) * 2 ^ 10 + m / 2 ^ 13 + 1) =
      G16 ((f + 1) * 2 ^ 10 + m / 2 ^ 13) + 2 ^ 13 * 2 ^ (f + 112) := by
    unfold G16
    rw [mag_succ, Nat.add_mul]
    have e : 2 ^ (((f + 1) * 2 ^ 10 + m / 2 ^ 13) / 2 ^ 10 - 1) * 2 ^ 125 = 2 ^ 13 * 2 ^ (f + 112) := by
      rw [show ((f + 1) * 2 ^ 10 + m / 2 ^ 13) / 2 ^ 10 = f + 1 by omega, ← pow_add, ← pow_add]
      rw [show f + 1 - 1 + 125 = 13 + (f + 112) by omega]
    rw [e]
  rw [hk] at hk1
  rw [hX]
  have hT : 0 < 2 ^ (f + 112) := Nat.two_pow_pos _
  generalize 2 ^ (f + 112) = T at *
  have hlo : (2 ^ 23 + m) * T = (2 ^ 23 + (m - m % 2 ^ 13)) * T + (m % 2 ^ 13) * T := by
    rw [← Nat.add_mul]; congr 1; omega
  have hlt : (m % 2 ^ 13) * T ≤ 2 ^ 13 * T := Nat.mul_le_mul_right _ (by omega)
  apply nearest_of_bracket G16_strictMono (k := (f + 1) * 2 ^ 10 + m / 2 ^ 13)
  · rw [hk]; omega
  · rw [hk1]; omega
  · rw [hk1, hk, hlo]
    have hodd : ((f + 113) * 2 ^ 23 + m) / 2 ^ 13 % 2 = m / 2 ^ 13 % 2 := by omega
    have hpar : ((f + 1) * 2 ^ 10 + m / 2 ^ 13) % 2 = m / 2 ^ 13 % 2 := by omega
    have hpar1 := par_aux f (m / 2 ^ 13)
    rw [hodd]
    generalize (2 ^ 23 + (m - m % 2 ^ 13)) * T = A at *
    rcases Nat.lt_trichotomy (m % 2 ^ 13) (2 ^ 12) with hc | hc | hc
    · left
      have : (m % 2 ^ 13) * T < 2 ^ 12 * T := Nat.mul_lt_mul_of_pos_right hc hT
      exact ⟨by omega, Or.inl (by omega)⟩
    · rw [hc]
      by_cases hp : m / 2 ^ 13 % 2 = 0
      · left; exact ⟨by omega, Or.inr ⟨by omega, hpar.trans hp⟩⟩
      · right
        refine ⟨by clear hpar hpar1; omega, Or.inr ⟨by clear hpar hpar1; omega, ?_⟩⟩
        rw [hpar1]
        clear hpar hpar1 hodd hk hk1 hX hlo hlt
        omega
    · right
      have : 2 ^ 12 * T < (m % 2 ^ 13) * T := Nat.mul_lt_mul_of_pos_right hc hT
      exact ⟨by omega, Or.inl (by omega)⟩

theorem core_denormal (u : Nat) (h2 : u < 0x38800000) :
    NearestIdx G16 0x7c00 (mag 23 u) (rneDiv (mag 23 u) 125) := by
  have hX : mag 23 u < 2 ^ 135 := by
    have := mag_strictMono 23 h2
    have e : mag 23 0x38800000 = 2 ^ 135 := by decide
    rw [e] at this; exact this
  generalize mag 23 u = X at *
  have hk : G16 (X / 2 ^ 125) = X / 2 ^ 125 * 2 ^ 125 := by
    unfold G16; rw [mag_of_lt 10 _ (by omega)]
  have hk1 : G16 (X / 2 ^ 125 + 1) = (X / 2 ^ 125 + 1) * 2 ^ 125 := by
    unfold G16; rw [mag_of_lt 10 _ (by omega)]
  apply nearest_of_bracket G16_strictMono (k := X / 2 ^ 125)
  · rw [hk]; omega
  · rw [hk1]; omega
  · rw [hk, hk1]; unfold rneDiv
    split
    · right; exact ⟨rfl, by omega⟩
    · left; exact ⟨rfl, by omega⟩

theorem core_nearest (u : Nat) : NearestIdx G16 0x7c00 (mag 23 u) (core u) := by
  unfold core
  split
  · rename_i h
    have hX := (mag_strictMono 23).monotone h
    have e : mag 23 0x477ff000 = 65520 * 2 ^ 149 := by decide
    have e1 : G16 0x7bff = 65504 * 2 ^ 149 := by decide
    have e2 : G16 (0x7bff + 1) = 65536 * 2 ^ 149 := by decide
    rw [e] at hX
    by_cases hb : mag 23 u ≤ 65536 * 2 ^ 149
    · apply nearest_of_bracket G16_strictMono (k := 0x7bff)
      · rw [e1]; omega
      · rw [e2]; omega
      · right; rw [e1, e2]; exact ⟨rfl, by omega⟩
    · intro j hj
      have hm : G16 j ≤ G16 (0x7bff + 1) := G16_strictMono.monotone hj
      have e3 : G16 0x7c00 = 65536 * 2 ^ 149 := e2
      rw [abs_of_nonpos (by omega : (G16 0x7c00 : Int) - mag 23 u ≤ 0),
        abs_of_nonpos (by omega : (G16 j : Int) - mag 23 u ≤ 0)]
      exact ⟨by omega, fun _ => Or.inr rfl⟩
  · split
    · rename_i h
      have hX := (mag_strictMono 23).monotone h
      have e : mag 23 0x33000000 = 2 ^ 124 := by decide
      have e1 : G16 0 = 0 := by decide
      have e2 : G16 (0 + 1) = 2 ^ 125 := by decide
      rw [e] at hX
      apply nearest_of_bracket G16_strictMono (k := 0)
      · rw [e1]; omega
      · rw [e2]; omega
      · left; rw [e1, e2]; exact ⟨rfl, by omega⟩
    · split
      · exact core_denormal u (by assumption)
      · exact core_normal u (by omega) (by omega)

end Nsimd.Fp16
