import Verif.Lemmas.FmodLoop

/-!
Helper lemmas: the functions of `fmod` that act on bit patterns, the truncations and the products.
-/

namespace Nsimd.Float
open Nsimd.Props.Round Nsimd.DoubleDouble
open Nsimd.Fp16 (mag mag_strictMono mag_of_lt mag_of_parts)
open Nsimd.Fmod (num pat toward0 removelsb upper truncQ toInt32 ptrunc ptruncf vtruncate)

variable {M : Nat} {emin : ℤ}

/-- The fields of a pattern. -/
theorem mag_parts (M k : Nat) : ∃ μ j : Nat, mag M k = μ * 2 ^ j ∧ μ < 2 ^ (M + 1) ∧ (2 ^ M ≤ μ ∨ j = 0) ∧
    ∀ q ≤ M, mag M (k / 2 ^ q * 2 ^ q) = μ / 2 ^ q * 2 ^ q * 2 ^ j := by
  by_cases hk : k < 2 ^ (M + 1)
  · refine ⟨k, 0, by rw [mag_of_lt M k hk]; simp, hk, .inr rfl, fun q hq => ?_⟩
    rw [mag_of_lt M _ ((Nat.div_mul_le_self _ _).trans_lt hk)]; simp
  · have hM := Nat.two_pow_pos M
    have hdm := Nat.div_add_mod' k (2 ^ M)
    have hml := Nat.mod_lt k hM
    generalize k / 2 ^ M = E at *
    generalize k % 2 ^ M = m at *
    have hE : 1 ≤ E := by
      rcases Nat.eq_zero_or_pos E with rfl | h
      · rw [pow_succ] at hk; omega
      · exact h
    refine ⟨2 ^ M + m, E - 1, by rw [← hdm, mag_of_parts M E m hE hml], by rw [pow_succ]; omega,
      .inl (by omega), fun q hq => ?_⟩
    have hq0 := Nat.two_pow_pos q
    have e1 : ∀ a : Nat, (a * 2 ^ M + m) / 2 ^ q * 2 ^ q = a * 2 ^ M + m / 2 ^ q * 2 ^ q := by
      intro a
      obtain ⟨c, rfl⟩ := Nat.exists_eq_add_of_le hq
      rw [pow_add, show a * (2 ^ q * 2 ^ c) = a * 2 ^ c * 2 ^ q by ring, Nat.add_comm, Nat.add_mul_div_right _ _ hq0]
      ring
    have e2 := e1 1
    rw [one_mul] at e2
    rw [← hdm, e1, e2, mag_of_parts M E _ hE ((Nat.div_mul_le_self _ _).trans_lt hml)]

theorem cast_div_pow (μ q : Nat) : (((μ : ℤ) / 2 ^ q : ℤ) : ℚ) = ((μ / 2 ^ q : Nat) : ℚ) := by
  have : ((μ / 2 ^ q : Nat) : ℤ) = (μ : ℤ) / 2 ^ q := by push_cast; rfl
  rw [← this, Int.cast_natCast]

theorem num_parts (k : Nat) : ∃ (μ : Nat) (e : ℤ), emin ≤ e ∧ num M emin k = μ * 2 ^ e ∧
    μ < 2 ^ (M + 1) ∧ (2 ^ M ≤ μ ∨ e = emin) ∧
    ∀ q ≤ M, num M emin (k / 2 ^ q * 2 ^ q) = (μ / 2 ^ q * 2 ^ q : Nat) * 2 ^ e := by
  obtain ⟨μ, j, h1, h2, h3, h4⟩ := mag_parts M k
  refine ⟨μ, emin + j, by omega, ?_, h2, h3.imp id (by omega), fun q hq => ?_⟩
  · rw [num, h1, zpow_add₀ (by norm_num), zpow_natCast]; push_cast; ring
  · rw [num, h4 q hq, zpow_add₀ (by norm_num), zpow_natCast]; push_cast; ring

theorem num_strictMono : StrictMono (num M emin) := by
  intro a b h
  have : (mag M a : ℚ) < mag M b := by exact_mod_cast mag_strictMono M h
  rw [num, num]
  exact mul_lt_mul_of_pos_right this (two_zpow_pos emin)

theorem rep_num (k : Nat) : Rep (M + 1) emin (num M emin k) := by
  obtain ⟨μ, j, h1, h2, -, -⟩ := mag_parts M k
  refine ⟨μ, emin + j, ?_, by omega, ?_⟩
  · rw [Nat.abs_cast]; exact_mod_cast h2
  · rw [num, h1, zpow_add₀ (by norm_num), zpow_natCast]; push_cast; ring

/-- Every number of the format that is not negative has a pattern. -/
theorem exists_num {x : ℚ} (hx : Rep (M + 1) emin x) (h0 : 0 ≤ x) : ∃ k, x = num M emin k := by
  obtain ⟨μ, e, hμ, he, rfl⟩ := hx
  have hμ0 : 0 ≤ μ := by
    have : (0 : ℚ) ≤ μ := nonneg_of_mul_nonneg_left h0 (two_zpow_pos e)
    exact_mod_cast this
  obtain ⟨k, hk⟩ := Nsimd.Props.FloatLane.exists_mag M (e - emin).toNat μ.toNat (by
    rw [abs_of_nonneg hμ0] at hμ; zify; rw [Int.toNat_of_nonneg hμ0]; exact hμ)
  refine ⟨k, ?_⟩
  rw [num, hk]
  have h2 : (2 : ℚ) ^ e = 2 ^ (e - emin).toNat * 2 ^ emin := by
    rw [← zpow_natCast, ← zpow_add₀ (by norm_num)]; congr 1; omega
  have h3 : ((μ.toNat : ℕ) : ℚ) = μ := by
    have : ((μ.toNat : ℤ) : ℚ) = μ := by rw [Int.toNat_of_nonneg hμ0]
    exact_mod_cast this
  push_cast
  rw [h3, h2]; ring

/-- `pat` is the pattern of a number. -/
theorem pat_num (k : Nat) : pat M emin (num M emin k) = k := by
  have e : ⌊num M emin k / 2 ^ emin⌋₊ = mag M k := by
    rw [num, mul_div_assoc, div_self (two_zpow_pos emin).ne', mul_one, Nat.floor_natCast]
  rw [pat, e]
  by_cases hk : k < 2 ^ (M + 1)
  · simp only [mag_of_lt M k hk, if_pos hk]
  · have hM := Nat.two_pow_pos M
    have hdm := Nat.div_add_mod' k (2 ^ M)
    have hml := Nat.mod_lt k hM
    generalize k / 2 ^ M = E at *
    generalize k % 2 ^ M = m at *
    have hE : 2 ≤ E := by
      by_contra hc
      have : E * 2 ^ M ≤ 1 * 2 ^ M := Nat.mul_le_mul_right _ (by omega)
      rw [pow_succ] at hk; omega
    obtain ⟨c, rfl⟩ := Nat.exists_eq_add_of_le hE
    have hmag : mag M k = (2 ^ M + m) * 2 ^ (c + 1) := by
      rw [← hdm, mag_of_parts M _ m (by omega) hml]; congr 2; omega
    have hc0 := Nat.two_pow_pos (c + 1)
    have hlog : (mag M k).log2 = M + (c + 1) := by
      rw [hmag, Nat.log2_eq_iff (by positivity)]
      constructor
      · rw [pow_add]; exact Nat.mul_le_mul_right _ (by omega)
      · rw [show M + (c + 1) + 1 = (M + 1) + (c + 1) by ring, pow_add 2 (M + 1)]
        refine Nat.mul_lt_mul_of_pos_right ?_ hc0
        rw [pow_succ]; omega
    have hge : ¬ mag M k < 2 ^ (M + 1) := by
      rw [hmag, not_lt, pow_succ]
      refine Nat.mul_le_mul (by omega) ?_
      rw [pow_succ]; have := Nat.two_pow_pos c; omega
    simp only [if_neg hge, hlog, Nat.add_sub_cancel_left]
    rw [hmag, Nat.mul_div_cancel _ hc0, ← hdm]
    ring

/-- `toward0` of a pattern subtracts one from it. -/
theorem toward0_num {k : Nat} (hk : 0 < k) : toward0 M emin (num M emin k) = num M emin (k - 1) := by
  have h0 : num M emin 0 = 0 := by rw [num, mag_of_lt M 0 (by positivity)]; simp
  have := num_strictMono (M := M) (emin := emin) hk
  rw [h0] at this
  rw [toward0, if_neg this.ne', pat_num]

theorem num_zero : num M emin 0 = 0 := by rw [num, mag_of_lt M 0 (by positivity)]; simp

theorem toward0_before {x : ℚ} (hx : Rep (M + 1) emin x) (h0 : 0 < x) :
    Before (M + 1) emin x (toward0 M emin x) := by
  obtain ⟨k, rfl⟩ := exists_num hx h0.le
  have hk : 0 < k := by
    rcases Nat.eq_zero_or_pos k with rfl | h
    · rw [num_zero] at h0; exact absurd h0 (lt_irrefl _)
    · exact h
  rw [toward0_num hk]
  refine ⟨rep_num _, num_strictMono (by omega), fun y hy hlt => ?_⟩
  rcases lt_or_ge y 0 with hy0 | hy0
  · have := num_strictMono (M := M) (emin := emin).monotone (Nat.zero_le (k - 1))
    rw [num_zero] at this
    linarith
  · obtain ⟨j, rfl⟩ := exists_num hy hy0
    exact num_strictMono.monotone (by have := num_strictMono.lt_iff_lt.mp hlt; omega)

/-- `removelsb` of an integer. -/
theorem removelsb_lsb (hM : 1 ≤ M) (he : emin < 0) {x : ℚ} (hx : Rep (M + 1) emin x) (h0 : 0 ≤ x) (hi : Mult 0 x) :
    Lsb (M + 1) x (removelsb M emin x) := by
  obtain ⟨k, rfl⟩ := exists_num hx h0
  rw [removelsb, pat_num]
  obtain ⟨μ, e, hee, h1, h2, h3, h4⟩ := num_parts (M := M) (emin := emin) k
  have h4 := h4 1 hM
  rw [pow_one] at h4
  have hpe := two_zpow_pos e
  have h2' : (μ : ℚ) < 2 ^ (M + 1) := by exact_mod_cast h2
  rw [h1] at hi ⊢
  rw [h4]
  rcases lt_or_ge e 0 with hneg | hpos
  · obtain ⟨j, hj⟩ := hi
    rw [zpow_zero, mul_one] at hj
    have hev : μ % 2 = 0 := by
      obtain ⟨c, hc⟩ : ∃ c : Nat, e = -((c : ℤ) + 1) := ⟨(-e - 1).toNat, by omega⟩
      have : (μ : ℚ) = j * 2 ^ (c + 1) := by
        rw [← hj, hc, zpow_neg, mul_assoc, ← Nat.cast_succ, zpow_natCast, inv_mul_cancel₀ (by positivity), mul_one]
      have : (μ : ℤ) = j * 2 ^ (c + 1) := by exact_mod_cast this
      rw [pow_succ, ← mul_assoc] at this
      omega
    have e2 : μ / 2 * 2 = μ := by omega
    left
    rw [e2]
    refine ⟨rfl, ?_⟩
    have : (2 : ℚ) ^ e ≤ 1 / 2 := by
      rw [show (1 : ℚ) / 2 = 2 ^ (-1 : ℤ) by norm_num, zpow_le_iff]; omega
    have hμ0 : (0 : ℚ) ≤ μ := Nat.cast_nonneg _
    nlinarith
  · right
    have hμ : 2 ^ M ≤ μ := h3.resolve_right (by omega)
    have hlo : 2 ^ M ≤ μ / 2 * 2 := by
      obtain ⟨c, rfl⟩ := Nat.exists_eq_add_of_le hM
      rw [add_comm, pow_succ] at hμ ⊢
      omega
    have hlo' : (2 : ℚ) ^ M ≤ (μ / 2 * 2 : Nat) := by exact_mod_cast hlo
    have hle' : ((μ / 2 * 2 : Nat) : ℚ) ≤ μ := by exact_mod_cast Nat.div_mul_le_self μ 2
    have hge' : (μ : ℚ) ≤ (μ / 2 * 2 : Nat) + 1 := by
      have : μ ≤ μ / 2 * 2 + 1 := by omega
      exact_mod_cast this
    refine ⟨e, hpos, ⟨((μ / 2 : Nat) : ℤ), ?_⟩, ?_, ?_, ?_, ?_⟩
    · rw [zpow_add_one₀ (by norm_num), Int.cast_natCast, Nat.cast_mul]; push_cast; ring
    · rw [pow_succ]; nlinarith
    · exact mul_lt_mul_of_pos_right (hle'.trans_lt h2') hpe
    · gcongr
    · nlinarith

/-- `upper` clears the low bits of the significand of a normal number. -/
theorem upper_splits {q : Nat} (hq : q ≤ M) {x : ℚ} (hx : Rep (M + 1) emin x)
    (hn : 2 ^ M * 2 ^ emin ≤ |x|) : ∃ X e, Splits (M + 1) q (upper M emin q) x X e ∧ emin ≤ e := by
  have hxa : Rep (M + 1) emin |x| := by
    rcases abs_choice x with h | h <;> rw [h]
    · exact hx
    · exact rep_neg hx
  obtain ⟨k, hk⟩ := exists_num hxa (abs_nonneg x)
  obtain ⟨μ, e, he, h1, h2, h3, h4⟩ := num_parts (M := M) (emin := emin) k
  have h4 := h4 q hq
  have hpe := two_zpow_pos e
  have hlo : 2 ^ M ≤ μ := by
    rcases h3 with h3 | rfl
    · exact h3
    · rw [hk, h1] at hn
      have := le_of_mul_le_mul_right hn hpe
      exact_mod_cast this
  have hu : pat M emin |x| = k := by rw [hk, pat_num]
  rcases lt_or_ge x 0 with h0 | h0
  · refine ⟨-μ, e, ⟨?_, ?_, ?_, ?_⟩, he⟩
    · rw [abs_of_neg h0] at hk; push_cast; linarith
    · rw [abs_neg, Nat.abs_cast, Nat.add_sub_cancel]; exact_mod_cast hlo
    · rw [abs_neg, Nat.abs_cast]; exact_mod_cast h2
    · simp only [upper, if_pos h0]
      rw [hu, h4, Int.neg_tdiv, Int.tdiv_eq_ediv_of_nonneg (by positivity), Int.cast_mul, Int.cast_neg, cast_div_pow,
        Nat.cast_mul]
      push_cast; ring
  · refine ⟨μ, e, ⟨?_, ?_, ?_, ?_⟩, he⟩
    · rw [abs_of_nonneg h0] at hk; push_cast; linarith
    · rw [Nat.abs_cast, Nat.add_sub_cancel]; exact_mod_cast hlo
    · rw [Nat.abs_cast]; exact_mod_cast h2
    · simp only [upper, if_neg (not_lt.mpr h0)]
      rw [hu, h4, Int.tdiv_eq_ediv_of_nonneg (by positivity), Int.cast_mul, cast_div_pow, Nat.cast_mul]
      push_cast; ring

/-! ### Truncation -/

variable {p : Nat} {rnd : ℚ → ℚ}

theorem truncQ_nonneg {x : ℚ} (h : 0 ≤ x) : truncQ x = ⌊x⌋ := if_neg (not_lt.mpr h)

theorem toInt32_floor {junk : ℚ → ℤ} {x : ℚ} (h : 0 ≤ x) (h' : x < 2 ^ 31) : toInt32 junk x = ⌊x⌋ := by
  rw [toInt32, truncQ_nonneg h, if_pos]
  have h1 : 0 ≤ ⌊x⌋ := Int.floor_nonneg.mpr h
  have h2 : ⌊x⌋ < 2 ^ 31 := by rw [Int.floor_lt]; exact_mod_cast h'
  omega

theorem rep_of_int (hp : 1 ≤ p) (hme : emin ≤ 0) {z : ℤ} (hz : |(z : ℚ)| ≤ 2 ^ p) : Rep p emin z :=
  rep_of_mult hp hme ⟨z, by simp⟩ (by rwa [zpow_zero, mul_one])

/-- An integer that is subtracted from a number of the format that is not smaller. -/
theorem rep_sub_int (hp : 1 ≤ p) (hme : emin ≤ 0) {x : ℚ} (hx : Rep p emin x) (hx1 : x < 2 ^ p) {z : ℤ}
    (hz0 : 0 ≤ (z : ℚ)) (hz : (z : ℚ) ≤ x) : Rep p emin (x - z) := by
  obtain ⟨e, he, hm, hlt, hc⟩ := rep_canon hx
  rw [abs_of_nonneg (hz0.trans hz)] at hlt hc
  have h0 : e ≤ 0 := by
    rcases hc with rfl | hc
    · exact hme
    · have : (2 : ℚ) ^ p * 2 ^ (e - 1) < 2 ^ p * 2 ^ (0 : ℤ) := by rw [zpow_zero, mul_one]; linarith
      have := zpow_lt_iff.mp (lt_of_mul_lt_mul_left this (by positivity))
      omega
  exact rep_of_mult hp he (hm.sub (Mult.le ⟨z, by simp⟩ h0)) (by rw [abs_of_nonneg (by linarith)]; linarith)

/-- A large number of the format is an integer. -/
theorem floor_of_ge {x : ℚ} (hx : Rep p emin x) (h : 2 ^ p ≤ 2 * x) : (⌊x⌋ : ℚ) = x := by
  have h0 : 0 < x := by
    have : (0 : ℚ) < 2 ^ p := by positivity
    linarith
  obtain ⟨j, hj⟩ := mult_of_ge (e := 0) hx (by
    rw [abs_of_pos h0, zpow_sub_one₀ (by norm_num)]; norm_num; linarith)
  rw [zpow_zero, mul_one] at hj
  rw [hj, Int.floor_intCast]

/-- `ptrunc` of a number that is not negative. -/
theorem Nearest.ptrunc_floor (h : Nearest 53 emin rnd) (hmin : emin ≤ -100) (junk : ℚ → ℤ) {x : ℚ}
    (hx : Rep 53 emin x) (h0 : 0 ≤ x) : ptrunc rnd junk x = ⌊x⌋ := by
  have hme : emin ≤ 0 := by omega
  rw [ptrunc, abs_of_nonneg h0]
  split
  · rename_i hc
    exact (floor_of_ge hx (by linarith)).symm
  rename_i hc
  rw [not_le] at hc
  have hfx := Int.floor_le x
  have hfx0 : (0 : ℚ) ≤ (⌊x⌋ : ℚ) := by exact_mod_cast Int.floor_nonneg.mpr h0
  -- the upper part
  have e1 : ⌊rnd (x * (1 / 2 ^ 31))⌋ = ⌊x * (1 / 2 ^ 31)⌋ := by
    rcases le_or_gt 1 x with h1 | h1
    · obtain ⟨e, he, hm, hlt, hcc⟩ := rep_canon hx
      rw [abs_of_nonneg h0] at hlt hcc
      have he1 : -53 ≤ e := by
        by_contra hneg
        have : (2 : ℚ) ^ 53 * 2 ^ e ≤ 2 ^ 53 * 2 ^ (-53 : ℤ) := by
          gcongr
          · norm_num
          · omega
        have : (2 : ℚ) ^ 53 * 2 ^ (-53 : ℤ) = 1 := by norm_num
        linarith
      have hs : Mult (e - 31) (x * (1 / 2 ^ 31)) := by
        obtain ⟨j, hj⟩ := hm
        exact ⟨j, by rw [hj, zpow_sub₀ (by norm_num)]; norm_num; ring⟩
      rw [h.fix (rep_of_mult (by norm_num) (by omega) hs (by
        rw [abs_of_nonneg (by positivity), zpow_sub₀ (by norm_num)]
        have : (2 : ℚ) ^ 53 * (2 ^ e / 2 ^ (31 : ℤ)) = 2 ^ 53 * 2 ^ e * (1 / 2 ^ 31) := by norm_num; ring
        rw [this]; gcongr))]
    · have h2 : 0 ≤ x * (1 / 2 ^ 31) := by positivity
      have h3 : x * (1 / 2 ^ 31) ≤ 2 ^ (-1 : ℤ) := by norm_num; linarith
      have h4 := h.mono h3
      rw [h.fix (rep_pow (by norm_num) (by omega))] at h4
      have h5 := h.mono h2
      rw [h.zero] at h5
      norm_num at h3 h4
      rw [Int.floor_eq_zero_iff.mpr ⟨h5, by linarith⟩, Int.floor_eq_zero_iff.mpr ⟨h2, by norm_num; linarith⟩]
  have hy0 : 0 ≤ x * (1 / 2 ^ 31) := by positivity
  have hr0 : 0 ≤ rnd (x * (1 / 2 ^ 31)) := by rw [← h.zero]; exact h.mono hy0
  have hr1 : rnd (x * (1 / 2 ^ 31)) ≤ 2 ^ (21 : ℤ) := by
    rw [← h.fix (rep_pow (e := 21) (by norm_num) (by omega))]
    exact h.mono (by norm_num; linarith)
  have e2 : toInt32 junk (rnd (x * (1 / 2 ^ 31))) = ⌊x * (1 / 2 ^ 31)⌋ := by
    rw [toInt32_floor hr0 (by norm_num at hr1 ⊢; linarith), e1]
  have hc1 := Int.floor_le (x * (1 / 2 ^ 31))
  have hc2 := Int.lt_floor_add_one (x * (1 / 2 ^ 31))
  have hc0 : (0 : ℚ) ≤ (⌊x * (1 / 2 ^ 31)⌋ : ℚ) := by exact_mod_cast Int.floor_nonneg.mpr hy0
  simp only [mul, add, sub]
  rw [e2]
  generalize ⌊x * (1 / 2 ^ 31)⌋ = c at *
  have e3 : rnd (-2 ^ 31 * (c : ℚ)) = -2 ^ 31 * (c : ℚ) := by
    have := rep_of_int (p := 53) (emin := emin) (by norm_num) hme (z := -2 ^ 31 * c) (by
      push_cast
      rw [neg_mul, abs_neg, abs_of_nonneg (by positivity)]
      linarith)
    rw [h.fix (by exact_mod_cast this)]
  have e4 : Rep 53 emin (x - (2 ^ 31 * c : ℤ)) :=
    rep_sub_int (by norm_num) hme hx (by linarith) (by push_cast; positivity) (by push_cast; linarith)
  have e5 : -2 ^ 31 * (c : ℚ) + x = x - (2 ^ 31 * c : ℤ) := by push_cast; ring
  rw [e3, e5, h.fix e4]
  have h6 : 0 ≤ x - ((2 ^ 31 * c : ℤ) : ℚ) := by push_cast; linarith
  have h7 : x - ((2 ^ 31 * c : ℤ) : ℚ) < 2 ^ 31 := by push_cast; linarith
  rw [toInt32_floor h6 h7, Int.floor_sub_intCast]
  have e6 : x - ((2 ^ 31 * c : ℤ) : ℚ) - ((⌊x⌋ - 2 ^ 31 * c : ℤ) : ℚ) = x - (⌊x⌋ : ℤ) := by push_cast; ring
  rw [e6, h.fix (rep_sub_int (by norm_num) hme hx (by linarith) hfx0 hfx), sub_sub_cancel,
    h.fix (rep_floor (by norm_num) hme hx h0)]

/-- `ptruncf` of a number that is not negative. -/
theorem Nearest.ptruncf_floor (h : Nearest 24 emin rnd) (hme : emin ≤ 0) (junk : ℚ → ℤ) {x : ℚ}
    (hx : Rep 24 emin x) (h0 : 0 ≤ x) : ptruncf rnd junk x = ⌊x⌋ := by
  rw [ptruncf, abs_of_nonneg h0]
  split
  · rename_i hc
    exact (floor_of_ge hx (by linarith)).symm
  rename_i hc
  rw [not_le] at hc
  have hfx0 : (0 : ℚ) ≤ (⌊x⌋ : ℚ) := by exact_mod_cast Int.floor_nonneg.mpr h0
  simp only [sub]
  rw [toInt32_floor h0 (by linarith), h.fix (rep_sub_int (by norm_num) hme hx (by linarith) hfx0 (Int.floor_le x)),
    sub_sub_cancel, h.fix (rep_floor (by norm_num) hme hx h0)]

theorem vtruncate_floor {x : ℚ} (h0 : 0 ≤ x) : vtruncate x = ⌊x⌋ := by rw [vtruncate, truncQ_nonneg h0]

/-! ### Products -/

/-- A number of a finer format that is a multiple of the last place. -/
theorem rep_lift (hp : 1 ≤ p) {emin' : ℤ} {x : ℚ} (hx : Rep p emin' x) (hm : Mult emin x) : Rep p emin x := by
  obtain ⟨e, he, hm', hlt⟩ := rep_exp hx
  rcases le_total emin e with h | h
  · exact rep_of_mult hp h hm' hlt.le
  · refine rep_of_mult hp le_rfl hm (hlt.le.trans ?_)
    gcongr
    norm_num

theorem rep_mono {emin' : ℤ} (h : emin' ≤ emin) {x : ℚ} (hx : Rep p emin x) : Rep p emin' x := by
  obtain ⟨μ, e, h1, h2, h3⟩ := hx
  exact ⟨μ, e, h1, h.trans h2, h3⟩

open Classical in
/-- A rounding to a finer format that agrees on the multiples of the last place. -/
theorem Nearest.extend (h : Nearest p emin rnd) (hp : 1 ≤ p) {emin' : ℤ} (hme : emin' ≤ emin) :
    ∃ rnd', Nearest p emin' rnd' ∧ ∀ x, Mult emin x → rnd' x = rnd x := by
  obtain ⟨r, hr⟩ := exists_nearest hp emin'
  refine ⟨fun x => if Mult emin x then rnd x else r x, ⟨fun x => ?_, fun x y hy => ?_⟩, fun x hx => if_pos hx⟩
  · split
    · exact rep_mono hme (h.rep x)
    · exact hr.rep x
  · split
    swap
    · exact hr.near x y hy
    rename_i hm
    rcases le_or_gt |x| (2 ^ p * 2 ^ emin) with hc | hc
    · rw [h.fix (rep_of_mult hp le_rfl hm hc)]; simp
    rcases le_or_gt (2 ^ p * 2 ^ emin / 2) |y| with hc2 | hc2
    · refine h.near x y (rep_lift hp hy (mult_of_ge hy ?_))
      rw [zpow_sub_one₀ (by norm_num)]; linarith
    · have hpos : (0 : ℚ) < 2 ^ p * 2 ^ emin := by positivity
      have hr2 : Rep p emin (2 ^ p * 2 ^ emin) :=
        rep_of_mult hp le_rfl ⟨2 ^ p, by push_cast; ring⟩ (by rw [abs_of_pos hpos])
      have hy1 := neg_abs_le y
      have hy2 := le_abs_self y
      rcases le_total 0 x with hx | hx
      · refine (h.near x _ hr2).trans ?_
        rw [abs_of_nonneg hx] at hc
        rw [abs_of_pos (by linarith), abs_of_pos (by linarith)]; linarith
      · refine (h.near x _ (rep_neg hr2)).trans ?_
        rw [abs_of_nonpos hx] at hc
        rw [abs_of_neg (by linarith), abs_of_neg (by linarith)]; linarith

/-- The parts of the significand of an integer are integers. -/
theorem Splits.int {q : Nat} {up : ℚ → ℚ} {x : ℚ} {X e : ℤ} (h : Splits p q up x X e) (hx : Mult 0 x) :
    Mult 0 (up x) := by
  obtain ⟨h1, -, -, h4⟩ := h
  rcases le_or_gt 0 (q + e) with hc | hc
  · rw [h4]
    exact Mult.le (f := q + e) ⟨X.tdiv (2 ^ q), by rw [zpow_add₀ (by norm_num), zpow_natCast]; push_cast; ring⟩ hc
  · obtain ⟨c, hc⟩ : ∃ c : Nat, e = -((q : ℤ) + c) := ⟨(-e - q).toNat, by omega⟩
    obtain ⟨j, hj⟩ := hx
    rw [zpow_zero, mul_one] at hj
    have hX : (X : ℚ) = j * (2 ^ c * 2 ^ q) := by
      rw [← hj, h1, hc, mul_assoc, zpow_neg, zpow_add₀ (by norm_num), zpow_natCast, zpow_natCast]
      field_simp
    have hX' : X = j * 2 ^ c * 2 ^ q := by rw [mul_assoc]; exact_mod_cast hX
    have : X.tdiv (2 ^ q) * 2 ^ q = X := by rw [hX', Int.mul_tdiv_cancel _ (by positivity)]
    rw [h4, this, ← h1]
    exact ⟨j, by simpa using hj⟩

theorem Splits.low {q : Nat} {up : ℚ → ℚ} {x : ℚ} {X e : ℤ} (h : Splits p q up x X e) :
    x - up x = X.tmod (2 ^ q) * 2 ^ e := by
  obtain ⟨h1, -, -, h4⟩ := h
  have : X.tmod (2 ^ q) = X - X.tdiv (2 ^ q) * 2 ^ q := by
    have := Int.tdiv_mul_add_tmod X (2 ^ q)
    linarith
  rw [h4, this, h1]
  push_cast; ring

/-- Dekker's product with an integer is exact, also if the product of the last places underflows. -/
theorem Nearest.dekker_int (h : Nearest p emin rnd) {q : Nat} (h1 : p ≤ 2 * q) (h2 : 2 * q ≤ p + 1) (h3 : q + 3 ≤ p)
    (hme : emin ≤ 0) {up : ℚ → ℚ} {x y : ℚ} {X Y e f : ℤ} (hx : Splits p q up x X e)
    (hy : Splits p q up y Y f) (hf : emin ≤ f) (hi : Mult 0 x) (hodd : 2 * q = p ∨ Mult (e + 1) x) :
    NoFma.mul11 rnd up x y = (rnd (x * y), x * y - rnd (x * y)) := by
  have hp : 1 ≤ p := by omega
  obtain ⟨rnd', h', hr⟩ := h.extend hp (emin' := emin - p) (by omega)
  have he : -(p : ℤ) ≤ e := by
    obtain ⟨j, hj⟩ := hi
    rw [zpow_zero, mul_one] at hj
    obtain ⟨hx1, hx2, hx3, -⟩ := hx
    have hX0 : (0 : ℤ) < |X| := lt_of_lt_of_le (by positivity) hx2
    have hX0' : (0 : ℚ) < |(X : ℚ)| := by exact_mod_cast hX0
    have hX3 : |(X : ℚ)| < 2 ^ p := by exact_mod_cast hx3
    have e1 : |(j : ℚ)| = |(X : ℚ)| * 2 ^ e := by rw [← hj, hx1, abs_mul, abs_of_pos (two_zpow_pos e)]
    have e2 : (1 : ℚ) ≤ |(j : ℚ)| := by
      have : (0 : ℚ) < |(j : ℚ)| := by rw [e1]; exact mul_pos hX0' (two_zpow_pos e)
      have : 0 < |j| := by exact_mod_cast this
      exact_mod_cast this
    have e3 : (2 : ℚ) ^ (0 : ℤ) < 2 ^ ((p : ℤ) + e) := by
      rw [← pow_eq_zpow, zpow_zero]
      refine lt_of_le_of_lt e2 ?_
      rw [e1]; exact mul_lt_mul_of_pos_right hX3 (two_zpow_pos e)
    have := zpow_lt_iff.mp e3
    omega
  have F := h'.split_mul h1 h2 h3 hx hy (by omega) (by omega) (by omega)
  -- everything is a multiple of the last place
  have hux := hx.int hi
  have hlx := hi.sub hux
  have hym : Mult f y := ⟨Y, hy.1⟩
  have huy : Mult f (up y) := ⟨_, hy.2.2.2⟩
  have hly := hym.sub huy
  have lift : ∀ {a b : ℚ}, Mult 0 a → Mult f b → Mult emin (a * b) := by
    intro a b ha hb
    have := ha.mul hb
    exact this.le (by omega)
  have hxy := lift hi hym
  have hs := h.mult hp le_rfl hxy
  rw [hr _ hxy] at F
  have hll : rnd ((x - up x) * (y - up y)) = (x - up x) * (y - up y) := by
    refine h.fix (rep_lift (emin' := emin - p) hp ?_ (lift hlx hly))
    rcases hodd with hodd | hodd
    · rw [← F.δ0 hodd]; exact h'.rep _
    · have m1 : Mult (e + 1) (x - up x) := by
        refine hodd.sub ?_
        have : Mult (q + e) (up x) := ⟨X.tdiv (2 ^ q), by
          rw [hx.2.2.2, zpow_add₀ (by norm_num), zpow_natCast]; push_cast; ring⟩
        exact this.le (by omega)
      refine rep_of_mult hp (by omega) (m1.mul hly) ?_
      rw [hx.low, hy.low, abs_mul, abs_mul, abs_mul, abs_of_pos (two_zpow_pos e), abs_of_pos (two_zpow_pos f)]
      have t1 : |((X.tmod (2 ^ q) : ℤ) : ℚ)| ≤ 2 ^ q := by exact_mod_cast (tmod_lt q X).le
      have t2 : |((Y.tmod (2 ^ q) : ℤ) : ℚ)| ≤ 2 ^ q := by exact_mod_cast (tmod_lt q Y).le
      have t3 : (2 : ℚ) ^ q * 2 ^ q ≤ 2 ^ p * 2 := by
        rw [← pow_add, ← pow_succ]; exact pow_le_pow_right₀ (by norm_num) (by omega)
      have e1 : (2 : ℚ) ^ p * 2 ^ (e + 1 + f) = 2 ^ p * 2 * (2 ^ e * 2 ^ f) := by
        rw [zpow_add₀ (by norm_num), zpow_add_one₀ (by norm_num)]; ring
      rw [e1]
      calc _ = |((X.tmod (2 ^ q) : ℤ) : ℚ)| * |((Y.tmod (2 ^ q) : ℤ) : ℚ)| * (2 ^ e * 2 ^ f) := by ring
        _ ≤ 2 ^ q * 2 ^ q * (2 ^ e * 2 ^ f) := by gcongr
        _ ≤ _ := by gcongr
  have G : SplitFacts p q emin rnd up x y (rnd (x * y)) := {
    upx := rep_lift hp F.upx (hux.le hme)
    upy := rep_lift hp F.upy (huy.le hf)
    lox := rep_lift hp F.lox (hlx.le hme)
    loy := rep_lift hp F.loy (hly.le hf)
    hh := rep_lift hp F.hh (lift hux huy)
    lh := rep_lift hp F.lh (lift hlx huy)
    hl := rep_lift hp F.hl (lift hux hly)
    s1 := rep_lift hp F.s1 ((lift hux huy).sub hs)
    s2 := rep_lift hp F.s2 (((lift hux huy).sub hs).add (lift hlx huy))
    s2' := rep_lift hp F.s2' (((lift hux huy).sub hs).add (lift hux hly))
    s3 := rep_lift hp F.s3 ((hxy.sub hs).sub (lift hlx hly))
    s4 := by
      rw [hll, sub_self, add_zero]
      have := F.s4
      rw [hr _ (lift hlx hly), hll, sub_self, add_zero] at this
      exact rep_lift hp this (hxy.sub hs)
    δ := by rw [hll, sub_self, abs_zero]; positivity
    δ0 := fun _ => hll }
  have hlo := h.dekker G
  rw [hll, sub_self, add_zero] at hlo
  rw [← hlo]; rfl

/-- A product with fused multiply-add by an integer is exact. -/
theorem Nearest.fma_int (h : Nearest p emin rnd) (hp : 1 ≤ p) {x y : ℚ} (hx : Rep p emin x) (hi : Mult 0 x)
    {f : ℤ} (hf : emin ≤ f) (hm : Mult f y) (hlt : |y| < 2 ^ p * 2 ^ f) :
    Fma.mul11 rnd x y = (rnd (x * y), x * y - rnd (x * y)) := by
  obtain ⟨e, he, hm', hlt'⟩ := rep_exp hx
  have key : Rep p emin (x * y - rnd (x * y)) := by
    rcases le_total 0 e with h0 | h0
    · exact h.err_mul hp hm' hm hlt' hlt (by omega)
    · refine h.err_mul hp hi hm (hlt'.trans_le ?_) hlt (by omega)
      gcongr
      norm_num
  simp only [Fma.mul11, fmapn, mul]
  rw [h.fix key]

end Nsimd.Float
