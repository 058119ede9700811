import Verif.Lemmas.RemainderQuot

/-!
Helper lemmas: the loop of `remainder`.
-/

namespace Nsimd.Float
open Nsimd.Props.Round Nsimd.DoubleDouble
open Nsimd.Remainder (mulsign correct State)

variable {p : Nat} {emin : ℤ} {rnd : ℚ → ℚ} {d R n : ℚ} {f : ℤ} {E : Nat}

/-- What the loop needs of the functions that it calls. Proof helper, not code of the repo. -/
structure Parts (p : Nat) (emin : ℤ) (rnd : ℚ → ℚ) (d : ℚ) (est : ℚ → ℚ) (prod : ℚ → ℚ → DD) (isodd : ℚ → Bool) :
    Prop where
  guess : ∀ v, Rep p emin v → 1 ≤ v → Guess p v (est v)
  guess_neg : ∀ v, Rep p emin v → 1 ≤ v → Guess p v (-est (-v))
  prod : ∀ q, Mult 0 q → Rep p emin q → (2 * |q| < 2 ^ p ∨ ∃ v, q = est v ∧ Rep p emin v ∧ 1 ≤ |v|) →
    prod q (-d) = (rnd (q * -d), q * -d - rnd (q * -d))
  odd : ∀ j : ℤ, Rep p emin (j : ℚ) → isodd j = decide (j % 2 ≠ 0)

theorem RQuot.neg (hodd : ∀ x, rnd (-x) = -rnd x) {η q : ℚ} (Q : RQuot p emin rnd d (-R) η (-q)) :
    RQuot p emin rnd d R η q where
  int := by have := Q.int.neg; rwa [neg_neg] at this
  rep := by have := rep_neg Q.rep; rwa [neg_neg] at this
  contr := by
    have := Q.contr
    rwa [abs_neg, show -R - -q * d = -(R - q * d) by ring, abs_neg] at this
  low := by
    have := Q.low
    rw [abs_neg, show -R - -q * d = -(R - q * d) by ring, abs_neg, neg_mul, hodd, hodd] at this
    intro hc
    have := rep_neg (this hc)
    rwa [show -(-R - -rnd R - (-(q * d) - -rnd (q * d))) = R - rnd R - (q * d - rnd (q * d)) by ring] at this

theorem Grid.neg (hodd : ∀ x, rnd (-x) = -rnd x) (G : Grid p emin rnd d f R) : Grid p emin rnd d f (-R) where
  mult := G.mult.neg
  fine := fun e he h => (G.fine e he (by rwa [abs_neg] at h)).neg
  low := by
    have := rep_neg G.low
    rwa [neg_sub, ← neg_sub_neg, ← hodd] at this

/-- A remainder that is not larger than the divisor is in the format. -/
theorem Grid.rep (hp : 1 ≤ p) (D : Divisor p emin d f) (G : Grid p emin rnd d f R) (hR : |R| ≤ d) : Rep p emin R :=
  rep_of_mult hp D.hf G.mult (hR.trans D.hi.le)

/-- The quotient of a remainder that is not small. -/
theorem Grid.quot_big (h : Nearest p emin rnd) (hp : 8 ≤ p) (hmin : emin ≤ -(p : ℤ)) (hodd : ∀ x, rnd (-x) = -rnd x)
    (D : Divisor p emin d f) {est : ℚ → ℚ} {prod : ℚ → ℚ → DD} {isodd : ℚ → Bool}
    (P : Parts p emin rnd d est prod isodd) (G : Grid p emin rnd d f R) (hE : (E : ℤ) = 3 - p - emin)
    (hmax : |rnd R| < 2 ^ E) (hbig : rnd (3 / 2 * d) ≤ |rnd R|) {δ : ℚ} (hδ : |rnd (1 / d) * d - 1| ≤ δ)
    (hδ2 : δ ≤ 1 / 32) {q0 q : ℚ} (hq0 : q0 = est (rnd (rnd R * rnd (1 / d))))
    (hq : q = correct rnd E d (rnd R, R - rnd R) q0) :
    RQuot p emin rnd d R (5 * (1 / 2 ^ p) + δ) q ∧ prod q (-d) = (rnd (q * -d), q * -d - rnd (q * -d)) ∧
      3 / 2 * d * (1 - 1 / 2 ^ p) ≤ |R| * (1 + 1 / 2 ^ p) := by
  have hd := D.pos
  have hlo := D.lo
  have hp1 : 1 ≤ p := by omega
  have hme : emin ≤ 0 := by omega
  have hpe : (2 : ℚ) ^ p * 2 ^ emin ≤ 2 ^ p * 2 ^ f := by
    gcongr
    · norm_num
    · exact D.hf
  have hpe1 : (2 : ℚ) ^ p * 2 ^ emin ≤ 1 := by
    rw [pow_eq_zpow, show (1 : ℚ) = 2 ^ (0 : ℤ) by norm_num, zpow_le_iff]; omega
  have hpp : (256 : ℚ) ≤ 2 ^ p := by
    calc (256 : ℚ) = 2 ^ 8 := by norm_num
      _ ≤ 2 ^ p := pow_le_pow_right₀ (by norm_num) hp
  have hε : (1 : ℚ) / 2 ^ p ≤ 1 / 256 := one_div_le_one_div_of_le (by norm_num) hpp
  have hε0 : (0 : ℚ) < 1 / 2 ^ p := by positivity
  have hmul : ∀ y : ℚ, |y| / 2 ^ p = |y| * (1 / 2 ^ p) := fun y => by ring
  have r1 := h.rel hp1 (x := 3 / 2 * d) (by rw [abs_of_pos (by linarith)]; linarith)
  rw [hmul, abs_of_pos (by linarith : 0 < 3 / 2 * d)] at r1
  have r1' := _root_.abs_le.mp r1
  have h15 : 49 / 33 * d ≤ rnd (3 / 2 * d) := by nlinarith
  -- the core, for positive remainders
  have core : ∀ {R q0 q : ℚ}, Grid p emin rnd d f R → 0 < rnd R → rnd R < 2 ^ E → rnd (3 / 2 * d) ≤ rnd R →
      Guess p (rnd (rnd R * rnd (1 / d))) q0 → q = (if 2 ^ E ≤ |rnd (q0 * d)| then rnd (q0 - 1) else q0) →
      RQuot p emin rnd d R (5 * (1 / 2 ^ p) + δ) q ∧ 0 ≤ q ∧ (q = q0 ∨ 2 * q < 2 ^ p) ∧
      3 / 2 * d * (1 - 1 / 2 ^ p) ≤ R * (1 + 1 / 2 ^ p) ∧ 0 < R := by
    intro R q0 q G h0 hmax hbig g hq
    have hR0 : 0 < R := by
      by_contra hc
      have := h.mono (not_lt.mp hc)
      rw [h.zero] at this
      linarith
    have hRd : d ≤ R := by
      by_contra hc
      rw [not_le] at hc
      have := h.mono hc.le
      rw [h.fix (rep_of_mult hp1 D.hf D.hm (by rw [abs_of_pos hd]; exact D.hi.le))] at this
      linarith
    have r2 := h.rel hp1 (x := R) (by rw [abs_of_pos hR0]; linarith)
    rw [hmul, abs_of_pos hR0] at r2
    have r2' := _root_.abs_le.mp r2
    obtain ⟨Q, a, b⟩ := G.quot_pos h hp hmin D hR0 (E := E) hE (by rw [zpow_natCast]; exact hmax) hbig hδ hδ2 (q := q) g
      (by rw [zpow_natCast]; exact hq)
    exact ⟨Q, a, b, by linarith, hR0⟩
  have hv1 : ∀ {R : ℚ}, rnd (3 / 2 * d) ≤ rnd R → 1 ≤ rnd (rnd R * rnd (1 / d)) := by
    intro R hb
    have h1 : 1 ≤ rnd R * rnd (1 / d) := by
      have := _root_.abs_le.mp hδ
      have h2 : 31 / 32 / d ≤ rnd (1 / d) := by rw [div_le_iff₀ hd]; linarith
      calc (1 : ℚ) ≤ 49 / 33 * d * (31 / 32 / d) := by
            rw [show 49 / 33 * d * (31 / 32 / d) = 49 / 33 * (31 / 32) by field_simp]; norm_num
        _ ≤ _ := mul_le_mul (by linarith) h2 (by positivity) (by linarith)
    have := h.mono h1
    rwa [h.fix (by simpa using rep_pow (e := 0) hp1 hme)] at this
  rcases le_total 0 (rnd R) with hs | hs
  · rw [abs_of_nonneg hs] at hmax hbig
    have hv := hv1 hbig
    have hq' : q = if 2 ^ E ≤ |rnd (q0 * d)| then rnd (q0 - 1) else q0 := by
      rw [hq]
      simp only [correct, mul, add, mulsign, if_neg (not_lt.mpr hs)]
      rw [mul_neg, hodd, abs_neg, sub_eq_add_neg]
    obtain ⟨Q, a, b, c, hR0⟩ := core G (by linarith) hmax hbig (by rw [hq0]; exact P.guess _ (h.rep _) hv) hq'
    refine ⟨Q, P.prod q Q.int Q.rep ?_, by rwa [abs_of_pos hR0]⟩
    rw [abs_of_nonneg a]
    rcases b with b | b
    · exact .inr ⟨_, b.trans hq0, h.rep _, by rwa [abs_of_pos (by linarith)]⟩
    · exact .inl b
  · rw [abs_of_nonpos hs, ← hodd] at hmax hbig
    have hv := hv1 hbig
    have hv' : rnd (rnd (-R) * rnd (1 / d)) = -rnd (rnd R * rnd (1 / d)) := by rw [hodd, neg_mul, hodd]
    have h0 : 0 < rnd (-R) := by linarith
    have hlt : rnd R < 0 := by rw [hodd] at h0; linarith
    have hq' : -q = if 2 ^ E ≤ |rnd (-q0 * d)| then rnd (-q0 - 1) else -q0 := by
      rw [hq]
      simp only [correct, mul, add, mulsign, if_pos hlt]
      rw [mul_neg, hodd, abs_neg, neg_mul, hodd, abs_neg, neg_neg, show -q0 - 1 = -(q0 + 1) by ring, hodd]
      split_ifs <;> rfl
    obtain ⟨Q, a, b, c, hR0⟩ := core (G.neg hodd) h0 hmax hbig (q0 := -q0) (by
      have := P.guess_neg _ (h.rep _) hv
      rwa [hv', neg_neg, ← hq0, ← hv'] at this) hq'
    have Q' := Q.neg hodd
    refine ⟨Q', P.prod q Q'.int Q'.rep ?_, by rwa [abs_of_neg (by linarith)]⟩
    rw [abs_of_nonpos (by linarith)]
    rcases b with b | b
    · refine .inr ⟨_, (neg_injective b).trans hq0, h.rep _, ?_⟩
      rw [← abs_neg, ← hv', abs_of_pos (by linarith)]; exact hv
    · exact .inl b

/-- The state of a remainder and a quotient. Proof helper, not code of the repo. -/
def stateOf (rnd : ℚ → ℚ) (R : ℚ) (k : ℤ) : State := ((rnd R, R - rnd R), decide (k % 2 ≠ 0))

/-- A remainder with which the loop ends. Proof helper, not code of the repo. -/
def Final (d R : ℚ) (k : ℤ) : Prop := |R| < d / 2 ∨ |R| = d / 2 ∧ k % 2 = 0

theorem Final.le {k : ℤ} (h : Final d R k) : |R| ≤ d / 2 := by
  rcases h with h | h
  · exact h.le
  · exact h.1.le

theorem odd_add (k j : ℤ) : (decide (k % 2 ≠ 0) ^^ decide (j % 2 ≠ 0)) = decide ((k + j) % 2 ≠ 0) := by
  rcases Int.emod_two_eq k with h | h <;> rcases Int.emod_two_eq j with h' | h' <;> simp [h, h', Int.add_emod]

theorem Exact.reduce (hodd : ∀ x, rnd (-x) = -rnd x) {prod : ℚ → ℚ → DD} {q : ℚ} (hX : Exact rnd R (q * d))
    (hp : prod q (-d) = (rnd (q * -d), q * -d - rnd (q * -d))) :
    Fmod.reduce rnd prod d q (rnd R, R - rnd R) = (rnd (R - q * d), R - q * d - rnd (R - q * d)) := by
  rw [Fmod.reduce, hp, ← hX, pairSub, mul_neg, hodd, neg_sub_neg, neg_sub]


theorem RQuot.zero (h : Nearest p emin rnd) (G : Grid p emin rnd d f R) {η : ℚ} (hη : 0 ≤ η) (hR : |R| ≤ d) :
    RQuot p emin rnd d R η 0 where
  int := ⟨0, by simp⟩
  rep := rep_zero p emin
  contr := by
    rw [zero_mul, sub_zero]
    have := mul_nonneg hη (abs_nonneg R)
    linarith
  low := fun _ => by rw [zero_mul, h.zero, sub_zero, sub_zero]; exact G.low

theorem RQuot.one (h : Nearest p emin rnd) (hp : 2 ≤ p) (hme : emin ≤ 0) (D : Divisor p emin d f)
    (G : Grid p emin rnd d f R) {η : ℚ} (hη : 0 ≤ η) (hR : d / 2 ≤ R) (hR' : R < 3 / 2 * d) : RQuot p emin rnd d R η 1 where
  int := ⟨1, by simp⟩
  rep := by simpa using rep_pow (e := 0) (by omega : 1 ≤ p) hme
  contr := by
    have := mul_nonneg hη (abs_nonneg R)
    have : |R - 1 * d| ≤ d := by rw [_root_.abs_le]; constructor <;> linarith [D.pos]
    linarith
  low := fun _ => by
    have hd := D.pos
    have hhi := D.hi
    have h2 : (2 : ℚ) * (2 ^ p * 2 ^ f) ≤ 2 ^ p * 2 ^ ((p : ℤ) + f) := by
      rw [← pow_eq_zpow]
      have : (2 : ℚ) ≤ 2 ^ p := by
        calc (2 : ℚ) = 2 ^ 1 := by norm_num
          _ ≤ 2 ^ p := pow_le_pow_right₀ (by norm_num) (by omega)
      gcongr
    rw [one_mul]
    refine h.low_fine' (by omega) D.hf G.mult D.hm ?_ ?_
    · rw [abs_of_pos hd]; linarith
    · rw [abs_of_pos (by linarith)]; linarith

/-- One iteration of the loop. -/
theorem Grid.next (h : Nearest p emin rnd) (hp : 8 ≤ p) (hmin : emin ≤ -(p : ℤ)) (hodd : ∀ x, rnd (-x) = -rnd x)
    (D : Divisor p emin d f) (hf1 : emin + 1 ≤ f) {est : ℚ → ℚ} {prod : ℚ → ℚ → DD} {isodd : ℚ → Bool}
    (P : Parts p emin rnd d est prod isodd) (hE : (E : ℤ) = 3 - p - emin) (G : Grid p emin rnd d f R)
    (hmax : |rnd R| < 2 ^ E) (hdE : d < 2 ^ E) {δ : ℚ} (hδ : |rnd (1 / d) * d - 1| ≤ δ) (hδ2 : δ ≤ 1 / 32) (k : ℤ) :
    ∃ j : ℤ, Remainder.step rnd E prod isodd d (Remainder.quot rnd est d (rnd (1 / d))) (stateOf rnd R k) =
        stateOf rnd (R - j * d) (k + j) ∧
      Grid p emin rnd d f (R - j * d) ∧ |R - j * d| ≤ |R| ∧ |R - j * d| ≤ (5 * (1 / 2 ^ p) + δ) * |R| + d ∧
      (|R| ≤ 11 / 8 * d → Final d (R - j * d) (k + j)) ∧
      (Remainder.quot rnd est d (rnd (1 / d)) (stateOf rnd R k).1 (stateOf rnd R k).2 = 0 → Final d R k) := by
  have hd := D.pos
  have hp1 : 1 ≤ p := by omega
  have hme : emin ≤ 0 := by omega
  have hpp : (256 : ℚ) ≤ 2 ^ p := by
    calc (256 : ℚ) = 2 ^ 8 := by norm_num
      _ ≤ 2 ^ p := pow_le_pow_right₀ (by norm_num) hp
  have hε : (1 : ℚ) / 2 ^ p ≤ 1 / 256 := one_div_le_one_div_of_le (by norm_num) hpp
  have hε0 : (0 : ℚ) < 1 / 2 ^ p := by positivity
  have hδ0 := (abs_nonneg _).trans hδ
  have hη : 5 * (1 / 2 ^ p) + δ ≤ 1 / 16 := by linarith
  have hη0 : 0 ≤ 5 * (1 / 2 ^ p) + δ := by linarith
  have hdr : Rep p emin d := rep_of_mult hp1 D.hf D.hm (by rw [abs_of_pos hd]; exact D.hi.le)
  have hhalf : Rep p emin (1 / 2 * d) := by
    refine rep_of_mult (e := f - 1) hp1 (by omega) ?_ ?_
    · obtain ⟨m, hm⟩ := D.hm
      exact ⟨m, by rw [hm, zpow_sub_one₀ (by norm_num)]; ring⟩
    · rw [abs_of_pos (by linarith), zpow_sub_one₀ (by norm_num)]; linarith [D.hi]
  have hR0 := abs_nonneg R
  -- a step with a good quotient
  have go : ∀ q, RQuot p emin rnd d R (5 * (1 / 2 ^ p) + δ) q →
      prod q (-d) = (rnd (q * -d), q * -d - rnd (q * -d)) →
      correct rnd E d (rnd R, R - rnd R) (Remainder.quot rnd est d (rnd (1 / d)) (stateOf rnd R k).1
        (stateOf rnd R k).2) = q → ∃ j : ℤ, (j : ℚ) = q ∧
      Remainder.step rnd E prod isodd d (Remainder.quot rnd est d (rnd (1 / d))) (stateOf rnd R k) =
        stateOf rnd (R - j * d) (k + j) ∧ Grid p emin rnd d f (R - j * d) ∧
      |R - j * d| ≤ (5 * (1 / 2 ^ p) + δ) * |R| + d := by
    intro q Q hpr hq
    obtain ⟨j, hj⟩ := Q.int
    rw [zpow_zero, mul_one] at hj
    subst hj
    refine ⟨j, rfl, ?_, G.step h hp hodd D hη Q, Q.contr⟩
    have hX := (G.exact h hp hodd D hη Q).reduce hodd hpr
    simp only [Remainder.step]
    rw [show (stateOf rnd R k).1 = (rnd R, R - rnd R) from rfl] at hq ⊢
    rw [hq, hX, P.odd j Q.rep]
    simp only [stateOf, odd_add]
  -- the tests
  have hfin : (|rnd R| < mul rnd (1 / 2) d ∨ (|rnd R| = mul rnd (1 / 2) d ∧ (stateOf rnd R k).2 = false)) ↔
      Final d R k := by
    have e1 : mul rnd (1 / 2) d = d / 2 := by rw [mul, h.fix hhalf]; ring
    have e2 : ((stateOf rnd R k).2 = false) ↔ k % 2 = 0 := by simp [stateOf]
    rw [e1, e2, Final]
    rcases le_or_gt |R| d with hc | hc
    · rw [h.fix (G.rep hp1 D hc)]
    · have := h.abs_le hdr (x := R) (by rw [abs_of_pos hd]; exact hc.le)
      rw [abs_of_pos hd] at this
      constructor
      · rintro (h1 | ⟨h1, -⟩) <;> linarith
      · rintro (h1 | ⟨h1, -⟩) <;> linarith
  by_cases hF : Final d R k
  · -- nothing is left to do
    have hle := hF.le
    have hq : Remainder.quot rnd est d (rnd (1 / d)) (stateOf rnd R k).1 (stateOf rnd R k).2 = 0 := by
      rw [Remainder.quot]
      exact if_pos (hfin.mpr hF)
    obtain ⟨j, hj, e, G', hc⟩ := go 0 (RQuot.zero h G hη0 (by linarith))
      (P.prod 0 ⟨0, by simp⟩ (rep_zero p emin) (.inl (by simp))) (by
        rw [hq, correct, mul, zero_mul, h.zero, abs_zero, if_neg (by simp)])
    have hj0 : j = 0 := by exact_mod_cast hj
    subst hj0
    refine ⟨0, e, G', by simp, hc, fun _ => by simpa using hF, fun _ => hF⟩
  have hge : d / 2 ≤ |R| := by
    by_contra hc
    exact hF (.inl (not_le.mp hc))
  have hkodd : |R| = d / 2 → k % 2 = 1 := by
    intro hc
    by_contra hk
    exact hF (.inr ⟨hc, by omega⟩)
  by_cases hS : |rnd R| < mul rnd (3 / 2) d
  · -- one more subtraction
    have hlt : |R| < 3 / 2 * d := by
      by_contra hc
      rw [not_lt] at hc
      rw [mul] at hS
      rcases le_total 0 R with h0 | h0
      · rw [abs_of_nonneg h0] at hc
        have := h.mono hc
        have := le_abs_self (rnd R)
        linarith
      · rw [abs_of_nonpos h0] at hc
        have := h.mono hc
        rw [hodd] at this
        have := neg_le_abs (rnd R)
        linarith
    have hqv : Remainder.quot rnd est d (rnd (1 / d)) (stateOf rnd R k).1 (stateOf rnd R k).2 =
        if rnd R < 0 then -1 else 1 := by
      rw [Remainder.quot]
      rw [if_neg (by rw [show (stateOf rnd R k).1 = (rnd R, R - rnd R) from rfl, hfin]; exact hF)]
      exact if_pos hS
    have hcor : ∀ q : ℚ, |q| = 1 → correct rnd E d (rnd R, R - rnd R) q = q := by
      intro q hq
      rw [correct, mul, if_neg]
      rw [not_le]
      refine lt_of_le_of_lt (h.abs_ge hdr (x := q * -d) ?_) (by rwa [abs_of_pos hd])
      rw [abs_mul, hq, abs_neg, one_mul]
    have h2p : (2 : ℚ) * 1 < 2 ^ p := by linarith
    rcases le_total 0 R with h0 | h0
    · rw [abs_of_nonneg h0] at hge hlt hkodd
      have hs : ¬ rnd R < 0 := by
        rw [not_lt, ← h.zero]; exact h.mono h0
      have Q1 := RQuot.one h (by omega) hme D G hη0 hge hlt
      obtain ⟨j, hj, e, G', hc⟩ := go 1 Q1 (P.prod 1 Q1.int Q1.rep (.inl (by rw [abs_one]; exact h2p))) (by
        rw [hqv, if_neg hs]; exact hcor 1 abs_one)
      have hj0 : j = 1 := by exact_mod_cast hj
      subst hj0
      refine ⟨1, e, G', ?_, hc, fun _ => ?_, fun hq => ?_⟩
      · rw [abs_of_nonneg h0, _root_.abs_le]; push_cast; constructor <;> linarith
      · push_cast
        rw [one_mul]
        rcases hge.eq_or_lt with he | he
        · right
          refine ⟨?_, by have := hkodd he.symm; omega⟩
          rw [abs_of_neg (by linarith)]; linarith
        · left
          rw [abs_lt]; constructor <;> linarith
      · rw [hqv, if_neg hs] at hq; norm_num at hq
    · rw [abs_of_nonpos h0] at hge hlt hkodd
      have hs : rnd R < 0 := by
        have := h.mono (show R ≤ -(1 / 2 * d) by linarith)
        rw [hodd, h.fix hhalf] at this
        linarith
      have Q1 : RQuot p emin rnd d R (5 * (1 / 2 ^ p) + δ) (-1) := RQuot.neg hodd (by
        rw [neg_neg]; exact RQuot.one h (by omega) hme D (G.neg hodd) hη0 hge hlt)
      obtain ⟨j, hj, e, G', hc⟩ := go (-1) Q1 (P.prod (-1) Q1.int Q1.rep (.inl (by
        rw [abs_neg, abs_one]; exact h2p))) (by rw [hqv, if_pos hs]; exact hcor (-1) (by simp))
      have hj0 : j = -1 := by exact_mod_cast hj
      subst hj0
      refine ⟨-1, e, G', ?_, hc, fun _ => ?_, fun hq => ?_⟩
      · rw [abs_of_nonpos h0, _root_.abs_le]; push_cast; constructor <;> linarith
      · push_cast
        rw [neg_one_mul, sub_neg_eq_add]
        rcases hge.eq_or_lt with he | he
        · right
          refine ⟨?_, by have := hkodd he.symm; omega⟩
          rw [abs_of_pos (by linarith)]; linarith
        · left
          rw [abs_lt]; constructor <;> linarith
      · rw [hqv, if_pos hs] at hq; norm_num at hq
  · -- the estimate
    have hqv : Remainder.quot rnd est d (rnd (1 / d)) (stateOf rnd R k).1 (stateOf rnd R k).2 =
        est (rnd (rnd R * rnd (1 / d))) := by
      rw [Remainder.quot]
      rw [if_neg (by rw [show (stateOf rnd R k).1 = (rnd R, R - rnd R) from rfl, hfin]; exact hF)]
      exact if_neg hS
    rw [not_lt, mul] at hS
    obtain ⟨Q, hpr, hbig⟩ := G.quot_big h hp hmin hodd D P hE hmax hS hδ hδ2 rfl rfl
    have h14 : 37 / 25 * d ≤ |R| := by nlinarith
    have hηR : (5 * (1 / 2 ^ p) + δ) * |R| ≤ 1 / 16 * |R| := by gcongr
    rw [← hqv] at Q hpr
    obtain ⟨j, hj, e, G', hc⟩ := go _ Q hpr rfl
    refine ⟨j, e, G', by linarith, hc, fun hle => by linarith, fun hq => ?_⟩
    exfalso
    rw [hq, correct, mul, zero_mul, h.zero, abs_zero, if_neg (by simp)] at Q
    have := Q.contr
    rw [zero_mul, sub_zero] at this
    linarith

/-- A final state does not change. -/
theorem Parts.stay (h : Nearest p emin rnd) (hp : 1 ≤ p) (hodd : ∀ x, rnd (-x) = -rnd x)
    (hhalf : Rep p emin (1 / 2 * d)) {est : ℚ → ℚ} {prod : ℚ → ℚ → DD}
    {isodd : ℚ → Bool} (P : Parts p emin rnd d est prod isodd) (hR : Rep p emin R) {k : ℤ} (hF : Final d R k) :
    Remainder.step rnd E prod isodd d (Remainder.quot rnd est d (rnd (1 / d))) (stateOf rnd R k) = stateOf rnd R k := by
  have hq : Remainder.quot rnd est d (rnd (1 / d)) (stateOf rnd R k).1 (stateOf rnd R k).2 = 0 := by
    rw [Remainder.quot]
    refine if_pos ?_
    rw [mul, h.fix hhalf, show (stateOf rnd R k).1.1 = rnd R from rfl, h.fix hR]
    rcases hF with hF | ⟨hF, hk⟩
    · exact .inl (by linarith)
    · exact .inr ⟨by linarith, by simp [stateOf, hk]⟩
  have hX : Exact rnd R (0 * d) := by
    have := h.step_zero hp (R := R) (by rw [h.fix hR, sub_self]; exact rep_zero p emin)
    rw [Exact, pairSub, zero_mul, h.zero, sub_zero, sub_zero, neg_zero]
    exact this
  have hc : correct rnd E d (stateOf rnd R k).1 0 = 0 := by
    rw [correct, mul, zero_mul, h.zero, abs_zero, if_neg (by simp)]
  have ho := P.odd 0 (by simpa using rep_zero p emin)
  rw [Int.cast_zero] at ho
  have hr := hX.reduce hodd (P.prod 0 ⟨0, by simp⟩ (rep_zero p emin) (.inl (by simp)))
  rw [zero_mul, sub_zero] at hr
  simp only [Remainder.step]
  rw [hq, hc, ho, show (stateOf rnd R k).1 = (rnd R, R - rnd R) from rfl, hr]
  simp [stateOf]

/-- The reciprocal of the divisor. -/
theorem Nearest.recip_err (h : Nearest p emin rnd) (hp : 9 ≤ p) (hd : 0 < d) (hnd : d ≤ n)
    (hmax : n < 2 ^ (3 - (p : ℤ) - emin)) : ∃ δ, |rnd (1 / d) * d - 1| ≤ δ ∧ δ ≤ 1 / 32 ∧
      (δ = 1 / 2 ^ p ∨ δ ≤ 4 * (1 / 2 ^ p) ∧ n < 8 * d) := by
  have hp1 : 1 ≤ p := by omega
  have hpp : (512 : ℚ) ≤ 2 ^ p := by
    calc (512 : ℚ) = 2 ^ 9 := by norm_num
      _ ≤ 2 ^ p := pow_le_pow_right₀ (by norm_num) hp
  have hε : (1 : ℚ) / 2 ^ p ≤ 1 / 512 := one_div_le_one_div_of_le (by norm_num) hpp
  have hrd : |1 / d| = 1 / d := abs_of_pos (by positivity)
  have e1 : |rnd (1 / d) * d - 1| = |rnd (1 / d) - 1 / d| * d := by
    rw [← abs_of_pos hd, ← abs_mul, abs_of_pos hd, sub_mul, one_div_mul_cancel hd.ne']
  rcases le_or_gt (2 ^ p * 2 ^ emin * d) 2 with hc | hc
  · refine ⟨1 / 2 ^ p, ?_, by linarith, .inl rfl⟩
    have := h.rel hp1 (x := 1 / d) (by
      rw [hrd, mul_one_div, le_div_iff₀ hd]; exact hc)
    rw [e1, hrd] at *
    calc _ ≤ 1 / d / 2 ^ p * d := by gcongr
      _ = 1 / 2 ^ p := by field_simp
  · have hpos : (0 : ℚ) < 2 ^ p * 2 ^ emin := by positivity
    have hmax' : 2 ^ p * 2 ^ emin * n < 8 := by
      have : (2 : ℚ) ^ p * 2 ^ emin * 2 ^ (3 - (p : ℤ) - emin) = 8 := by
        rw [pow_eq_zpow, ← zpow_add₀ (by norm_num)]
        rw [show ((p : ℤ) + emin + (3 - (p : ℤ) - emin)) = 3 by ring]; norm_num
      rw [← this]; gcongr
    have hn8 : n < 8 * d := by
      have : 2 ^ p * 2 ^ emin * n < 2 ^ p * 2 ^ emin * (8 * d) := by linarith
      exact lt_of_mul_lt_mul_left this hpos.le
    have hδ : 2 ^ emin * d / 2 ≤ 4 * (1 / 2 ^ p) := by
      have : 2 ^ emin * d * 2 ^ p ≤ 8 := by
        have : 2 ^ p * 2 ^ emin * d ≤ 2 ^ p * 2 ^ emin * n := by gcongr
        linarith
      have : 2 ^ emin * d ≤ 8 * (1 / 2 ^ p) := by rw [mul_one_div, le_div_iff₀ (by positivity)]; exact this
      linarith
    refine ⟨2 ^ emin * d / 2, ?_, by linarith, .inr ⟨hδ, hn8⟩⟩
    have := h.half_ulp hp1 (le_refl emin) (x := 1 / d) (by
      rw [hrd, div_le_iff₀ hd]; linarith)
    rw [e1, abs_sub_comm]
    calc _ ≤ 2 ^ emin / 2 * d := by gcongr
      _ = _ := by ring

/-- The loop ends with the remainder. -/
theorem Parts.result (h : Nearest p emin rnd) (hp : 9 ≤ p) (hmin : emin ≤ -(p : ℤ)) (hodd : ∀ x, rnd (-x) = -rnd x)
    (D : Divisor p emin d f) (hf1 : emin + 1 ≤ f) {est : ℚ → ℚ} {prod : ℚ → ℚ → DD} {isodd : ℚ → Bool}
    (P : Parts p emin rnd d est prod isodd) (hE : (E : ℤ) = 3 - p - emin) (hn : Rep p emin n) (hn0 : 0 ≤ n)
    (hmax : n < 2 ^ E) (hdE : d < 2 ^ E) {i : Nat} (hi : 1 ≤ i) (hr : (6 * (1 / 2 ^ p)) ^ i * n < 1 / 4 * d) {j : Nat}
    {quot : DD → Bool → ℚ} (hquot : quot = Remainder.quot rnd est d (rnd (1 / d)))
    {step : State → State} (hstep : step = Remainder.step rnd E prod isodd d quot)
    (hj : j = i + 1 ∨ quot (step^[j] ((n, 0), false)).1 (step^[j] ((n, 0), false)).2 = 0) :
    ∃ (R : ℚ) (k : ℤ), step^[j] ((n, 0), false) = ((R, 0), decide (k % 2 ≠ 0)) ∧ R = n - k * d ∧ Final d R k ∧
      Rep p emin R := by
  have hd := D.pos
  have hp1 : 1 ≤ p := by omega
  have hlo := D.lo
  have hhalf : Rep p emin (1 / 2 * d) := by
    refine rep_of_mult (e := f - 1) hp1 (by omega) ?_ ?_
    · obtain ⟨m, hm⟩ := D.hm
      exact ⟨m, by rw [hm, zpow_sub_one₀ (by norm_num)]; ring⟩
    · rw [abs_of_pos (by linarith), zpow_sub_one₀ (by norm_num)]; linarith [D.hi]
  have hdr : Rep p emin d := rep_of_mult hp1 D.hf D.hm (by rw [abs_of_pos hd]; exact D.hi.le)
  have stay : ∀ {R : ℚ} {k : ℤ}, Rep p emin R → Final d R k → step (stateOf rnd R k) = stateOf rnd R k := by
    intro R k hR hF
    rw [hstep, hquot]
    exact P.stay h hp1 hodd hhalf hR hF
  have hs0 : ((n, 0), false) = stateOf rnd n 0 := by simp [stateOf, h.fix hn]
  have fin : ∀ {R : ℚ} {k : ℤ}, Rep p emin R → stateOf rnd R k = ((R, 0), decide (k % 2 ≠ 0)) := by
    intro R k hR; rw [stateOf, h.fix hR, sub_self]
  rcases le_or_gt d n with hnd | hnd
  · -- the numerator is not smaller than the denominator
    obtain ⟨δ, hδ, hδ2, hδ3⟩ := h.recip_err hp hd hnd (by rw [← hE, zpow_natCast]; exact hmax)
    have hδ0 := (abs_nonneg _).trans hδ
    have hpp : (512 : ℚ) ≤ 2 ^ p := by
      calc (512 : ℚ) = 2 ^ 9 := by norm_num
        _ ≤ 2 ^ p := pow_le_pow_right₀ (by norm_num) hp
    have hε : (1 : ℚ) / 2 ^ p ≤ 1 / 512 := one_div_le_one_div_of_le (by norm_num) hpp
    have hε0 : (0 : ℚ) < 1 / 2 ^ p := by positivity
    have hη : 5 * (1 / 2 ^ p) + δ ≤ 1 / 16 := by linarith
    have hη0 : 0 ≤ 5 * (1 / 2 ^ p) + δ := by linarith
    have hη1 : (5 * (1 / 2 ^ p) + δ) ^ i * n < 1 / 4 * d := by
      rcases hδ3 with rfl | ⟨h4, h8⟩
      · rwa [show 5 * (1 / 2 ^ p) + 1 / 2 ^ p = (6 : ℚ) * (1 / 2 ^ p) by ring]
      · have h2 : (5 * (1 / 2 ^ p) + δ) ^ i ≤ 5 * (1 / 2 ^ p) + δ := pow_le_of_le_one hη0 (by linarith) (by omega)
        calc _ ≤ (5 * (1 / 2 ^ p) + δ) * n := by gcongr
          _ ≤ 9 / 512 * n := by gcongr; linarith
          _ < _ := by linarith
    have nx : ∀ (R : ℚ) (k : ℤ), Grid p emin rnd d f R → |R| ≤ n → ∃ j : ℤ,
        step (stateOf rnd R k) = stateOf rnd (R - j * d) (k + j) ∧
        Grid p emin rnd d f (R - j * d) ∧ |R - j * d| ≤ |R| ∧ |R - j * d| ≤ (5 * (1 / 2 ^ p) + δ) * |R| + d ∧
        (|R| ≤ 11 / 8 * d → Final d (R - j * d) (k + j)) ∧
        (quot (stateOf rnd R k).1 (stateOf rnd R k).2 = 0 → Final d R k) := by
      intro R k G hR
      rw [hstep, hquot]
      refine G.next h (by omega) hmin hodd D hf1 P hE (lt_of_le_of_lt ?_ hmax) hdE hδ hδ2 k
      have := h.abs_ge hn (x := R) (by rwa [abs_of_nonneg hn0])
      rwa [abs_of_nonneg hn0] at this
    generalize 5 * (1 / 2 ^ p) + δ = η at hη hη0 hη1 nx
    have reach : ∀ j : Nat, ∃ (R : ℚ) (k : ℤ), step^[j] ((n, 0), false) = stateOf rnd R k ∧ R = n - k * d ∧
        Grid p emin rnd d f R ∧ |R| ≤ n ∧ |R| ≤ η ^ j * n + 16 / 15 * d := by
      intro j
      induction j with
      | zero =>
        refine ⟨n, 0, hs0, by simp, D.grid h (by omega) hn hnd, (abs_of_nonneg hn0).le, ?_⟩
        rw [abs_of_nonneg hn0, pow_zero, one_mul]; linarith
      | succ j ih =>
        obtain ⟨R, k, e, hR, G, h1, h2⟩ := ih
        obtain ⟨m, e', G', h3, h4, -, -⟩ := nx R k G h1
        refine ⟨R - m * d, k + m, by rw [Function.iterate_succ_apply', e, e'], by rw [hR]; push_cast; ring, G',
          h3.trans h1, h4.trans ?_⟩
        have h5 : η * |R| ≤ η * (η ^ j * n + 16 / 15 * d) := by gcongr
        have h6 : η ^ (j + 1) * n = η * (η ^ j * n) := by ring
        rw [h6]
        nlinarith
    have out : ∀ {R : ℚ} {k : ℤ}, step^[j] ((n, 0), false) = stateOf rnd R k → R = n - k * d →
        Grid p emin rnd d f R → Final d R k → ∃ (R : ℚ) (k : ℤ), step^[j] ((n, 0), false) = ((R, 0), decide (k % 2 ≠ 0)) ∧
          R = n - k * d ∧ Final d R k ∧ Rep p emin R := by
      intro R k e hR G hF
      have hrep := G.rep hp1 D (by have := hF.le; linarith)
      exact ⟨R, k, by rw [e, fin hrep], hR, hF, hrep⟩
    rcases hj with rfl | hj
    · obtain ⟨R, k, e, hR, G, h1, h2⟩ := reach i
      obtain ⟨m, e', G', -, -, h5, -⟩ := nx R k G h1
      exact out (by rw [Function.iterate_succ_apply', e, e']) (by rw [hR]; push_cast; ring) G' (h5 (by linarith))
    · obtain ⟨R, k, e, hR, G, h1, h2⟩ := reach j
      obtain ⟨m, -, -, -, -, -, h6⟩ := nx R k G h1
      exact out e hR G (h6 (by rwa [e] at hj))
  · -- the numerator is smaller
    by_cases hF : Final d n 0
    · have : ∀ j, step^[j] (stateOf rnd n 0) = stateOf rnd n 0 := fun j => by
        induction j with
        | zero => rfl
        | succ j ih => rw [Function.iterate_succ_apply, stay hn hF, ih]
      refine ⟨n, 0, ?_, by simp, hF, hn⟩
      rw [hs0, this j, fin hn]
    · have hge : d / 2 < n := by
        by_contra hc
        rw [not_lt] at hc
        refine hF ?_
        rw [Final, abs_of_nonneg hn0]
        rcases hc.eq_or_lt with hc | hc
        · exact .inr ⟨hc, rfl⟩
        · exact .inl hc
      have hf2 : (2 : ℚ) ^ (f - 1) = 2 ^ f / 2 := by rw [zpow_sub_one₀ (by norm_num)]; rfl
      have hnm : Mult (f - 1) n := mult_of_ge hn (by
        rw [abs_of_nonneg hn0, zpow_sub_one₀ (by norm_num), hf2]; linarith)
      have hdm : Mult (f - 1) d := D.hm.le (by omega)
      have hX : Exact rnd n (1 * d) := by
        rw [one_mul]
        refine h.exact_small (by omega) (f := f - 1) (by omega) hnm hdm ?_ ?_
        · rw [abs_of_nonneg hn0, hf2]; linarith [D.hi]
        · rw [abs_of_pos hd, hf2]; linarith [D.hi]
      have hR : Rep p emin (n - d) := rep_of_mult (e := f - 1) hp1 (by omega) (hnm.sub hdm) (by
        rw [hf2, abs_of_neg (by linarith)]; linarith [D.hi])
      have hF' : Final d (n - d) 1 := by
        left; rw [abs_of_neg (by linarith)]; linarith
      have hq : quot (n, 0) false = 1 := by
        rw [hquot, Remainder.quot]
        rw [if_neg, if_pos, if_neg (not_lt.mpr hn0)]
        · rw [abs_of_nonneg hn0, mul]
          have := h.mono (show d ≤ 3 / 2 * d by linarith)
          rw [h.fix hdr] at this
          exact hnd.trans_le this
        · rw [abs_of_nonneg hn0, mul, h.fix hhalf]
          rintro (h1 | ⟨h1, -⟩) <;> linarith
      have hone : Rep p emin (1 : ℚ) := by simpa using rep_pow (e := 0) hp1 (by omega : emin ≤ 0)
      have hc : correct rnd E d (n, 0) 1 = 1 := by
        rw [correct, mul, one_mul, hodd, h.fix hdr, abs_neg, abs_of_pos hd, if_neg (not_le.mpr hdE)]
      have ho := P.odd 1 (by simpa using hone)
      rw [Int.cast_one] at ho
      have h2p : (2 : ℚ) * |1| < 2 ^ p := by
        rw [abs_one]
        calc (2 : ℚ) * 1 < 2 ^ 9 := by norm_num
          _ ≤ 2 ^ p := pow_le_pow_right₀ (by norm_num) hp
      have e1 : step ((n, 0), false) = stateOf rnd (n - d) 1 := by
        have hred := hX.reduce hodd (P.prod 1 ⟨1, by simp⟩ hone (.inl h2p))
        rw [h.fix hn, sub_self, one_mul] at hred
        rw [hstep]
        simp only [Remainder.step]
        rw [hq, hc, ho, hred]
        simp [stateOf]
      have : ∀ j, step^[j + 1] ((n, 0), false) = stateOf rnd (n - d) 1 := fun j => by
        induction j with
        | zero => exact e1
        | succ j ih => rw [Function.iterate_succ_apply', ih, stay hR hF']
      obtain ⟨c, rfl⟩ : ∃ c, j = c + 1 := by
        rcases hj with hj | hj
        · exact ⟨i, hj⟩
        · rcases j with _ | c
          · rw [Function.iterate_zero, id, hq] at hj; norm_num at hj
          · exact ⟨c, rfl⟩
      exact ⟨n - d, 1, by rw [this c, fin hR], by simp, hF', hR⟩

theorem rloop_iterate (step : State → State) (quot : DD → Bool → ℚ) : ∀ (i : Nat) (s : State),
    ∃ j, Remainder.loop step quot i s = step^[j] s ∧ (j = i ∨ quot (step^[j] s).1 (step^[j] s).2 = 0) := by
  intro i
  induction i with
  | zero => exact fun s => ⟨0, rfl, .inl rfl⟩
  | succ i ih =>
    intro s
    rw [Remainder.loop]
    by_cases hc : quot s.1 s.2 = 0
    · rw [if_pos hc]; exact ⟨0, rfl, .inr hc⟩
    · rw [if_neg hc]
      obtain ⟨j, e, hj⟩ := ih (step s)
      exact ⟨j + 1, e, hj.imp (by omega) id⟩

theorem vrloop_iterate {L : Nat} (step : Fin L → State → State) (quot : Fin L → DD → Bool → ℚ) :
    ∀ (i : Nat) (s : Fin L → State), ∃ j, (∀ l, Remainder.vloop step quot i s l = (step l)^[j] (s l)) ∧
      (j = i ∨ ∀ l, quot l ((step l)^[j] (s l)).1 ((step l)^[j] (s l)).2 = 0) := by
  intro i
  induction i with
  | zero => exact fun s => ⟨0, fun _ => rfl, .inl rfl⟩
  | succ i ih =>
    intro s
    rw [Remainder.vloop]
    by_cases hc : ∀ l, quot l (s l).1 (s l).2 = 0
    · rw [if_pos hc]; exact ⟨0, fun _ => rfl, .inr hc⟩
    · rw [if_neg hc]
      obtain ⟨j, e, hj⟩ := ih fun l => step l (s l)
      exact ⟨j + 1, e, hj.imp (by omega) id⟩

end Nsimd.Float
