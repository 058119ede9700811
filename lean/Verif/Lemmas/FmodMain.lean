import Verif.Lemmas.FmodBits

/-!
Helper lemmas: `fmod` of numbers that need no scaling, and IEEE-754 rounding.
-/

namespace Nsimd.Float
open Nsimd.Props.Round Nsimd.DoubleDouble
open Nsimd.Fmod (num pat toward0 removelsb upper reduce)

/-! ### IEEE-754 rounding -/

section ieee
open Nsimd.Props.Ieee (rq)
open Nsimd.Props.FloatLane (emin)
open Nsimd.FloatLane (FTy)

theorem rq_isNearest (t : FTy) : Nearest (t.m + 1) (emin t) (rq t) where
  rep x := by
    have pos : ∀ x, 0 ≤ x → Rep (t.m + 1) (emin t) (rq t x) := by
      intro x hx
      rw [Nsimd.Props.Ieee.rq_nonneg hx]
      exact rep_num _
    rcases le_total 0 x with hx | hx
    · exact pos x hx
    · have := rep_neg (pos (-x) (by linarith))
      rwa [Nsimd.Props.Ieee.rq_neg, neg_neg] at this
  near x y hy := by
    have := Nsimd.Props.Ieee.rq_nearest t x y hy
    rwa [abs_sub_comm, abs_sub_comm y] at this

theorem rq_tiesEven (t : FTy) : TiesEven (t.m + 1) (emin t) (rq t) := by
  have pos : ∀ x e, 0 ≤ x → emin t ≤ e → Mult e x → 2 ^ (t.m + 1) * 2 ^ e ≤ |x| → |x| ≤ 2 * (2 ^ (t.m + 1) * 2 ^ e) →
      rq t x ≠ x → Mult (e + 2) (rq t x) := by
    intro x e hx he hm h1 h2 hne
    have hpe := two_zpow_pos e
    rw [abs_of_nonneg hx] at h1 h2
    have hN := rq_isNearest t
    obtain ⟨j, hj⟩ := hm
    have he1 : (2 : ℚ) ^ (e + 1) = 2 * 2 ^ e := by rw [zpow_add_one₀ (by norm_num)]; ring
    -- the significand is odd
    have hodd : j % 2 = 1 := by
      by_contra hc
      obtain ⟨i, rfl⟩ : ∃ i, j = 2 * i := ⟨j / 2, by omega⟩
      refine hne (hN.fix (rep_of_mult (e := e + 1) (by omega) (by omega) ⟨i, ?_⟩ ?_))
      · rw [hj, he1]; push_cast; ring
      · rw [abs_of_nonneg hx, he1]; linarith
    obtain ⟨i, rfl⟩ : ∃ i, j = 2 * i + 1 := ⟨j / 2, by omega⟩
    -- the two neighbours
    have hlo : 2 ^ (t.m + 1) * 2 ^ e ≤ x - 2 ^ e := by
      have h1' : (2 : ℚ) ^ (t.m + 1) ≤ ((2 * i + 1 : ℤ) : ℚ) := by
        rw [hj] at h1; exact le_of_mul_le_mul_right h1 hpe
      have : (2 : ℤ) ^ (t.m + 1) ≤ 2 * i + 1 := by exact_mod_cast h1'
      have : (2 : ℤ) ^ (t.m + 1) ≤ 2 * i := by rw [pow_succ] at this ⊢; omega
      have : (2 : ℚ) ^ (t.m + 1) ≤ ((2 * i : ℤ) : ℚ) := by exact_mod_cast this
      rw [hj]; push_cast at *; nlinarith
    have hhi : x + 2 ^ e ≤ 2 * (2 ^ (t.m + 1) * 2 ^ e) := by
      have h1' : ((2 * i + 1 : ℤ) : ℚ) ≤ 2 * 2 ^ (t.m + 1) := by
        rw [hj, ← mul_assoc] at h2; exact le_of_mul_le_mul_right h2 hpe
      have : 2 * i + 1 ≤ 2 * (2 : ℤ) ^ (t.m + 1) := by exact_mod_cast h1'
      have : 2 * i + 2 ≤ 2 * (2 : ℤ) ^ (t.m + 1) := by omega
      have : ((2 * i + 2 : ℤ) : ℚ) ≤ 2 * 2 ^ (t.m + 1) := by exact_mod_cast this
      rw [hj]; push_cast at *; nlinarith
    have r1 : Rep (t.m + 1) (emin t) (x - 2 ^ e) :=
      rep_of_mult (e := e + 1) (by omega) (by omega) ⟨i, by rw [hj, he1]; push_cast; ring⟩ (by
        rw [abs_of_nonneg (by have : (0 : ℚ) < 2 ^ (t.m + 1) * 2 ^ e := by positivity
                              linarith), he1]
        linarith)
    have r2 : Rep (t.m + 1) (emin t) (x + 2 ^ e) :=
      rep_of_mult (e := e + 1) (by omega) (by omega) ⟨i + 1, by rw [hj, he1]; push_cast; ring⟩ (by
        rw [abs_of_nonneg (by linarith), he1]; linarith)
    have n1 := hN.near x _ r1
    have n2 := hN.mono (show x - 2 ^ e ≤ x by linarith)
    have n3 := hN.mono (show x ≤ x + 2 ^ e by linarith)
    rw [hN.fix r1] at n2
    rw [hN.fix r2] at n3
    rw [sub_sub_cancel, abs_of_pos hpe] at n1
    -- the rounded number is one of them
    have hme : Mult (e + 1) (rq t x) := mult_of_ge (hN.rep x) (by
      rw [add_sub_cancel_right]; exact hlo.trans (n2.trans (le_abs_self _)))
    have hcase : rq t x = x - 2 ^ e ∨ rq t x = x + 2 ^ e := by
      obtain ⟨a, ha⟩ := hme
      rw [ha, he1] at n2 n3 ⊢
      rw [hj] at n2 n3 ⊢
      have a1 : ((2 * i : ℤ) : ℚ) ≤ ((2 * a : ℤ) : ℚ) := by
        refine le_of_mul_le_mul_right (a := (2 : ℚ) ^ e) ?_ hpe; push_cast at *; linarith
      have a2 : ((2 * a : ℤ) : ℚ) ≤ ((2 * i + 2 : ℤ) : ℚ) := by
        refine le_of_mul_le_mul_right (a := (2 : ℚ) ^ e) ?_ hpe; push_cast at *; linarith
      have a1' : 2 * i ≤ 2 * a := by exact_mod_cast a1
      have a2' : 2 * a ≤ 2 * i + 2 := by exact_mod_cast a2
      rcases (by omega : a = i ∨ a = i + 1) with rfl | rfl
      · left; push_cast; ring
      · right; push_cast; ring
    -- its pattern is even
    obtain ⟨k1, hk1⟩ := exists_num r1 (by have : (0 : ℚ) < 2 ^ (t.m + 1) * 2 ^ e := by positivity
                                          linarith)
    obtain ⟨k2, hk2⟩ := exists_num r2 (by linarith)
    have hu := Nsimd.Props.Ieee.ulp_pos t
    have hrq := Nsimd.Props.Ieee.rq_nonneg (t := t) hx
    set K := Nsimd.Props.Ieee.rnd t.m (x / Nsimd.Props.Ieee.ulp t) with hK
    have dist : ∀ k, |(Nsimd.Fp16.mag t.m k : ℚ) - x / Nsimd.Props.Ieee.ulp t| * Nsimd.Props.Ieee.ulp t =
        |num t.m (emin t) k - x| := by
      intro k
      rw [show num t.m (emin t) k - x = (Nsimd.Fp16.mag t.m k - x / Nsimd.Props.Ieee.ulp t) *
        Nsimd.Props.Ieee.ulp t by rw [sub_mul, div_mul_cancel₀ _ hu.ne']; rfl, abs_mul, abs_of_pos hu]
    have hrq' : rq t x = num t.m (emin t) K := hrq
    have hev : K % 2 = 0 := by
      have tie : ∀ k, |num t.m (emin t) K - x| = |num t.m (emin t) k - x| → k ≠ K → K % 2 = 0 := by
        intro k hd hne
        have := (Nsimd.Props.Ieee.rnd_nearest t.m (x := x / Nsimd.Props.Ieee.ulp t) (div_nonneg hx hu.le) k).2 (by
          rw [← dist, ← dist] at hd
          exact mul_right_cancel₀ hu.ne' hd)
        exact this.resolve_left hne
      rcases hcase with hc | hc
      · refine tie k2 ?_ ?_
        · rw [← hrq', ← hk2, hc, abs_sub_comm]
          congr 1; ring
        · rintro rfl; rw [← hk2] at hrq'; linarith
      · refine tie k1 ?_ ?_
        · rw [← hrq', ← hk1, hc, abs_sub_comm]
          congr 1; ring
        · rintro rfl; rw [← hk1] at hrq'; linarith
    obtain ⟨μ, e', he', p1, p2, -, p4⟩ := num_parts (M := t.m) (emin := emin t) K
    have p4 := p4 1 (by cases t <;> decide)
    rw [pow_one, show K / 2 * 2 = K by omega, p1] at p4
    have hpe' := two_zpow_pos e'
    have p5 : (μ : ℚ) = (μ / 2 * 2 : Nat) := mul_right_cancel₀ hpe'.ne' p4
    have p2' : (μ : ℚ) < 2 ^ (t.m + 1) := by exact_mod_cast p2
    have hlt : (2 : ℚ) ^ (t.m + 1) * 2 ^ e < 2 ^ (t.m + 1) * 2 ^ e' := by
      calc (2 : ℚ) ^ (t.m + 1) * 2 ^ e ≤ rq t x := by linarith
        _ = μ * 2 ^ e' := by rw [hrq', p1]
        _ < _ := by gcongr
    have := zpow_lt_iff.mp (lt_of_mul_lt_mul_left hlt (by positivity))
    refine Mult.le (f := e' + 1) ⟨((μ / 2 : Nat) : ℤ), ?_⟩ (by omega)
    rw [hrq', p1, p5, zpow_add_one₀ (by norm_num), Int.cast_natCast, Nat.cast_mul]
    push_cast; ring
  intro x e he hm h1 h2 hne
  rcases le_total 0 x with hx | hx
  · exact pos x e hx he hm h1 h2 hne
  · have := pos (-x) e (by linarith) he hm.neg (by rwa [abs_neg]) (by rwa [abs_neg]) (by
      rw [Nsimd.Props.Ieee.rq_neg]; intro h; exact hne (by linarith))
    rw [Nsimd.Props.Ieee.rq_neg] at this
    have := this.neg
    rwa [neg_neg] at this

end ieee

/-! ### A quotient of a number by a normal number -/

variable {M : Nat} {emin : ℤ} {rnd : ℚ → ℚ} {n d : ℚ} {f : ℤ}

/-- What the code chooses as quotient. Proof helper, not code of the repo. -/
def sel (rnd : ℚ → ℚ) (d R q0 : ℚ) : ℚ :=
  if R < d then q0 else if R < 2 * d then 1 else if rnd R < rnd (3 * d) then 2 else q0

/-- The number that the code truncates. Proof helper, not code of the repo. -/
def guess (M : Nat) (emin : ℤ) (rnd : ℚ → ℚ) (d R : ℚ) : ℚ :=
  rnd (toward0 M emin (rnd R) * toward0 M emin (rnd (1 / d)))

/-- The quotients of the code are exact. Proof helper, not code of the repo. -/
def Choice (M : Nat) (emin : ℤ) (rnd : ℚ → ℚ) (n d : ℚ) (prod : ℚ → ℚ → DD) (quot : DD → ℚ) : Prop :=
  ∀ R k, Inv (M + 1) emin rnd n d R k → 0 ≤ guess M emin rnd d R → ∃ q0,
    (q0 = (⌊guess M emin rnd d R⌋ : ℚ) ∨ Lsb (M + 1) (⌊guess M emin rnd d R⌋ : ℚ) q0) ∧
    quot (rnd R, R - rnd R) = sel rnd d R q0 ∧
    prod (sel rnd d R q0) (-d) = (rnd (sel rnd d R q0 * -d), sel rnd d R q0 * -d - rnd (sel rnd d R q0 * -d))

theorem Choice.steps (h : Nearest (M + 1) emin rnd) (hp : 8 ≤ M + 1) (hmin : emin ≤ -((M + 1 : Nat) : ℤ))
    (hodd : ∀ x, rnd (-x) = -rnd x) (D : Divisor (M + 1) emin d f)
    (hn : Rep (M + 1) emin n) (hnd : d ≤ n) (hmax : n < 2 ^ (3 - ((M + 1 : Nat) : ℤ) - emin)) {δ : ℚ}
    (hs0 : 0 < rnd (1 / d)) (hs : (1 - δ) / d ≤ toward0 M emin (rnd (1 / d))) (hδ : 0 ≤ δ)
    (hδ1 : 6 * (1 / 2 ^ (M + 1)) + δ ≤ 1 / 16) {prod : ℚ → ℚ → DD} {quot : DD → ℚ}
    (C : Choice M emin rnd n d prod quot) :
    Steps (M + 1) emin rnd n d (6 * (1 / 2 ^ (M + 1)) + δ) (fun r => reduce rnd prod d (quot r) r) := by
  intro R k I
  have hη0 : 0 ≤ 6 * (1 / 2 ^ (M + 1)) + δ := by positivity
  have A : Args (M + 1) emin rnd n d R (toward0 M emin (rnd R)) (toward0 M emin (rnd (1 / d))) δ f := {
    t0 := fun h0 => by rw [h0, h.zero, toward0, if_pos rfl]
    t1 := fun h0 => toward0_before (h.rep R) (I.rnd_pos h (by omega) D hn hnd h0)
    s0 := hs0
    s1 := toward0_before (h.rep _) hs0
    s2 := hs
    δ0 := hδ
    δ1 := hδ1
    big := fun hb => by
      have h4 : 4 * n < 2 ^ (5 - ((M + 1 : Nat) : ℤ) - emin) := by
        rw [show (5 - ((M + 1 : Nat) : ℤ) - emin) = 2 + (3 - ((M + 1 : Nat) : ℤ) - emin) by ring,
          zpow_add₀ (by norm_num)]
        norm_num at hmax ⊢
        linarith
      rw [pow_eq_zpow, pow_eq_zpow] at hb
      have := zpow_lt_iff.mp (hb.trans_lt h4)
      omega }
  obtain ⟨hz0, -, -⟩ := I.bounds h hp hmin D hn hnd A
  obtain ⟨q0, hq0, hsel, hprod⟩ := C R k I hz0
  have E : Est (M + 1) emin rnd d R (6 * (1 / 2 ^ (M + 1)) + δ) q0 := by
    rcases hq0 with rfl | hq0
    · exact I.est_floor h hp hmin D hn hnd A
    · exact I.est_lsb h hp hmin D hn hnd A hq0
  have Q := I.quot h hp (by omega) D hn hnd hη0 E (q := sel rnd d R q0) rfl
  obtain ⟨e, I'⟩ := I.advance h hp hodd D hn hnd hη0 hδ1 Q hprod
  refine ⟨_, Q, ?_, I'⟩
  simp only [hsel]
  exact e

/-- The loop computes the remainder. -/
theorem Choice.result (h : Nearest (M + 1) emin rnd) (hp : 9 ≤ M + 1) (hmin : emin ≤ -((M + 1 : Nat) : ℤ))
    (hodd : ∀ x, rnd (-x) = -rnd x) (D : Divisor (M + 1) emin d f)
    (hn : Rep (M + 1) emin n) (hnd : d ≤ n) (hmax : n < 2 ^ (3 - ((M + 1 : Nat) : ℤ) - emin))
    {prod : ℚ → ℚ → DD} {quot : DD → ℚ} (C : Choice M emin rnd n d prod quot) {i j : Nat} (hi : 1 ≤ i)
    (hr : (9 * (1 / 2 ^ (M + 1))) ^ i * n < 14 / 15 * d)
    (hj : j = i + 1 ∨ ((fun r => reduce rnd prod d (quot r) r)^[j] (n, 0)).1 < d) :
    (fun r => reduce rnd prod d (quot r) r)^[j] (n, 0) = (n - ⌊n / d⌋ * d, 0) := by
  have hd := D.pos
  have hpp : (512 : ℚ) ≤ 2 ^ (M + 1) := by
    calc (512 : ℚ) = 2 ^ 9 := by norm_num
      _ ≤ 2 ^ (M + 1) := pow_le_pow_right₀ (by norm_num) hp
  have hε : (1 : ℚ) / 2 ^ (M + 1) ≤ 1 / 512 := one_div_le_one_div_of_le (by norm_num) hpp
  have hε0 : (0 : ℚ) < 1 / 2 ^ (M + 1) := by positivity
  rcases le_or_gt (2 ^ (M + 1) * 2 ^ emin * d) 1 with hc | hc
  · have hs0 : 0 < rnd (1 / d) := by
      have h1 : (2 : ℚ) ^ (((M + 1 : Nat) : ℤ) + emin) ≤ 1 / d := by
        rw [← pow_eq_zpow, le_div_iff₀ hd]; exact hc
      have := h.mono h1
      rw [h.fix (rep_pow (by omega) (by omega))] at this
      exact (two_zpow_pos _).trans_le this
    obtain ⟨-, hs⟩ := h.recip (by omega) hd (toward0_before (h.rep _) hs0) hc
    have S := C.steps h (by omega) hmin hodd D hn hnd hmax hs0 hs (by positivity) (by linarith)
    refine S.result h (by omega) hn D hnd (by positivity) (by linarith) ?_ hj
    rwa [show 6 * (1 / 2 ^ (M + 1)) + 3 * (1 / 2 ^ (M + 1)) = (9 : ℚ) * (1 / 2 ^ (M + 1)) by ring]
  · have hmax' : 2 ^ (M + 1) * 2 ^ emin * n < 8 := by
      have : (2 : ℚ) ^ (M + 1) * 2 ^ emin * 2 ^ (3 - ((M + 1 : Nat) : ℤ) - emin) = 8 := by
        rw [pow_eq_zpow, ← zpow_add₀ (by norm_num)]
        rw [show (((M + 1 : Nat) : ℤ) + emin + (3 - ((M + 1 : Nat) : ℤ) - emin)) = 3 by ring]; norm_num
      rw [← this]; gcongr
    have hn8 : n < 8 * d := by
      have hpos : (0 : ℚ) < 2 ^ (M + 1) * 2 ^ emin := by positivity
      have : 2 ^ (M + 1) * 2 ^ emin * n < 2 ^ (M + 1) * 2 ^ emin * (8 * d) := by linarith
      exact lt_of_mul_lt_mul_left this hpos.le
    have hδ : 2 ^ emin * d ≤ 8 * (1 / 2 ^ (M + 1)) := by
      have : 2 ^ emin * d * 2 ^ (M + 1) ≤ 8 := by
        have : 2 ^ (M + 1) * 2 ^ emin * d ≤ 2 ^ (M + 1) * 2 ^ emin * n := by gcongr
        linarith
      rw [mul_one_div, le_div_iff₀ (by positivity)]; exact this
    have hs0 : 0 < rnd (1 / d) := by
      have h1 : (2 : ℚ) ^ emin ≤ 1 / d := by rw [le_div_iff₀ hd]; linarith
      have := h.mono h1
      rw [h.fix (rep_pow (by omega) le_rfl)] at this
      exact (two_zpow_pos _).trans_le this
    obtain ⟨-, hs⟩ := h.recip_sub (by omega) hd (toward0_before (h.rep _) hs0) hc.le (by linarith)
    have hδ0 : (0 : ℚ) ≤ 3 / 2 * 2 ^ emin * d := by positivity
    have S := C.steps h (by omega) hmin hodd D hn hnd hmax hs0 hs hδ0 (by linarith)
    refine S.result h (by omega) hn D hnd (by positivity) (by linarith) ?_ hj
    have h1 : 6 * (1 / 2 ^ (M + 1)) + 3 / 2 * 2 ^ emin * d ≤ 1 / 16 := by linarith
    have h2 : (6 * (1 / 2 ^ (M + 1)) + 3 / 2 * 2 ^ emin * d) ^ i ≤ 6 * (1 / 2 ^ (M + 1)) + 3 / 2 * 2 ^ emin * d :=
      pow_le_of_le_one (by positivity) (by linarith) (by omega)
    calc _ ≤ (6 * (1 / 2 ^ (M + 1)) + 3 / 2 * 2 ^ emin * d) * n := by gcongr; exact hd.le.trans hnd
      _ ≤ 1 / 16 * n := by gcongr; exact hd.le.trans hnd
      _ < _ := by linarith

/-! ### The quotients of the code -/

variable {R k : ℚ}

theorem Divisor.rep (hM : 1 ≤ M + 1) (D : Divisor (M + 1) emin d f) : Rep (M + 1) emin d :=
  rep_of_mult hM D.hf D.hm (by rw [abs_of_pos D.pos]; exact D.hi.le)

theorem Divisor.rep_two (hM : 1 ≤ M + 1) (D : Divisor (M + 1) emin d f) : Rep (M + 1) emin (2 * d) := by
  have hd := D.pos
  have hf1 : (2 : ℚ) ^ (f + 1) = 2 * 2 ^ f := by rw [zpow_add_one₀ (by norm_num)]; ring
  have hm : Mult (f + 1) (2 * d) := by
    obtain ⟨m, hm⟩ := D.hm
    exact ⟨m, by rw [hf1, hm]; ring⟩
  refine rep_of_mult hM (by have := D.hf; omega) hm ?_
  rw [abs_of_pos (by linarith), hf1]; linarith [D.hi]

theorem Divisor.of_rep (hd : Rep (M + 1) emin d) (h : 2 ^ M * 2 ^ emin ≤ d) : ∃ f, Divisor (M + 1) emin d f := by
  have h0 : 0 < d := lt_of_lt_of_le (by positivity) h
  obtain ⟨e, he, hm, hlt, hc⟩ := rep_canon hd
  rw [abs_of_pos h0] at hlt hc
  refine ⟨e, he, hm, ?_, hlt⟩
  rcases hc with rfl | hc
  · rw [pow_succ]; linarith
  · rw [zpow_sub_one₀ (by norm_num)] at hc; linarith

/-- The comparisons of the code. -/
theorem Inv.sel_code (h : Nearest (M + 1) emin rnd) (ht : TiesEven (M + 1) emin rnd) (hM : 2 ≤ M + 1)
    (D : Divisor (M + 1) emin d f) (hn : Rep (M + 1) emin n) (hnd : d ≤ n) (I : Inv (M + 1) emin rnd n d R k) (q0 : ℚ) :
    (if rnd R < rnd (2 * d) ∧ d ≤ rnd R then 1 else if rnd R < rnd (3 * d) ∧ d ≤ rnd R then 2 else q0) =
      sel rnd d R q0 := by
  rw [h.fix (D.rep_two (by omega)), sel]
  have hle : d ≤ rnd R ↔ ¬ R < d := by rw [← I.lt_iff h hM D hn hnd, not_lt]
  simp only [I.lt_two_iff h ht hM D hn hnd, hle]
  by_cases h1 : R < d
  · simp [h1]
  · simp [h1]

/-- The comparisons of `xfmod`. -/
theorem Inv.sel_code64 (h : Nearest (M + 1) emin rnd) (ht : TiesEven (M + 1) emin rnd) (hM : 2 ≤ M + 1)
    (D : Divisor (M + 1) emin d f) (hn : Rep (M + 1) emin n) (hnd : d ≤ n) (I : Inv (M + 1) emin rnd n d R k) (q0 : ℚ) :
    (if rnd R = d then (if 0 ≤ R - rnd R then 1 else 0) else
      if rnd R < rnd (2 * d) ∧ d < rnd R then 1 else if rnd R < rnd (3 * d) ∧ d < rnd R then 2 else q0) =
      sel rnd d R q0 := by
  have hd := D.pos
  by_cases hc : rnd R = d
  · have hR := I.eq_of_rnd h hM D hn hnd hc
    rw [if_pos hc, hc, hR, sub_self, if_pos le_rfl, sel, if_neg (lt_irrefl _), if_pos (by linarith)]
  · rw [if_neg hc, ← I.sel_code h ht hM D hn hnd q0]
    have : d < rnd R ↔ d ≤ rnd R := ⟨le_of_lt, fun h => lt_of_le_of_ne h (Ne.symm hc)⟩
    simp only [this]

/-- The quotient has an even significand, or it is small. Proof helper, not code of the repo. -/
def EvenSig (p : Nat) (q : ℚ) : Prop := 2 * q < 2 ^ p ∨ ∃ e : ℤ, Mult (e + 1) q ∧ q < 2 ^ p * 2 ^ e

theorem sel_cases (P : ℚ → Prop) {q0 : ℚ} (h0 : P q0) (h1 : P 1) (h2 : P 2) : P (sel rnd d R q0) := by
  rw [sel]; split_ifs <;> assumption

/-- An integer of the format. Proof helper, not code of the repo. -/
structure IsInt (p : Nat) (emin : ℤ) (q : ℚ) : Prop where
  int : Mult 0 q
  nonneg : 0 ≤ q
  rep : Rep p emin q

theorem IsInt.sel (hM : 2 ≤ M + 1) (hme : emin ≤ 0) {q0 : ℚ} (h : IsInt (M + 1) emin q0) :
    IsInt (M + 1) emin (sel rnd d R q0) :=
  sel_cases _ h ⟨⟨1, by simp⟩, zero_le_one, by simpa using rep_nat (z := 1) hM hme (by norm_num)⟩
    ⟨⟨2, by simp⟩, by norm_num, by simpa using rep_nat (z := 2) hM hme (by norm_num)⟩

theorem IsInt.floor (hM : 1 ≤ M + 1) (hme : emin ≤ 0) {z : ℚ} (hz : Rep (M + 1) emin z) (h0 : 0 ≤ z) :
    IsInt (M + 1) emin (⌊z⌋ : ℚ) :=
  ⟨⟨⌊z⌋, by simp⟩, by exact_mod_cast Int.floor_nonneg.mpr h0, rep_floor hM hme hz h0⟩

theorem IsInt.lsb (hM : 1 ≤ M + 1) (hme : emin ≤ 0) {z q : ℚ} (hz : IsInt (M + 1) emin z) (h : Lsb (M + 1) z q) :
    IsInt (M + 1) emin q ∧ EvenSig (M + 1) q := by
  rcases h with ⟨rfl, h⟩ | ⟨e, he, hm, hlo, hhi, hle, hge⟩
  · exact ⟨hz, .inl h⟩
  · have h0 : 0 ≤ q := by
      have : (0 : ℚ) < 2 ^ (M + 1) * 2 ^ e := by positivity
      linarith
    exact ⟨⟨hm.le (by omega), h0, rep_of_mult (e := e) hM (by omega) (hm.le (by omega)) (by
      rw [abs_of_nonneg h0]; exact hhi.le)⟩, .inr ⟨e, hm, hhi⟩⟩

/-- Dekker's product of an integer and a normal number. -/
theorem Nearest.upper_mul (h : Nearest (M + 1) emin rnd) {b : Nat} (h1 : M + 1 ≤ 2 * b) (h2 : 2 * b ≤ M + 2)
    (h3 : b + 3 ≤ M + 1) (hmin : emin ≤ -((M + 1 : Nat) : ℤ)) (D : Divisor (M + 1) emin d f) {q : ℚ}
    (Q : IsInt (M + 1) emin q) (hev : 2 * b = M + 1 ∨ EvenSig (M + 1) q) :
    NoFma.mul11 rnd (upper M emin b) q (-d) = (rnd (q * -d), q * -d - rnd (q * -d)) := by
  have hd := D.pos
  rcases Q.nonneg.eq_or_lt with h0 | h0
  · have hu : upper M emin b 0 = 0 := by
      have e0 : pat M emin 0 = 0 := by
        have := pat_num (M := M) (emin := emin) 0
        rwa [num_zero] at this
      simp only [upper, lt_irrefl, if_false, abs_zero, e0, Nat.zero_div, Nat.zero_mul, num_zero]
    rw [← h0]
    simp only [NoFma.mul11, addN, mul, sub, add, hu, sub_self, zero_mul, h.zero, neg_zero, add_zero]
  · have hq1 : 1 ≤ q := by
      obtain ⟨j, hj⟩ := Q.int
      rw [zpow_zero, mul_one] at hj
      rw [hj] at h0 ⊢
      have : 0 < j := by exact_mod_cast h0
      exact_mod_cast this
    obtain ⟨X, e, hX, he⟩ := upper_splits (q := b) (by omega) Q.rep (by
      rw [abs_of_pos h0]
      refine le_trans ?_ hq1
      rw [pow_eq_zpow, show (1 : ℚ) = 2 ^ (0 : ℤ) by norm_num, zpow_le_iff]; omega)
    obtain ⟨Y, g, hY, hg⟩ := upper_splits (q := b) (by omega) (rep_neg (D.rep (by omega))) (by
      rw [abs_neg, abs_of_pos hd]
      have hlo := D.lo
      have : (2 : ℚ) ^ M * 2 ^ emin ≤ 2 ^ M * 2 ^ f := by
        gcongr
        · norm_num
        · exact D.hf
      rw [pow_succ] at hlo
      linarith)
    refine h.dekker_int h1 h2 h3 (by omega) hX hY hg Q.int ?_
    rcases hev with hev | hev
    · exact .inl hev
    right
    have hpe := two_zpow_pos e
    have hlo : (2 : ℚ) ^ M * 2 ^ e ≤ q := by
      have : (2 : ℚ) ^ M ≤ |(X : ℚ)| := by exact_mod_cast hX.2.1
      have e1 : q = |(X : ℚ)| * 2 ^ e := by
        rw [← abs_of_pos h0, hX.1, abs_mul, abs_of_pos hpe]
      rw [e1]; gcongr
    rcases hev with hev | ⟨e', hm, hlt⟩
    · have : (2 : ℚ) ^ (M + 1) * 2 ^ e < 2 ^ (M + 1) * 2 ^ (0 : ℤ) := by
        rw [zpow_zero, mul_one, pow_succ] at *; linarith
      have := zpow_lt_iff.mp (lt_of_mul_lt_mul_left this (by positivity))
      exact Q.int.le (by omega)
    · have : (2 : ℚ) ^ M * 2 ^ e < 2 ^ M * 2 ^ (e' + 1) := by
        rw [zpow_add_one₀ (by norm_num)]
        rw [pow_succ] at hlt
        linarith
      have := zpow_lt_iff.mp (lt_of_mul_lt_mul_left this (by positivity))
      exact hm.le (by omega)

/-- The quotient of `xfmod`. -/
theorem choice64 (h : Nearest 53 (-1074) rnd) (ht : TiesEven 53 (-1074) rnd) (junk : ℚ → ℤ)
    (D : Divisor 53 (-1074) d f) (hn : Rep 53 (-1074) n) (hnd : d ≤ n) :
    Choice 52 (-1074) rnd n d (Fmod.ddmul rnd)
      (Fmod.quot64 rnd junk d (toward0 52 (-1074) (rec1 rnd d))) := by
  intro R k I h0
  have hz := h.ptrunc_floor (by norm_num) junk (h.rep _) h0
  have J := IsInt.floor (M := 52) (by norm_num) (by norm_num) (h.rep _) h0
  have L := removelsb_lsb (M := 52) (by norm_num) (by norm_num : (-1074 : ℤ) < 0) J.rep J.nonneg J.int
  obtain ⟨J', ev⟩ := J.lsb (by norm_num) (by norm_num) L
  refine ⟨_, .inr L, ?_, ?_⟩
  · rw [← I.sel_code64 (M := 52) h ht (by norm_num) D hn hnd, ← hz]
    rfl
  · exact h.upper_mul (M := 52) (by norm_num) (by norm_num) (by norm_num) (by norm_num) D
      (J'.sel (by norm_num) (by norm_num)) (.inr (sel_cases _ ev (.inl (by norm_num)) (.inl (by norm_num))))

/-- The quotient of `xfmodf`. -/
theorem choice32 (h : Nearest 24 (-149) rnd) (ht : TiesEven 24 (-149) rnd) (junk : ℚ → ℤ)
    (D : Divisor 24 (-149) d f) (hn : Rep 24 (-149) n) (hnd : d ≤ n) :
    Choice 23 (-149) rnd n d (Fmod.dfmul rnd)
      (Fmod.quot32 rnd junk d (toward0 23 (-149) (rec1 rnd d))) := by
  intro R k I h0
  have hz := h.ptruncf_floor (by norm_num) junk (h.rep _) h0
  have J := IsInt.floor (M := 23) (by norm_num) (by norm_num) (h.rep _) h0
  refine ⟨_, .inl rfl, ?_, ?_⟩
  · rw [← I.sel_code (M := 23) h ht (by norm_num) D hn hnd]
    rw [show (⌊guess 23 (-149) rnd d R⌋ : ℚ) = _ from hz.symm]
    rfl
  · exact h.upper_mul (M := 23) (by norm_num) (by norm_num) (by norm_num) (by norm_num) D
      (J.sel (by norm_num) (by norm_num)) (.inl (by norm_num))

/-- The quotient of a lane of the SIMD `xfmod`. -/
theorem choiceV64 (h : Nearest 53 (-1074) rnd) (ht : TiesEven 53 (-1074) rnd) {trunc : ℚ → ℚ}
    (htr : ∀ x, Rep 53 (-1074) x → 0 ≤ x → trunc x = ⌊x⌋) (fma : Bool)
    (D : Divisor 53 (-1074) d f) (hn : Rep 53 (-1074) n) (hnd : d ≤ n) :
    Choice 52 (-1074) rnd n d (if fma then Fma.mul11 rnd else Fmod.ddmul rnd)
      (Fmod.quotV64 rnd trunc fma d (toward0 52 (-1074) (rec1 rnd d))) := by
  intro R k I h0
  have hz := htr _ (h.rep _) h0
  have J := IsInt.floor (M := 52) (by norm_num) (by norm_num) (h.rep _) h0
  have e2 : rnd (d + d) = rnd (2 * d) := by rw [two_mul]
  cases fma
  · have L := removelsb_lsb (M := 52) (by norm_num) (by norm_num : (-1074 : ℤ) < 0) J.rep J.nonneg J.int
    obtain ⟨J', ev⟩ := J.lsb (by norm_num) (by norm_num) L
    refine ⟨_, .inr L, ?_, ?_⟩
    · rw [← I.sel_code (M := 52) h ht (by norm_num) D hn hnd, ← e2, ← hz]
      rfl
    · exact h.upper_mul (M := 52) (by norm_num) (by norm_num) (by norm_num) (by norm_num) D
        (J'.sel (by norm_num) (by norm_num)) (.inr (sel_cases _ ev (.inl (by norm_num)) (.inl (by norm_num))))
  · refine ⟨_, .inl rfl, ?_, ?_⟩
    · rw [← I.sel_code (M := 52) h ht (by norm_num) D hn hnd, ← e2]
      rw [show (⌊guess 52 (-1074) rnd d R⌋ : ℚ) = _ from hz.symm]
      rfl
    · have J' := J.sel (rnd := rnd) (d := d) (R := R) (by norm_num) (by norm_num)
      exact h.fma_int (by norm_num) J'.rep J'.int D.hf D.hm.neg (by rw [abs_neg, abs_of_pos D.pos]; exact D.hi)

/-- The quotient of a lane of the SIMD `xfmodf`. -/
theorem choiceV32 (h : Nearest 24 (-149) rnd) (ht : TiesEven 24 (-149) rnd) {trunc : ℚ → ℚ}
    (htr : ∀ x, Rep 24 (-149) x → 0 ≤ x → trunc x = ⌊x⌋) (fma : Bool)
    (D : Divisor 24 (-149) d f) (hn : Rep 24 (-149) n) (hnd : d ≤ n) :
    Choice 23 (-149) rnd n d (if fma then Fma.mul11 rnd else Fmod.dfmul rnd)
      (Fmod.quotV32 rnd trunc d (toward0 23 (-149) (rec1 rnd d))) := by
  intro R k I h0
  have hz := htr _ (h.rep _) h0
  have J := IsInt.floor (M := 23) (by norm_num) (by norm_num) (h.rep _) h0
  have J' := J.sel (rnd := rnd) (d := d) (R := R) (by norm_num) (by norm_num)
  have htr' : trunc (sel rnd d R (⌊guess 23 (-149) rnd d R⌋ : ℚ)) = sel rnd d R (⌊guess 23 (-149) rnd d R⌋ : ℚ) := by
    obtain ⟨j, hj⟩ := J'.int
    rw [zpow_zero, mul_one] at hj
    rw [guess, htr _ J'.rep J'.nonneg, hj, Int.floor_intCast]
  refine ⟨_, .inl rfl, ?_, ?_⟩
  · rw [← htr', ← I.sel_code (M := 23) h ht (by norm_num) D hn hnd]
    rw [show (⌊guess 23 (-149) rnd d R⌋ : ℚ) = _ from hz.symm]
    rfl
  · cases fma
    · exact h.upper_mul (M := 23) (by norm_num) (by norm_num) (by norm_num) (by norm_num) D J' (.inl (by norm_num))
    · exact h.fma_int (by norm_num) J'.rep J'.int D.hf D.hm.neg (by rw [abs_neg, abs_of_pos D.pos]; exact D.hi)

/-! ### Scaling and signs -/

theorem rep_abs {x : ℚ} (hx : Rep (M + 1) emin x) : Rep (M + 1) emin |x| := by
  rcases abs_choice x with h | h <;> rw [h]
  · exact hx
  · exact rep_neg hx

theorem rep_scale (hM : 1 ≤ M + 1) (j : Nat) {x : ℚ} (hx : Rep (M + 1) emin x) : Rep (M + 1) emin (x * 2 ^ j) := by
  obtain ⟨e, he, hm, hlt⟩ := rep_exp hx
  refine rep_of_mult (e := e + j) hM (by omega) ?_ ?_
  · obtain ⟨a, ha⟩ := hm
    exact ⟨a, by rw [ha, zpow_add₀ (by norm_num), zpow_natCast]; ring⟩
  · rw [abs_mul, abs_of_pos (by positivity : (0 : ℚ) < 2 ^ j), zpow_add₀ (by norm_num), zpow_natCast, ← mul_assoc]
    gcongr

/-- The scaled operands. -/
theorem prescale_spec (h : Nearest (M + 1) emin rnd) {c : ℚ} (hc : c = 2 ^ M * 2 ^ emin) {j : Nat} (hj : M ≤ j)
    {x y : ℚ} (hx : Rep (M + 1) emin x) (hy : Rep (M + 1) emin y) (hy0 : y ≠ 0) :
    ∃ i : Nat, Fmod.prescale rnd c j x y = (|x| * 2 ^ i, |y| * 2 ^ i, 1 / 2 ^ i) ∧ (∃ f, Divisor (M + 1) emin (|y| * 2 ^ i) f) ∧
      Rep (M + 1) emin (|x| * 2 ^ i) ∧ (i = 0 ∨ i = j ∧ |y| < c) := by
  rw [Fmod.prescale]
  have hpe := two_zpow_pos emin
  have hya := rep_abs hy
  have hxa := rep_abs hx
  split
  · rename_i hlt
    have r1 := rep_scale (by omega) j hxa
    have r2 := rep_scale (by omega) j hya
    refine ⟨j, by simp only [mul]; rw [h.fix r1, h.fix r2], Divisor.of_rep r2 ?_, r1, .inr ⟨rfl, hlt⟩⟩
    have h1 : (2 : ℚ) ^ emin ≤ |y| := by
      obtain ⟨e, he, ⟨a, ha⟩, -⟩ := rep_exp hya
      have hpe' := two_zpow_pos e
      have h0 : 0 < |y| := abs_pos.mpr hy0
      have : (2 : ℚ) ^ emin ≤ 2 ^ e := zpow_le_iff.mpr he
      rw [ha] at h0 ⊢
      have : (0 : ℚ) < a := pos_of_mul_pos_left h0 hpe'.le
      have : 0 < a := by exact_mod_cast this
      have : (1 : ℚ) ≤ a := by exact_mod_cast this
      nlinarith
    have h2 : (2 : ℚ) ^ M ≤ 2 ^ j := pow_le_pow_right₀ (by norm_num) hj
    calc (2 : ℚ) ^ M * 2 ^ emin ≤ 2 ^ j * |y| := by gcongr
      _ = _ := by ring
  · rename_i hge
    rw [not_lt, hc] at hge
    refine ⟨0, by simp, ?_, by simpa using hxa, .inl rfl⟩
    rw [pow_zero, mul_one]
    exact Divisor.of_rep hya hge

/-- The remainder of two numbers of the format is in the format. -/
theorem rep_remainder (hM : 1 ≤ M + 1) {a b : ℚ} (ha : Rep (M + 1) emin a) (hb : Rep (M + 1) emin b) (hb0 : 0 < b)
    (hab : b ≤ a) {z : ℤ} (h0 : 0 ≤ a - z * b) (h1 : a - z * b < b) : Rep (M + 1) emin (a - z * b) := by
  obtain ⟨e, he, hm, hlt, hc⟩ := rep_canon hb
  rw [abs_of_pos hb0] at hlt hc
  have hma : Mult e a := by
    rcases hc with rfl | hc
    · obtain ⟨e', he', hm', -⟩ := rep_exp ha
      exact hm'.le he'
    · exact mult_of_ge ha (by rw [abs_of_pos (by linarith)]; linarith)
  refine rep_of_mult hM he (hma.sub ?_) (by rw [abs_of_nonneg h0]; linarith)
  have : Mult 0 (z : ℚ) := ⟨z, by simp⟩
  have := this.mul hm
  rwa [zero_add] at this

/-- The end of the functions. -/
theorem finish_spec (h : Nearest (M + 1) emin rnd) {x y v : ℚ} {i : Nat} {r : DD}
    (hx : Rep (M + 1) emin x) (hy : Rep (M + 1) emin y) (hy0 : y ≠ 0)
    (hr : |y| * 2 ^ i ≤ |x| * 2 ^ i → r = (|x| * 2 ^ i - ⌊|x| * 2 ^ i / (|y| * 2 ^ i)⌋ * (|y| * 2 ^ i), 0))
    (hv : v = mul rnd r.1 (1 / 2 ^ i) ∨ v = mul rnd (add rnd r.1 r.2) (1 / 2 ^ i)) :
    ∃ ret, Fmod.finish rnd x (|x| * 2 ^ i) (|y| * 2 ^ i) v r = some ret ∧
      (∃ z : ℤ, ret = x - z * y) ∧ |ret| < |y| ∧ 0 ≤ ret * x := by
  have hi : (0 : ℚ) < 2 ^ i := by positivity
  have hya : 0 < |y| := abs_pos.mpr hy0
  have hd0 : |y| * 2 ^ i ≠ 0 := by positivity
  rw [Fmod.finish]
  rw [if_neg hd0]
  refine ⟨_, rfl, ?_⟩
  by_cases hlt : |x| * 2 ^ i < |y| * 2 ^ i
  · rw [if_pos hlt]
    have : |x| < |y| := lt_of_mul_lt_mul_right hlt hi.le
    exact ⟨⟨0, by simp⟩, this, mul_self_nonneg x⟩
  rw [if_neg hlt]
  rw [not_lt] at hlt
  have hxy : |y| ≤ |x| := le_of_mul_le_mul_right hlt hi
  have hr := hr hlt
  have e1 : |x| * 2 ^ i / (|y| * 2 ^ i) = |x| / |y| := by field_simp
  rw [e1] at hr
  set z := ⌊|x| / |y|⌋
  have f1 : (z : ℚ) * |y| ≤ |x| := by rw [← le_div_iff₀ hya]; exact Int.floor_le _
  have f2 : |x| < (z + 1) * |y| := by rw [← div_lt_iff₀ hya]; exact Int.lt_floor_add_one _
  have rr := rep_remainder (by omega) (rep_abs hx) (rep_abs hy) hya hxy (z := z) (by linarith) (by linarith)
  have e2 : |x| * 2 ^ i - z * (|y| * 2 ^ i) = (|x| - z * |y|) * 2 ^ i := by ring
  rw [e2] at hr
  have e3 : add rnd r.1 r.2 = (|x| - z * |y|) * 2 ^ i := by
    rw [hr]; simp only [add, add_zero]; exact h.fix (rep_scale (by omega) i rr)
  have e4 : v = |x| - z * |y| := by
    have : mul rnd r.1 (1 / 2 ^ i) = |x| - z * |y| := by
      rw [hr]; simp only [mul]
      rw [mul_assoc, mul_one_div_cancel hi.ne', mul_one, h.fix rr]
    rcases hv with rfl | rfl
    · exact this
    · rw [e3]; rw [hr] at this; exact this
  have e5 : ¬ add rnd r.1 r.2 = |y| * 2 ^ i := by
    rw [e3]
    intro hcon
    have := mul_right_cancel₀ hi.ne' hcon
    linarith
  rw [if_neg e5, e4]
  have hlt2 : |x| - z * |y| < |y| := by linarith
  have hnn : 0 ≤ |x| - z * |y| := by linarith
  by_cases hx0 : x < 0
  · rw [if_pos hx0]
    refine ⟨?_, by rwa [abs_neg, abs_of_nonneg hnn], by nlinarith⟩
    rcases abs_choice y with hs | hs
    · refine ⟨-z, ?_⟩
      rw [abs_of_neg hx0, hs]; push_cast; ring
    · refine ⟨z, ?_⟩
      rw [abs_of_neg hx0, hs]; ring
  · rw [if_neg hx0]
    rw [not_lt] at hx0
    refine ⟨?_, by rwa [abs_of_nonneg hnn], mul_nonneg hnn hx0⟩
    rcases abs_choice y with hs | hs
    · refine ⟨z, ?_⟩
      rw [abs_of_nonneg hx0, hs]
    · refine ⟨-z, ?_⟩
      rw [abs_of_nonneg hx0, hs]; push_cast; ring

/-! ### Overflow -/

/-- The first quotient is near the exact one. -/
theorem Nearest.guess_large (h : Nearest (M + 1) emin rnd) (hM : 4 ≤ M + 1) (hme : emin ≤ 0) {a b : ℚ}
    (ha : Rep (M + 1) emin a) (hb : 2 ^ M * 2 ^ emin ≤ b) (hb1 : 2 ^ (M + 1) * 2 ^ emin * b ≤ 1)
    {E : Nat} (hab : 2 ^ (E + 1) * b ≤ a) :
    2 ^ E ≤ rnd (toward0 M emin a * toward0 M emin (rnd (1 / b))) := by
  have hb0 : 0 < b := lt_of_lt_of_le (by positivity) hb
  have hba : b ≤ a := by
    have : (1 : ℚ) ≤ 2 ^ (E + 1) := one_le_pow₀ (by norm_num)
    nlinarith
  have ha0 := hb0.trans_le hba
  have hpp : (16 : ℚ) ≤ 2 ^ (M + 1) := by
    calc (16 : ℚ) = 2 ^ 4 := by norm_num
      _ ≤ 2 ^ (M + 1) := pow_le_pow_right₀ (by norm_num) hM
  have hε : (1 : ℚ) / 2 ^ (M + 1) ≤ 1 / 16 := one_div_le_one_div_of_le (by norm_num) hpp
  have hε0 : (0 : ℚ) < 1 / 2 ^ (M + 1) := by positivity
  have h1 := (toward0_before ha ha0).close (by omega) ha (by rw [pow_succ]; linarith)
  have h2 : a * (1 - 2 * (1 / 2 ^ (M + 1))) ≤ toward0 M emin a := by
    have : a - toward0 M emin a ≤ 2 * a / 2 ^ (M + 1) := by rw [le_div_iff₀ (by positivity)]; linarith
    have e : 2 * a / 2 ^ (M + 1) = a * (2 * (1 / 2 ^ (M + 1))) := by ring
    rw [e] at this; linarith
  have hs0 : 0 < rnd (1 / b) := by
    have h1 : (2 : ℚ) ^ (((M + 1 : Nat) : ℤ) + emin) ≤ 1 / b := by
      rw [← pow_eq_zpow, le_div_iff₀ hb0]; exact hb1
    have := h.mono h1
    rw [h.fix (rep_pow (by omega) (by omega))] at this
    exact (two_zpow_pos _).trans_le this
  obtain ⟨-, h3⟩ := h.recip (by omega) hb0 (toward0_before (h.rep _) hs0) hb1
  have h4 : 2 ^ (E + 1) ≤ a / b := by rw [le_div_iff₀ hb0]; exact hab
  have h5 : (2 : ℚ) ^ E ≤ toward0 M emin a * toward0 M emin (rnd (1 / b)) := by
    generalize (1 : ℚ) / 2 ^ (M + 1) = ε at *
    calc (2 : ℚ) ^ E = 2 ^ (E + 1) * (1 / 2) := by rw [pow_succ]; ring
      _ ≤ a / b * ((1 - 2 * ε) * (1 - 3 * ε)) := by
        refine mul_le_mul h4 (by nlinarith) (by norm_num) (by positivity)
      _ = a * (1 - 2 * ε) * ((1 - 3 * ε) / b) := by ring
      _ ≤ _ := mul_le_mul h2 h3 (div_nonneg (by linarith) hb0.le)
        (le_trans (mul_nonneg ha0.le (by linarith)) h2)
  have := h.mono h5
  rwa [← zpow_natCast, h.fix (rep_pow (by omega) (by omega)), zpow_natCast] at this

end Nsimd.Float
