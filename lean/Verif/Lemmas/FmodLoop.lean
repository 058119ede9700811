import Verif.Lemmas.Fmod

/-!
Helper lemmas: the choice of the quotient in `fmod`, and the iteration of its steps.
-/

namespace Nsimd.Float
open Nsimd.Props.Round Nsimd.DoubleDouble

variable {p : Nat} {emin : ℤ} {rnd : ℚ → ℚ} {n d R k : ℚ} {f : ℤ}

/-- An estimate of the quotient. Proof helper, not code of the repo. -/
structure Est (p : Nat) (emin : ℤ) (rnd : ℚ → ℚ) (d R η q : ℚ) : Prop where
  int : Mult 0 q
  nonneg : 0 ≤ q
  rep : Rep p emin q
  le : q * d ≤ R
  contr : d ≤ R → R - q * d ≤ η * R + d
  low : 0 < q → R - q * d ≤ R / 8 → Rep p emin (R - rnd R - (q * d - rnd (q * d)))

theorem rep_nat (hp : 2 ≤ p) (hme : emin ≤ 0) {z : ℤ} (hz : |z| ≤ 4) : Rep p emin (z : ℚ) := by
  refine rep_of_mult (by omega) hme ⟨z, by simp⟩ ?_
  have : ((|z| : ℤ) : ℚ) ≤ ((4 : ℤ) : ℚ) := Int.cast_le.mpr hz
  push_cast at this
  rw [zpow_zero, mul_one]
  refine this.trans ?_
  calc (4 : ℚ) = 2 ^ 2 := by norm_num
    _ ≤ 2 ^ p := pow_le_pow_right₀ (by norm_num) hp

/-- The quotient chosen from an estimate and the comparisons of the remainder with `d`, `2d` and `3d`. -/
theorem Inv.quot (h : Nearest p emin rnd) (hp : 8 ≤ p) (hme : emin ≤ 0) (D : Divisor p emin d f)
    (hn : Rep p emin n) (hnd : d ≤ n) (I : Inv p emin rnd n d R k) {η q q0 : ℚ} (hη0 : 0 ≤ η)
    (E : Est p emin rnd d R η q0)
    (hq : q = if R < d then q0 else if R < 2 * d then 1 else if rnd R < rnd (3 * d) then 2 else q0) :
    Quot p emin rnd d R η q := by
  have hd := D.pos
  have hηR : 0 ≤ η * R := mul_nonneg hη0 I.nonneg
  have h256 : (256 : ℚ) ≤ 2 ^ p := by
    calc (256 : ℚ) = 2 ^ 8 := by norm_num
      _ ≤ 2 ^ p := pow_le_pow_right₀ (by norm_num) hp
  by_cases h1 : R < d
  · rw [if_pos h1] at hq
    rw [hq]
    exact ⟨E.int, E.nonneg, E.rep, E.le, E.contr, fun _ => by
      have := mul_nonneg E.nonneg hd.le
      linarith, E.low⟩
  rw [if_neg h1, not_lt] at *
  by_cases h2 : R < 2 * d
  · rw [if_pos h2] at hq
    rw [hq]
    refine ⟨⟨1, by simp⟩, zero_le_one, by simpa using rep_nat (z := 1) (by omega) hme (by norm_num), by linarith,
      fun _ => by linarith, fun _ => by linarith, fun _ hc => ?_⟩
    exact I.low_even h hp D hn hnd le_rfl ⟨1, by simp⟩ (by norm_num; linarith) (.inl rfl) zero_le_one (by linarith) hc
  rw [if_neg h2] at hq
  rw [not_lt] at h2
  by_cases h3 : rnd R < rnd (3 * d)
  · rw [if_pos h3] at hq
    have hR3 : R < 3 * d := by
      by_contra hc
      exact absurd (h.mono (not_lt.mp hc)) (not_le.mpr h3)
    rw [hq]
    refine ⟨⟨2, by simp⟩, by norm_num, by simpa using rep_nat (z := 2) (by omega) hme (by norm_num), h2,
      fun _ => by linarith, fun _ => by linarith, fun _ hc => ?_⟩
    exact I.low_even h hp D hn hnd le_rfl ⟨2, by simp⟩ (by norm_num; linarith) (.inl rfl) (by norm_num) h2 hc
  · rw [if_neg h3] at hq
    rw [hq]
    exact ⟨E.int, E.nonneg, E.rep, E.le, E.contr, fun _ => by linarith, E.low⟩

/-- The integral part of a number of the format is in the format. -/
theorem rep_floor (hp : 1 ≤ p) (hme : emin ≤ 0) {z : ℚ} (hz : Rep p emin z) (h0 : 0 ≤ z) :
    Rep p emin (⌊z⌋ : ℚ) := by
  obtain ⟨e, he, hm, hlt⟩ := rep_exp hz
  rcases le_total 0 e with h | h
  · have hi : Mult 0 z := hm.le h
    obtain ⟨j, hj⟩ := hi
    rw [zpow_zero, mul_one] at hj
    rw [hj, Int.floor_intCast, ← hj]; exact hz
  · refine rep_of_mult hp hme ⟨⌊z⌋, by simp⟩ ?_
    have h1 : (0 : ℚ) ≤ (⌊z⌋ : ℚ) := by exact_mod_cast Int.floor_nonneg.mpr h0
    rw [abs_of_nonneg h1]
    rw [abs_of_nonneg h0] at hlt
    have h2 := Int.floor_le z
    have h3 : (2 : ℚ) ^ p * 2 ^ e ≤ 2 ^ p * 2 ^ (0 : ℤ) := by
      gcongr
      norm_num
    linarith

/-- What the estimate uses of the remainder and the divisor: their neighbours toward zero. Proof helper, not code of
the repo. -/
structure Args (p : Nat) (emin : ℤ) (rnd : ℚ → ℚ) (n d R t s δ : ℚ) (f : ℤ) : Prop where
  t0 : R = 0 → t = 0
  t1 : 0 < R → Before p emin (rnd R) t
  s0 : 0 < rnd (1 / d)
  s1 : Before p emin (rnd (1 / d)) s
  s2 : (1 - δ) / d ≤ s
  δ0 : 0 ≤ δ
  δ1 : 6 * (1 / 2 ^ p) + δ ≤ 1 / 16
  big : 2 ^ p * (2 ^ p * 2 ^ f) ≤ 4 * n → emin ≤ 1 - 2 * p - f

theorem Inv.rnd_pos (h : Nearest p emin rnd) (hp : 2 ≤ p) (D : Divisor p emin d f) (hn : Rep p emin n) (hnd : d ≤ n)
    (I : Inv p emin rnd n d R k) (h0 : 0 < R) : 0 < rnd R := by
  obtain ⟨a, ha⟩ := I.mult0 hp D hn hnd
  have hpf := two_zpow_pos f
  have h1 : (2 : ℚ) ^ f ≤ R := by
    rw [ha] at h0 ⊢
    have : (0 : ℚ) < a := pos_of_mul_pos_left h0 hpf.le
    have : 0 < a := by exact_mod_cast this
    have : (1 : ℚ) ≤ a := by exact_mod_cast this
    nlinarith
  have := h.mono h1
  rw [h.fix (rep_pow (by omega) D.hf)] at this
  linarith

variable {t s δ : ℚ}

/-- Bounds of the estimate before it is made an integer. -/
theorem Inv.bounds (h : Nearest p emin rnd) (hp : 8 ≤ p) (hmin : emin ≤ -(p : ℤ)) (D : Divisor p emin d f)
    (hn : Rep p emin n) (hnd : d ≤ n) (I : Inv p emin rnd n d R k) (A : Args p emin rnd n d R t s δ f) :
    0 ≤ rnd (t * s) ∧ (rnd (t * s) ≤ 1 / 2 ∨ rnd (t * s) * d ≤ R) ∧
      (d ≤ R → R * (1 - (4 * (1 / 2 ^ p) + δ)) ≤ rnd (t * s) * d) := by
  have hp1 : 1 ≤ p := by omega
  have hd := D.pos
  have hs0 := A.s1.nonneg A.s0
  have hs1 := h.before_le hp1 A.s1 A.s0
  rcases I.nonneg.eq_or_lt with h0 | h0
  · rw [A.t0 h0.symm, zero_mul, h.zero]
    exact ⟨le_rfl, .inl (by norm_num), fun hR => by linarith⟩
  · have hx := I.rnd_pos h (by omega) D hn hnd h0
    have ht := A.t1 h0
    have ht0 := ht.nonneg hx
    refine ⟨by rw [← h.zero]; exact h.mono (mul_nonneg ht0 hs0),
      h.quot_le hp1 hmin hd ht0 hs0 (h.before_le hp1 ht hx) hs1, fun hR => ?_⟩
    have : (0 : ℚ) < 1 / 2 ^ p := by positivity
    have hpe : (2 : ℚ) ^ p * 2 ^ emin ≤ 2 ^ p * 2 ^ f := by
      gcongr
      · norm_num
      · exact D.hf
    exact h.quot_ge (by omega) hmin hd hR (by linarith [D.lo]) ht hs0 A.s2 A.δ0 (by linarith [A.δ1])

/-- The integral part of the estimate. -/
theorem Inv.est_floor (h : Nearest p emin rnd) (hp : 8 ≤ p) (hmin : emin ≤ -(p : ℤ)) (D : Divisor p emin d f)
    (hn : Rep p emin n) (hnd : d ≤ n) (I : Inv p emin rnd n d R k) (A : Args p emin rnd n d R t s δ f) :
    Est p emin rnd d R (6 * (1 / 2 ^ p) + δ) (⌊rnd (t * s)⌋ : ℚ) := by
  have hd := D.pos
  obtain ⟨hz0, hle, hge⟩ := I.bounds h hp hmin D hn hnd A
  have hme : emin ≤ 0 := by omega
  have hfl := Int.floor_le (rnd (t * s))
  have hfl2 := Int.lt_floor_add_one (rnd (t * s))
  have hq0 : (0 : ℚ) ≤ (⌊rnd (t * s)⌋ : ℚ) := by exact_mod_cast Int.floor_nonneg.mpr hz0
  have hqle : (⌊rnd (t * s)⌋ : ℚ) * d ≤ R := by
    rcases hle with hle | hle
    · have : ⌊rnd (t * s)⌋ = 0 := Int.floor_eq_zero_iff.mpr ⟨hz0, by linarith⟩
      rw [this]; simpa using I.nonneg
    · exact le_trans (by gcongr) hle
  have hε : (0 : ℚ) < 1 / 2 ^ p := by positivity
  refine ⟨⟨_, by rw [zpow_zero, mul_one]⟩, hq0, rep_floor (by omega) hme (h.rep _) hz0, hqle, fun hR => ?_,
    fun hpos hc => ?_⟩
  · have h1 := hge hR
    have h2 : rnd (t * s) * d - d ≤ (⌊rnd (t * s)⌋ : ℚ) * d := by nlinarith
    have hR0 := hd.trans_le hR
    nlinarith [mul_pos hR0 hε]
  · have hR0 : 0 < R := by
      have := mul_pos hpos hd
      linarith
    exact I.low_floor h hp hme D hn hnd (rep_floor (by omega) hme (h.rep _) hz0) ⟨_, by rw [zpow_zero, mul_one]⟩ hq0
      hqle hc (A.t1 hR0) A.s1 (fun z hz => by exact_mod_cast Int.le_floor.mpr hz) A.big

/-- `q` is `q0` without the last bit of its significand. Proof helper, not code of the repo. -/
def Lsb (p : Nat) (q0 q : ℚ) : Prop :=
  (q = q0 ∧ 2 * q0 < 2 ^ p) ∨
  ∃ e : ℤ, 0 ≤ e ∧ Mult (e + 1) q ∧ 2 ^ p * 2 ^ e ≤ 2 * q ∧ q < 2 ^ p * 2 ^ e ∧ q ≤ q0 ∧ q0 ≤ q + 2 ^ e

/-- The estimate with an even significand. -/
theorem Inv.est_lsb (h : Nearest p emin rnd) (hp : 8 ≤ p) (hmin : emin ≤ -(p : ℤ)) (D : Divisor p emin d f)
    (hn : Rep p emin n) (hnd : d ≤ n) (I : Inv p emin rnd n d R k) (A : Args p emin rnd n d R t s δ f) {q : ℚ}
    (hq : Lsb p (⌊rnd (t * s)⌋ : ℚ) q) : Est p emin rnd d R (6 * (1 / 2 ^ p) + δ) q := by
  have E := I.est_floor h hp hmin D hn hnd A
  rcases hq with ⟨rfl, -⟩ | ⟨e, he, hm, hlo, hhi, hle, hge⟩
  · exact E
  have hd := D.pos
  obtain ⟨hz0, hle', hgez⟩ := I.bounds h hp hmin D hn hnd A
  set q0 : ℚ := (⌊rnd (t * s)⌋ : ℚ)
  have hpe := two_zpow_pos e
  have hpp : (0 : ℚ) < 2 ^ p := by positivity
  have hq0 : 0 ≤ q := by
    have : (0 : ℚ) < 2 ^ p * 2 ^ e := by positivity
    linarith
  have hqd : q * d ≤ q0 * d := by gcongr
  have hε : (0 : ℚ) < 1 / 2 ^ p := by positivity
  refine ⟨hm.le (by omega), hq0, rep_of_mult (e := e) (by omega) (by omega) (hm.le (by omega)) (by
    rw [abs_of_nonneg hq0]; exact hhi.le), hqd.trans E.le, fun hR => ?_, fun hpos hc => ?_⟩
  · have hR0 := hd.trans_le hR
    have h1 := hgez hR
    have h2 : rnd (t * s) * d - d ≤ q0 * d := by
      have := Int.lt_floor_add_one (rnd (t * s))
      nlinarith
    -- the bit that was removed
    have h3 : (2 : ℚ) ^ e ≤ 2 * (1 / 2 ^ p) * q := by
      have : (2 : ℚ) ^ e ≤ 2 * q / 2 ^ p := by rw [le_div_iff₀ hpp]; linarith
      calc (2 : ℚ) ^ e ≤ 2 * q / 2 ^ p := this
        _ = _ := by ring
    have h4 : q0 * d ≤ q * d + 2 ^ e * d := by nlinarith
    have h5 : 2 ^ e * d ≤ 2 * (1 / 2 ^ p) * R := by
      calc 2 ^ e * d ≤ 2 * (1 / 2 ^ p) * q * d := by gcongr
        _ = 2 * (1 / 2 ^ p) * (q * d) := by ring
        _ ≤ _ := by gcongr; exact hqd.trans E.le
    nlinarith
  · refine I.low_even h hp D hn hnd (e := e + 1) (by omega) hm ?_ (.inr ?_) hq0 (hqd.trans E.le) hc
    · rw [zpow_add_one₀ (by norm_num)]; linarith
    · have : (2 : ℚ) ^ ((p : ℤ) - 2 + (e + 1)) = 2 ^ p * 2 ^ e / 2 := by
        rw [show (p : ℤ) - 2 + (e + 1) = (p : ℤ) + e - 1 by ring, zpow_sub_one₀ (by norm_num),
          zpow_add₀ (by norm_num), zpow_natCast]
        ring
      rw [this]; linarith

/-- The reciprocal toward zero of a divisor whose reciprocal is normal. -/
theorem Nearest.recip (h : Nearest p emin rnd) (hp : 2 ≤ p) (hd : 0 < d) (hs : Before p emin (rnd (1 / d)) s)
    (hn : 2 ^ p * 2 ^ emin * d ≤ 1) : 0 < rnd (1 / d) ∧ (1 - 3 * (1 / 2 ^ p)) / d ≤ s := by
  have hp1 : 1 ≤ p := by omega
  have hpp : (4 : ℚ) ≤ 2 ^ p := by
    calc (4 : ℚ) = 2 ^ 2 := by norm_num
      _ ≤ 2 ^ p := pow_le_pow_right₀ (by norm_num) hp
  have h1d : 0 < 1 / d := by positivity
  have hn' : 2 ^ p * 2 ^ emin ≤ 1 / d := by rwa [le_div_iff₀ hd]
  have h1 := h.rel hp1 (x := 1 / d) (by rw [abs_of_pos h1d]; linarith)
  rw [abs_of_pos h1d, show 1 / d / 2 ^ p = 1 / 2 ^ p * (1 / d) by ring] at h1
  have hε : (1 : ℚ) / 2 ^ p ≤ 1 / 4 := one_div_le_one_div_of_le (by norm_num) hpp
  have hε0 : (0 : ℚ) < 1 / 2 ^ p := by positivity
  have h2 : (1 - 1 / 2 ^ p) * (1 / d) ≤ rnd (1 / d) := by
    have := neg_abs_le (rnd (1 / d) - 1 / d)
    linarith
  have h3 : 2 ^ p * 2 ^ emin ≤ 2 * rnd (1 / d) := by nlinarith
  have h0 : 0 < rnd (1 / d) := by
    have : (0 : ℚ) < 2 ^ p * 2 ^ emin := by positivity
    linarith
  have h4 := hs.close hp1 (h.rep _) h3
  have h5 : rnd (1 / d) - s ≤ 2 * rnd (1 / d) / 2 ^ p := by rw [le_div_iff₀ (by positivity)]; linarith
  rw [show 2 * rnd (1 / d) / 2 ^ p = 2 * (1 / 2 ^ p) * rnd (1 / d) by ring] at h5
  refine ⟨h0, ?_⟩
  rw [show (1 - 3 * (1 / 2 ^ p)) / d = (1 - 3 * (1 / 2 ^ p)) * (1 / d) by ring]
  generalize (1 : ℚ) / 2 ^ p = ε at *
  generalize rnd (1 / d) = x at *
  generalize 1 / d = y at *
  nlinarith [mul_pos hε0 hε0, mul_pos (mul_pos hε0 hε0) h1d]

/-- The reciprocal toward zero of a divisor whose reciprocal is subnormal. -/
theorem Nearest.recip_sub (h : Nearest p emin rnd) (hp : 1 ≤ p) (hd : 0 < d) (hs : Before p emin (rnd (1 / d)) s)
    (hn : 1 ≤ 2 ^ p * 2 ^ emin * d) (hd1 : 2 ^ emin * d ≤ 1) :
    0 < rnd (1 / d) ∧ (1 - 3 / 2 * 2 ^ emin * d) / d ≤ s := by
  have h1d : 0 < 1 / d := by positivity
  have hpe := two_zpow_pos emin
  have hn' : 1 / d ≤ 2 ^ p * 2 ^ emin := by rwa [div_le_iff₀ hd]
  have hd1' : 2 ^ emin ≤ 1 / d := by rwa [le_div_iff₀ hd]
  have h1 := h.half_ulp hp le_rfl (x := 1 / d) (by rwa [abs_of_pos h1d])
  have h2 := h.mono hd1'
  rw [h.fix (rep_pow hp le_rfl)] at h2
  have hr : Rep p emin (2 ^ p * 2 ^ emin) :=
    rep_of_mult hp le_rfl ⟨2 ^ p, by push_cast; ring⟩ (by rw [abs_of_pos (by positivity)])
  have h3 := h.mono hn'
  rw [h.fix hr] at h3
  have hm : Mult emin (rnd (1 / d)) := by
    obtain ⟨e, he, hm, -⟩ := rep_exp (h.rep (1 / d))
    exact hm.le he
  have h4 := hs.max (rnd (1 / d) - 2 ^ emin) (rep_of_mult hp le_rfl (hm.sub ⟨1, by push_cast; ring⟩) (by
    rw [abs_of_nonneg (by linarith)]; linarith)) (by linarith)
  refine ⟨by linarith, ?_⟩
  have e : (1 - 3 / 2 * 2 ^ emin * d) / d = 1 / d - 3 / 2 * 2 ^ emin := by field_simp
  rw [e]
  have := le_abs_self (1 / d - rnd (1 / d))
  linarith

/-! ### The loop -/

/-- A step of the division, as the code does it. -/
theorem Inv.advance (h : Nearest p emin rnd) (hp : 8 ≤ p) (hodd : ∀ x, rnd (-x) = -rnd x) (D : Divisor p emin d f)
    (hn : Rep p emin n) (hnd : d ≤ n) (I : Inv p emin rnd n d R k) {η q : ℚ} (hη0 : 0 ≤ η) (hη : η ≤ 1 / 16)
    (Q : Quot p emin rnd d R η q) {prod : ℚ → ℚ → DD}
    (hprod : prod q (-d) = (rnd (q * -d), q * -d - rnd (q * -d))) :
    Fmod.reduce rnd prod d q (rnd R, R - rnd R) = (rnd (R - q * d), R - q * d - rnd (R - q * d)) ∧
      Inv p emin rnd n d (R - q * d) (k + q) := by
  have e := h.step_exact hp hodd D hn hnd I hη0 hη Q hprod
  refine ⟨e, I.step hp D hη Q ?_⟩
  have e2 : _ = R - q * d - rnd (R - q * d) := congrArg Prod.snd e
  rw [← e2]
  exact h.rep _

/-- `step` subtracts a multiple of the divisor. Proof helper, not code of the repo. -/
def Steps (p : Nat) (emin : ℤ) (rnd : ℚ → ℚ) (n d η : ℚ) (step : DD → DD) : Prop :=
  ∀ R k, Inv p emin rnd n d R k → ∃ q, Quot p emin rnd d R η q ∧
    step (rnd R, R - rnd R) = (rnd (R - q * d), R - q * d - rnd (R - q * d)) ∧ Inv p emin rnd n d (R - q * d) (k + q)

theorem Steps.iterate (h : Nearest p emin rnd) (hn : Rep p emin n) (h0 : 0 ≤ n) (D : Divisor p emin d f) {η : ℚ}
    (hη0 : 0 ≤ η) (hη : η ≤ 1 / 16) {step : DD → DD} (S : Steps p emin rnd n d η step) (j : Nat) :
    ∃ R k, step^[j] (n, 0) = (rnd R, R - rnd R) ∧ Inv p emin rnd n d R k ∧ (R < d ∨ R ≤ η ^ j * n + 16 / 15 * d) := by
  have hd := D.pos
  induction j with
  | zero =>
    refine ⟨n, 0, ?_, Inv.start h hn h0, .inr (by simp; linarith)⟩
    simp [h.fix hn]
  | succ j ih =>
    obtain ⟨R, k, e, I, hR⟩ := ih
    obtain ⟨q, Q, e', I'⟩ := S R k I
    refine ⟨R - q * d, k + q, by rw [Function.iterate_succ_apply', e, e'], I', ?_⟩
    rcases lt_or_ge R d with hc | hc
    · rw [Q.eq_zero D hc]; left; linarith
    · right
      have h1 := Q.contr hc
      have h2 : R ≤ η ^ j * n + 16 / 15 * d := hR.resolve_left (not_lt.mpr hc)
      have h3 : η * R ≤ η * (η ^ j * n + 16 / 15 * d) := by gcongr
      have h4 : η ^ (j + 1) * n = η * (η ^ j * n) := by ring
      rw [h4]
      nlinarith

/-- After enough steps the remainder is below the divisor. -/
theorem Steps.done (h : Nearest p emin rnd) (hn : Rep p emin n) (h0 : 0 ≤ n) (D : Divisor p emin d f) {η : ℚ}
    (hη0 : 0 ≤ η) (hη : η ≤ 1 / 16) {step : DD → DD} (S : Steps p emin rnd n d η step) (j : Nat)
    (hj : η ^ j * n < 14 / 15 * d) :
    ∃ R k, step^[j + 1] (n, 0) = (rnd R, R - rnd R) ∧ Inv p emin rnd n d R k ∧ R < d := by
  have hd := D.pos
  obtain ⟨R, k, e, I, hR⟩ := S.iterate h hn h0 D hη0 hη j
  obtain ⟨q, Q, e', I'⟩ := S R k I
  refine ⟨R - q * d, k + q, by rw [Function.iterate_succ_apply', e, e'], I', Q.near ?_⟩
  rcases hR with hR | hR <;> linarith

theorem loop_iterate (step : DD → DD) (d : ℚ) : ∀ (i : Nat) (r : DD), ∃ j, Fmod.loop step d i r = step^[j] r ∧
    (j = i ∨ (step^[j] r).1 < d) := by
  intro i
  induction i with
  | zero => exact fun r => ⟨0, rfl, .inl rfl⟩
  | succ i ih =>
    intro r
    rw [Fmod.loop]
    by_cases hc : (step r).1 < d
    · rw [if_pos hc]; exact ⟨1, rfl, .inr hc⟩
    · rw [if_neg hc]
      obtain ⟨j, e, hj⟩ := ih (step r)
      exact ⟨j + 1, e, hj.imp (by omega) id⟩

theorem vloop_iterate {L : Nat} (step : Fin L → DD → DD) (d : Fin L → ℚ) : ∀ (i : Nat) (r : Fin L → DD),
    ∃ j, (∀ l, Fmod.vloop step d i r l = (step l)^[j] (r l)) ∧ (j = i ∨ ∀ l, ((step l)^[j] (r l)).1 < d l) := by
  intro i
  induction i with
  | zero => exact fun r => ⟨0, fun _ => rfl, .inl rfl⟩
  | succ i ih =>
    intro r
    simp only [Fmod.vloop]
    by_cases hc : ∀ l, (step l (r l)).1 < d l
    · rw [if_pos hc]; exact ⟨1, fun _ => rfl, .inr hc⟩
    · rw [if_neg hc]
      obtain ⟨j, e, hj⟩ := ih fun l => step l (r l)
      exact ⟨j + 1, e, hj.imp (by omega) id⟩

theorem Inv.final (h : Nearest p emin rnd) (hp : 2 ≤ p) (D : Divisor p emin d f) (hn : Rep p emin n) (hnd : d ≤ n)
    (I : Inv p emin rnd n d R k) (hR : R < d) : (rnd R, R - rnd R) = (n - ⌊n / d⌋ * d, 0) := by
  have hd := D.pos
  rw [h.fix (I.rep_of_le hp D hn hnd (by linarith [D.hi])), sub_self]
  obtain ⟨j, hj⟩ := I.int
  rw [zpow_zero, mul_one] at hj
  have e := I.eq
  have h0 := I.nonneg
  have : ⌊n / d⌋ = j := by
    rw [Int.floor_eq_iff, le_div_iff₀ hd, div_lt_iff₀ hd, ← hj]
    constructor <;> nlinarith
  rw [this, ← hj, e]

/-- The result of an iteration that is long enough, or that stops because the remainder is below the divisor. -/
theorem Steps.result (h : Nearest p emin rnd) (hp : 2 ≤ p) (hn : Rep p emin n) (D : Divisor p emin d f) (hnd : d ≤ n)
    {η : ℚ} (hη0 : 0 ≤ η) (hη : η ≤ 1 / 16) {step : DD → DD} (S : Steps p emin rnd n d η step) {i j : Nat}
    (hj : η ^ i * n < 14 / 15 * d) (hc : j = i + 1 ∨ (step^[j] (n, 0)).1 < d) :
    step^[j] (n, 0) = (n - ⌊n / d⌋ * d, 0) := by
  have h0 : 0 ≤ n := D.pos.le.trans hnd
  rcases hc with rfl | hc
  · obtain ⟨R, k, e, I, hR⟩ := S.done h hn h0 D hη0 hη i hj
    rw [e]; exact I.final h hp D hn hnd hR
  · obtain ⟨R, k, e, I, -⟩ := S.iterate h hn h0 D hη0 hη j
    rw [e] at hc ⊢
    exact I.final h hp D hn hnd ((I.lt_iff h hp D hn hnd).mp hc)

end Nsimd.Float
