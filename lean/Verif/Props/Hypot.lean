import Verif.Lemmas.Hypot

/-!
# `hypot`

`p` digits, least exponent `emin` and largest exponent `emax`: 24, -149, 128 for f32 and 53, -1074, 1024 for f64.
-/

namespace Nsimd.Props.Hypot
open Nsimd.Hypot Nsimd.DoubleDouble Nsimd.Float Nsimd.Round Nsimd.Props.Round

variable {p : Nat} {emin emax : ℤ} {rnd sq : ℚ → ℚ}

/-- `w` is the distance of neighbouring floating-point numbers around the real number `h`. Spec, not code of the repo. -/
def IsUlp (p : Nat) (emin : ℤ) (h w : ℝ) : Prop :=
  ∃ e, emin ≤ e ∧ w = 2 ^ e ∧ h < 2 ^ p * 2 ^ e ∧ (e = emin ∨ 2 ^ p * 2 ^ e ≤ 2 * h)

theorem IsUlp.le {h w : ℝ} (hw : IsUlp p emin h w) : 2 ^ emin ≤ w ∧ 1 / 2 ^ p * h ≤ w ∧ 0 < w := by
  obtain ⟨e, he, rfl, hlt, -⟩ := hw
  refine ⟨zpow_le_zpow_right₀ (by norm_num) he, ?_, by positivity⟩
  have h2 : (0 : ℝ) < 1 / 2 ^ p := by positivity
  have h3 : (1 : ℝ) / 2 ^ p * (2 ^ p * 2 ^ e) = 2 ^ e := by field_simp
  exact (mul_le_mul_of_nonneg_left hlt.le h2.le).trans (le_of_eq h3)

/-- Every positive number has a distance `w`. -/
theorem exists_ulp (p : Nat) (emin : ℤ) {h : ℝ} (h0 : 0 < h) : ∃ w, IsUlp p emin h w := by
  obtain ⟨n, h1, h2⟩ := exists_mem_Ico_zpow h0 (by norm_num : (1 : ℝ) < 2)
  have hz : ∀ e : ℤ, (2 : ℝ) ^ p * 2 ^ e = 2 ^ ((p : ℤ) + e) := fun e => by
    rw [zpow_add₀ (by norm_num), zpow_natCast]
  rcases le_total emin (n + 1 - p) with he | he
  · refine ⟨_, n + 1 - p, he, rfl, ?_, Or.inr ?_⟩
    · rw [hz, show (p : ℤ) + (n + 1 - p) = n + 1 by ring]; exact h2
    · rw [hz, show (p : ℤ) + (n + 1 - p) = n + 1 by ring, zpow_add_one₀ (by norm_num)]; linarith
  · refine ⟨_, emin, le_rfl, rfl, ?_, Or.inl rfl⟩
    rw [hz]
    exact h2.trans_le (zpow_le_zpow_right₀ (by norm_num) (by omega))

theorem rep_absq {x : ℚ} (hx : Rep p emin x) : Rep p emin |x| := by
  rcases abs_choice x with h | h <;> rw [h]
  · exact hx
  · exact rep_neg hx

/-- The computation of `hypot_u35` before the last rounding. -/
theorem core_error (hp : 6 ≤ p) (hmin : emin ≤ -(2 * p : ℤ) - 3) (h : Nearest p emin rnd) (hq : Root p emin sq)
    (fused : Bool) {a b : ℚ} (ha : 0 ≤ a) (hb : 0 < b) (hab : a ≤ b) :
    |((b * sq (onePlusSquare rnd fused (rnd (a / b))) : ℚ) : ℝ) - Real.sqrt (a ^ 2 + b ^ 2)| ≤
      (9 / 4 * (1 / 2 ^ p) + 7 * (1 / 2 ^ p) * (1 / 2 ^ p)) * Real.sqrt (a ^ 2 + b ^ 2) := by
  have hp1 : 1 ≤ p := by omega
  have hu0 : (0 : ℝ) < 1 / 2 ^ p := by positivity
  have hu : (1 : ℝ) / 2 ^ p ≤ 1 / 64 := by
    have : (2 : ℝ) ^ 6 ≤ 2 ^ p := pow_le_pow_right₀ (by norm_num) hp
    exact one_div_le_one_div_of_le (by norm_num) (by linarith)
  have heps : 8 * (2 : ℝ) ^ emin ≤ 1 / 2 ^ p * (1 / 2 ^ p) := by
    have h1 : (2 : ℝ) ^ emin ≤ 2 ^ (-(2 * p : ℤ) - 3) := zpow_le_zpow_right₀ (by norm_num) hmin
    have h2 : (2 : ℝ) ^ (-(2 * p : ℤ) - 3) = 1 / 2 ^ p * (1 / 2 ^ p) / 8 := by
      rw [zpow_sub₀ (by norm_num), zpow_neg, show (2 * p : ℤ) = ((p + p : ℕ) : ℤ) by push_cast; ring, zpow_natCast,
        pow_add]
      field_simp; norm_num
    rw [h2] at h1; linarith
  have hbR : (0 : ℝ) < b := by exact_mod_cast hb
  have haR : (0 : ℝ) ≤ a := by exact_mod_cast ha
  have habR : (a : ℝ) ≤ b := by exact_mod_cast hab
  set τ : ℝ := (a : ℝ) / b with hτ
  have hτ0 : 0 ≤ τ := by positivity
  have hτ1 : τ ≤ 1 := by rw [hτ, div_le_one hbR]; exact habR
  set t := rnd (a / b) with ht
  have r1 : Rep p emin 1 := by
    have := rep_pow (p := p) (emin := emin) hp1 (e := 0) (by omega)
    simpa using this
  have hq1 : a / b ≤ 1 := by rw [div_le_one hb]; exact hab
  have ht0 : 0 ≤ t := by
    have := h.mono (show (0 : ℚ) ≤ a / b by positivity)
    rwa [h.zero] at this
  have ht1 : t ≤ 1 := by
    have := h.mono hq1
    rwa [h.fix r1] at this
  have htE : |(t : ℝ) - τ| ≤ 1 / 2 ^ p * τ + 2 ^ emin / 2 := by
    have := err_real h hp1 (a / b)
    push_cast at this
    rwa [← hτ, abs_of_nonneg hτ0] at this
  set s := onePlusSquare rnd fused t with hs
  have hbig : ∀ x : ℚ, 1 ≤ x → |(rnd x : ℝ) - x| ≤ 1 / 2 ^ p * |(x : ℝ)| := by
    intro x hx
    refine rel_real h hp1 ?_
    rw [abs_of_pos (by linarith)]
    have : (2 : ℚ) ^ p * 2 ^ emin ≤ 1 := by
      rw [← zpow_natCast, ← zpow_add₀ (by norm_num)]
      exact zpow_le_one_of_nonpos₀ (by norm_num) (by omega)
    linarith
  have hsE : ∃ w : ℝ, |w - t * t| ≤ 1 / 2 ^ p * ((t : ℝ) * t) + 2 ^ emin / 2 ∧ |(s : ℝ) - (w + 1)| ≤ 1 / 2 ^ p * |w + 1| := by
    have htt : (0 : ℚ) ≤ t * t := mul_nonneg ht0 ht0
    cases fused
    · refine ⟨(rnd (t * t) : ℚ), ?_, ?_⟩
      · have := err_real h hp1 (t * t)
        push_cast at this
        have h2 : |(t : ℝ) * t| = t * t := abs_of_nonneg (by exact_mod_cast htt)
        rwa [h2] at this
      · have h0 : 0 ≤ rnd (t * t) := by
          have := h.mono htt
          rwa [h.zero] at this
        have := hbig (rnd (t * t) + 1) (by linarith)
        push_cast at this
        exact this
    · refine ⟨t * t, ?_, ?_⟩
      · rw [sub_self, abs_zero]; positivity
      · have := hbig (t * t + 1) (by linarith)
        push_cast at this
        exact this
  have hs1 : 1 ≤ s := by
    have htt : (0 : ℚ) ≤ t * t := mul_nonneg ht0 ht0
    cases fused
    · have h0 : 0 ≤ rnd (t * t) := by
        have := h.mono htt
        rwa [h.zero] at this
      have := h.mono (show 1 ≤ rnd (t * t) + 1 by linarith)
      rwa [h.fix r1] at this
    · have := h.mono (show 1 ≤ t * t + 1 by linarith)
      rwa [h.fix r1] at this
  have hse := sum_error hu0 hu (by positivity) heps hτ0 hτ1 htE hsE
  have hs4 : s ≤ 4 := by
    have h1 := (abs_le.mp hse).2
    have h2 : (5 / 2 * (1 / 2 ^ p) + 9 * (1 / 2 ^ p) * (1 / 2 ^ p)) * (1 + τ * τ) ≤ 2 := by
      have h3 : (5 / 2 * (1 / 2 ^ p) + 9 * (1 / 2 ^ p) * (1 / 2 ^ p) : ℝ) ≤ 1 := by nlinarith
      have h4 : 1 + τ * τ ≤ 2 := by nlinarith
      have h5 : 0 ≤ 1 + τ * τ := by positivity
      nlinarith
    have h3 : τ * τ ≤ 1 := by nlinarith
    have : (s : ℝ) ≤ 4 := by linarith
    exact_mod_cast this
  have hr := hq.rel hp1 (by omega) hs1 hs4
  have hfin := root_error hu0 hu (by positivity) le_rfl (by nlinarith [mul_nonneg hτ0 hτ0])
    (by exact_mod_cast hs1) hse hr
  have hH : Real.sqrt (a ^ 2 + b ^ 2) = b * Real.sqrt (1 + τ * τ) := by
    have : ((a : ℝ) ^ 2 + b ^ 2) = b ^ 2 * (1 + τ * τ) := by rw [hτ]; field_simp; ring
    rw [this, Real.sqrt_mul (by positivity), Real.sqrt_sq hbR.le]
  rw [hH]
  push_cast
  rw [← mul_sub, abs_mul, abs_of_pos hbR]
  have := mul_le_mul_of_nonneg_left hfin hbR.le
  linarith

/-- `hypot_u35` of two finite numbers: the result differs from the exact `√(x² + y²)` by at most 3.5 ulps; the result is
infinite only when the exact value reaches the largest finite numbers, up to the same relative error. -/
theorem hypot35_finite (hp : 6 ≤ p) (hmin : emin ≤ -(2 * p : ℤ) - 3) (hmax : emin + p ≤ emax) (h : Nearest p emin rnd)
    (hq : Root p emin sq) (fused : Bool) {x y : ℚ} (hx : Rep p emin x) (hy : Rep p emin y) {w : ℝ}
    (hw : IsUlp p emin (Real.sqrt (x ^ 2 + y ^ 2)) w) :
    (∃ r : ℚ, hypot35 rnd sq fused emax (.fin x) (.fin y) = .fin r ∧ Rep p emin r ∧
      |(r : ℝ) - Real.sqrt (x ^ 2 + y ^ 2)| ≤ 7 / 2 * w) ∨
    (hypot35 rnd sq fused emax (.fin x) (.fin y) = .inf false ∧
      2 ^ emax ≤ (1 + 4 / 2 ^ p) * Real.sqrt (x ^ 2 + y ^ 2)) := by
  have hp1 : 1 ≤ p := by omega
  set a := if |x| < |y| then |x| else |y| with ha
  set b := if |x| > |y| then |x| else |y| with hb
  have hab : a ≤ b := by rw [ha, hb]; split <;> split <;> linarith
  have ha0 : 0 ≤ a := by rw [ha]; split <;> positivity
  have hb0 : 0 ≤ b := ha0.trans hab
  have hsum : x ^ 2 + y ^ 2 = a ^ 2 + b ^ 2 := by
    rw [ha, hb]
    rcases lt_trichotomy |x| |y| with h1 | h1 | h1
    · rw [if_pos h1, if_neg (by simpa using h1.le), sq_abs, sq_abs]
    · rw [if_neg (by simp [h1]), if_neg (by simp [h1]), sq_abs, ← sq_abs x, h1, sq_abs]
    · rw [if_neg (by simpa using h1.le), if_pos (by simpa using h1), sq_abs, sq_abs]; ring
  have hrb : Rep p emin b := by rw [hb]; split <;> exact rep_absq ‹_›
  have hval : hypot35 rnd sq fused emax (.fin x) (.fin y) =
      if a = 0 then .fin b else roundFl rnd emax (b * sq (onePlusSquare rnd fused (rnd (a / b)))) := by
    simp [hypot35, special, fabs, ha, hb]
  have hsum' : (x : ℝ) ^ 2 + y ^ 2 = a ^ 2 + b ^ 2 := by exact_mod_cast hsum
  rw [hsum'] at hw ⊢
  rw [hval]
  obtain ⟨hw1, hw2, hw0⟩ := hw.le
  by_cases ha' : a = 0
  · left
    refine ⟨b, by rw [if_pos ha'], hrb, ?_⟩
    have hbR : (0 : ℝ) ≤ b := by exact_mod_cast hb0
    rw [ha']
    simp only [Rat.cast_zero, ne_eq, OfNat.ofNat_ne_zero, not_false_eq_true, zero_pow, zero_add]
    rw [Real.sqrt_sq hbR, sub_self, abs_zero]
    positivity
  rw [if_neg ha']
  have ha1 : 0 < a := lt_of_le_of_ne ha0 (Ne.symm ha')
  have hb1 : 0 < b := ha1.trans_le hab
  have hc := core_error hp hmin h hq fused ha0 hb1 hab
  set z := b * sq (onePlusSquare rnd fused (rnd (a / b))) with hz
  set H := Real.sqrt (a ^ 2 + b ^ 2) with hH
  have hu0 : (0 : ℝ) < 1 / 2 ^ p := by positivity
  have hu : (1 : ℝ) / 2 ^ p ≤ 1 / 64 := by
    have : (2 : ℝ) ^ 6 ≤ 2 ^ p := pow_le_pow_right₀ (by norm_num) hp
    exact one_div_le_one_div_of_le (by norm_num) (by linarith)
  set u : ℝ := 1 / 2 ^ p with hu'
  have hH0 : 0 < H := by
    have hbR : (0 : ℝ) < b := by exact_mod_cast hb1
    exact Real.sqrt_pos.mpr (by positivity)
  have hδ : 9 / 4 * u + 7 * u * u ≤ 1 / 2 := by nlinarith
  have hzpos : (0 : ℝ) < z := by
    have := (abs_le.mp hc).1
    nlinarith
  have hzq : 0 < z := by exact_mod_cast hzpos
  have hrz : 0 ≤ rnd z := by
    have := h.mono hzq.le
    rwa [h.zero] at this
  have hmain := bound35 hu0 hu (by positivity) hw1 hw2 hH0 hc (last_rounding h (by omega) hzq)
  rcases lt_or_ge |rnd z| (2 ^ emax) with hlt | hge
  · left
    exact ⟨rnd z, by rw [roundFl, if_pos hlt], h.rep z, hmain.1⟩
  · right
    refine ⟨by rw [roundFl, if_neg (not_lt.mpr hge)]; simp [hzq.le], ?_⟩
    rw [abs_of_nonneg hrz] at hge
    rcases hmain.2 with h1 | h1
    · have h2 := (abs_le.mp h1).2
      have h3 : ((2 ^ emax : ℚ) : ℝ) ≤ ((rnd z : ℚ) : ℝ) := by exact_mod_cast hge
      push_cast at h3
      have h4 : (1 + 4 / 2 ^ p) * H = H + 4 * u * H := by rw [hu']; ring
      rw [h4]; linarith
    · exfalso
      have h2 : (2 : ℚ) ^ p * 2 ^ emin ≤ 2 ^ emax := by
        rw [← zpow_natCast, ← zpow_add₀ (by norm_num)]
        exact zpow_le_zpow_right₀ (by norm_num) (by omega)
      linarith

/-- If one operand is zero the result is the absolute value of the other one, exactly. -/
theorem hypot35_zero (fused : Bool) (x : ℚ) :
    hypot35 rnd sq fused emax (.fin x) (.fin 0) = .fin |x| ∧ hypot35 rnd sq fused emax (.fin 0) (.fin x) = .fin |x| := by
  rcases eq_or_ne x 0 with h | h
  · subst h; simp [hypot35, special, fabs]
  · have h1 : 0 < |x| := abs_pos.mpr h
    constructor <;> simp [hypot35, special, fabs, h, h1, h1.le, not_lt.mpr h1.le]

/-- The order and the signs of the operands do not matter. -/
theorem hypot35_comm (fused : Bool) (x y : Fl) : hypot35 rnd sq fused emax x y = hypot35 rnd sq fused emax y x := by
  cases x <;> cases y <;> simp [hypot35, special, fabs]
  rename_i a b
  rcases lt_trichotomy |a| |b| with h | h | h
  · simp [h, not_lt.mpr h.le]
  · simp [h]
  · simp [h, not_lt.mpr h.le]

theorem hypot35_even (fused : Bool) (x : ℚ) (y : Fl) :
    hypot35 rnd sq fused emax (.fin (-x)) y = hypot35 rnd sq fused emax (.fin x) y := by
  simp [hypot35, fabs]

/-- Infinite operands and NaNs as in C99 F.9.4.3: an infinity wins over a NaN. -/
theorem hypot35_special (fused : Bool) (x y : Fl) :
    ((∃ s, x = .inf s ∨ y = .inf s) → hypot35 rnd sq fused emax x y = .inf false) ∧
    ((¬∃ s, x = .inf s ∨ y = .inf s) → (x = .nan ∨ y = .nan) → hypot35 rnd sq fused emax x y = .nan) := by
  constructor
  · rintro ⟨s, h | h⟩ <;> subst h <;> simp [hypot35, special, fabs]
  · intro h1 h2
    rcases h2 with h | h <;> subst h
    · cases y <;> simp_all [hypot35, special, fabs]
    · cases x <;> simp_all [hypot35, special, fabs]

/-! ### The hypotheses can be met -/

/-- f64: both formats and roundings exist, and 3 and 4 are operands with a positive distance at 5. -/
example : ∃ rnd sq, ∃ w, Nearest 53 (-1074) rnd ∧ Root 53 (-1074) sq ∧ Rep 53 (-1074) 3 ∧ Rep 53 (-1074) 4 ∧
    IsUlp 53 (-1074) (Real.sqrt ((3 : ℚ) ^ 2 + (4 : ℚ) ^ 2)) w := by
  obtain ⟨rnd, h⟩ := exists_nearest (p := 53) (by norm_num) (-1074)
  obtain ⟨sq, hq⟩ := exists_root 53 (-1074)
  obtain ⟨w, hw⟩ := exists_ulp 53 (-1074) (h := Real.sqrt ((3 : ℚ) ^ 2 + (4 : ℚ) ^ 2)) (by
    rw [Real.sqrt_pos]; norm_num)
  exact ⟨rnd, sq, w, h, hq, ⟨3, 0, by norm_num, by norm_num, by norm_num⟩, ⟨4, 0, by norm_num, by norm_num, by norm_num⟩,
    hw⟩

/-- f32, the same with operands that give a subnormal result. -/
example : ∃ rnd sq, ∃ w, Nearest 24 (-149) rnd ∧ Root 24 (-149) sq ∧ Rep 24 (-149) (3 * 2 ^ (-149 : ℤ)) ∧
    IsUlp 24 (-149) (Real.sqrt (((3 * 2 ^ (-149 : ℤ) : ℚ) : ℝ) ^ 2 + ((3 * 2 ^ (-149 : ℤ) : ℚ) : ℝ) ^ 2)) w := by
  obtain ⟨rnd, h⟩ := exists_nearest (p := 24) (by norm_num) (-149)
  obtain ⟨sq, hq⟩ := exists_root 24 (-149)
  obtain ⟨w, hw⟩ := exists_ulp 24 (-149) (h := Real.sqrt (((3 * 2 ^ (-149 : ℤ) : ℚ) : ℝ) ^ 2 + ((3 * 2 ^ (-149 : ℤ) : ℚ) : ℝ) ^ 2))
    (by rw [Real.sqrt_pos]; positivity)
  exact ⟨rnd, sq, w, h, hq, ⟨3, -149, by norm_num, by norm_num, by norm_num⟩, hw⟩

/-- A number whose distance is known: around 5 it is `2^-50` in f64. -/
example : IsUlp 53 (-1074) 5 (2 ^ (-50 : ℤ)) := ⟨-50, by norm_num, rfl, by norm_num, by norm_num⟩

end Nsimd.Props.Hypot
