import Verif.Model.Cbrt
import Verif.Lemmas.LogCombine

/-!
# Error of the last step of `cbrt`
-/

namespace Nsimd.Sleef
open Nsimd.DoubleDouble Nsimd.Float Nsimd.Props.Round Nsimd.Props.Hypot Nsimd.Round Nsimd.Hypot Nsimd.Props.Ulp

variable {p : ℕ} {emin emax : ℤ} {rnd : ℚ → ℚ}

theorem rel_split {x r u : ℝ} (hx : x ≠ 0) (h : |r - x| ≤ |x| * u) : ∃ δ, |δ| ≤ u ∧ r = x * (1 + δ) := by
  refine ⟨(r - x) / x, ?_, by field_simp; ring⟩
  rw [abs_div, div_le_iff₀ (abs_pos.mpr hx), mul_comm]
  exact h

theorem err_split {x r u e : ℝ} (hu : 0 ≤ u) (he : 0 < e) (h : |r - x| ≤ |x| * u + e) :
    ∃ δ τ, |δ| ≤ u ∧ |τ| ≤ e ∧ r = x * (1 + δ) + τ := by
  have hD : 0 < |x| * u + e := by positivity
  have ht : |(r - x) / (|x| * u + e)| ≤ 1 := by
    rw [abs_div, abs_of_pos hD, div_le_one hD]; exact h
  have hs : r - x = (r - x) / (|x| * u + e) * (|x| * u + e) := by field_simp
  generalize (r - x) / (|x| * u + e) = t at ht hs
  by_cases hx : x = 0
  · refine ⟨0, t * e, by simpa using hu, ?_, ?_⟩
    · rw [abs_mul, abs_of_pos he]; nlinarith
    · rw [hx, abs_zero] at hs; rw [hx]; linarith
  · refine ⟨t * u * (|x| / x), t * e, ?_, ?_, ?_⟩
    · rw [abs_mul, abs_mul, abs_div, abs_abs, div_self (abs_ne_zero.mpr hx), mul_one, abs_of_nonneg hu]
      nlinarith
    · rw [abs_mul, abs_of_pos he]; nlinarith
    · have : x * (1 + t * u * (|x| / x)) = x + t * u * |x| := by field_simp
      rw [this]; linarith

theorem rnd_rel (h : Nearest p emin rnd) (hp : 1 ≤ p) (hmin : emin ≤ -100 - p) {q : ℚ} (hq : 1 / 100 ≤ |(q : ℝ)|) :
    ∃ δ : ℝ, |δ| ≤ 1 / 2 ^ p ∧ ((rnd q : ℚ) : ℝ) = q * (1 + δ) := by
  have hq' : (1 : ℚ) / 100 ≤ |q| := by
    have : (((1 : ℚ) / 100 : ℚ) : ℝ) ≤ ((|q| : ℚ) : ℝ) := by rw [Rat.cast_abs]; push_cast; exact hq
    exact_mod_cast this
  have h1 := h.rel hp (x := q) (by
    have : (2 : ℚ) ^ p * 2 ^ emin ≤ 2 ^ (-100 : ℤ) := by
      rw [pow_eq_zpow]; exact zpow_le_zpow_right₀ (by norm_num) (by omega)
    norm_num at this; linarith)
  refine rel_split ?_ ?_
  · intro h0; rw [h0, abs_zero] at hq; norm_num at hq
  · have : ((|rnd q - q| : ℚ) : ℝ) ≤ ((|q| / 2 ^ p : ℚ) : ℝ) := by exact_mod_cast h1
    push_cast at this
    rwa [div_eq_mul_one_div] at this

theorem rnd_err (h : Nearest p emin rnd) (hp : 1 ≤ p) (hmin : emin ≤ -100 - p) (q : ℚ) :
    ∃ δ τ : ℝ, |δ| ≤ 1 / 2 ^ p ∧ |τ| ≤ 1 / 2 ^ 100 * (1 / 2 ^ p) ∧ ((rnd q : ℚ) : ℝ) = q * (1 + δ) + τ := by
  have h1 := h.err hp q
  refine err_split (by positivity) (by positivity) ?_
  have h2 : ((|rnd q - q| : ℚ) : ℝ) ≤ ((|q| / 2 ^ p + 2 ^ emin / 2 : ℚ) : ℝ) := by exact_mod_cast h1
  push_cast at h2
  rw [div_eq_mul_one_div] at h2
  refine h2.trans (by
    gcongr
    have h3 : (2 : ℝ) ^ emin ≤ 2 ^ (-100 - (p : ℤ)) := zpow_le_zpow_right₀ (by norm_num) hmin
    have h4 : (2 : ℝ) ^ (-100 - (p : ℤ)) = 1 / 2 ^ 100 * (1 / 2 ^ p) := by
      rw [zpow_sub₀ (by norm_num), zpow_natCast, div_eq_mul_one_div]; norm_num
    have h5 : (0 : ℝ) < 2 ^ emin := by positivity
    linarith)

theorem prodB {a b a1 a2 b1 b2 lo hi : ℝ} (ha1 : a1 ≤ a) (ha2 : a ≤ a2) (hb1 : b1 ≤ b) (hb2 : b ≤ b2) (h0 : 0 ≤ a1) (h0' : 0 ≤ b1)
    (hlo : lo ≤ a1 * b1) (hhi : a2 * b2 ≤ hi) : lo ≤ a * b ∧ a * b ≤ hi :=
  ⟨hlo.trans (mul_le_mul ha1 hb1 h0' (h0.trans ha1)), (mul_le_mul ha2 hb2 (h0'.trans hb1) (h0.trans (ha1.trans ha2))).trans hhi⟩

/-- Powers of a number close to one. -/
theorem powB {η : ℝ} (h1 : -0.00005 ≤ η) (h2 : η ≤ 0.00005) :
    (0.99989 ≤ (1 + η) ^ 2 ∧ (1 + η) ^ 2 ≤ 1.00011) ∧ (0.99984 ≤ (1 + η) ^ 3 ∧ (1 + η) ^ 3 ≤ 1.00016) := by
  have a1 : (0.99995 : ℝ) ≤ 1 + η := by linarith
  have a2 : 1 + η ≤ (1.00005 : ℝ) := by linarith
  refine ⟨⟨?_, ?_⟩, ⟨?_, ?_⟩⟩
  · have := pow_le_pow_left₀ (by norm_num) a1 2; norm_num at this ⊢; linarith
  · have := pow_le_pow_left₀ (by linarith) a2 2; norm_num at this ⊢; linarith
  · have := pow_le_pow_left₀ (by norm_num) a1 3; norm_num at this ⊢; linarith
  · have := pow_le_pow_left₀ (by linarith) a2 3; norm_num at this ⊢; linarith

/-- The errors of the last step relative to the cube root: `η` is that of the reciprocal cube root, the others come from rounding. -/
theorem step_core {H u η ε κ θ τ : ℝ} (hH : H ≤ 1 / 20000) (hη : |η| ≤ H) (hu : u ≤ 1 / 2 ^ 20) (hε : |ε| ≤ 2.001 * u)
    (hκ : |κ| ≤ 1.002 * u) (hθ : |θ| ≤ 4 * u) (hτ : |τ| ≤ 0.001 * u) (hHu : 6 * H ^ 2 ≤ 0.1 * u) :
    |(1 + η) ^ 2 * (1 + ε) * (1 - 2 / 3 * (((1 + η) ^ 3 * (1 + ε) - 1 + κ) * (1 + θ) + τ)) - 1| ≤ 1.49 * u := by
  have hu0 : 0 ≤ u := by nlinarith [abs_nonneg ε]
  have hH0 : 0 ≤ H := (abs_nonneg _).trans hη
  have hu1 : u ≤ 0.000001 := hu.trans (by norm_num)
  have hη2 : η ^ 2 ≤ H ^ 2 := sq_le_sq' (by linarith [(abs_le.mp hη).1]) (abs_le.mp hη).2
  have hη1 : -0.00005 ≤ η ∧ η ≤ 0.00005 := by
    have := abs_le.mp hη; norm_num at hH; constructor <;> linarith
  have hA : |(1 + η) ^ 2 - 1| ≤ 0.00011 := by
    have := (powB hη1.1 hη1.2).1; rw [abs_le]; constructor <;> linarith [this.1, this.2]
  have hB : |(1 + η) ^ 3 - 1| ≤ 0.00016 := by
    have := (powB hη1.1 hη1.2).2; rw [abs_le]; constructor <;> linarith [this.1, this.2]
  -- without rounding
  have hg : |(1 + η) ^ 2 * (1 - 2 / 3 * ((1 + η) ^ 3 - 1)) - 1| ≤ 5.01 * H ^ 2 := by
    have e : (1 + η) ^ 2 * (1 - 2 / 3 * ((1 + η) ^ 3 - 1)) - 1 = η ^ 2 * (-5 - 20 / 3 * η - 10 / 3 * η ^ 2 - 2 / 3 * η ^ 3) := by ring
    have h4 : |η ^ 3| ≤ 0.00000001 := by
      have : |η| ^ 3 ≤ 0.00005 ^ 3 := pow_le_pow_left₀ (abs_nonneg _) (abs_le.mpr hη1) 3
      rw [abs_pow]; norm_num at this ⊢; linarith
    have h2 : η ^ 2 ≤ 0.0000000025 := by nlinarith
    have h5 : |-5 - 20 / 3 * η - 10 / 3 * η ^ 2 - 2 / 3 * η ^ 3| ≤ 5.01 := by
      have := abs_le.mp h4
      have := sq_nonneg η
      rw [abs_le]; constructor <;> linarith
    rw [e, abs_mul, abs_of_nonneg (sq_nonneg η), mul_comm]
    exact mul_le_mul h5 hη2 (sq_nonneg _) (by norm_num)
  have hε1 : |ε| ≤ 0.00001 := by linarith
  have hθ1 : |θ| ≤ 0.00001 := by linarith
  generalize hAd : (1 + η) ^ 2 = A at *
  generalize hBd : (1 + η) ^ 3 = B at *
  have hg1 : |A * (1 - 2 / 3 * (B - 1)) - 1| ≤ 0.0835 * u := hg.trans (by linarith)
  have e : A * (1 + ε) * (1 - 2 / 3 * ((B * (1 + ε) - 1 + κ) * (1 + θ) + τ)) - 1 =
      (A * (1 - 2 / 3 * (B - 1)) - 1) + ε * (A * (1 - 2 / 3 * (B - 1)) - 2 / 3 * ((1 + ε) * (A * B)))
      - 2 / 3 * ((1 + ε) * A) * (κ * (1 + θ) + (B * (1 + ε) - 1) * θ + τ) := by ring
  have hA' := abs_le.mp hA
  have hB' := abs_le.mp hB
  have hε' := abs_le.mp hε1
  have hθ' := abs_le.mp hθ1
  have hAB : 0.9997 ≤ A * B ∧ A * B ≤ 1.0003 := prodB (a1 := 0.99989) (a2 := 1.00011) (b1 := 0.99984) (b2 := 1.00016)
    (by linarith) (by linarith) (by linarith) (by linarith) (by norm_num) (by norm_num) (by norm_num) (by norm_num)
  have hεAB : 0.9996 ≤ (1 + ε) * (A * B) ∧ (1 + ε) * (A * B) ≤ 1.0004 := prodB (a1 := 0.99999) (a2 := 1.00001)
    (by linarith) (by linarith) hAB.1 hAB.2 (by norm_num) (by norm_num) (by norm_num) (by norm_num)
  have hεA : 0.9998 ≤ (1 + ε) * A ∧ (1 + ε) * A ≤ 1.0002 := prodB (a1 := 0.99999) (a2 := 1.00001) (b1 := 0.99989) (b2 := 1.00011)
    (by linarith) (by linarith) (by linarith) (by linarith) (by norm_num) (by norm_num) (by norm_num) (by norm_num)
  have hBε : |B * (1 + ε) - 1| ≤ 0.001 := by
    have := prodB (a := B) (b := 1 + ε) (a1 := 0.99984) (a2 := 1.00016) (b1 := 0.99999) (b2 := 1.00001) (lo := 0.999) (hi := 1.001)
      (by linarith) (by linarith) (by linarith) (by linarith) (by norm_num) (by norm_num) (by norm_num) (by norm_num)
    rw [abs_le]; constructor <;> linarith [this.1, this.2]
  have hg2 := abs_le.mp hg1
  have t2 : |ε * (A * (1 - 2 / 3 * (B - 1)) - 2 / 3 * ((1 + ε) * (A * B)))| ≤ 2.001 * u * 0.335 := by
    rw [abs_mul]
    refine mul_le_mul hε ?_ (abs_nonneg _) (by linarith)
    rw [abs_le]; constructor <;> linarith [hεAB.1, hεAB.2]
  have t3 : |κ * (1 + θ) + (B * (1 + ε) - 1) * θ + τ| ≤ 1.0072 * u := by
    have a1 : |κ * (1 + θ)| ≤ 1.002 * u * 1.0001 := by
      rw [abs_mul]
      refine mul_le_mul hκ ?_ (abs_nonneg _) (by linarith)
      rw [abs_le]; constructor <;> linarith
    have a2 : |(B * (1 + ε) - 1) * θ| ≤ 0.001 * (4 * u) := by
      rw [abs_mul]; exact mul_le_mul hBε hθ (abs_nonneg _) (by norm_num)
    have := abs_add_three (κ * (1 + θ)) ((B * (1 + ε) - 1) * θ) τ
    linarith
  have t4 : |2 / 3 * ((1 + ε) * A) * (κ * (1 + θ) + (B * (1 + ε) - 1) * θ + τ)| ≤ 0.667 * (1.0072 * u) := by
    rw [abs_mul]
    refine mul_le_mul ?_ t3 (abs_nonneg _) (by norm_num)
    rw [abs_le]; constructor <;> linarith [hεA.1, hεA.2]
  rw [e]
  refine (abs_sub _ _).trans ?_
  have := abs_add_le (A * (1 - 2 / 3 * (B - 1)) - 1) (ε * (A * (1 - 2 / 3 * (B - 1)) - 2 / 3 * ((1 + ε) * (A * B))))
  linarith

/-- The product `d * x * x` with its roundings. -/
theorem step_y {d x c u η δ1 δ2 y : ℝ} (hu : u ≤ 0.000001) (hc0 : 0 < c) (hc : c ^ 3 = d) (hη : x * c = 1 + η)
    (hδ1 : |δ1| ≤ u) (hδ2 : |δ2| ≤ u) (h1 : -0.00005 ≤ η) (h2 : η ≤ 0.00005) (hy : y = d * x * (1 + δ1) * x * (1 + δ2)) :
    ∃ ε, |ε| ≤ 2.001 * u ∧ y = c * ((1 + η) ^ 2 * (1 + ε)) ∧ y * x = (1 + η) ^ 3 * (1 + ε) ∧ |y * x - 1| ≤ 0.00099 := by
  have hu0 : 0 ≤ u := (abs_nonneg _).trans hδ1
  have hxe : x = (1 + η) / c := by rw [← hη]; field_simp
  have hεb : |δ1 + δ2 + δ1 * δ2| ≤ 2.001 * u := by
    have h1 := abs_add_three δ1 δ2 (δ1 * δ2)
    have h2 : |δ1 * δ2| ≤ u * 0.000001 := by
      rw [abs_mul]; exact mul_le_mul hδ1 (hδ2.trans hu) (abs_nonneg _) hu0
    linarith
  have hye : y = c * ((1 + η) ^ 2 * (1 + (δ1 + δ2 + δ1 * δ2))) := by
    rw [hy, ← hc, hxe]; field_simp; ring
  have hyx : y * x = (1 + η) ^ 3 * (1 + (δ1 + δ2 + δ1 * δ2)) := by
    rw [hye, hxe]; field_simp
  refine ⟨_, hεb, hye, hyx, ?_⟩
  rw [hyx]
  have h5 := abs_le.mp (hεb.trans (show (2.001 : ℝ) * u ≤ 0.00001 by linarith))
  have hB := (powB h1 h2).2
  have := prodB (a := (1 + η) ^ 3) (b := 1 + (δ1 + δ2 + δ1 * δ2)) (a1 := 0.99984) (a2 := 1.00016) (b1 := 0.99999) (b2 := 1.00001) (lo := 0.9995) (hi := 1.0005)
    hB.1 hB.2 (by linarith) (by linarith) (by norm_num) (by norm_num) (by norm_num) (by norm_num)
  rw [abs_le]; constructor <;> linarith [this.1, this.2]

/-- The difference of `y * x` and one. -/
theorem step_v (h : Nearest p emin rnd) (hp1 : 1 ≤ p) (hmin : emin ≤ -100 - p) (fused : Bool) {y x : ℚ} (hyx : |(y : ℝ) * x - 1| ≤ 0.00099)
    (hu : (1 : ℝ) / 2 ^ p ≤ 0.000001) :
    ∃ κ : ℝ, |κ| ≤ 1.002 * (1 / 2 ^ p) ∧ (((flAlg rnd rnd fused).mla y x (-1) : ℚ) : ℝ) = (y : ℝ) * x - 1 + κ := by
  have hyxb := abs_le.mp hyx
  have hu0 : (0 : ℝ) < 1 / 2 ^ p := by positivity
  cases fused
  · simp only [flAlg, Bool.false_eq_true, if_false, add, mul]
    obtain ⟨δ3, hδ3, e3⟩ := rnd_rel h hp1 hmin (q := y * x) (by push_cast; rw [abs_of_pos (by linarith)]; linarith)
    obtain ⟨δ4, τ4, hδ4, hτ4, e4⟩ := rnd_err h hp1 hmin (rnd (y * x) + -1)
    refine ⟨y * x * δ3 + (y * x - 1 + y * x * δ3) * δ4 + τ4, ?_, by rw [e4]; push_cast; rw [e3]; push_cast; ring⟩
    generalize (1 : ℝ) / 2 ^ p = u at *
    generalize (y : ℝ) * x = t at *
    have h1 : |t * δ3| ≤ 1.00099 * u := by
      rw [abs_mul, abs_of_pos (by linarith)]
      exact mul_le_mul (by linarith) hδ3 (abs_nonneg _) (by norm_num)
    have h2 : |t - 1 + t * δ3| ≤ 0.000995 := by
      have := abs_add_le (t - 1) (t * δ3)
      linarith
    have h3 : |(t - 1 + t * δ3) * δ4| ≤ 0.000995 * u := by
      rw [abs_mul]; exact mul_le_mul h2 hδ4 (abs_nonneg _) (by norm_num)
    have := abs_add_three (t * δ3) ((t - 1 + t * δ3) * δ4) τ4
    have h4 : |τ4| ≤ 0.000001 * u := hτ4.trans (mul_le_mul_of_nonneg_right (by norm_num) hu0.le)
    linarith
  · simp only [flAlg, if_true, fma]
    obtain ⟨δ4, τ4, hδ4, hτ4, e4⟩ := rnd_err h hp1 hmin (y * x + -1)
    refine ⟨(y * x - 1) * δ4 + τ4, ?_, by rw [e4]; push_cast; ring⟩
    generalize (1 : ℝ) / 2 ^ p = u at *
    generalize (y : ℝ) * x = t at *
    have h3 : |(t - 1) * δ4| ≤ 0.00099 * u := by
      rw [abs_mul]; exact mul_le_mul hyx hδ4 (abs_nonneg _) (by norm_num)
    have := abs_add_le ((t - 1) * δ4) τ4
    have h4 : |τ4| ≤ 0.000001 * u := hτ4.trans (mul_le_mul_of_nonneg_right (by norm_num) hu0.le)
    linarith

/-- The last rounding of the step and the product with `2/3`. -/
theorem step_end {c y v H u η ε κ δ5 δ6 δ7 δ8 τ z : ℝ} (hc0 : 0 < c) (hc2 : 0.79 ≤ c) (hH : H ≤ 1 / 20000) (hη : |η| ≤ H) (hu : u ≤ 1 / 2 ^ 20)
    (hε : |ε| ≤ 2.001 * u) (hκ : |κ| ≤ 1.002 * u) (h5 : |δ5| ≤ u) (h6 : |δ6| ≤ u) (h7 : |δ7| ≤ u) (h8 : |δ8| ≤ u) (hτ : |τ| ≤ 1 / 2 ^ 100 * u)
    (hHu : 6 * H ^ 2 ≤ 0.1 * u) (hy : y = c * ((1 + η) ^ 2 * (1 + ε))) (hv : v = (1 + η) ^ 3 * (1 + ε) - 1 + κ) (hy1 : 0.479 ≤ y)
    (hz : z = (y - (2 / 3 * (1 + δ5) * y * (1 + δ6) * v * (1 + δ7) + τ)) * (1 + δ8)) : |z - c| ≤ c * (2.5 * u) := by
  have hu0 : 0 ≤ u := (abs_nonneg _).trans h5
  have hu1 : u ≤ 0.000001 := hu.trans (by norm_num)
  have hθ : |(1 + δ5) * (1 + δ6) * (1 + δ7) - 1| ≤ 4 * u := by
    have e : (1 + δ5) * (1 + δ6) * (1 + δ7) - 1 = δ5 + δ6 + δ7 + (δ5 * δ6 + δ5 * δ7 + δ6 * δ7) + δ5 * δ6 * δ7 := by ring
    have a : ∀ s t : ℝ, |s| ≤ u → |t| ≤ u → |s * t| ≤ 0.000001 * u := fun s t hs ht => by
      rw [abs_mul]; exact mul_le_mul (hs.trans hu1) ht (abs_nonneg _) (by norm_num)
    have a1 := a _ _ h5 h6
    have a2 := a _ _ h5 h7
    have a3 := a _ _ h6 h7
    have a4 := a (δ5 * δ6) δ7 (a1.trans (by linarith)) h7
    rw [e]
    have b1 := abs_add_three (δ5 + δ6 + δ7) (δ5 * δ6 + δ5 * δ7 + δ6 * δ7) (δ5 * δ6 * δ7)
    have b2 := abs_add_three δ5 δ6 δ7
    have b3 := abs_add_three (δ5 * δ6) (δ5 * δ7) (δ6 * δ7)
    linarith
  have hτ' : |3 / 2 * τ / y| ≤ 0.001 * u := by
    rw [abs_div, abs_of_pos (show 0 < y by linarith), div_le_iff₀ (by linarith), abs_mul, abs_of_pos (by norm_num)]
    have : |τ| ≤ 0.000001 * u := hτ.trans (mul_le_mul_of_nonneg_right (by norm_num) hu0)
    nlinarith
  have key := step_core hH hη hu hε hκ hθ hτ' hHu
  have e : y - (2 / 3 * (1 + δ5) * y * (1 + δ6) * v * (1 + δ7) + τ) =
      c * ((1 + η) ^ 2 * (1 + ε) * (1 - 2 / 3 * (((1 + η) ^ 3 * (1 + ε) - 1 + κ) * (1 + ((1 + δ5) * (1 + δ6) * (1 + δ7) - 1)) + 3 / 2 * τ / y))) := by
    have : c * ((1 + η) ^ 2 * (1 + ε) * (1 - 2 / 3 * (((1 + η) ^ 3 * (1 + ε) - 1 + κ) * (1 + ((1 + δ5) * (1 + δ6) * (1 + δ7) - 1)) + 3 / 2 * τ / y))) =
        y * (1 - 2 / 3 * (v * (1 + ((1 + δ5) * (1 + δ6) * (1 + δ7) - 1)) + 3 / 2 * τ / y)) := by rw [← hv, hy]; ring
    rw [this]
    have hy0 : y ≠ 0 := by linarith
    field_simp
    ring
  rw [hz, e]
  generalize (1 + η) ^ 2 * (1 + ε) * (1 - 2 / 3 * (((1 + η) ^ 3 * (1 + ε) - 1 + κ) * (1 + ((1 + δ5) * (1 + δ6) * (1 + δ7) - 1)) + 3 / 2 * τ / y)) = g at key
  have e2 : c * g * (1 + δ8) - c = c * ((g - 1) + g * δ8) := by ring
  rw [e2, abs_mul, abs_of_pos hc0]
  refine mul_le_mul_of_nonneg_left ?_ hc0.le
  have hg : |g| ≤ 1.00001 := by have := abs_le.mp key; rw [abs_le]; constructor <;> linarith
  have : |g * δ8| ≤ 1.00001 * u := by rw [abs_mul]; exact mul_le_mul hg h8 (abs_nonneg _) (by norm_num)
  have := abs_add_le (g - 1) (g * δ8)
  linarith

/-- The last step for a reciprocal cube root `x` with a relative error of at most `H`. -/
theorem cbrtStep_err (h : Nearest p emin rnd) (hp : 20 ≤ p) (hmin : emin ≤ -100 - p) (fused : Bool) {d x : ℚ} {c H : ℝ} (hc0 : 0 < c)
    (hc : c ^ 3 = d) (hd1 : 1 / 2 ≤ d) (hd2 : d ≤ 1) (hx : |(x : ℝ) * c - 1| ≤ H) (hH : H ≤ 1 / 20000) (hHu : 6 * H ^ 2 ≤ 0.1 * (1 / 2 ^ p)) :
    |((cbrtStep (flAlg rnd rnd fused) d x : ℚ) : ℝ) - c| ≤ c * (2.5 * (1 / 2 ^ p)) := by
  have hp1 : 1 ≤ p := by omega
  have hu : (1 : ℝ) / 2 ^ p ≤ 1 / 2 ^ 20 := one_div_le_one_div_of_le (by norm_num) (pow_le_pow_right₀ (by norm_num) hp)
  have hu0 : (0 : ℝ) < 1 / 2 ^ p := by positivity
  have hd1' : (0.5 : ℝ) ≤ d := by
    have : ((1 / 2 : ℚ) : ℝ) ≤ d := by exact_mod_cast hd1
    norm_num at this ⊢; linarith
  have hd2' : (d : ℝ) ≤ 1 := by exact_mod_cast hd2
  have hc1 : c ≤ 1 := by
    by_contra hcon; push Not at hcon
    have := one_lt_pow₀ hcon (show (3 : ℕ) ≠ 0 by norm_num)
    linarith
  have hc2 : 0.79 ≤ c := by
    by_contra hcon; push Not at hcon
    have := pow_lt_pow_left₀ hcon hc0.le (show (3 : ℕ) ≠ 0 by norm_num)
    norm_num at this; norm_num at hd1'; linarith
  have r1 : rnd (-1) = -1 := h.fix ⟨-1, 0, by rw [abs_neg]; exact_mod_cast one_lt_pow₀ (by norm_num : (1:ℤ) < 2) (by omega), by omega, by norm_num⟩
  obtain ⟨η, hη⟩ : ∃ η, (x : ℝ) * c = 1 + η := ⟨x * c - 1, by ring⟩
  have hη' : |η| ≤ H := by rw [hη] at hx; simpa using hx
  have hηb : -0.00005 ≤ η ∧ η ≤ 0.00005 := by
    have := abs_le.mp hη'; norm_num at hH; constructor <;> linarith
  have hx0 : 0.99 ≤ (x : ℝ) := by
    by_contra hcon; push Not at hcon
    have h1 : (x : ℝ) * c ≤ 0.99 * c := mul_le_mul_of_nonneg_right hcon.le hc0.le
    linarith [hηb.1]
  have hu1 : (1 : ℝ) / 2 ^ p ≤ 0.000001 := hu.trans (by norm_num)
  -- the operations
  have hdx : 0.49 ≤ (d : ℝ) * x := by
    have := mul_le_mul hd1' hx0 (by norm_num) (by linarith)
    linarith
  obtain ⟨δ1, hδ1, e1⟩ := rnd_rel h hp1 hmin (q := d * x) (by push_cast; rw [abs_of_pos (by linarith)]; linarith)
  have hδ1' := abs_le.mp hδ1
  have g1 : 0.485 ≤ ((rnd (d * x) : ℚ) : ℝ) := by
    rw [e1]; push_cast
    have := mul_le_mul hdx (show (0.9999 : ℝ) ≤ 1 + δ1 by linarith) (by norm_num) (by linarith)
    linarith
  have g2 : 0.48 ≤ ((rnd (d * x) : ℚ) : ℝ) * x := by
    have := mul_le_mul g1 hx0 (by norm_num) (by linarith)
    linarith
  obtain ⟨δ2, hδ2, e2⟩ := rnd_rel h hp1 hmin (q := rnd (d * x) * x) (by push_cast; rw [abs_of_pos (by linarith)]; linarith)
  have hδ2' := abs_le.mp hδ2
  have hy1 : 0.479 ≤ ((rnd (rnd (d * x) * x) : ℚ) : ℝ) := by
    rw [e2]; push_cast
    have := mul_le_mul g2 (show (0.9999 : ℝ) ≤ 1 + δ2 by linarith) (by norm_num) (by linarith)
    linarith
  push_cast at e1 e2
  rw [e1] at e2
  obtain ⟨ε, hε, hye, hyx, hyx1⟩ := step_y hu1 hc0 hc hη hδ1 hδ2 hηb.1 hηb.2 e2
  simp only [cbrtStep]
  rw [show (flAlg rnd rnd fused).lit (-1) = -1 from r1, show (flAlg rnd rnd fused).mul ((flAlg rnd rnd fused).mul d x) x = rnd (rnd (d * x) * x) from rfl]
  generalize rnd (rnd (d * x) * x) = y at *
  obtain ⟨κ, hκ, hv⟩ := step_v h hp1 hmin fused hyx1 hu1
  generalize (flAlg rnd rnd fused).mla y x (-1) = v at *
  obtain ⟨δ5, hδ5, e5⟩ := rnd_rel h hp1 hmin (q := 2 / 3) (by push_cast; norm_num [abs_of_pos])
  have g5 : 0.6 ≤ ((rnd (2 / 3) : ℚ) : ℝ) := by
    have := abs_le.mp hδ5
    rw [e5]; push_cast; linarith
  obtain ⟨δ6, hδ6, e6⟩ := rnd_rel h hp1 hmin (q := rnd (2 / 3) * y) (by
    push_cast
    have := mul_le_mul g5 hy1 (by norm_num) (by linarith)
    rw [abs_of_pos (by linarith)]; linarith)
  obtain ⟨δ7, τ, hδ7, hτ, e7⟩ := rnd_err h hp1 hmin (rnd (rnd (2 / 3) * y) * v)
  have hv1 : |(v : ℝ)| ≤ 0.001 := by
    rw [hv]; have := abs_add_le ((y : ℝ) * x - 1) κ; linarith
  have hy2 : (y : ℝ) ≤ 1.001 := by
    have h1 := (powB hηb.1 hηb.2).1
    have h2 := abs_le.mp (hε.trans (show (2.001 : ℝ) * (1 / 2 ^ p) ≤ 0.00001 by linarith))
    have h3 := prodB (a := (1 + η) ^ 2) (b := 1 + ε) (b1 := 0.99999) (b2 := 1.00001) (lo := 0.999) (hi := 1.001)
      h1.1 h1.2 (by linarith) (by linarith) (by norm_num) (by norm_num) (by norm_num) (by norm_num)
    rw [hye]
    have := mul_le_mul hc1 h3.2 (by linarith [h3.1]) (by norm_num)
    linarith
  have k6 : |((rnd (rnd (2 / 3) * y) : ℚ) : ℝ)| ≤ 1 := by
    rw [e6]; push_cast; rw [e5]; push_cast
    have b5 := abs_le.mp hδ5
    have b6 := abs_le.mp hδ6
    have h1 := prodB (a := 2 / 3 * (1 + δ5)) (b := y) (a1 := 0.66) (a2 := 0.67) (b1 := 0.479) (b2 := 1.001) (lo := 0.3) (hi := 0.68)
      (by linarith) (by linarith) hy1 hy2 (by norm_num) (by norm_num) (by norm_num) (by norm_num)
    have h2 := prodB (a := 2 / 3 * (1 + δ5) * (y : ℝ)) (b := 1 + δ6) (b1 := 0.99) (b2 := 1.01) (lo := 0) (hi := 1)
      h1.1 h1.2 (by linarith) (by linarith) (by norm_num) (by norm_num) (by norm_num) (by norm_num)
    rw [abs_of_nonneg h2.1]; exact h2.2
  have k7 : |((rnd (rnd (rnd (2 / 3) * y) * v) : ℚ) : ℝ)| ≤ 0.01 := by
    rw [e7]; push_cast
    have h1 : |((rnd (rnd (2 / 3) * y) : ℚ) : ℝ) * v| ≤ 1 * 0.001 := by
      rw [abs_mul]; exact mul_le_mul k6 hv1 (abs_nonneg _) (by norm_num)
    have b7 := abs_le.mp hδ7
    have h2 : |((rnd (rnd (2 / 3) * y) : ℚ) : ℝ) * v * (1 + δ7)| ≤ 1 * 0.001 * 2 := by
      rw [abs_mul]
      refine mul_le_mul h1 ?_ (abs_nonneg _) (by norm_num)
      rw [abs_le]; constructor <;> linarith
    have h3 : |τ| ≤ 0.000001 * (1 / 2 ^ p) := hτ.trans (mul_le_mul_of_nonneg_right (by norm_num) hu0.le)
    have := abs_add_le (((rnd (rnd (2 / 3) * y) : ℚ) : ℝ) * v * (1 + δ7)) τ
    linarith
  obtain ⟨δ8, hδ8, e8⟩ := rnd_rel h hp1 hmin (q := y - rnd (rnd (rnd (2 / 3) * y) * v)) (by
    push_cast
    have := abs_le.mp k7
    rw [abs_of_pos (by linarith)]; linarith)
  push_cast at e5 e6 e7 e8
  refine step_end (v := (v : ℝ)) hc0 hc2 hH hη' hu hε hκ hδ5 hδ6 hδ7 hδ8 hτ hHu hye (by rw [hv, hyx]) hy1 ?_
  rw [show (flAlg rnd rnd fused).sub y ((flAlg rnd rnd fused).mul ((flAlg rnd rnd fused).mul ((flAlg rnd rnd fused).lit (2 / 3)) y) v) =
    rnd (y - rnd (rnd (rnd (2 / 3) * y) * v)) from rfl, e8, e7, e6, e5]

end Nsimd.Sleef
