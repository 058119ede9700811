import Verif.Model.Hypot
import Verif.Lemmas.Fmod
import Mathlib.Analysis.Real.Sqrt
import Mathlib.Tactic.Positivity
import Mathlib.Tactic.Linarith
import Mathlib.Tactic.FieldSimp

/-! # Lemmas on the error of `hypot` -/

namespace Nsimd.Hypot
open Nsimd.DoubleDouble Nsimd.Float Nsimd.Round Nsimd.Props.Round

variable {p : Nat} {emin : ℤ} {rnd sq : ℚ → ℚ}

/-- `sq` returns a representable number that is nearest to the square root. Proof helper, not code of the repo. -/
structure Root (p : Nat) (emin : ℤ) (sq : ℚ → ℚ) : Prop where
  rep : ∀ s, Rep p emin (sq s)
  near : ∀ s z, 0 ≤ s → Rep p emin z → |(sq s : ℝ) - Real.sqrt s| ≤ |(z : ℝ) - Real.sqrt s|

/-- The relative error of a nearest square root of a number from 1 to 4 is at most half a unit. -/
theorem Root.rel (h : Root p emin sq) (hp : 1 ≤ p) (hmin : emin ≤ 1 - (p : ℤ)) {s : ℚ} (h1 : 1 ≤ s) (h4 : s ≤ 4) :
    |(sq s : ℝ) - Real.sqrt s| ≤ 1 / 2 ^ p := by
  have hs1 : 1 ≤ Real.sqrt s := by rw [Real.one_le_sqrt]; exact_mod_cast h1
  have hs2 : Real.sqrt s ≤ 2 := by
    rw [Real.sqrt_le_left (by norm_num)]; norm_num; exact_mod_cast h4
  have hpos : (0 : ℝ) < 2 ^ ((1 : ℤ) - p) := by positivity
  have hpe : (2 : ℝ) ^ ((1 : ℤ) - p) = 2 * (1 / 2 ^ p) := by
    rw [zpow_sub₀ (by norm_num), zpow_natCast]; norm_num; ring
  have hpp : (2 : ℝ) ^ p * 2 ^ ((1 : ℤ) - p) = 2 := by
    rw [hpe]; field_simp
  set y := Real.sqrt s / 2 ^ ((1 : ℤ) - p) with hy
  have hsy : Real.sqrt s = y * 2 ^ ((1 : ℤ) - p) := by rw [hy]; field_simp
  have hr := abs_sub_round y
  have hy0 : 0 ≤ y := by rw [hy]; positivity
  have hy1 : y ≤ 2 ^ p := by
    rw [hy, div_le_iff₀ hpos, hpp]; exact hs2
  have hrb : |round y| ≤ 2 ^ p := by
    rw [abs_le] at hr ⊢
    have h1 : (-1 : ℤ) < round y := by
      have : ((-1 : ℤ) : ℝ) < (round y : ℝ) := by push_cast; linarith [hr.1, hr.2]
      exact_mod_cast this
    have h2 : round y < 2 ^ p + 1 := by
      have : (round y : ℝ) < ((2 ^ p + 1 : ℤ) : ℝ) := by push_cast; linarith [hr.1, hr.2]
      exact_mod_cast this
    have h3 : (0 : ℤ) < 2 ^ p := by positivity
    constructor <;> omega
  have hrep : Rep p emin ((round y : ℚ) * 2 ^ ((1 : ℤ) - p)) := rep_int_mul hp hmin hrb
  have h2 := h.near s _ (by linarith) hrep
  refine h2.trans ?_
  push_cast
  rw [hsy, ← sub_mul, abs_mul, abs_of_pos hpos, hpe, abs_sub_comm]
  have h3 : (0 : ℝ) < 1 / 2 ^ p := by positivity
  nlinarith

/-- Nearest square roots exist. -/
theorem exists_root (p : Nat) (emin : ℤ) : ∃ sq, Root p emin sq := by
  have key : ∀ s : ℚ, ∃ y, Rep p emin y ∧ ∀ z, Rep p emin z → |(y : ℝ) - Real.sqrt s| ≤ |(z : ℝ) - Real.sqrt s| := by
    intro s
    set x := Real.sqrt s
    have hx0 : 0 ≤ x := Real.sqrt_nonneg _
    obtain ⟨B, hB⟩ := exists_nat_ge x
    obtain ⟨N, hN⟩ := exists_nat_ge ((2 * B : ℚ) / 2 ^ emin)
    have he : (0 : ℚ) < 2 ^ emin := by positivity
    have hfin : {w : ℚ | Rep p emin w ∧ |w| ≤ 2 * B}.Finite := by
      refine Set.Finite.subset (Set.Finite.image (fun k : ℤ => (k : ℚ) * 2 ^ emin) (Set.finite_Icc (-(N : ℤ)) N)) ?_
      rintro w ⟨⟨m, e, _, he', rfl⟩, hw⟩
      obtain ⟨n, rfl⟩ : ∃ n : Nat, e = n + emin := ⟨(e - emin).toNat, by omega⟩
      refine ⟨m * 2 ^ n, ?_, by push_cast; rw [zpow_add₀ (by norm_num), zpow_natCast]; ring⟩
      rw [zpow_add₀ (by norm_num), zpow_natCast, ← mul_assoc, abs_mul, abs_of_pos he, ← le_div_iff₀ he] at hw
      have hw' : |(m : ℚ) * 2 ^ n| ≤ ((N : ℤ) : ℚ) := by push_cast; exact hw.trans hN
      have hw2 : |m * 2 ^ n| ≤ (N : ℤ) := by
        have : ((|m * 2 ^ n| : ℤ) : ℚ) ≤ ((N : ℤ) : ℚ) := by push_cast; push_cast at hw'; exact hw'
        exact_mod_cast this
      exact abs_le.mp hw2
    obtain ⟨y, ⟨h1, _⟩, h3⟩ := Set.exists_min_image {w : ℚ | Rep p emin w ∧ |w| ≤ 2 * B} (fun w => |(w : ℝ) - x|)
      hfin ⟨0, rep_zero p emin, by simp⟩
    refine ⟨y, h1, fun z hz => ?_⟩
    by_cases hb : |z| ≤ 2 * B
    · exact h3 z ⟨hz, hb⟩
    · have h4 := h3 0 ⟨rep_zero p emin, by simp⟩
      refine h4.trans ?_
      have h5 : (2 * B : ℝ) < |(z : ℝ)| := by
        rw [not_le] at hb; exact_mod_cast hb
      have h6 := abs_sub_abs_le_abs_sub (z : ℝ) x
      simp only [Rat.cast_zero, zero_sub, abs_neg]
      rw [abs_of_nonneg hx0] at h6 ⊢
      linarith
  choose f hf using key
  exact ⟨f, fun s => (hf s).1, fun s z _ hz => (hf s).2 z hz⟩

/-- Rounding error of one operation with real numbers. -/
theorem err_real (h : Nearest p emin rnd) (hp : 1 ≤ p) (x : ℚ) :
    |(rnd x : ℝ) - x| ≤ 1 / 2 ^ p * |(x : ℝ)| + 2 ^ emin / 2 := by
  have := h.err hp x
  have h2 : ((|rnd x - x| : ℚ) : ℝ) ≤ ((|x| / 2 ^ p + 2 ^ emin / 2 : ℚ) : ℝ) := by exact_mod_cast this
  push_cast at h2
  refine h2.trans (le_of_eq ?_)
  ring

theorem rel_real (h : Nearest p emin rnd) (hp : 1 ≤ p) {x : ℚ} (hx : 2 ^ p * 2 ^ emin ≤ 2 * |x|) :
    |(rnd x : ℝ) - x| ≤ 1 / 2 ^ p * |(x : ℝ)| := by
  have := h.rel hp hx
  have h2 : ((|rnd x - x| : ℚ) : ℝ) ≤ ((|x| / 2 ^ p : ℚ) : ℝ) := by exact_mod_cast this
  push_cast at h2
  refine h2.trans (le_of_eq ?_)
  ring

/-- The error of `1 + t²`. -/
theorem sum_error {u ε τ t s : ℝ} (hu0 : 0 < u) (hu : u ≤ 1 / 64) (he0 : 0 < ε) (heu : 8 * ε ≤ u * u)
    (h0 : 0 ≤ τ) (h1 : τ ≤ 1) (ht : |t - τ| ≤ u * τ + ε / 2)
    (hs : ∃ w, |w - t * t| ≤ u * (t * t) + ε / 2 ∧ |s - (w + 1)| ≤ u * |w + 1|) :
    |s - (1 + τ * τ)| ≤ (5 / 2 * u + 9 * u * u) * (1 + τ * τ) := by
  obtain ⟨w, hw, hs⟩ := hs
  set T := τ * τ with hT
  have hT0 : 0 ≤ T := by positivity
  have hT1 : T ≤ 1 := by nlinarith
  have he : ε ≤ u := by nlinarith
  have h2 : |t * t - T| ≤ 2 * u * T + u * u * T + 2 * ε := by
    have : t * t - T = (t - τ) * (2 * τ + (t - τ)) := by rw [hT]; ring
    rw [this, abs_mul]
    have h3 : |2 * τ + (t - τ)| ≤ 2 * τ + (u * τ + ε / 2) :=
      (abs_add_le _ _).trans (by rw [abs_of_nonneg (by positivity : 0 ≤ 2 * τ)]; linarith)
    calc |t - τ| * |2 * τ + (t - τ)| ≤ (u * τ + ε / 2) * (2 * τ + (u * τ + ε / 2)) :=
          mul_le_mul ht h3 (abs_nonneg _) (by positivity)
      _ = 2 * u * T + u * u * T + ε * (τ + u * τ + ε / 4) := by rw [hT]; ring
      _ ≤ 2 * u * T + u * u * T + ε * 2 := by
          have : τ + u * τ + ε / 4 ≤ 2 := by nlinarith
          have := mul_le_mul_of_nonneg_left this he0.le
          linarith
      _ = _ := by ring
  have h3 : |w - T| ≤ 3 * u * T + 4 * u * u * T + 3 * ε := by
    have h4 : |w - T| ≤ |w - t * t| + |t * t - T| := abs_sub_le _ _ _
    have h5 : t * t ≤ T + (2 * u * T + u * u * T + 2 * ε) := by
      have := (abs_le.mp h2).2; linarith
    have h6 := mul_le_mul_of_nonneg_left h5 hu0.le
    have h7 : u * (u * u * T) ≤ u * u * T := by
      have : 0 ≤ u * u * T := by positivity
      nlinarith
    have h8 : u * ε ≤ ε / 64 := by nlinarith
    nlinarith
  have h4 : |w + 1| ≤ 1 + T + (3 * u * T + 4 * u * u * T + 3 * ε) := by
    have : w + 1 = (1 + T) + (w - T) := by ring
    rw [this]
    exact (abs_add_le _ _).trans (by rw [abs_of_nonneg (by positivity : 0 ≤ 1 + T)]; linarith)
  have h5 : |s - (1 + T)| ≤ |s - (w + 1)| + |w - T| := by
    have : s - (1 + T) = (s - (w + 1)) + (w - T) := by ring
    rw [this]; exact abs_add_le _ _
  have h6 := mul_le_mul_of_nonneg_left h4 hu0.le
  have h7 : u * (u * u * T) ≤ u * u * T / 64 := by
    have : 0 ≤ u * u * T := by positivity
    nlinarith
  have h8 : u * ε ≤ ε / 64 := by nlinarith
  have h9 : u * T ≤ u := by nlinarith
  have h10 : u * u * T ≤ u * u := by nlinarith [mul_pos hu0 hu0]
  nlinarith

/-- The error of the square root. -/
theorem root_error {u δ s S r : ℝ} (hu0 : 0 < u) (hu : u ≤ 1 / 64) (hδ0 : 0 ≤ δ) (hδ : δ ≤ 5 / 2 * u + 9 * u * u)
    (hS : 1 ≤ S) (hs : 1 ≤ s) (h : |s - S| ≤ δ * S) (hr : |r - Real.sqrt s| ≤ u) :
    |r - Real.sqrt S| ≤ (9 / 4 * u + 7 * u * u) * Real.sqrt S := by
  have a1 : 1 ≤ Real.sqrt S := by rw [Real.one_le_sqrt]; exact hS
  have b1 : 1 ≤ Real.sqrt s := by rw [Real.one_le_sqrt]; exact hs
  have a2 : Real.sqrt S * Real.sqrt S = S := Real.mul_self_sqrt (by linarith)
  have b2 : Real.sqrt s * Real.sqrt s = s := Real.mul_self_sqrt (by linarith)
  set a := Real.sqrt S
  set b := Real.sqrt s
  have hd1 : δ ≤ 1 / 16 := by nlinarith
  have h1 : |b - a| * (b + a) ≤ δ * (a * a) := by
    rw [a2]
    have : |b - a| * (b + a) = |s - S| := by
      have hb : b + a = |b + a| := (abs_of_pos (by linarith)).symm
      rw [hb, ← abs_mul, ← b2, ← a2]
      congr 1; ring
    rw [this]; exact h
  -- `b ≥ (1 - δ) a`
  have h2 : (1 - δ) * a ≤ b := by
    by_contra hc
    rw [not_le] at hc
    have h3 := (abs_le.mp h).1
    rw [← a2, ← b2] at h3
    have h4 : b * b < (1 - δ) * a * ((1 - δ) * a) := by nlinarith
    have h5 : (1 - δ) * a * ((1 - δ) * a) ≤ (1 - δ) * (a * a) := by
      have : 0 ≤ δ * (1 - δ) * (a * a) := by
        have : 0 ≤ 1 - δ := by linarith
        positivity
      nlinarith
    linarith
  have h3 : |b - a| * (2 - δ) ≤ δ * a := by
    have h4 : |b - a| * ((2 - δ) * a) ≤ |b - a| * (b + a) :=
      mul_le_mul_of_nonneg_left (by linarith) (abs_nonneg _)
    have h5 : (|b - a| * (2 - δ)) * a ≤ (δ * a) * a := by
      calc (|b - a| * (2 - δ)) * a = |b - a| * ((2 - δ) * a) := by ring
        _ ≤ δ * (a * a) := h4.trans h1
        _ = (δ * a) * a := by ring
    exact le_of_mul_le_mul_right h5 (by linarith)
  have h6 : |b - a| ≤ (5 / 4 * u + 7 * u * u) * a := by
    have h7 : δ ≤ (5 / 4 * u + 7 * u * u) * (2 - δ) := by nlinarith [mul_pos hu0 hu0]
    have h8 : |b - a| * (2 - δ) ≤ (5 / 4 * u + 7 * u * u) * a * (2 - δ) := by
      have := mul_le_mul_of_nonneg_right h7 (by linarith : 0 ≤ a)
      linarith
    exact le_of_mul_le_mul_right h8 (by linarith)
  have h7 : |r - a| ≤ |r - b| + |b - a| := abs_sub_le _ _ _
  have h8 : u ≤ u * a := by nlinarith
  nlinarith

/-- The last rounding: a normal result, or a result with the fixed spacing of the subnormal numbers. -/
theorem last_rounding (h : Nearest p emin rnd) (hp : 2 ≤ p) {z : ℚ} (hz : 0 < z) :
    |(rnd z : ℝ) - z| ≤ 1 / 2 ^ p * z ∨
    (|(rnd z : ℝ) - z| ≤ 2 ^ emin / 2 ∧ 1 / 2 ^ p * (z : ℝ) ≤ 2 ^ emin / 2 ∧ rnd z < 2 ^ p * 2 ^ emin) := by
  have hp1 : 1 ≤ p := by omega
  have hzR : (0 : ℝ) < z := by exact_mod_cast hz
  rcases le_or_gt (2 ^ p * 2 ^ emin) (2 * |z|) with hn | hn
  · left
    have h1 := rel_real h hp1 hn
    rwa [abs_of_pos hzR] at h1
  · right
    rw [abs_of_pos hz] at hn
    refine ⟨?_, ?_, ?_⟩
    · have h1 := h.half_ulp hp1 (le_refl emin) (x := z) (by rw [abs_of_pos hz]; linarith)
      have : ((|z - rnd z| : ℚ) : ℝ) ≤ ((2 ^ emin / 2 : ℚ) : ℝ) := by exact_mod_cast h1
      push_cast at this
      rwa [abs_sub_comm] at this
    · have h2 : 2 * (z : ℝ) ≤ 2 ^ p * 2 ^ emin := by
        have : ((2 * z : ℚ) : ℝ) ≤ ((2 ^ p * 2 ^ emin : ℚ) : ℝ) := by exact_mod_cast hn.le
        push_cast at this
        exact this
      have h4 : 1 / 2 ^ p * (2 * (z : ℝ)) ≤ 1 / 2 ^ p * (2 ^ p * 2 ^ emin) :=
        mul_le_mul_of_nonneg_left h2 (by positivity)
      have h5 : (1 : ℝ) / 2 ^ p * (2 ^ p * 2 ^ emin) = 2 ^ emin := by field_simp
      linarith
    · have h9 : z ≤ 2 ^ p * 2 ^ (emin - 1) := by
        rw [zpow_sub_one₀ (by norm_num)]; linarith
      have h10 : (2 : ℚ) ^ p * 2 ^ (emin - 1) = 2 ^ ((p : ℤ) + (emin - 1)) := by
        rw [zpow_add₀ (by norm_num), zpow_natCast]
      have h11 := h.mono h9
      rw [h10, h.fix (rep_pow hp1 (by omega)), ← h10] at h11
      exact h11.trans_lt (mul_lt_mul_of_pos_left (zpow_lt_zpow_right₀ (by norm_num) (by omega)) (by positivity))

/-- The final bound of `hypot_u35` in units in the last place. -/
theorem bound35 {u ε w z H r : ℝ} {P : Prop} (hu0 : 0 < u) (hu : u ≤ 1 / 64) (hε : 0 < ε) (hw1 : ε ≤ w) (hw2 : u * H ≤ w)
    (hH : 0 < H) (hz : |z - H| ≤ (9 / 4 * u + 7 * u * u) * H)
    (hr : |r - z| ≤ u * z ∨ (|r - z| ≤ ε / 2 ∧ u * z ≤ ε / 2 ∧ P)) :
    |r - H| ≤ 7 / 2 * w ∧ (|r - H| ≤ 4 * u * H ∨ P) := by
  have htri : |r - H| ≤ |r - z| + |z - H| := abs_sub_le _ _ _
  have hc : (9 / 4 * u + 7 * u * u) * H ≤ 5 / 2 * (u * H) := by
    have := mul_le_mul_of_nonneg_right (show 9 / 4 * u + 7 * u * u ≤ 5 / 2 * u by nlinarith) hH.le
    linarith
  have hz1 := (abs_le.mp hz).1
  have hz2 := (abs_le.mp hz).2
  have huH : 0 < u * H := by positivity
  rcases hr with hr | ⟨hr, h3, hP⟩
  · have h3 : u * z ≤ u * (H + 5 / 2 * (u * H)) := mul_le_mul_of_nonneg_left (by linarith) hu0.le
    have h4 : u * (u * H) ≤ 1 / 64 * (u * H) := mul_le_mul_of_nonneg_right hu huH.le
    have h2 : |r - H| ≤ 7 / 2 * (u * H) := by nlinarith
    exact ⟨by linarith, Or.inl (by linarith)⟩
  · refine ⟨?_, Or.inr hP⟩
    have h4 : u * (H - 5 / 2 * (u * H)) ≤ u * z := mul_le_mul_of_nonneg_left (by linarith) hu0.le
    have h5 : u * (u * H) ≤ 1 / 64 * (u * H) := mul_le_mul_of_nonneg_right hu huH.le
    linarith

end Nsimd.Hypot
