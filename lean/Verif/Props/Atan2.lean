import Verif.Model.Atan2
import Verif.Lemmas.Atan2
import Verif.Lemmas.LogCombine
import Verif.Props.Atan
import Mathlib.Analysis.SpecialFunctions.Complex.Arg

/-!
# Accuracy and special cases of `atan2_u35`
-/

namespace Nsimd.Props.Atan2
open Nsimd.Sleef Nsimd.DoubleDouble Nsimd.Float Nsimd.Props.Round Nsimd.Props.Hypot Nsimd.Round Nsimd.Hypot Nsimd.Props.Ulp Nsimd.Props.Atan

variable {p : ℕ} {emin emax : ℤ} {rnd rndd : ℚ → ℚ} {fused : Bool} {poly : {α : Type} → Alg α → α → α} {F : List ℚ} {εa εb k : ℚ}

/-! ### Specification -/

/-- The angle of a point `x + i |y|`, from zero to pi, where `x` has the sign bit `n` and the absolute value `a`, and `|y| = b`. For the origin
the sign of the zero `x` decides. -/
noncomputable def angle (b : ℚ) (n : Bool) (a : ℚ) : ℝ :=
  if a = 0 ∧ b = 0 ∧ n then Real.pi else Complex.arg ⟨if n then -a else a, b⟩

/-- The angle of a direction at infinity, from zero to pi. -/
noncomputable def limAngle : SF → SF → ℝ
  | .inf _, .inf n => if n then 3 * Real.pi / 4 else Real.pi / 4
  | .inf _, _ => Real.pi / 2
  | _, .inf n => if n then Real.pi else 0
  | _, _ => 0

/-- `r` has the sign bit `m` and its absolute value is within `c` ulps of `y`. -/
def SignedWithin (p : ℕ) (emin emax : ℤ) (c : ℝ) (m : Bool) (y : ℝ) (r : SF) : Prop :=
  ∃ a : ℚ, r = .fin m a ∧ 0 ≤ a ∧ Within p emin emax c y (.fin a)

/-! ### Parts of the proofs -/

theorem arg_polar {x y R θ : ℝ} (hR : 0 < R) (h1 : -Real.pi < θ) (h2 : θ ≤ Real.pi) (hx : x = R * Real.cos θ) (hy : y = R * Real.sin θ) :
    Complex.arg ⟨x, y⟩ = θ := by
  have : (⟨x, y⟩ : ℂ) = R * (Complex.cos θ + Complex.sin θ * Complex.I) := by
    apply Complex.ext
    · simp [hx, ← Complex.ofReal_cos, ← Complex.ofReal_sin]
    · simp [hy, ← Complex.ofReal_cos, ← Complex.ofReal_sin]
  rw [this]
  exact Complex.arg_mul_cos_add_sin_mul_I hR ⟨h1, h2⟩

/-- The angle in the four cases of the code. -/
theorem arg_cases {a b : ℝ} (ha : 0 < a) (hb : 0 < b) :
    Complex.arg ⟨a, b⟩ = Real.arctan (b / a) ∧ Complex.arg ⟨-a, b⟩ = Real.pi - Real.arctan (b / a) ∧
    Complex.arg ⟨a, b⟩ = Real.pi / 2 - Real.arctan (a / b) ∧ Complex.arg ⟨-a, b⟩ = Real.pi / 2 + Real.arctan (a / b) := by
  have hpi := Real.pi_pos
  have key : ∀ c d : ℝ, 0 < c → 0 < d → 0 < c / Real.cos (Real.arctan (d / c)) ∧
      c = c / Real.cos (Real.arctan (d / c)) * Real.cos (Real.arctan (d / c)) ∧
      d = c / Real.cos (Real.arctan (d / c)) * Real.sin (Real.arctan (d / c)) := by
    intro c d hc hd
    have h1 := Real.cos_arctan_pos (d / c)
    refine ⟨by positivity, by field_simp, ?_⟩
    have h2 := Real.tan_arctan (d / c)
    rw [Real.tan_eq_sin_div_cos, div_eq_iff h1.ne'] at h2
    rw [h2]; field_simp
  obtain ⟨h1, h2, h3⟩ := key a b ha hb
  obtain ⟨g1, g2, g3⟩ := key b a hb ha
  have l1 := Real.arctan_lt_pi_div_two (b / a)
  have l2 := Real.arctan_lt_pi_div_two (a / b)
  have l3 : 0 ≤ Real.arctan (b / a) := Real.arctan_nonneg.mpr (by positivity)
  have l4 : 0 ≤ Real.arctan (a / b) := Real.arctan_nonneg.mpr (by positivity)
  refine ⟨arg_polar h1 (by linarith) (by linarith) h2 h3, arg_polar h1 (by linarith) (by linarith) ?_ ?_,
    arg_polar g1 (by linarith) (by linarith) ?_ ?_, arg_polar g1 (by linarith) (by linarith) ?_ ?_⟩
  · rw [Real.cos_pi_sub]; linarith
  · rw [Real.sin_pi_sub]; exact h3
  · rw [Real.cos_pi_div_two_sub]; exact g3
  · rw [Real.sin_pi_div_two_sub]; exact g2
  · rw [add_comm, Real.cos_add_pi_div_two]; linarith
  · rw [add_comm, Real.sin_add_pi_div_two]; exact g2

theorem arg_imag {b : ℝ} (hb : 0 < b) : Complex.arg ⟨0, b⟩ = Real.pi / 2 := by
  have hpi := Real.pi_pos
  exact arg_polar hb (by linarith) (by linarith) (by simp) (by simp)

theorem arg_real {a : ℝ} (ha : 0 ≤ a) : Complex.arg ⟨a, 0⟩ = 0 := Complex.arg_ofReal_of_nonneg ha

theorem arg_neg {a : ℝ} (ha : 0 < a) : Complex.arg ⟨-a, 0⟩ = Real.pi := Complex.arg_ofReal_of_neg (neg_lt_zero.mpr ha)

/-- The kernel is odd. -/
theorem atanZ_neg (S : Atan2Env p emin rnd fused poly F εa εb k) (s : ℚ) : atanZ rnd fused poly (-s) = -atanZ rnd fused poly s := by
  unfold atanZ
  simp only [neg_mul_neg]
  cases fused
  · simp only [Bool.false_eq_true, if_false, neg_mul, S.odd]; ring
  · simp only [if_true]; ring

theorem mla_rep (h : Nearest p emin rnd) (fused : Bool) {q H : ℚ} (hq : Rep p emin (q * H)) (t : ℚ) :
    (flAlg rnd rnd fused).mla q H t = rnd (q * H + t) := by
  cases fused
  · simp only [flAlg, Bool.false_eq_true, if_false, add, mul, h.fix hq]
  · simp only [flAlg, if_true, fma]

/-- What is known about the constant for a half of pi. Proof helper. -/
structure HalfPi (p : ℕ) (emin : ℤ) (k H : ℚ) : Prop where
  near : |(H : ℝ) - Real.pi / 2| ≤ k * (1 / 2 ^ p)
  mult : Mult (-(p : ℤ)) H
  one : Rep p emin H
  two : Rep p emin (2 * H)
  half : Rep p emin (H / 2)

theorem within_four (h : Nearest p emin rnd) (hp : 20 ≤ p) (hmin : emin ≤ -100 - p) (hemax : 3 ≤ emax) {z : ℚ} {y c : ℝ} (hz : |(z : ℝ)| ≤ 4)
    (hw : ∀ w, IsUlp p emin |y| w → |((rnd z : ℚ) : ℝ) - y| ≤ c * w) : Within p emin emax c y (.fin (rnd z)) := by
  refine within_fin h (a := 4) ⟨1, 2, by rw [abs_one]; exact one_lt_pow₀ (by norm_num) (by omega), by omega, by norm_num⟩ ?_ ?_ hw
  · have : ((|z| : ℚ) : ℝ) ≤ ((|4| : ℚ) : ℝ) := by rw [Rat.cast_abs]; norm_num; exact hz
    exact_mod_cast this
  · rw [abs_of_pos (by norm_num)]
    exact lt_of_lt_of_le (by norm_num : (4 : ℚ) < 2 ^ (3 : ℤ)) (zpow_le_zpow_right₀ (by norm_num) hemax)

/-- The four cases of the reconstruction. -/
theorem atan2_core (S : Atan2Env p emin rnd fused poly F εa εb k) (hemax : 3 ≤ emax) {H : ℚ} (hH : HalfPi p emin k H) {a b : ℚ} (ha : 0 < a)
    (hb : 0 < b) (n : Bool) :
    0 ≤ signQ n (atan2k rnd fused poly H b (signQ n a)) ∧
    Within p emin emax 3.5 (Complex.arg ⟨if n then -a else a, b⟩) (.fin (signQ n (atan2k rnd fused poly H b (signQ n a)))) := by
  have h := S.near
  have hp := S.hp
  have hp1 : 1 ≤ p := by omega
  have hmin := S.hmin
  have haR : (0 : ℝ) < a := by exact_mod_cast ha
  have hbR : (0 : ℝ) < b := by exact_mod_cast hb
  obtain ⟨A1, A2, A3, A4⟩ := arg_cases haR hbR
  have hU0 : (0 : ℝ) < 1 / 2 ^ p := by positivity
  have hU2 : (1 : ℝ) / 2 ^ p ≤ 0.000001 :=
    (one_div_le_one_div_of_le (by norm_num) (pow_le_pow_right₀ (by norm_num) hp : (2 : ℝ) ^ 20 ≤ 2 ^ p)).trans (by norm_num)
  have hk1 : (k : ℝ) ≤ 0.8 := by have : (k : ℝ) ≤ ((0.8 : ℚ) : ℝ) := by exact_mod_cast S.hk1
                                 push_cast at this; exact this
  have hpi1 := Real.pi_gt_d2
  have hpi2 := Real.pi_lt_d2
  have hHn : |(H : ℝ) - Real.pi / 2| ≤ 0.8 * (1 / 2 ^ p) := hH.near.trans (mul_le_mul_of_nonneg_right hk1 hU0.le)
  have hHb := _root_.abs_le.mp hHn
  -- the kernel at the rounded quotient
  have kern : ∀ r : ℚ, 0 ≤ r → r ≤ 1 → 0 ≤ rnd (atanZ rnd fused poly (rnd r)) ∧
      |((rnd (atanZ rnd fused poly (rnd r)) : ℚ) : ℝ) - Real.arctan r| ≤ 3.2 * (1 / 2 ^ p) ∧ 0 ≤ Real.arctan r ∧ Real.arctan r ≤ 0.79 ∧
      |((atanZ rnd fused poly (rnd r) : ℚ) : ℝ)| ≤ 1 := by
    intro r h0 h1
    obtain ⟨q1, q2, q3, -, -⟩ := S.quot h0 h1
    have hr0 : (0 : ℝ) ≤ r := by exact_mod_cast h0
    have hr1 : (r : ℝ) ≤ 1 := by exact_mod_cast h1
    have hs0 : (0 : ℝ) ≤ ((rnd r : ℚ) : ℝ) := by exact_mod_cast q1
    have hs1 : ((rnd r : ℚ) : ℝ) ≤ 1 := by exact_mod_cast q2
    have hz := S.all q1 q2
    have hl := arctan_lip (m := 0) le_rfl hs0 hr0
    rw [zero_pow (by norm_num), add_zero, div_one, one_mul] at hl
    have e1 : Real.arctan r ≤ Real.pi / 4 := by rw [← Real.arctan_one]; exact arctan_mono hr1
    have e2 : Real.arctan ((rnd r : ℚ) : ℝ) ≤ Real.pi / 4 := by rw [← Real.arctan_one]; exact arctan_mono hs1
    have e3 : 0 ≤ Real.arctan r := Real.arctan_nonneg.mpr hr0
    have e4 : 0 ≤ Real.arctan ((rnd r : ℚ) : ℝ) := Real.arctan_nonneg.mpr hs0
    have hz' := _root_.abs_le.mp hz
    have hl' := _root_.abs_le.mp (hl.trans q3)
    have hz1 : |((atanZ rnd fused poly (rnd r) : ℚ) : ℝ)| ≤ 1 := by rw [_root_.abs_le]; constructor <;> linarith
    have r0 := half_pow h hp1 0 (by omega) (x := atanZ rnd fused poly (rnd r)) (by rw [zpow_zero]; exact hz1)
    rw [zpow_zero, one_mul] at r0
    have r0' := _root_.abs_le.mp r0
    refine ⟨?_, ?_, e3, by linarith, hz1⟩
    · have hz0 : 0 ≤ atanZ rnd fused poly (rnd r) := by
        rcases le_total (rnd r) (1 / 4) with h4 | h4
        · exact atanZ_nonneg h hp hmin S.coef S.tiny (h.rep r) q1 h4
        · have h5 : (0.25 : ℝ) ≤ ((rnd r : ℚ) : ℝ) := by
            have : ((1 / 4 : ℚ) : ℝ) ≤ ((rnd r : ℚ) : ℝ) := by exact_mod_cast h4
            norm_num at this ⊢; exact this
          have h6 := arctan_25.trans (arctan_mono h5)
          have : (0 : ℝ) ≤ ((atanZ rnd fused poly (rnd r) : ℚ) : ℝ) := by linarith
          exact_mod_cast this
      have := h.mono hz0
      rwa [h.zero] at this
    · rw [_root_.abs_le]; constructor <;> linarith
  have nonneg : ∀ x : ℚ, (0 : ℝ) ≤ x → 0 ≤ rnd x := fun x hx => by
    have : (0 : ℚ) ≤ x := by exact_mod_cast hx
    have := h.mono this
    rwa [h.zero] at this
  have hneg : Rep p emin (-H) := rep_neg hH.one
  have hneg2 : Rep p emin (-2 * H) := by rw [neg_mul]; exact rep_neg hH.two
  rcases lt_or_ge a b with hab | hab
  · -- the quotient is that of `x` and `y`
    have h0 : 0 ≤ a / b := by positivity
    have h1 : a / b ≤ 1 := by rw [div_le_one hb]; exact hab.le
    obtain ⟨c1, c2, c3, c4, -⟩ := kern (a / b) h0 h1
    have c2' := _root_.abs_le.mp c2
    have hcast : (a : ℝ) / b = ((a / b : ℚ) : ℝ) := by push_cast; rfl
    have hker : atanKernel (flAlg rnd rnd fused) poly (rnd (-a / b)) = -rnd (atanZ rnd fused poly (rnd (a / b))) := by
      rw [atanKernel_eq, neg_div, S.odd, atanZ_neg S, S.odd]
    cases n
    · have e : signQ false (atan2k rnd fused poly H b (signQ false a)) = rnd (H - rnd (atanZ rnd fused poly (rnd (a / b)))) := by
        simp only [signQ, atan2k, Bool.false_eq_true, if_false, abs_of_pos ha, if_pos hab, if_neg (not_lt.mpr ha.le), max_eq_right hab.le, hker]
        rw [mla_rep h fused (by rw [zero_add, one_mul]; exact hH.one)]
        congr 1; ring
      rw [e]
      simp only [Bool.false_eq_true, if_false]
      rw [A3, hcast]
      refine ⟨nonneg _ (by push_cast; push_cast at c2' c4; linarith), within_four h hp hmin hemax ?_ fun w hw => ?_⟩
      · push_cast; push_cast at c2' c4 c3; rw [_root_.abs_le]; constructor <;> linarith
      · exact atan_gt_one h hp hmin S.z (le_trans (by norm_num) S.hk) S.hk1 hH.near hH.mult h0 h1 hw
    · have e : signQ true (atan2k rnd fused poly H b (signQ true a)) = rnd (H + rnd (atanZ rnd fused poly (rnd (a / b)))) := by
        simp only [signQ, atan2k, if_true, abs_neg, abs_of_pos ha, if_pos hab, if_pos (neg_lt_zero.mpr ha), max_eq_right hab.le, hker]
        rw [mla_rep h fused (by rw [show (-2 + 1 : ℚ) * H = -H by ring]; exact hneg), ← S.odd]
        congr 1; ring
      rw [e]
      simp only [if_true]
      rw [A4, hcast]
      have hR : |((H + rnd (atanZ rnd fused poly (rnd (a / b))) : ℚ) : ℝ)| ≤ 4 := by
        push_cast; push_cast at c2' c4 c3; rw [_root_.abs_le]; constructor <;> linarith
      refine ⟨nonneg _ (by push_cast; push_cast at c2' c4 c3; linarith), within_four h hp hmin hemax hR fun w hw => ?_⟩
      rw [abs_of_nonneg (by linarith)] at hw
      have hw1 := ulp_ge_of hw 1 (by rw [zpow_one]; linarith)
      have r1 := half_pow h hp1 2 (by omega) (x := H + rnd (atanZ rnd fused poly (rnd (a / b)))) (hR.trans (by norm_num))
      rw [zpow_one] at hw1
      rw [show (2 : ℝ) ^ (2 : ℤ) = 4 by norm_num] at r1
      have r1' := _root_.abs_le.mp r1
      rw [Rat.cast_add] at r1'
      rw [_root_.abs_le]
      constructor <;> linarith
  · have h0 : 0 ≤ b / a := by positivity
    have h1 : b / a ≤ 1 := by rw [div_le_one ha]; exact hab
    obtain ⟨c1, c2, c3, c4, c5⟩ := kern (b / a) h0 h1
    have c2' := _root_.abs_le.mp c2
    have hcast : (b : ℝ) / a = ((b / a : ℚ) : ℝ) := by push_cast; rfl
    have hker : atanKernel (flAlg rnd rnd fused) poly (rnd (b / a)) = rnd (atanZ rnd fused poly (rnd (b / a))) := atanKernel_eq _ _ _
    cases n
    · have e : signQ false (atan2k rnd fused poly H b (signQ false a)) = rnd (atanZ rnd fused poly (rnd (b / a))) := by
        simp only [signQ, atan2k, Bool.false_eq_true, if_false, abs_of_pos ha, if_neg (not_lt.mpr hab), if_neg (not_lt.mpr ha.le),
          max_eq_left hab, hker]
        rw [mla_rep h fused (by rw [zero_mul]; exact rep_zero p emin), zero_mul, zero_add]
        exact h.fix (h.rep _)
      rw [e]
      simp only [Bool.false_eq_true, if_false]
      rw [A1, hcast]
      exact ⟨c1, within_four h hp hmin hemax (by linarith) fun w hw => S.le_one h0 h1 hw⟩
    · have e : signQ true (atan2k rnd fused poly H b (signQ true a)) = rnd (2 * H - rnd (atanZ rnd fused poly (rnd (b / a)))) := by
        simp only [signQ, atan2k, if_true, abs_neg, abs_of_pos ha, if_neg (not_lt.mpr hab), if_pos (neg_lt_zero.mpr ha),
          max_eq_left hab, hker]
        rw [mla_rep h fused hneg2, ← S.odd]
        congr 1; ring
      rw [e]
      simp only [if_true]
      rw [A2, hcast]
      have hR : |((2 * H - rnd (atanZ rnd fused poly (rnd (b / a))) : ℚ) : ℝ)| ≤ 4 := by
        push_cast; push_cast at c2' c4 c3; rw [_root_.abs_le]; constructor <;> linarith
      refine ⟨nonneg _ (by push_cast; push_cast at c2' c4 c3; linarith), within_four h hp hmin hemax hR fun w hw => ?_⟩
      rw [abs_of_nonneg (by linarith)] at hw
      have hw1 := ulp_ge_of hw 2 (by rw [show (2 : ℝ) ^ (2 : ℤ) = 4 by norm_num]; linarith)
      have r1 := half_pow h hp1 2 (by omega) (x := 2 * H - rnd (atanZ rnd fused poly (rnd (b / a)))) (hR.trans (by norm_num))
      rw [show (2 : ℝ) ^ (2 : ℤ) = 4 by norm_num] at r1 hw1
      have r1' := _root_.abs_le.mp r1
      rw [Rat.cast_sub, Rat.cast_mul, Rat.cast_ofNat] at r1'
      rw [_root_.abs_le]
      constructor <;> linarith

/-- The sign of the result. -/
theorem fin_sign {c : ℝ} {y : ℝ} {m : Bool} {r : ℚ} (h0 : 0 ≤ r) (h : Within p emin emax c y (.fin r)) :
    SignedWithin p emin emax c m y (.fin (decide (r < 0) ^^ m) |r|) :=
  ⟨r, by rw [abs_of_nonneg h0, decide_eq_false (not_lt.mpr h0), Bool.false_xor], h0, h⟩

theorem within_const (h : Nearest p emin rnd) (hp : 20 ≤ p) (hmin : emin ≤ -100 - p) (hemax : 3 ≤ emax) {q : ℚ} {y c : ℝ} (hq : Rep p emin q)
    (hz : |(q : ℝ)| ≤ 4) (hw : ∀ w, IsUlp p emin |y| w → |(q : ℝ) - y| ≤ c * w) : Within p emin emax c y (.fin q) := by
  have := within_four h hp hmin hemax (z := q) (y := y) (c := c) hz (by rw [h.fix hq]; exact hw)
  rwa [h.fix hq] at this

theorem atan2With_fin (S : Atan2Env p emin rnd fused poly F εa εb k) (hemax : 3 ≤ emax) {H : ℚ} (hH : HalfPi p emin k H) {a b : ℚ} (ha : 0 ≤ a)
    (hb : 0 ≤ b) (m n : Bool) :
    SignedWithin p emin emax 3.5 m (angle b n a) (atan2With rnd fused poly H H (H / 2) (2 * H) (.fin m b) (.fin n a)) := by
  have h := S.near
  have hp := S.hp
  have hmin := S.hmin
  have hU0 : (0 : ℝ) < 1 / 2 ^ p := by positivity
  have hU2 : (1 : ℝ) / 2 ^ p ≤ 0.000001 :=
    (one_div_le_one_div_of_le (by norm_num) (pow_le_pow_right₀ (by norm_num) hp : (2 : ℝ) ^ 20 ≤ 2 ^ p)).trans (by norm_num)
  have hk1 : (k : ℝ) ≤ 0.8 := by have : (k : ℝ) ≤ ((0.8 : ℚ) : ℝ) := by exact_mod_cast S.hk1
                                 push_cast at this; exact this
  have hpi1 := Real.pi_gt_d2
  have hpi2 := Real.pi_lt_d2
  have hHn : |(H : ℝ) - Real.pi / 2| ≤ 0.8 * (1 / 2 ^ p) := hH.near.trans (mul_le_mul_of_nonneg_right hk1 hU0.le)
  have hHb := _root_.abs_le.mp hHn
  have hH0 : 0 ≤ H := by
    have : (0 : ℝ) ≤ H := by linarith
    exact_mod_cast this
  simp only [atan2With, SF.isInf, SF.isZero, SF.sgn, Bool.false_or, Bool.false_eq_true, if_false, decide_eq_true_eq]
  rcases eq_or_lt_of_le hb with rfl | hb'
  · rw [if_pos rfl]
    cases n
    · simp only [Bool.false_eq_true, if_false]
      refine fin_sign le_rfl ?_
      have : angle 0 false a = 0 := by
        simp only [angle, Bool.false_eq_true, and_false, if_false, Rat.cast_zero]
        exact arg_real (by exact_mod_cast ha)
      rw [this]
      refine within_const h hp hmin hemax (rep_zero p emin) (by norm_num) fun w hw => ?_
      have := hw.le.2.2
      norm_num; linarith
    · simp only [if_true]
      refine fin_sign (by linarith) ?_
      have : angle 0 true a = Real.pi := by
        rcases eq_or_lt_of_le ha with rfl | ha'
        · simp [angle]
        · simp only [angle, ha'.ne', false_and, if_false, if_true, Rat.cast_zero]
          have := arg_neg (a := a) (by exact_mod_cast ha')
          simpa using this
      rw [this]
      refine within_const h hp hmin hemax hH.two (by push_cast; rw [_root_.abs_le]; constructor <;> linarith) fun w hw => ?_
      rw [abs_of_nonneg (by linarith)] at hw
      have hw1 := ulp_ge_of hw 1 (by rw [zpow_one]; linarith)
      rw [zpow_one] at hw1
      push_cast
      rw [_root_.abs_le]; constructor <;> linarith
  · rw [if_neg hb'.ne']
    have hang : angle b n a = Complex.arg ⟨if n then -a else a, b⟩ := by simp only [angle, hb'.ne', false_and, and_false, if_false]
    rcases eq_or_lt_of_le ha with rfl | ha'
    · rw [if_pos rfl]
      have e : sub rnd H 0 = H := by simp only [sub, sub_zero, h.fix hH.one]
      rw [e]
      refine fin_sign hH0 ?_
      have : angle b n 0 = Real.pi / 2 := by
        rw [hang]
        have hbR : (0 : ℝ) < b := by exact_mod_cast hb'
        rw [← arg_imag hbR]
        cases n <;> simp
      rw [this]
      refine within_const h hp hmin hemax hH.one (by rw [_root_.abs_le]; constructor <;> linarith) fun w hw => ?_
      rw [abs_of_nonneg (by linarith)] at hw
      have hw1 := ulp_ge_of hw 1 (by rw [zpow_one]; linarith)
      rw [zpow_one] at hw1
      rw [_root_.abs_le]; constructor <;> linarith
    · rw [if_neg ha'.ne']
      obtain ⟨c1, c2⟩ := atan2_core S hemax hH ha' hb' n
      rw [hang]
      exact fin_sign c1 c2

theorem atan2With_inf (S : Atan2Env p emin rnd fused poly F εa εb k) (hemax : 3 ≤ emax) {H : ℚ} (hH : HalfPi p emin k H) {y x : SF}
    (hy : y ≠ .nan) (hx : x ≠ .nan) (hi : y.isInf ∨ x.isInf) :
    SignedWithin p emin emax 1 y.sgn (limAngle y x) (atan2With rnd fused poly H H (H / 2) (2 * H) y x) := by
  have h := S.near
  have hp := S.hp
  have hp1 : 1 ≤ p := by omega
  have hmin := S.hmin
  have hU0 : (0 : ℝ) < 1 / 2 ^ p := by positivity
  have hU2 : (1 : ℝ) / 2 ^ p ≤ 0.000001 :=
    (one_div_le_one_div_of_le (by norm_num) (pow_le_pow_right₀ (by norm_num) hp : (2 : ℝ) ^ 20 ≤ 2 ^ p)).trans (by norm_num)
  have hk1 : (k : ℝ) ≤ 0.8 := by have : (k : ℝ) ≤ ((0.8 : ℚ) : ℝ) := by exact_mod_cast S.hk1
                                 push_cast at this; exact this
  have hpi1 := Real.pi_gt_d2
  have hpi2 := Real.pi_lt_d2
  have hHn : |(H : ℝ) - Real.pi / 2| ≤ 0.8 * (1 / 2 ^ p) := hH.near.trans (mul_le_mul_of_nonneg_right hk1 hU0.le)
  have hHb := _root_.abs_le.mp hHn
  have hH0 : 0 ≤ H := by
    have : (0 : ℝ) ≤ H := by linarith
    exact_mod_cast this
  have w1 : Within p emin emax 1 (Real.pi / 2) (.fin H) := by
    refine within_const h hp hmin hemax hH.one (by rw [_root_.abs_le]; constructor <;> linarith) fun w hw => ?_
    rw [abs_of_nonneg (by linarith)] at hw
    have hw1 := ulp_ge_of hw 1 (by rw [zpow_one]; linarith)
    rw [zpow_one] at hw1
    rw [_root_.abs_le]; constructor <;> linarith
  have w2 : Within p emin emax 1 Real.pi (.fin (2 * H)) := by
    refine within_const h hp hmin hemax hH.two (by push_cast; rw [_root_.abs_le]; constructor <;> linarith) fun w hw => ?_
    rw [abs_of_nonneg (by linarith)] at hw
    have hw1 := ulp_ge_of hw 2 (by norm_num; linarith)
    rw [show (2 : ℝ) ^ (2 : ℤ) = 4 by norm_num] at hw1
    push_cast
    rw [_root_.abs_le]; constructor <;> linarith
  have w3 : Within p emin emax 1 (Real.pi / 4) (.fin (H / 2)) := by
    refine within_const h hp hmin hemax hH.half (by push_cast; rw [_root_.abs_le]; constructor <;> linarith) fun w hw => ?_
    rw [abs_of_nonneg (by linarith)] at hw
    have hw1 := ulp_ge_of hw 0 (by rw [zpow_zero]; linarith)
    rw [zpow_zero] at hw1
    push_cast
    rw [_root_.abs_le]; constructor <;> linarith
  have w4 : Within p emin emax 1 (3 * Real.pi / 4) (.fin (rnd (H - -(H / 2)))) := by
    have hR : |((H - -(H / 2) : ℚ) : ℝ)| ≤ 4 := by push_cast; rw [_root_.abs_le]; constructor <;> linarith
    refine within_four h hp hmin hemax hR fun w hw => ?_
    rw [abs_of_nonneg (by linarith)] at hw
    have hw1 := ulp_ge_of hw 2 (by norm_num; linarith)
    have r1 := half_pow h hp1 2 (by omega) (x := H - -(H / 2)) (hR.trans (by norm_num))
    rw [show (2 : ℝ) ^ (2 : ℤ) = 4 by norm_num] at hw1 r1
    have r1' := _root_.abs_le.mp r1
    rw [Rat.cast_sub, Rat.cast_neg, Rat.cast_div, Rat.cast_ofNat] at r1'
    rw [_root_.abs_le]; constructor <;> linarith
  have w0 : Within p emin emax 1 0 (.fin 0) := by
    refine within_const h hp hmin hemax (rep_zero p emin) (by norm_num) fun w hw => ?_
    have := hw.le.2.2
    norm_num; linarith
  have s1 : sub rnd H 0 = H := by simp only [sub, sub_zero, h.fix hH.one]
  have s2 : sub rnd H H = 0 := by simp only [sub, sub_self, h.zero]
  have s3 : sub rnd H (-H) = 2 * H := by simp only [sub]; rw [show H - -H = 2 * H by ring, h.fix hH.two]
  have s4 : sub rnd H (H / 2) = H / 2 := by simp only [sub]; rw [show H - H / 2 = H / 2 by ring, h.fix hH.half]
  have s5 : 0 ≤ rnd (H - -(H / 2)) := by
    have := h.mono (show 0 ≤ H - -(H / 2) by linarith)
    rwa [h.zero] at this
  cases y with
  | nan => exact absurd rfl hy
  | inf m =>
    cases x with
    | nan => exact absurd rfl hx
    | inf n =>
      cases n
      · simp only [atan2With, SF.isInf, SF.isZero, SF.sgn, limAngle, signQ, if_true, if_false, Bool.false_eq_true, s4]
        exact fin_sign (by linarith) w3
      · simp only [atan2With, SF.isInf, SF.isZero, SF.sgn, limAngle, signQ, if_true, if_false, Bool.false_eq_true]
        exact fin_sign s5 w4
    | fin n a =>
      simp only [atan2With, SF.isInf, SF.isZero, SF.sgn, limAngle, if_true, if_false, Bool.false_eq_true, s1]
      exact fin_sign hH0 w1
  | fin m b =>
    cases x with
    | nan => exact absurd rfl hx
    | inf n =>
      cases n
      · simp only [atan2With, SF.isInf, SF.isZero, SF.sgn, limAngle, signQ, if_true, if_false, Bool.false_eq_true, Bool.true_or, s2, ite_self]
        exact fin_sign le_rfl w0
      · simp only [atan2With, SF.isInf, SF.isZero, SF.sgn, limAngle, signQ, if_true, if_false, Bool.false_eq_true, Bool.true_or, s3, ite_self]
        exact fin_sign (by linarith) w2
    | fin n a => simp [SF.isInf] at hi

theorem env64 (h : Nearest 53 (-1074) rnd) (ho : ∀ x, rnd (-x) = -rnd x) (fused : Bool) :
    Atan2Env 53 (-1074) rnd fused atanPoly64 atanF64 0.58 0.29 0.552 := by
  refine ⟨h, ho, by norm_num, by norm_num, by norm_num, by norm_num, by norm_num, atanPoly_64, ?_, ?_, atanZ64 h fused⟩
  · cases fused; exacts [atanTiny64_false, atanTiny64_true]
  · cases fused; exacts [atanQ64_false, atanQ64_true]

theorem env32 (h : Nearest 24 (-149) rnd) (ho : ∀ x, rnd (-x) = -rnd x) (fused : Bool) :
    Atan2Env 24 (-149) rnd fused atanPoly32 atanF32 0.45 0.76 0.734 := by
  refine ⟨h, ho, by norm_num, by norm_num, by norm_num, by norm_num, by norm_num, atanPoly_32, ?_, ?_, atanZ32 h fused⟩
  · cases fused; exacts [atanTiny32_false, atanTiny32_true]
  · cases fused; exacts [atanQ32_false, atanQ32_true]

theorem const64 : HalfPi 53 (-1074) 0.552 (7074237752028440 * 2 ^ (-52 : ℤ)) :=
  ⟨halfPi64_near, ⟨14148475504056880, by norm_num⟩, ⟨7074237752028440, -52, by norm_num, by norm_num, by norm_num⟩,
    ⟨7074237752028440, -51, by norm_num, by norm_num, by norm_num⟩, ⟨7074237752028440, -53, by norm_num, by norm_num, by norm_num⟩⟩

theorem const32 : HalfPi 24 (-149) 0.734 (13176795 * 2 ^ (-23 : ℤ)) :=
  ⟨halfPi32_near, ⟨26353590, by norm_num⟩, ⟨13176795, -23, by norm_num, by norm_num, by norm_num⟩,
    ⟨13176795, -22, by norm_num, by norm_num, by norm_num⟩, ⟨13176795, -24, by norm_num, by norm_num, by norm_num⟩⟩

theorem pi64 (h : Nearest 53 (-1074) rnd) : rnd M_PI = 7074237752028440 * 2 ^ (-51 : ℤ) := by
  have := rnd_lit h (c := M_PI) (k := 7074237752028440) (e := -51) (by norm_num) (by norm_num) (by norm_num) (by norm_num [M_PI, abs_lt])
  push_cast at this; exact this

theorem xatan2_eq (h : Nearest 53 (-1074) rnd) (simd fused : Bool) : xatan2 rnd simd fused =
    atan2With rnd (simd && fused) atanPoly64 (7074237752028440 * 2 ^ (-52 : ℤ)) (7074237752028440 * 2 ^ (-52 : ℤ))
      (7074237752028440 * 2 ^ (-52 : ℤ) / 2) (2 * (7074237752028440 * 2 ^ (-52 : ℤ))) := by
  have e1 : rnd (7074237752028440 * 2 ^ (-51 : ℤ) / 2) = 7074237752028440 * 2 ^ (-52 : ℤ) := by
    rw [show (7074237752028440 : ℚ) * 2 ^ (-51 : ℤ) / 2 = 7074237752028440 * 2 ^ (-52 : ℤ) by norm_num]; exact h.fix const64.one
  have e2 : rnd (7074237752028440 * 2 ^ (-51 : ℤ) / 4) = 7074237752028440 * 2 ^ (-52 : ℤ) / 2 := by
    rw [show (7074237752028440 : ℚ) * 2 ^ (-51 : ℤ) / 4 = 7074237752028440 * 2 ^ (-52 : ℤ) / 2 by norm_num]; exact h.fix const64.half
  have e3 : (7074237752028440 : ℚ) * 2 ^ (-51 : ℤ) = 2 * (7074237752028440 * 2 ^ (-52 : ℤ)) := by norm_num
  unfold xatan2
  rw [pi64 h, e1, e2, ← e3]

theorem xatan2f_eq (h : Nearest 24 (-149) rnd) (hd : Nearest 53 (-1074) rndd) (simd fused : Bool) : xatan2f rnd simd fused rndd =
    atan2With rnd (simd && fused) atanPoly32 (13176795 * 2 ^ (-23 : ℤ)) (13176795 * 2 ^ (-23 : ℤ))
      (13176795 * 2 ^ (-23 : ℤ) / 2) (2 * (13176795 * 2 ^ (-23 : ℤ))) := by
  have e1 : rndd (7074237752028440 * 2 ^ (-51 : ℤ) / 2) = 7074237752028440 * 2 ^ (-52 : ℤ) := by
    rw [show (7074237752028440 : ℚ) * 2 ^ (-51 : ℤ) / 2 = 7074237752028440 * 2 ^ (-52 : ℤ) by norm_num]; exact hd.fix const64.one
  have e2 : rndd (7074237752028440 * 2 ^ (-51 : ℤ) / 4) = 7074237752028440 * 2 ^ (-53 : ℤ) := by
    rw [show (7074237752028440 : ℚ) * 2 ^ (-51 : ℤ) / 4 = 7074237752028440 * 2 ^ (-52 : ℤ) / 2 by norm_num, hd.fix const64.half]; norm_num
  have lit : ∀ (c : ℚ) (e : ℤ), -149 ≤ e → |c - 13176795 * 2 ^ e| < 2 ^ e / 2 → rnd c = 13176795 * 2 ^ e := fun c e he hc => by
    have := rnd_lit h (c := c) (k := 13176795) (e := e) he (by norm_num) (by norm_num) (by exact_mod_cast hc)
    push_cast at this; exact this
  have e3 := lit (7074237752028440 * 2 ^ (-52 : ℤ)) (-23) (by norm_num) (by norm_num [abs_lt])
  have e4 := lit (7074237752028440 * 2 ^ (-53 : ℤ)) (-24) (by norm_num) (by norm_num [abs_lt])
  have e5 := lit (7074237752028440 * 2 ^ (-51 : ℤ)) (-22) (by norm_num) (by norm_num [abs_lt])
  have e6 : rnd (13176795 * 2 ^ (-22 : ℤ) / 2) = 13176795 * 2 ^ (-23 : ℤ) := by
    rw [show (13176795 : ℚ) * 2 ^ (-22 : ℤ) / 2 = 13176795 * 2 ^ (-23 : ℤ) by norm_num]; exact h.fix const32.one
  have e7 : (13176795 : ℚ) * 2 ^ (-24 : ℤ) = 13176795 * 2 ^ (-23 : ℤ) / 2 := by norm_num
  have e8 : (13176795 : ℚ) * 2 ^ (-22 : ℤ) = 2 * (13176795 * 2 ^ (-23 : ℤ)) := by norm_num
  unfold xatan2f
  rw [pi64 hd, e1, e2, e3, e4, e5, e6, ite_self, e7, e8]

/-! ### The functions -/

/-- **atan2_u35, f64, finite arguments**: the result has the sign of `y`, and its absolute value is within 3.5 ulps of the angle. -/
theorem xatan2_within (h : Nearest 53 (-1074) rnd) (ho : ∀ x, rnd (-x) = -rnd x) (simd fused m n : Bool) {a b : ℚ} (ha : 0 ≤ a) (hb : 0 ≤ b) :
    SignedWithin 53 (-1074) 1024 3.5 m (angle b n a) (xatan2 rnd simd fused (.fin m b) (.fin n a)) := by
  rw [xatan2_eq h]
  exact atan2With_fin (env64 h ho _) (by norm_num) const64 ha hb m n

/-- **atan2_u35, f32, finite arguments**. -/
theorem xatan2f_within (h : Nearest 24 (-149) rnd) (ho : ∀ x, rnd (-x) = -rnd x) (hd : Nearest 53 (-1074) rndd) (simd fused m n : Bool)
    {a b : ℚ} (ha : 0 ≤ a) (hb : 0 ≤ b) : SignedWithin 24 (-149) 128 3.5 m (angle b n a) (xatan2f rnd simd fused rndd (.fin m b) (.fin n a)) := by
  rw [xatan2f_eq h hd]
  exact atan2With_fin (env32 h ho _) (by norm_num) const32 ha hb m n

/-- **atan2_u35, f64, infinite arguments**: the result has the sign of `y`, and its absolute value is within 1 ulp of the angle. -/
theorem xatan2_inf (h : Nearest 53 (-1074) rnd) (ho : ∀ x, rnd (-x) = -rnd x) (simd fused : Bool) {y x : SF} (hy : y ≠ .nan) (hx : x ≠ .nan)
    (hi : y.isInf ∨ x.isInf) : SignedWithin 53 (-1074) 1024 1 y.sgn (limAngle y x) (xatan2 rnd simd fused y x) := by
  rw [xatan2_eq h]
  exact atan2With_inf (env64 h ho _) (by norm_num) const64 hy hx hi

/-- **atan2_u35, f32, infinite arguments**. -/
theorem xatan2f_inf (h : Nearest 24 (-149) rnd) (ho : ∀ x, rnd (-x) = -rnd x) (hd : Nearest 53 (-1074) rndd) (simd fused : Bool) {y x : SF}
    (hy : y ≠ .nan) (hx : x ≠ .nan) (hi : y.isInf ∨ x.isInf) :
    SignedWithin 24 (-149) 128 1 y.sgn (limAngle y x) (xatan2f rnd simd fused rndd y x) := by
  rw [xatan2f_eq h hd]
  exact atan2With_inf (env32 h ho _) (by norm_num) const32 hy hx hi

/-- **atan2_u35, NaN**: the result is NaN exactly if an argument is. -/
theorem atan2_nan (rnd rndd : ℚ → ℚ) (simd fused : Bool) (y x : SF) :
    (xatan2 rnd simd fused y x = .nan ↔ y = .nan ∨ x = .nan) ∧ (xatan2f rnd simd fused rndd y x = .nan ↔ y = .nan ∨ x = .nan) := by
  constructor <;> cases y <;> cases x <;> simp [xatan2, xatan2f, atan2With]

/-- There is a rounding to nearest that commutes with the sign, and the angle of `-1 - 0i` is minus pi. -/
example : ∃ rnd, Nearest 53 (-1074) rnd ∧ (∀ x, rnd (-x) = -rnd x) ∧
    SignedWithin 53 (-1074) 1024 3.5 true Real.pi (xatan2 rnd true true (.fin true 0) (.fin true 1)) := by
  obtain ⟨rnd, h⟩ := exists_nearest (p := 53) (by norm_num) (-1074)
  have hs : Nearest 53 (-1074) (fun x => if x < 0 then -rnd (-x) else rnd x) := by
    constructor
    · intro x
      split
      · exact rep_neg (h.rep _)
      · exact h.rep _
    · intro x y hy
      split
      · have := h.near (-x) (-y) (rep_neg hy)
        rw [show x - -rnd (-x) = -(-x - rnd (-x)) by ring, abs_neg, show x - y = -(-x - -y) by ring, abs_neg]
        exact this
      · exact h.near x y hy
  have ho : ∀ x : ℚ, (fun x => if x < 0 then -rnd (-x) else rnd x) (-x) = -(fun x => if x < 0 then -rnd (-x) else rnd x) x := by
    intro x
    dsimp only
    rcases lt_trichotomy x 0 with h0 | h0 | h0
    · rw [if_neg (by linarith), if_pos h0, neg_neg]
    · subst h0; simp [h.zero]
    · rw [if_pos (by linarith), if_neg (by linarith), neg_neg]
  refine ⟨_, hs, ho, ?_⟩
  have := xatan2_within hs ho true true true true (a := 1) (b := 0) (by norm_num) (by norm_num)
  have e : angle 0 true 1 = Real.pi := by
    simp only [angle, one_ne_zero, false_and, if_false, if_true, Rat.cast_zero, Rat.cast_one]
    exact arg_neg one_pos
  rwa [e] at this

end Nsimd.Props.Atan2
