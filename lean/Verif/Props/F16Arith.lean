import Verif.Model.F16Arith
import Verif.Lemmas.F16Arith
import Verif.Lemmas.Float

/-!
# C87: arithmetic on f16 through f32 is correctly rounded
-/

namespace Nsimd.Props.F16Arith
open Nsimd Nsimd.Fp16 Nsimd.Props.Fp16 Nsimd.F16Arith
open Nsimd.Props.Round (Rep)

/-! ### Specifications -/

/-- `y` is a finite `f32` nearest to the real `x`, with any rule for ties. Specification (IEEE-754). -/
def Nearest32 (x : ℝ) (y : BitVec 32) : Prop :=
  Finite32 y ∧ ∀ z, Finite32 z → |(f32Value y : ℝ) - x| ≤ |(f32Value z : ℝ) - x|

/-- `z` is an `f64` (overflow aside) nearest to the real `x`, with any rule for ties. Specification (IEEE-754). -/
def Nearest64 (x : ℝ) (z : ℚ) : Prop :=
  Rep 53 (-1074) z ∧ ∀ w, Rep 53 (-1074) w → |(z : ℝ) - x| ≤ |(w : ℝ) - x|

/-- `r` is the `f16` nearest to the real `x`, ties to even mantissa; `NearestEven` of C02 for reals.
Specification (IEEE-754). -/
structure NearestEvenR (x : ℝ) (r : BitVec 16) : Prop where
  notNaN : ¬ NaN16 r
  nearest : ∀ h, ¬ NaN16 h → |(f16Value r : ℝ) - x| ≤ |(f16Value h : ℝ) - x|
  tie : ∀ h, ¬ NaN16 h → |(f16Value r : ℝ) - x| = |(f16Value h : ℝ) - x| →
    f16Value h = f16Value r ∨ m16 r % 2 = 0

theorem nearestEvenR_rat (x : ℚ) (r : BitVec 16) : NearestEvenR x r ↔ NearestEven x r := by
  constructor
  · rintro ⟨h1, h2, h3⟩
    refine ⟨h1, fun h hh => by exact_mod_cast h2 h hh, fun h hh e => h3 h hh ?_⟩
    exact_mod_cast e
  · rintro ⟨h1, h2, h3⟩
    refine ⟨h1, fun h hh => by exact_mod_cast h2 h hh, fun h hh e => h3 h hh ?_⟩
    exact_mod_cast e

/-- The operations of the C implementation round to nearest when the result is in range (below `2^127` is enough
here) and `floor`, `ceil`, `trunc` are exact. Specification (IEEE-754 and the C library). -/
structure Ieee (o : F32Ops) : Prop where
  add : ∀ x y, Finite32 x → Finite32 y → |f32Value x + f32Value y| < 2 ^ 127 →
    Nearest32 ((f32Value x + f32Value y : ℚ) : ℝ) (o.add x y)
  sub : ∀ x y, Finite32 x → Finite32 y → |f32Value x - f32Value y| < 2 ^ 127 →
    Nearest32 ((f32Value x - f32Value y : ℚ) : ℝ) (o.sub x y)
  mul : ∀ x y, Finite32 x → Finite32 y → |f32Value x * f32Value y| < 2 ^ 127 →
    Nearest32 ((f32Value x * f32Value y : ℚ) : ℝ) (o.mul x y)
  div : ∀ x y, Finite32 x → Finite32 y → f32Value y ≠ 0 → |f32Value x / f32Value y| < 2 ^ 127 →
    Nearest32 ((f32Value x / f32Value y : ℚ) : ℝ) (o.div x y)
  fma : ∀ x y z, Finite32 x → Finite32 y → Finite32 z → |f32Value x * f32Value y + f32Value z| < 2 ^ 127 →
    Nearest32 ((f32Value x * f32Value y + f32Value z : ℚ) : ℝ) (o.fma x y z)
  sqrt : ∀ x, Finite32 x → 0 ≤ f32Value x → Nearest32 (Real.sqrt (f32Value x)) (o.sqrt x)
  sqrtD : ∀ x, Finite32 x → 0 ≤ f32Value x → Nearest64 (Real.sqrt (f32Value x)) (o.sqrtD x)
  ofD : ∀ z : ℚ, |z| < 2 ^ 127 → Nearest32 (z : ℝ) (o.ofD z)
  floor : ∀ x, Finite32 x → Finite32 (o.floor x) ∧ f32Value (o.floor x) = ⌊f32Value x⌋
  ceil : ∀ x, Finite32 x → Finite32 (o.ceil x) ∧ f32Value (o.ceil x) = ⌈f32Value x⌉
  trunc : ∀ x, Finite32 x → Finite32 (o.trunc x) ∧
    f32Value (o.trunc x) = if 0 ≤ f32Value x then (⌊f32Value x⌋ : ℚ) else ⌈f32Value x⌉

/-! ### Helper lemmas -/

theorem dec_spec (a : BitVec 16) (ha : Finite16 a) :
    ∃ x, u16ToF32 a = some x ∧ Finite32 x ∧ f32Value x = f16Value a := by
  obtain ⟨x, h1, _, h2, _⟩ := u16ToF32_exact a
  exact ⟨x, h1, h2 ha⟩

theorem f16_bound (a : BitVec 16) (ha : Finite16 a) : |f16Value a| < 2 ^ 16 := by
  obtain ⟨A, e, h1, h2, h3⟩ := f16_form a ha
  have hp : (0 : ℚ) < 2 ^ (-24 : ℤ) := by positivity
  rw [h3, abs_mul, abs_of_pos hp]
  have : |A * 2 ^ e| < 2 ^ 40 := by
    rw [abs_mul, abs_of_pos (show (0 : ℤ) < 2 ^ e by positivity)]
    calc |A| * 2 ^ e < 2 ^ 11 * 2 ^ e := mul_lt_mul_of_pos_right h1 (by positivity)
      _ ≤ 2 ^ 11 * 2 ^ 29 := mul_le_mul_of_nonneg_left (pow_le_pow_right₀ (by norm_num) h2) (by norm_num)
      _ = 2 ^ 40 := by norm_num
  have : |((A * 2 ^ e : ℤ) : ℚ)| < 2 ^ 40 := by exact_mod_cast this
  calc |((A * 2 ^ e : ℤ) : ℚ)| * 2 ^ (-24 : ℤ) < 2 ^ 40 * 2 ^ (-24 : ℤ) := mul_lt_mul_of_pos_right this hp
    _ = 2 ^ 16 := by norm_num

/-- The exact result of an operation is an `f32`: it is rounded once. -/
theorem exact_case {x : ℝ} {y : BitVec 32} (hy : Nearest32 x y) (z : BitVec 32) (hz : Finite32 z)
    (he : (f32Value z : ℝ) = x) : NearestEvenR x (f32ToU16 y) := by
  have h := hy.2 z hz
  rw [he, sub_self, abs_zero] at h
  have hx : x = f32Value y := by linarith [abs_nonpos_iff.mp h]
  rw [hx, nearestEvenR_rat]
  exact (f32ToU16_nearest y hy.1).1

theorem nearest_of_double {x : ℝ} {y : BitVec 32} (hy : Finite32 y) (hs : Side x y)
    (hm : ∀ (N : ℤ) (s : Nat), |N| < 2 ^ 12 → N % 2 = 1 → s ≤ 29 → (s = 0 ∨ 2 ^ 11 ≤ |N|) →
      (f32Value y : ℝ) = N * 2 ^ s * (2 : ℝ) ^ (-25 : ℤ) → x = f32Value y) :
    NearestEvenR x (f32ToU16 y) := by
  obtain ⟨h1, h2⟩ := double_round hy hs hm
  exact ⟨h1, fun h hh => (h2 h hh).1, fun h hh => (h2 h hh).2⟩

theorem add_core {A B : ℤ} {α β : Nat} (hA : |A| < 2 ^ 11) (hB : |B| < 2 ^ 11) {y : BitVec 32}
    (hy : Nearest32 ((((A * 2 ^ α : ℤ) : ℚ) * 2 ^ (-24 : ℤ) + ((B * 2 ^ β : ℤ) : ℚ) * 2 ^ (-24 : ℤ) : ℚ) : ℝ) y) :
    NearestEvenR ((((A * 2 ^ α : ℤ) : ℚ) * 2 ^ (-24 : ℤ) + ((B * 2 ^ β : ℤ) : ℚ) * 2 ^ (-24 : ℤ) : ℚ) : ℝ)
      (f32ToU16 y) := by
  refine nearest_of_double hy.1 (side_of_near hy.2) ?_
  intro N s h1 h2 h3 h4 hv
  have hr := near_rel hy.2 (by rintro rfl; omega) h1 h3 hv
  have hp : (0 : ℝ) < 2 ^ (-25 : ℤ) := by positivity
  have hp24 : (2 : ℝ) ^ (-24 : ℤ) = 2 * 2 ^ (-25 : ℤ) := by norm_num
  have ex : ((((A * 2 ^ α : ℤ) : ℚ) * 2 ^ (-24 : ℤ) + ((B * 2 ^ β : ℤ) : ℚ) * 2 ^ (-24 : ℤ) : ℚ) : ℝ) =
      ((2 * (A * 2 ^ α + B * 2 ^ β) : ℤ) : ℝ) * 2 ^ (-25 : ℤ) := by
    push_cast
    rw [hp24]; ring
  have ey : (f32Value y : ℝ) = ((N * 2 ^ s : ℤ) : ℝ) * 2 ^ (-25 : ℤ) := by rw [hv]; push_cast; ring
  rw [ex, ey, ← sub_mul, abs_mul, abs_mul, abs_of_pos hp, ← mul_assoc] at hr
  have hr := le_of_mul_le_mul_right hr hp
  have hr : 2 ^ 24 * |2 * (A * 2 ^ α + B * 2 ^ β) - N * 2 ^ s| ≤ |N * 2 ^ s| := by exact_mod_cast hr
  have key : 2 * (A * 2 ^ α + B * 2 ^ β) = N * 2 ^ s := by
    rcases le_total β α with h | h
    · exact add_sep hA hB h1 h2 h4 h hr
    · rw [add_comm (A * 2 ^ α)] at hr ⊢
      exact add_sep hB hA h1 h2 h4 h hr
  rw [ex, ey, key]

theorem div_core {A B : ℤ} {α β : Nat} (hA : |A| < 2 ^ 11) (hB : |B| < 2 ^ 11) (hB0 : B ≠ 0) {y : BitVec 32}
    (hy : Nearest32 ((((A * 2 ^ α : ℤ) : ℚ) * 2 ^ (-24 : ℤ) / (((B * 2 ^ β : ℤ) : ℚ) * 2 ^ (-24 : ℤ)) : ℚ) : ℝ) y) :
    NearestEvenR ((((A * 2 ^ α : ℤ) : ℚ) * 2 ^ (-24 : ℤ) / (((B * 2 ^ β : ℤ) : ℚ) * 2 ^ (-24 : ℤ)) : ℚ) : ℝ)
      (f32ToU16 y) := by
  refine nearest_of_double hy.1 (side_of_near hy.2) ?_
  intro N s h1 h2 h3 h4 hv
  have hr := near_rel hy.2 (by rintro rfl; omega) h1 h3 hv
  have hBr : ((B * 2 ^ β : ℤ) : ℝ) ≠ 0 := by
    have : B * 2 ^ β ≠ 0 := mul_ne_zero hB0 (by positivity)
    exact_mod_cast this
  have hp : (2 : ℝ) ^ (-25 : ℤ) * 2 ^ 25 = 1 := by norm_num
  have ex : ((((A * 2 ^ α : ℤ) : ℚ) * 2 ^ (-24 : ℤ) / (((B * 2 ^ β : ℤ) : ℚ) * 2 ^ (-24 : ℤ)) : ℚ) : ℝ) =
      ((A * 2 ^ α : ℤ) : ℝ) / ((B * 2 ^ β : ℤ) : ℝ) := by
    push_cast
    rw [mul_div_mul_right _ _ (by positivity)]
  -- both sides times `B * 2^β * 2^25`
  set D : ℝ := ((B * 2 ^ β : ℤ) : ℝ) * 2 ^ 25 with hD
  have hD0 : D ≠ 0 := mul_ne_zero hBr (by norm_num)
  have e1 : ((A * 2 ^ α : ℤ) : ℝ) / ((B * 2 ^ β : ℤ) : ℝ) * D = ((A * 2 ^ (α + 25) : ℤ) : ℝ) := by
    rw [hD, ← mul_assoc, div_mul_cancel₀ _ hBr]; push_cast; ring
  have e2 : (f32Value y : ℝ) * D = ((N * B * 2 ^ (s + β) : ℤ) : ℝ) := by
    rw [hv, hD]; push_cast; rw [pow_add]
    linear_combination (N : ℝ) * 2 ^ s * B * 2 ^ β * hp
  rw [ex] at hr ⊢
  have hr := mul_le_mul_of_nonneg_right hr (abs_nonneg D)
  rw [mul_assoc, ← abs_mul, ← abs_mul, sub_mul, e1, e2] at hr
  have hr : 2 ^ 24 * |A * 2 ^ (α + 25) - N * B * 2 ^ (s + β)| ≤ |N * B * 2 ^ (s + β)| := by exact_mod_cast hr
  have key := div_sep hA hB h1 hr
  apply mul_right_cancel₀ hD0
  rw [e1, e2, key]

/-! ### C87 -/

variable {o : F32Ops}

/-- C87, sum of two halves: the correctly rounded one. -/
theorem add16_rounded (ho : Ieee o) (a b : BitVec 16) (ha : Finite16 a) (hb : Finite16 b) :
    ∃ r, add16 o a b = some r ∧ NearestEven (f16Value a + f16Value b) r := by
  obtain ⟨x, x1, x2, x3⟩ := dec_spec a ha
  obtain ⟨y, y1, y2, y3⟩ := dec_spec b hb
  refine ⟨f32ToU16 (o.add x y), by unfold add16 lift2; rw [x1, y1]; rfl, ?_⟩
  have ba := abs_lt.mp (f16_bound a ha)
  have bb := abs_lt.mp (f16_bound b hb)
  have h := ho.add x y x2 y2 (by rw [x3, y3]; apply abs_lt.mpr; constructor <;> linarith)
  rw [x3, y3] at h
  rw [← nearestEvenR_rat]
  obtain ⟨A, α, a1, _, a3⟩ := f16_form a ha
  obtain ⟨B, β, b1, _, b3⟩ := f16_form b hb
  rw [a3, b3] at h ⊢
  exact add_core a1 b1 h

/-- C87, difference of two halves: the correctly rounded one. -/
theorem sub16_rounded (ho : Ieee o) (a b : BitVec 16) (ha : Finite16 a) (hb : Finite16 b) :
    ∃ r, sub16 o a b = some r ∧ NearestEven (f16Value a - f16Value b) r := by
  obtain ⟨x, x1, x2, x3⟩ := dec_spec a ha
  obtain ⟨y, y1, y2, y3⟩ := dec_spec b hb
  refine ⟨f32ToU16 (o.sub x y), by unfold sub16 lift2; rw [x1, y1]; rfl, ?_⟩
  have ba := abs_lt.mp (f16_bound a ha)
  have bb := abs_lt.mp (f16_bound b hb)
  have h := ho.sub x y x2 y2 (by rw [x3, y3]; apply abs_lt.mpr; constructor <;> linarith)
  rw [x3, y3] at h
  rw [← nearestEvenR_rat]
  obtain ⟨A, α, a1, _, a3⟩ := f16_form a ha
  obtain ⟨B, β, b1, _, b3⟩ := f16_form b hb
  have e : f16Value a - f16Value b =
      ((A * 2 ^ α : ℤ) : ℚ) * 2 ^ (-24 : ℤ) + (((-B) * 2 ^ β : ℤ) : ℚ) * 2 ^ (-24 : ℤ) := by
    rw [a3, b3]; push_cast; ring
  rw [e] at h ⊢
  exact add_core a1 (by rw [abs_neg]; exact b1) h

/-- C87, product of two halves: exact in `f32`, so the correctly rounded one. -/
theorem mul16_rounded (ho : Ieee o) (a b : BitVec 16) (ha : Finite16 a) (hb : Finite16 b) :
    ∃ r, mul16 o a b = some r ∧ NearestEven (f16Value a * f16Value b) r := by
  obtain ⟨x, x1, x2, x3⟩ := dec_spec a ha
  obtain ⟨y, y1, y2, y3⟩ := dec_spec b hb
  refine ⟨f32ToU16 (o.mul x y), by unfold mul16 lift2; rw [x1, y1]; rfl, ?_⟩
  have h := ho.mul x y x2 y2 (by
    rw [x3, y3, abs_mul]
    have := f16_bound a ha
    have := f16_bound b hb
    have := abs_nonneg (f16Value a)
    have := abs_nonneg (f16Value b)
    nlinarith)
  rw [x3, y3] at h
  rw [← nearestEvenR_rat]
  obtain ⟨A, α, a1, a2, a3⟩ := f16_form a ha
  obtain ⟨B, β, b1, b2, b3⟩ := f16_form b hb
  obtain ⟨z, z1, z2⟩ := f32_exists (A * B) (by
    rw [abs_mul]
    have := abs_nonneg A
    have := abs_nonneg B
    nlinarith) ((α : ℤ) + β + (-48)) (by omega) (by omega)
  refine exact_case h z z1 ?_
  have : f32Value z = f16Value a * f16Value b := by
    rw [z2, a3, b3, zpow_add₀ (by norm_num), zpow_add₀ (by norm_num), zpow_natCast, zpow_natCast]
    push_cast
    have : (2 : ℚ) ^ (-48 : ℤ) = 2 ^ (-24 : ℤ) * 2 ^ (-24 : ℤ) := by norm_num
    rw [this]; ring
  rw [this]

theorem quot_bound {A B : ℤ} {α β : Nat} (hA : |A| < 2 ^ 11) (hα : α ≤ 29) (hB0 : B ≠ 0) :
    |((A * 2 ^ α : ℤ) : ℚ) * 2 ^ (-24 : ℤ) / (((B * 2 ^ β : ℤ) : ℚ) * 2 ^ (-24 : ℤ))| < 2 ^ 127 := by
  rw [mul_div_mul_right _ _ (by positivity), abs_div]
  have h1 : |A * 2 ^ α| < 2 ^ 40 := by
    rw [abs_mul, abs_of_pos (show (0 : ℤ) < 2 ^ α by positivity)]
    calc |A| * 2 ^ α < 2 ^ 11 * 2 ^ α := mul_lt_mul_of_pos_right hA (by positivity)
      _ ≤ 2 ^ 11 * 2 ^ 29 := mul_le_mul_of_nonneg_left (pow_le_pow_right₀ (by norm_num) hα) (by norm_num)
      _ = 2 ^ 40 := by norm_num
  have h2 : (1 : ℤ) ≤ |B * 2 ^ β| := Int.one_le_abs (mul_ne_zero hB0 (by positivity))
  have h1 : |((A * 2 ^ α : ℤ) : ℚ)| < 2 ^ 40 := by exact_mod_cast h1
  have h2 : (1 : ℚ) ≤ |((B * 2 ^ β : ℤ) : ℚ)| := by exact_mod_cast h2
  calc _ ≤ |((A * 2 ^ α : ℤ) : ℚ)| := div_le_self (abs_nonneg _) h2
    _ < 2 ^ 40 := h1
    _ < 2 ^ 127 := by norm_num

/-- C87, quotient of two halves: the correctly rounded one. -/
theorem div16_rounded (ho : Ieee o) (a b : BitVec 16) (ha : Finite16 a) (hb : Finite16 b)
    (h0 : f16Value b ≠ 0) :
    ∃ r, div16 o a b = some r ∧ NearestEven (f16Value a / f16Value b) r := by
  obtain ⟨x, x1, x2, x3⟩ := dec_spec a ha
  obtain ⟨y, y1, y2, y3⟩ := dec_spec b hb
  refine ⟨f32ToU16 (o.div x y), by unfold div16 lift2; rw [x1, y1]; rfl, ?_⟩
  obtain ⟨A, α, a1, a2, a3⟩ := f16_form a ha
  obtain ⟨B, β, b1, _, b3⟩ := f16_form b hb
  have hB0 : B ≠ 0 := by rintro rfl; apply h0; rw [b3]; simp
  have h := ho.div x y x2 y2 (by rw [y3]; exact h0) (by rw [x3, y3, a3, b3]; exact quot_bound a1 a2 hB0)
  rw [x3, y3] at h
  rw [← nearestEvenR_rat]
  rw [a3, b3] at h ⊢
  exact div_core a1 b1 hB0 h

/-- C87, reciprocal of a half: the correctly rounded one. -/
theorem rec16_rounded (ho : Ieee o) (a : BitVec 16) (ha : Finite16 a) (h0 : f16Value a ≠ 0) :
    ∃ r, rec16 o a = some r ∧ NearestEven (1 / f16Value a) r := by
  obtain ⟨x, x1, x2, x3⟩ := dec_spec a ha
  refine ⟨f32ToU16 (o.div 0x3f800000#32 x), by unfold rec16 lift1; rw [x1]; rfl, ?_⟩
  obtain ⟨A, α, a1, _, a3⟩ := f16_form a ha
  have hA0 : A ≠ 0 := by rintro rfl; apply h0; rw [a3]; simp
  have one : f32Value 0x3f800000#32 = ((2 ^ 10 * 2 ^ 14 : ℤ) : ℚ) * 2 ^ (-24 : ℤ) := by
    unfold f32Value e32 m32 sgn
    rw [show (0x3f800000#32).msb = false by decide]
    norm_num
  have one' : ((2 ^ 10 * 2 ^ 14 : ℤ) : ℚ) * 2 ^ (-24 : ℤ) = 1 := by norm_num
  have h := ho.div 0x3f800000#32 x (by unfold Finite32 e32; decide) x2 (by rw [x3]; exact h0)
    (by rw [x3, a3, one]; exact quot_bound (by norm_num) (by norm_num) hA0)
  rw [x3, one] at h
  rw [← nearestEvenR_rat, ← one']
  rw [a3] at h ⊢
  exact div_core (by norm_num) a1 hA0 h

/-! ### Square root -/

theorem f32_form (x : BitVec 32) : ∃ K e : ℤ, |K| < 2 ^ 24 ∧ -149 ≤ e ∧ f32Value x = K * 2 ^ e := by
  have hm : m32 x < 2 ^ 23 := Nat.mod_lt _ (by norm_num)
  obtain ⟨σ, h1, h2⟩ : ∃ σ : ℤ, (σ = 1 ∨ σ = -1) ∧ sgn x = σ := by
    unfold sgn
    split
    · exact ⟨-1, Or.inr rfl, by norm_num⟩
    · exact ⟨1, Or.inl rfl, by norm_num⟩
  unfold f32Value
  rw [h2]
  split
  · refine ⟨σ * m32 x, -149, ?_, le_rfl, by push_cast; ring⟩
    apply abs_lt.mpr
    rcases h1 with rfl | rfl <;> constructor <;> omega
  · refine ⟨σ * (2 ^ 23 + m32 x), (e32 x : ℤ) - 150, ?_, by omega, by push_cast; ring⟩
    apply abs_lt.mpr
    rcases h1 with rfl | rfl <;> constructor <;> omega

theorem near_side {w z x : ℝ} (h : |z - x| ≤ |w - x|) : (w ≤ x → w ≤ z) ∧ (x ≤ w → z ≤ w) := by
  constructor
  · intro h1
    by_contra hc
    rw [not_le] at hc
    rw [abs_of_nonpos (by linarith), abs_of_nonpos (by linarith)] at h
    linarith
  · intro h1
    by_contra hc
    rw [not_le] at hc
    rw [abs_of_nonneg (by linarith), abs_of_nonneg (by linarith)] at h
    linarith

/-- The square root of a half, rounded to `f32` with an error of slightly more than half a unit in the last place
at most. -/
theorem sqrt_core {q : ℚ} {A : ℤ} {α : Nat} (hA : |A| < 2 ^ 11) (hA0 : 0 < A)
    (hq : q = ((A * 2 ^ α : ℤ) : ℚ) * 2 ^ (-24 : ℤ)) {y : BitVec 32} (hy : Finite32 y)
    (hs : Side (Real.sqrt q) y)
    (hn : ∀ (N : ℤ) (s : Nat), 2 ^ 11 ≤ N → N < 2 ^ 12 → s ≤ 29 →
      (f32Value y : ℝ) = N * 2 ^ s * (2 : ℝ) ^ (-25 : ℤ) →
      2 ^ 52 * |Real.sqrt q - f32Value y| ≤ 2 ^ s * (2 ^ 14 + 1)) :
    NearestEvenR (Real.sqrt q) (f32ToU16 y) := by
  set x := Real.sqrt q with hx
  have hqr : (q : ℝ) = ((A * 2 ^ α : ℤ) : ℝ) * 2 ^ (-24 : ℤ) := by rw [hq]; push_cast; ring
  have hAα : (1 : ℤ) ≤ A * 2 ^ α := by
    have : (0 : ℤ) < A * 2 ^ α := by positivity
    omega
  have hAα : (1 : ℝ) ≤ ((A * 2 ^ α : ℤ) : ℝ) := by exact_mod_cast hAα
  have hq1 : (2 : ℝ) ^ (-24 : ℤ) ≤ q := by
    rw [hqr]
    have : (0 : ℝ) < 2 ^ (-24 : ℤ) := by positivity
    nlinarith
  have hq0 : (0 : ℝ) ≤ q := le_trans (by positivity) hq1
  have hxx : x * x = q := Real.mul_self_sqrt hq0
  have hx1 : (2 : ℝ) ^ (-12 : ℤ) ≤ x := by
    apply Real.le_sqrt_of_sq_le
    refine le_trans (le_of_eq ?_) hq1
    norm_num
  obtain ⟨w, w1, w2⟩ := f32_exists 1 (by norm_num) (-12) (by norm_num) (by norm_num)
  have hw : (f32Value w : ℝ) = 2 ^ (-12 : ℤ) := by rw [w2]; push_cast; ring
  have hy1 : (2 : ℝ) ^ (-12 : ℤ) ≤ f32Value y := by
    have := (hs w w1).1 (by rw [hw]; exact hx1)
    rwa [hw] at this
  refine nearest_of_double hy hs ?_
  intro N s h1 h2 h3 h4 hv
  have hN := abs_lt.mp h1
  have hM : (2 : ℤ) ^ 13 ≤ N * 2 ^ s := by
    have : (2 : ℝ) ^ 13 ≤ N * 2 ^ s := by
      rw [hv] at hy1
      have e : (2 : ℝ) ^ (-12 : ℤ) = 2 ^ 13 * 2 ^ (-25 : ℤ) := by norm_num
      rw [e] at hy1
      exact le_of_mul_le_mul_right hy1 (by positivity)
    exact_mod_cast this
  have hN0 : 0 < N := by
    by_contra hc
    rw [not_lt] at hc
    have : N * 2 ^ s ≤ 0 := mul_nonpos_of_nonpos_of_nonneg hc (by positivity)
    norm_num at hM
    omega
  have hN11 : 2 ^ 11 ≤ N := by
    rcases h4 with rfl | h4
    · norm_num at hM; omega
    · rwa [abs_of_pos hN0] at h4
  have hd := hn N s hN11 hN.2 h3 hv
  -- everything times `2^25`
  have hp : (2 : ℝ) ^ (-25 : ℤ) * 2 ^ 25 = 1 := by norm_num
  set X : ℝ := x * 2 ^ 25 with hX
  set S : ℝ := 2 ^ s with hS
  have hSp : 0 < S := by positivity
  have hM' : (f32Value y : ℝ) * 2 ^ 25 = N * S := by
    rw [hv]; linear_combination (N : ℝ) * S * hp
  have hXX : X * X = ((A * 2 ^ (α + 26) : ℤ) : ℝ) := by
    have e : (2 : ℝ) ^ (-24 : ℤ) * 2 ^ 24 = 1 := by norm_num
    rw [hX]
    push_cast
    rw [pow_add]
    push_cast at hqr
    linear_combination 2 ^ 50 * hxx + 2 ^ 50 * hqr + (A : ℝ) * 2 ^ α * 2 ^ 26 * e
  have hdX : 2 ^ 27 * |X - N * S| ≤ S * (2 ^ 14 + 1) := by
    have : X - N * S = (x - f32Value y) * 2 ^ 25 := by rw [sub_mul, hM']
    rw [this, abs_mul, abs_of_pos (show (0 : ℝ) < 2 ^ 25 by norm_num)]
    linarith
  have hNr : (N : ℝ) ≤ 2 ^ 12 - 1 := by
    have : N ≤ 2 ^ 12 - 1 := by omega
    exact_mod_cast this
  have hN0r : (0 : ℝ) < N := by exact_mod_cast hN0
  have hx0 : 0 ≤ x := Real.sqrt_nonneg _
  have hsum : |X + N * S| ≤ 2 * (N * S) + |X - N * S| := by
    have hN : 0 ≤ (N : ℝ) * S := by positivity
    rcases abs_cases (X + N * S) with ⟨e, _⟩ | ⟨e, _⟩ <;> rcases abs_cases (X - N * S) with ⟨e', _⟩ | ⟨e', _⟩ <;>
      rw [e, e'] <;> linarith
  have hlt : |X * X - (N * S) * (N * S)| < S * S := by
    have e : X * X - (N * S) * (N * S) = (X - N * S) * (X + N * S) := by ring
    rw [e, abs_mul]
    have hd0 := abs_nonneg (X - N * S)
    generalize |X - N * S| = d at *
    have hNS : (N : ℝ) * S ≤ (2 ^ 12 - 1) * S := mul_le_mul_of_nonneg_right hNr hSp.le
    have hd1 : d ≤ S * ((2 ^ 14 + 1) / 2 ^ 27) := by
      rw [← mul_div_assoc, le_div_iff₀ (by norm_num)]; linarith
    have hs2 : |X + N * S| ≤ S * (2 * (2 ^ 12 - 1) + (2 ^ 14 + 1) / 2 ^ 27) := by linarith
    calc d * |X + N * S| ≤ S * ((2 ^ 14 + 1) / 2 ^ 27) * (S * (2 * (2 ^ 12 - 1) + (2 ^ 14 + 1) / 2 ^ 27)) :=
          mul_le_mul hd1 hs2 (abs_nonneg _) (by positivity)
      _ = S * S * (((2 ^ 14 + 1) / 2 ^ 27) * (2 * (2 ^ 12 - 1) + (2 ^ 14 + 1) / 2 ^ 27)) := by ring
      _ < S * S * 1 := mul_lt_mul_of_pos_left (by norm_num) (by positivity)
      _ = S * S := mul_one _
  have e1 : (N * S) * (N * S) = ((N ^ 2 * 2 ^ (2 * s) : ℤ) : ℝ) := by
    rw [hS]; push_cast; rw [two_mul, pow_add]; ring
  have e2 : S * S = ((2 ^ (2 * s) : ℤ) : ℝ) := by
    rw [hS]; push_cast; rw [two_mul, pow_add]
  rw [hXX, e1, e2] at hlt
  have hlt : |A * 2 ^ (α + 26) - N ^ 2 * 2 ^ (2 * s)| < 2 ^ (2 * s) := by exact_mod_cast hlt
  have key := sqrt_sep hA hN11 hlt
  have hsq : X * X = (N * S) * (N * S) := by rw [hXX, e1, key]
  have hX0 : 0 ≤ X := by positivity
  have hNS0 : 0 ≤ (N : ℝ) * S := by positivity
  have : X = N * S := by nlinarith
  have e25 : x * 2 ^ 25 = f32Value y * 2 ^ 25 := by rw [hM', ← this]
  exact mul_right_cancel₀ (by norm_num) e25

theorem zero_f32 : Finite32 0#32 ∧ f32Value 0#32 = 0 := by
  refine ⟨by unfold Finite32 e32; decide, by unfold f32Value e32 m32; simp⟩

theorem pos_form {a : BitVec 16} (ha : Finite16 a) (h0 : 0 ≤ f16Value a) (h1 : f16Value a ≠ 0) :
    ∃ (A : ℤ) (α : Nat), |A| < 2 ^ 11 ∧ 0 < A ∧ α ≤ 29 ∧
      f16Value a = ((A * 2 ^ α : ℤ) : ℚ) * 2 ^ (-24 : ℤ) := by
  obtain ⟨A, α, a1, a2, a3⟩ := f16_form a ha
  refine ⟨A, α, a1, ?_, a2, a3⟩
  by_contra hc
  rw [not_lt] at hc
  apply h1
  apply le_antisymm _ h0
  rw [a3]
  apply mul_nonpos_of_nonpos_of_nonneg _ (by positivity)
  have : A * 2 ^ α ≤ 0 := mul_nonpos_of_nonpos_of_nonneg hc (by positivity)
  exact_mod_cast this

/-- C87, square root of a half through `sqrtf`: the correctly rounded one. -/
theorem sqrt16_rounded (ho : Ieee o) (a : BitVec 16) (ha : Finite16 a) (h0 : 0 ≤ f16Value a) :
    ∃ r, sqrt16 o a = some r ∧ NearestEvenR (Real.sqrt (f16Value a)) r := by
  obtain ⟨x, x1, x2, x3⟩ := dec_spec a ha
  refine ⟨f32ToU16 (o.sqrt x), by unfold sqrt16 lift1; rw [x1]; rfl, ?_⟩
  have h := ho.sqrt x x2 (by rw [x3]; exact h0)
  rw [x3] at h
  by_cases hz : f16Value a = 0
  · refine exact_case h 0#32 zero_f32.1 ?_
    rw [zero_f32.2, hz]; simp
  · obtain ⟨A, α, a1, a2, _, a3⟩ := pos_form ha h0 hz
    refine sqrt_core a1 a2 a3 h.1 (side_of_near h.2) ?_
    intro N s n1 n2 n3 hv
    have := near_step h.2 (K := N * 2 ^ 12) (by rw [abs_of_nonneg (by omega)]; omega) (j := (s : ℤ) + (-37))
      (by omega) (by omega) (by
        rw [hv, pow_split, zpow_natCast]
        push_cast
        have : (2 : ℝ) ^ (-25 : ℤ) = 2 ^ 12 * 2 ^ (-37 : ℤ) := by norm_num
        rw [this]; ring)
    rw [pow_split, zpow_natCast] at this
    have hp : (2 : ℝ) ^ s * 2 ^ (-37 : ℤ) * 2 ^ 51 = 2 ^ s * 2 ^ 14 := by
      rw [mul_assoc]; norm_num
    have : (0 : ℝ) < 2 ^ s := by positivity
    linarith

theorem rep53_f32 (x : BitVec 32) : Rep 53 (-1074) (f32Value x) := by
  obtain ⟨K, e, h1, h2, h3⟩ := f32_form x
  exact ⟨K, e, lt_trans h1 (by norm_num), by omega, h3⟩

/-- C87, square root of a half through `sqrt` on `f64` and two conversions: still the correctly rounded one. -/
theorem sqrt16c89_rounded (ho : Ieee o) (a : BitVec 16) (ha : Finite16 a) (h0 : 0 ≤ f16Value a) :
    ∃ r, sqrt16c89 o a = some r ∧ NearestEvenR (Real.sqrt (f16Value a)) r := by
  obtain ⟨x, x1, x2, x3⟩ := dec_spec a ha
  refine ⟨f32ToU16 (o.ofD (o.sqrtD x)), by unfold sqrt16c89 lift1; rw [x1]; rfl, ?_⟩
  have hd := ho.sqrtD x x2 (by rw [x3]; exact h0)
  rw [x3] at hd
  set z := o.sqrtD x with hz
  set X := Real.sqrt (f16Value a) with hX
  have hX0 : 0 ≤ X := Real.sqrt_nonneg _
  have hX8 : X ≤ 2 ^ 8 := by
    apply Real.sqrt_le_iff.mpr
    refine ⟨by norm_num, ?_⟩
    have := (abs_lt.mp (f16_bound a ha)).2
    have : (f16Value a : ℝ) < 2 ^ 16 := by exact_mod_cast this
    linarith
  have r0 : Rep 53 (-1074) 0 := ⟨0, 0, by norm_num, by norm_num, by norm_num⟩
  have r8 : Rep 53 (-1074) (2 ^ 8) := ⟨2 ^ 8, 0, by norm_num, by norm_num, by norm_num⟩
  have hz0 : (0 : ℝ) ≤ z := by
    have := (near_side (hd.2 0 r0)).1 (by push_cast; exact hX0)
    simpa using this
  have hz8 : (z : ℝ) ≤ 2 ^ 8 := by
    have := (near_side (hd.2 _ r8)).2 (by push_cast; exact hX8)
    push_cast at this
    exact this
  have hf := ho.ofD z (by
    have h1 : (0 : ℚ) ≤ z := by exact_mod_cast hz0
    have h2 : z ≤ 2 ^ 8 := by exact_mod_cast hz8
    rw [abs_of_nonneg h1]
    linarith)
  set y := o.ofD z with hy
  have hside : Side X y := by
    intro w w1
    have s1 := near_side (hd.2 _ (rep53_f32 w))
    have s2 := near_side (hf.2 w w1)
    exact ⟨fun h => s2.1 (s1.1 h), fun h => s2.2 (s1.2 h)⟩
  by_cases hz : f16Value a = 0
  · have hXz : X = 0 := by rw [hX, hz]; simp
    have hzz : (z : ℝ) = 0 := by
      have := (near_side (hd.2 0 r0)).2 (by push_cast; exact hXz.le)
      push_cast at this
      linarith
    rw [hXz]
    rw [hzz] at hf
    exact exact_case hf 0#32 zero_f32.1 (by rw [zero_f32.2]; simp)
  · obtain ⟨A, α, a1, a2, _, a3⟩ := pos_form ha h0 hz
    refine sqrt_core a1 a2 a3 hf.1 hside ?_
    intro N s n1 n2 n3 hv
    have k1 := near_step hf.2 (K := N * 2 ^ 12) (by rw [abs_of_nonneg (by omega)]; omega) (j := (s : ℤ) + (-37))
      (by omega) (by omega) (by
        rw [hv, pow_split, zpow_natCast]
        push_cast
        have : (2 : ℝ) ^ (-25 : ℤ) = 2 ^ 12 * 2 ^ (-37 : ℤ) := by norm_num
        rw [this]; ring)
    rw [pow_split, zpow_natCast] at k1
    have hSp : (0 : ℝ) < 2 ^ s := by positivity
    -- the square root is below `2^(s-12)`
    have hXs : X ≤ 2 ^ s * 2 ^ (-12 : ℤ) := by
      by_contra hc
      rw [not_le] at hc
      obtain ⟨w, w1, w2⟩ := f32_exists 1 (by norm_num) ((s : ℤ) + (-12)) (by omega) (by omega)
      have hw : (f32Value w : ℝ) = 2 ^ s * 2 ^ (-12 : ℤ) := by
        rw [w2]; push_cast; rw [pow_split, zpow_natCast]; ring
      have := (hside w w1).1 (by rw [hw]; exact hc.le)
      rw [hw, hv] at this
      have e : (2 : ℝ) ^ (-12 : ℤ) = 2 ^ 13 * 2 ^ (-25 : ℤ) := by norm_num
      rw [e, ← mul_assoc] at this
      have := le_of_mul_le_mul_right this (show (0 : ℝ) < 2 ^ (-25 : ℤ) by positivity)
      have hNr : (N : ℝ) < 2 ^ 12 := by exact_mod_cast n2
      nlinarith
    -- a number with 53 bits next to it
    have k2 : |X - z| ≤ 2 ^ s * 2 ^ (-64 : ℤ) := by
      have hu : (0 : ℝ) < 2 ^ s * 2 ^ (-64 : ℤ) := by positivity
      set u : ℝ := 2 ^ s * 2 ^ (-64 : ℤ) with hu'
      have f1 := Int.floor_le (X / u)
      have f2 := Int.lt_floor_add_one (X / u)
      have f0 : 0 ≤ ⌊X / u⌋ := Int.floor_nonneg.mpr (by positivity)
      have f3 : ⌊X / u⌋ ≤ 2 ^ 52 := by
        have : X / u ≤ 2 ^ 52 := by
          rw [div_le_iff₀ hu, hu']
          refine le_trans hXs (le_of_eq ?_)
          have : (2 : ℝ) ^ (-12 : ℤ) = 2 ^ 52 * 2 ^ (-64 : ℤ) := by norm_num
          rw [this]; ring
        have : (⌊X / u⌋ : ℝ) ≤ 2 ^ 52 := le_trans f1 this
        exact_mod_cast this
      have rep : Rep 53 (-1074) ((⌊X / u⌋ : ℚ) * 2 ^ ((s : ℤ) + (-64))) :=
        ⟨⌊X / u⌋, (s : ℤ) + (-64), by rw [abs_of_nonneg f0]; omega, by omega, rfl⟩
      have hn := hd.2 _ rep
      have e : (((⌊X / u⌋ : ℚ) * 2 ^ ((s : ℤ) + (-64)) : ℚ) : ℝ) = ⌊X / u⌋ * u := by
        push_cast; rw [pow_split, zpow_natCast]
      rw [e, abs_sub_comm] at hn
      refine le_trans hn ?_
      rw [le_div_iff₀ hu] at f1
      rw [div_lt_iff₀ hu] at f2
      rw [abs_le]; constructor <;> linarith
    have k3 : |X - f32Value y| ≤ |X - z| + |(z : ℝ) - f32Value y| := abs_sub_le _ _ _
    have hp : (2 : ℝ) ^ s * 2 ^ (-37 : ℤ) * 2 ^ 51 = 2 ^ s * 2 ^ 14 := by
      rw [mul_assoc]; norm_num
    have hp2 : (2 : ℝ) ^ s * 2 ^ (-64 : ℤ) * 2 ^ 52 ≤ 2 ^ s * 1 := by
      rw [mul_assoc]
      exact mul_le_mul_of_nonneg_left (by norm_num) hSp.le
    linarith

/-! ### Rounding to an integer -/

theorem mag10_surj (K : Nat) (hK : K < 2 ^ 11) (j : Nat) (hj : j ≤ 29) :
    ∃ u, u < 31 * 2 ^ 10 ∧ mag 10 u = K * 2 ^ j := by
  induction j generalizing K with
  | zero => exact ⟨K, by omega, by rw [mag_of_lt 10 _ hK]; simp⟩
  | succ j ih =>
    by_cases h : K < 2 ^ 10
    · obtain ⟨u, h1, h2⟩ := ih (2 * K) (by omega) (by omega)
      exact ⟨u, h1, by rw [h2, pow_succ]; ring⟩
    · refine ⟨(j + 2) * 2 ^ 10 + (K - 2 ^ 10), by omega, ?_⟩
      rw [mag_of_parts 10 _ _ (by omega) (by omega), show 2 ^ 10 + (K - 2 ^ 10) = K by omega]
      rfl

/-- The integers up to `2^11` are halves. -/
theorem small_int (n : ℤ) (hn : |n| ≤ 2 ^ 11) : ∃ h, ¬ NaN16 h ∧ f16Value h = n := by
  have hn' := abs_le.mp hn
  have hu : ∃ u, u < 31 * 2 ^ 10 ∧ mag 10 u = n.natAbs * 2 ^ 24 := by
    by_cases h : n.natAbs < 2 ^ 11
    · exact mag10_surj _ h 24 (by omega)
    · obtain ⟨u, h3, h4⟩ := mag10_surj (2 ^ 10) (by norm_num) 25 (by omega)
      exact ⟨u, h3, by rw [h4]; omega⟩
  obtain ⟨u, hu, hm⟩ := hu
  have hp : (2 : ℚ) ^ 24 * 2 ^ (-24 : ℤ) = 1 := by norm_num
  by_cases hs : n < 0
  · obtain ⟨h, h1, h2⟩ := pos_surj (-(u : ℤ)) (by omega) (by omega)
    refine ⟨h, h1, ?_⟩
    rw [f16Value_val, h2]
    have hu0 : u ≠ 0 := by
      rintro rfl
      rw [show mag 10 0 = 0 by decide] at hm
      omega
    have : val (-(u : ℤ)) = n * 2 ^ 24 := by
      unfold val
      rw [if_pos (by omega), show (-(u : ℤ)).natAbs = u by omega, hm]
      push_cast
      rw [abs_of_neg hs]; ring
    rw [this]; push_cast
    linear_combination (n : ℚ) * hp
  · obtain ⟨h, h1, h2⟩ := pos_surj (u : ℤ) (by omega) (by omega)
    refine ⟨h, h1, ?_⟩
    rw [f16Value_val, h2]
    have : val (u : ℤ) = n * 2 ^ 24 := by
      unfold val
      rw [if_neg (by omega), show ((u : ℤ)).natAbs = u by omega, hm]
      push_cast
      rw [abs_of_nonneg (by omega)]
    rw [this]; push_cast
    linear_combination (n : ℚ) * hp

/-- An integer less than 1 away from a half is a half. -/
theorem int_near (a : BitVec 16) (ha : Finite16 a) (n : ℤ) (hn : |(n : ℚ) - f16Value a| < 1) :
    ∃ h, ¬ NaN16 h ∧ f16Value h = n := by
  obtain ⟨A, α, a1, _, a3⟩ := f16_form a ha
  have hn' := abs_lt.mp hn
  by_cases hα : 24 ≤ α
  · obtain ⟨k, rfl⟩ := Nat.exists_eq_add_of_le hα
    have e : f16Value a = ((A * 2 ^ k : ℤ) : ℚ) := by
      rw [a3, pow_add]
      push_cast
      have hp : (2 : ℚ) ^ 24 * 2 ^ (-24 : ℤ) = 1 := by norm_num
      linear_combination (A : ℚ) * 2 ^ k * hp
    refine ⟨a, by unfold Finite16 at ha; unfold NaN16; tauto, ?_⟩
    rw [e] at hn' ⊢
    have h1 : (-1 : ℤ) < n - A * 2 ^ k := by exact_mod_cast hn'.1
    have h2 : n - A * 2 ^ k < 1 := by exact_mod_cast hn'.2
    have : n = A * 2 ^ k := by omega
    rw [this]
  · apply small_int
    have hb : |f16Value a| < 2 ^ 10 := by
      have hp : (0 : ℚ) < 2 ^ (-24 : ℤ) := by positivity
      rw [a3, abs_mul, abs_of_pos hp]
      have : |A * 2 ^ α| < 2 ^ 34 := by
        rw [abs_mul, abs_of_pos (show (0 : ℤ) < 2 ^ α by positivity)]
        calc |A| * 2 ^ α < 2 ^ 11 * 2 ^ α := mul_lt_mul_of_pos_right a1 (by positivity)
          _ ≤ 2 ^ 11 * 2 ^ 23 := mul_le_mul_of_nonneg_left (pow_le_pow_right₀ (by norm_num) (by omega)) (by norm_num)
          _ = 2 ^ 34 := by norm_num
      have : |((A * 2 ^ α : ℤ) : ℚ)| < 2 ^ 34 := by exact_mod_cast this
      calc |((A * 2 ^ α : ℤ) : ℚ)| * 2 ^ (-24 : ℤ) < 2 ^ 34 * 2 ^ (-24 : ℤ) := mul_lt_mul_of_pos_right this hp
        _ = 2 ^ 10 := by norm_num
    have hb' := abs_lt.mp hb
    have : |(n : ℚ)| ≤ 2 ^ 11 := abs_le.mpr ⟨by linarith, by linarith⟩
    exact_mod_cast this

theorem int_result (a : BitVec 16) (ha : Finite16 a) (y : BitVec 32) (hy : Finite32 y) (n : ℤ)
    (hv : f32Value y = n) (hn : |(n : ℚ) - f16Value a| < 1) :
    ¬ NaN16 (f32ToU16 y) ∧ f16Value (f32ToU16 y) = n := by
  obtain ⟨h, h1, h2⟩ := int_near a ha n hn
  have hN := (f32ToU16_nearest y hy).1
  have := hN.nearest h h1
  rw [hv, h2, sub_self, abs_zero] at this
  exact ⟨hN.notNaN, by linarith [abs_nonpos_iff.mp this]⟩

/-- C87, `floor`, `ceil` and `trunc` of a half are exact. -/
theorem integral16_exact (ho : Ieee o) (a : BitVec 16) (ha : Finite16 a) :
    (∃ r, floor16 o a = some r ∧ ¬ NaN16 r ∧ f16Value r = ⌊f16Value a⌋) ∧
    (∃ r, ceil16 o a = some r ∧ ¬ NaN16 r ∧ f16Value r = ⌈f16Value a⌉) ∧
    (∃ r, trunc16 o a = some r ∧ ¬ NaN16 r ∧
      f16Value r = if 0 ≤ f16Value a then (⌊f16Value a⌋ : ℚ) else ⌈f16Value a⌉) ∧
    (∃ r, trunc16c89 o a = some r ∧ ¬ NaN16 r ∧
      f16Value r = if 0 ≤ f16Value a then (⌊f16Value a⌋ : ℚ) else ⌈f16Value a⌉) := by
  obtain ⟨x, x1, x2, x3⟩ := dec_spec a ha
  have hfl : |((⌊f16Value a⌋ : ℤ) : ℚ) - f16Value a| < 1 := by
    have := Int.floor_le (f16Value a)
    have := Int.lt_floor_add_one (f16Value a)
    apply abs_lt.mpr; constructor <;> linarith
  have hce : |((⌈f16Value a⌉ : ℤ) : ℚ) - f16Value a| < 1 := by
    have := Int.le_ceil (f16Value a)
    have := Int.ceil_lt_add_one (f16Value a)
    apply abs_lt.mpr; constructor <;> linarith
  have key : fle 0#32 x = decide (0 ≤ f16Value a) := by
    unfold fle
    rw [decide_eq_decide, f32key_le_iff, zero_f32.2, x3]
  have f := ho.floor x x2
  have c := ho.ceil x x2
  have t := ho.trunc x x2
  rw [x3] at f c t
  have F := int_result a ha _ f.1 _ f.2 hfl
  have C := int_result a ha _ c.1 _ c.2 hce
  refine ⟨⟨_, by unfold floor16 lift1; rw [x1]; rfl, F⟩, ⟨_, by unfold ceil16 lift1; rw [x1]; rfl, C⟩,
    ⟨_, by unfold trunc16 lift1; rw [x1]; rfl, ?_⟩, ⟨_, by unfold trunc16c89 lift1; rw [x1]; rfl, ?_⟩⟩
  · by_cases h : 0 ≤ f16Value a
    · rw [if_pos h] at t ⊢
      exact int_result a ha _ t.1 _ t.2 hfl
    · rw [if_neg h] at t ⊢
      exact int_result a ha _ t.1 _ t.2 hce
  · by_cases h : 0 ≤ f16Value a
    · beta_reduce
      rw [if_pos h, key, if_pos (by simpa using h)]
      exact F
    · beta_reduce
      rw [if_neg h, key, if_neg (by simpa using h)]
      exact C

/-- C87, the opposite of a half flips its sign bit. -/
theorem neg16_exact (a : BitVec 16) (ha : ¬ NaN16 a) : neg16 a = some (a ^^^ 0x8000#16) := by
  obtain ⟨r, h1, h2, _⟩ := f16_roundtrip a
  obtain ⟨r', h1', _, f1, f2, _⟩ := u16ToF32_exact a
  rw [h1] at h1'
  cases h1'
  have hr : ¬ NaN32 r := by
    by_cases hf : Finite16 a
    · have := (f1 hf).1
      unfold Finite32 at this; unfold NaN32; tauto
    · have : Inf16 a := by unfold Finite16 at hf; unfold NaN16 at ha; unfold Inf16; tauto
      have := f2 this
      unfold Inf32 at this; unfold NaN32; tauto
  unfold neg16 lift1
  rw [h1]
  change some (f32ToU16 (r ^^^ 0x80000000#32)) = _
  rw [f32ToU16_neg r hr, h2 ha]

/-! ### Multiply-add -/

theorem fneg_value (x : BitVec 32) (hx : Finite32 x) : Finite32 (fneg x) ∧ f32Value (fneg x) = -f32Value x := by
  have h : (fneg x).toNat = _ := xor_sign 31 x
  have hl := x.isLt
  have hm : (fneg x).toNat % 2 ^ 31 = x.toNat % 2 ^ 31 := by omega
  constructor
  · unfold Finite32 e32 at *
    omega
  · rw [f32Value_key, f32Value_key, hm]
    by_cases hs : 2 ^ 31 ≤ x.toNat
    · rw [if_pos hs, if_neg (by omega)]; ring
    · rw [if_neg hs, if_pos (by omega)]; ring

/-- A nearest `f32` is within one part in `2^24` (numbers that do not underflow). -/
theorem rel_err {x : ℝ} {y : BitVec 32} (h : Nearest32 x y) (h1 : (2 : ℝ) ^ (-126 : ℤ) ≤ |x|)
    (h2 : |x| < 2 ^ 120) : |(f32Value y : ℝ) - x| ≤ 2 ^ (-24 : ℤ) * |x| := by
  have hx0 : 0 < |x| := lt_of_lt_of_le (by positivity) h1
  obtain ⟨e, e1, e2⟩ := exists_mem_Ico_zpow hx0 (show (1 : ℝ) < 2 by norm_num)
  have he1 : -127 < e := by
    have : (2 : ℝ) ^ (-126 : ℤ) < 2 ^ (e + 1) := lt_of_le_of_lt h1 e2
    have := (zpow_lt_zpow_iff_right₀ (by norm_num : (1 : ℝ) < 2)).mp this
    omega
  have he2 : e < 120 := by
    have : (2 : ℝ) ^ e < 2 ^ (120 : ℤ) := lt_of_le_of_lt e1 (by exact_mod_cast h2)
    exact (zpow_lt_zpow_iff_right₀ (by norm_num : (1 : ℝ) < 2)).mp this
  have hu : (0 : ℝ) < 2 ^ (e + (-23)) := by positivity
  set u : ℝ := 2 ^ (e + (-23)) with hu'
  have hr := abs_sub_round (x / u)
  have hk : |(round (x / u) : ℝ)| ≤ 2 ^ 24 := by
    have : |x / u| < 2 ^ 24 := by
      rw [abs_div, abs_of_pos hu, div_lt_iff₀ hu, hu']
      refine lt_of_lt_of_eq e2 ?_
      rw [pow_split, pow_split e]
      have : (2 : ℝ) ^ (1 : ℤ) = 2 ^ 24 * 2 ^ (-23 : ℤ) := by norm_num
      rw [this]; ring
    have k : (|round (x / u)| : ℝ) < 2 ^ 24 + 1 := by
      have := abs_lt.mp this
      have := abs_le.mp hr
      apply abs_lt.mpr; constructor <;> linarith
    have k : |round (x / u)| < 2 ^ 24 + 1 := by exact_mod_cast k
    have k : |round (x / u)| ≤ 2 ^ 24 := by omega
    exact_mod_cast k
  obtain ⟨z, z1, z2⟩ := f32_exists (round (x / u)) (by exact_mod_cast hk) (e + (-23)) (by omega) (by omega)
  refine le_trans (h.2 z z1) ?_
  have hz : (f32Value z : ℝ) - x = (round (x / u) - x / u) * u := by
    rw [sub_mul, div_mul_cancel₀ _ hu.ne', z2]; push_cast; rfl
  rw [hz, abs_mul, abs_of_pos hu, abs_sub_comm]
  have e3 : (2 : ℝ) ^ (-24 : ℤ) * 2 ^ e = 1 / 2 * u := by
    rw [hu', pow_split]
    have : (2 : ℝ) ^ (-23 : ℤ) = 2 * 2 ^ (-24 : ℤ) := by norm_num
    rw [this]; ring
  calc |x / u - round (x / u)| * u ≤ 1 / 2 * u := mul_le_mul_of_nonneg_right hr hu.le
    _ = 2 ^ (-24 : ℤ) * 2 ^ e := e3.symm
    _ ≤ 2 ^ (-24 : ℤ) * |x| := mul_le_mul_of_nonneg_left e1 (by positivity)

/-- A half whose distance to `x` exceeds that of every other half by one part in `2^23` of `x` at most.
Specification. -/
def AlmostNearest (x : ℚ) (r : BitVec 16) : Prop :=
  ¬ NaN16 r ∧ ∀ h, ¬ NaN16 h → |f16Value r - x| ≤ |f16Value h - x| + |x| / 2 ^ 23

theorem almost_of_near {x : ℚ} {y : BitVec 32} (h : Nearest32 (x : ℝ) y)
    (hx : x = 0 ∨ (2 : ℚ) ^ (-48 : ℤ) ≤ |x|) (hb : |x| < 2 ^ 120) : AlmostNearest x (f32ToU16 y) := by
  have hN := (f32ToU16_nearest y h.1).1
  have err : |f32Value y - x| ≤ |x| / 2 ^ 24 := by
    rcases hx with rfl | hx
    · have := h.2 0#32 zero_f32.1
      rw [zero_f32.2] at this
      simp at this
      rw [this]; simp
    · have h1 : (2 : ℝ) ^ (-126 : ℤ) ≤ |(x : ℝ)| := by
        have : (2 : ℝ) ^ (-48 : ℤ) ≤ |(x : ℝ)| := by
          have := (Rat.cast_le (K := ℝ)).mpr hx
          push_cast at this
          exact this
        exact le_trans (zpow_le_zpow_right₀ (by norm_num) (by norm_num)) this
      have := rel_err h h1 (by exact_mod_cast hb)
      have e : (2 : ℝ) ^ (-24 : ℤ) * |(x : ℝ)| = |(x : ℝ)| / 2 ^ 24 := by
        rw [zpow_neg, inv_mul_eq_div]; norm_cast
      rw [e] at this
      exact_mod_cast this
  refine ⟨hN.notNaN, fun h' hh => ?_⟩
  have n := hN.nearest h' hh
  have t1 := abs_sub_le (f16Value (f32ToU16 y)) (f32Value y) x
  have t2 := abs_sub_le (f16Value h') x (f32Value y)
  rw [abs_sub_comm x] at t2
  linarith

theorem fma_size {a b c : BitVec 16} (ha : Finite16 a) (hb : Finite16 b) (hc : Finite16 c) :
    |f16Value a * f16Value b| < 2 ^ 33 ∧ |f16Value a * f16Value b + f16Value c| < 2 ^ 34 ∧
      (f16Value a * f16Value b + f16Value c = 0 ∨
        (2 : ℚ) ^ (-48 : ℤ) ≤ |f16Value a * f16Value b + f16Value c|) := by
  have h1 : |f16Value a * f16Value b| < 2 ^ 33 := by
    rw [abs_mul]
    have := f16_bound a ha
    have := f16_bound b hb
    have := abs_nonneg (f16Value a)
    have := abs_nonneg (f16Value b)
    nlinarith
  refine ⟨h1, ?_, ?_⟩
  · have := abs_lt.mp h1
    have := abs_lt.mp (f16_bound c hc)
    apply abs_lt.mpr; constructor <;> linarith
  · obtain ⟨A, α, _, _, a3⟩ := f16_form a ha
    obtain ⟨B, β, _, _, b3⟩ := f16_form b hb
    obtain ⟨C, γ, _, _, c3⟩ := f16_form c hc
    have e : f16Value a * f16Value b + f16Value c =
        ((A * 2 ^ α * (B * 2 ^ β) + C * 2 ^ γ * 2 ^ 24 : ℤ) : ℚ) * 2 ^ (-48 : ℤ) := by
      rw [a3, b3, c3]
      push_cast
      have h48 : (2 : ℚ) ^ (-24 : ℤ) = 2 ^ 24 * 2 ^ (-48 : ℤ) := by norm_num
      have h48' : (2 : ℚ) ^ (-48 : ℤ) = 2 ^ (-24 : ℤ) * 2 ^ (-24 : ℤ) := by norm_num
      linear_combination (C : ℚ) * 2 ^ γ * h48 - (A : ℚ) * 2 ^ α * B * 2 ^ β * h48'
    rw [e]
    generalize A * 2 ^ α * (B * 2 ^ β) + C * 2 ^ γ * 2 ^ 24 = k
    by_cases hk : k = 0
    · left; rw [hk]; simp
    · right
      have hp : (0 : ℚ) < 2 ^ (-48 : ℤ) := by positivity
      rw [abs_mul, abs_of_pos hp]
      have : (1 : ℤ) ≤ |k| := Int.one_le_abs hk
      have : (1 : ℚ) ≤ |(k : ℚ)| := by exact_mod_cast this
      nlinarith

theorem neg_finite {a : BitVec 16} (ha : Finite16 a) :
    Finite16 (a ^^^ 0x8000#16) ∧ f16Value (a ^^^ 0x8000#16) = -f16Value a := by
  have h : (a ^^^ 0x8000#16).toNat = _ := xor_sign 15 a
  have hl := a.isLt
  have hm : (a ^^^ 0x8000#16).toNat % 2 ^ 15 = a.toNat % 2 ^ 15 := by omega
  constructor
  · unfold Finite16 e16 at *
    omega
  · rw [f16Value_key, f16Value_key, hm]
    by_cases hs : 2 ^ 15 ≤ a.toNat
    · rw [if_pos hs, if_neg (by omega)]; ring
    · rw [if_neg hs, if_pos (by omega)]; ring

/-- C87, multiply-adds through `fmaf`, and the C89 code of `fma`: almost the nearest half. Correct rounding does
not hold, see `fma16_not_rounded`. -/
theorem fma16_near_partial (ho : Ieee o) (a b c : BitVec 16) (ha : Finite16 a) (hb : Finite16 b)
    (hc : Finite16 c) :
    (∃ r, fma16 o a b c = some r ∧ AlmostNearest (f16Value a * f16Value b + f16Value c) r) ∧
    (∃ r, fma16c89 o a b c = some r ∧ AlmostNearest (f16Value a * f16Value b + f16Value c) r) ∧
    (∃ r, fnma16 o a b c = some r ∧ AlmostNearest (-(f16Value a * f16Value b) + f16Value c) r) ∧
    (∃ r, fms16 o a b c = some r ∧ AlmostNearest (f16Value a * f16Value b - f16Value c) r) ∧
    (∃ r, fnms16 o a b c = some r ∧ AlmostNearest (-(f16Value a * f16Value b) - f16Value c) r) := by
  obtain ⟨x, x1, x2, x3⟩ := dec_spec a ha
  obtain ⟨y, y1, y2, y3⟩ := dec_spec b hb
  obtain ⟨z, z1, z2, z3⟩ := dec_spec c hc
  obtain ⟨s1, s2, s3⟩ := fma_size ha hb hc
  have core : ∀ {x y z : BitVec 32} {a b c : BitVec 16}, Finite32 x → Finite32 y → Finite32 z →
      Finite16 a → Finite16 b → Finite16 c → f32Value x = f16Value a → f32Value y = f16Value b →
      f32Value z = f16Value c →
      AlmostNearest (f16Value a * f16Value b + f16Value c) (f32ToU16 (o.fma x y z)) := by
    intro x y z a b c x2 y2 z2 ha hb hc x3 y3 z3
    obtain ⟨_, s2, s3⟩ := fma_size ha hb hc
    have h := ho.fma x y z x2 y2 z2 (by rw [x3, y3, z3]; exact lt_trans s2 (by norm_num))
    rw [x3, y3, z3] at h
    exact almost_of_near h s3 (lt_trans s2 (by norm_num))
  obtain ⟨nx, nx'⟩ := fneg_value x x2
  obtain ⟨nz, nz'⟩ := fneg_value z z2
  obtain ⟨na, na'⟩ := neg_finite ha
  obtain ⟨nc, nc'⟩ := neg_finite hc
  refine ⟨⟨_, by unfold fma16 lift3; rw [x1, y1, z1]; rfl, core x2 y2 z2 ha hb hc x3 y3 z3⟩,
    ⟨_, by unfold fma16c89 lift3; rw [x1, y1, z1]; rfl, ?_⟩,
    ⟨_, by unfold fnma16 lift3; rw [x1, y1, z1]; rfl, ?_⟩,
    ⟨_, by unfold fms16 lift3; rw [x1, y1, z1]; rfl, ?_⟩,
    ⟨_, by unfold fnms16 lift3; rw [x1, y1, z1]; rfl, ?_⟩⟩
  · have h := ho.mul x y x2 y2 (by rw [x3, y3]; exact lt_trans s1 (by norm_num))
    rw [x3, y3] at h
    obtain ⟨A, α, a1, a2, a3⟩ := f16_form a ha
    obtain ⟨B, β, b1, b2, b3⟩ := f16_form b hb
    obtain ⟨w, w1, w2⟩ := f32_exists (A * B) (by
      rw [abs_mul]
      have := abs_nonneg A
      have := abs_nonneg B
      nlinarith) ((α : ℤ) + β + (-48)) (by omega) (by omega)
    have hw : f32Value w = f16Value a * f16Value b := by
      rw [w2, a3, b3, zpow_add₀ (by norm_num), zpow_add₀ (by norm_num), zpow_natCast, zpow_natCast]
      push_cast
      have : (2 : ℚ) ^ (-48 : ℤ) = 2 ^ (-24 : ℤ) * 2 ^ (-24 : ℤ) := by norm_num
      rw [this]; ring
    have hp : f32Value (o.mul x y) = f16Value a * f16Value b := by
      have := h.2 w w1
      rw [hw, sub_self, abs_zero] at this
      have := abs_nonpos_iff.mp this
      have : (f32Value (o.mul x y) : ℝ) = ((f16Value a * f16Value b : ℚ) : ℝ) := by linarith
      exact_mod_cast this
    have h2 := ho.add (o.mul x y) z h.1 z2 (by rw [hp, z3]; exact lt_trans s2 (by norm_num))
    rw [hp, z3] at h2
    exact almost_of_near h2 s3 (lt_trans s2 (by norm_num))
  · have := core nx y2 z2 na hb hc (by rw [nx', na', x3]) y3 z3
    rwa [na', neg_mul] at this
  · have := core x2 y2 nz ha hb nc x3 y3 (by rw [nz', nc', z3])
    rwa [nc', ← sub_eq_add_neg] at this
  · have := core nx y2 nz na hb nc (by rw [nx', na', x3]) y3 (by rw [nz', nc', z3])
    rwa [na', nc', neg_mul, ← sub_eq_add_neg] at this

/-! ### Where the results are not what one would expect -/

theorem f32_inj {x y : BitVec 32} (h : f32Value x = f32Value y) (h0 : f32Value y ≠ 0) : x = y := by
  have k : f32key x = f32key y :=
    le_antisymm ((f32key_le_iff x y).mpr h.le) ((f32key_le_iff y x).mpr h.ge)
  have hz : y.toNat % 2 ^ 31 ≠ 0 := by
    intro hc
    apply h0
    rw [f32Value_key, hc, show mag 23 0 = 0 by decide]
    simp
  have hx := x.isLt
  have hy := y.isLt
  rw [f32key_nat, f32key_nat] at k
  apply BitVec.eq_of_toNat_eq
  split at k <;> split at k <;> omega

theorem f32_zero {x : BitVec 32} (h : f32Value x = 0) : x = 0#32 ∨ x = 0x80000000#32 := by
  rw [f32Value_key] at h
  have hp : (2 : ℚ) ^ (-149 : ℤ) ≠ 0 := by positivity
  have hm : mag 23 (x.toNat % 2 ^ 31) = 0 := by
    have h := (mul_eq_zero.mp h).resolve_right hp
    split at h
    · exact_mod_cast neg_eq_zero.mp h
    · exact_mod_cast h
  have hz : x.toNat % 2 ^ 31 = 0 := by
    by_contra hc
    have := mag_strictMono 23 (Nat.pos_of_ne_zero hc)
    omega
  have hx := x.isLt
  rcases Nat.lt_or_ge x.toNat (2 ^ 31) with h | h
  · left; apply BitVec.eq_of_toNat_eq; show x.toNat = 0; omega
  · right; apply BitVec.eq_of_toNat_eq; show x.toNat = 0x80000000; omega

/-- The value of a positive pattern. Proof helper. -/
theorem f32Value_pos (x : BitVec 32) (h : x.msb = false) (he : e32 x ≠ 0) :
    f32Value x = (2 ^ 23 + m32 x) * (2 : ℚ) ^ ((e32 x : ℤ) - 150) := by
  unfold f32Value sgn
  rw [if_neg he, h]; simp

theorem f16Value_pos (x : BitVec 16) (h : x.msb = false) (he : e16 x ≠ 0) :
    f16Value x = (2 ^ 10 + m16 x) * (2 : ℚ) ^ ((e16 x : ℤ) - 25) := by
  unfold f16Value sgn
  rw [if_neg he, h]; simp

/-- The product `(1 + 2^-10) * (2^-11 - 2^-21)` plus `1 + 2^-10`: slightly less than the number half way between
the halves `1 + 2^-10` and `1 + 2^-9`, but its `f32` is that number and goes to the even half `1 + 2^-9`.
C87: no implementation of `fmaf` in agreement with IEEE-754 makes the code of `fma` right on it. -/
theorem fma16_not_rounded (ho : Ieee o) :
    ∃ a b c r, Finite16 a ∧ Finite16 b ∧ Finite16 c ∧ fma16 o a b c = some r ∧
      ¬ NearestEven (f16Value a * f16Value b + f16Value c) r := by
  have va : f16Value 0x3c01#16 = 1 + 1 / 2 ^ 10 := by
    rw [f16Value_pos _ (by decide) (by unfold e16; decide)]; unfold e16 m16; norm_num
  have vb : f16Value 0x0ffe#16 = (1 - 1 / 2 ^ 10) / 2 ^ 11 := by
    rw [f16Value_pos _ (by decide) (by unfold e16; decide)]; unfold e16 m16; norm_num
  have vh : f16Value 0x3c02#16 = 1 + 1 / 2 ^ 9 := by
    rw [f16Value_pos _ (by decide) (by unfold e16; decide)]; unfold e16 m16; norm_num
  have fa : Finite16 0x3c01#16 := by unfold Finite16 e16; decide
  have fb : Finite16 0x0ffe#16 := by unfold Finite16 e16; decide
  obtain ⟨x, x1, x2, x3⟩ := dec_spec _ fa
  obtain ⟨y, y1, y2, y3⟩ := dec_spec _ fb
  refine ⟨0x3c01#16, 0x0ffe#16, 0x3c01#16, _, fa, fb, fa, by unfold fma16 lift3; rw [x1, y1]; rfl, ?_⟩
  obtain ⟨_, s2, _⟩ := fma_size fa fb fa
  have h := ho.fma x y x x2 y2 x2 (by rw [x3, y3]; exact lt_trans s2 (by norm_num))
  rw [x3, y3] at h
  have vm : f32Value 0x3f803000#32 = 1 + 3 / 2 ^ 11 := by
    rw [f32Value_pos _ (by decide) (by unfold e32; decide)]; unfold e32 m32; norm_num
  have hy : o.fma x y x = 0x3f803000#32 := by
    apply f32_inj _ (by rw [vm]; norm_num)
    -- the error is at most half a unit in the last place, and the result is a multiple of that unit
    have hnear := h.2 0x3f803000#32 (by unfold Finite32 e32; decide)
    have hnear : |f32Value (o.fma x y x) - (f16Value 0x3c01#16 * f16Value 0x0ffe#16 + f16Value 0x3c01#16)| ≤
        |f32Value 0x3f803000#32 - (f16Value 0x3c01#16 * f16Value 0x0ffe#16 + f16Value 0x3c01#16)| := by
      exact_mod_cast hnear
    rw [vm, va, vb] at hnear
    have hb : |f32Value (o.fma x y x) -
        ((1 + 1 / 2 ^ 10) * ((1 - 1 / 2 ^ 10) / 2 ^ 11) + (1 + 1 / 2 ^ 10))| ≤ 1 / 2 ^ 31 :=
      le_trans hnear (by norm_num [abs_le])
    have hb := abs_le.mp hb
    norm_num at hb
    obtain ⟨K, e, k1, k2, k3⟩ := f32_form (o.fma x y x)
    have hk1 := abs_lt.mp k1
    -- the exponent is at least -23, for the result exceeds 1
    have he : -24 < e := by
      by_contra hc
      have h2 : (2 : ℚ) ^ e ≤ 2 ^ (-24 : ℤ) := zpow_le_zpow_right₀ (by norm_num) (by omega)
      have hp : (0 : ℚ) < 2 ^ e := by positivity
      have hK : (K : ℚ) < 2 ^ 24 := by exact_mod_cast hk1.2
      have : (K : ℚ) * 2 ^ e < 2 ^ 24 * 2 ^ e := mul_lt_mul_of_pos_right hK hp
      have : (2 : ℚ) ^ 24 * 2 ^ e ≤ 2 ^ 24 * 2 ^ (-24 : ℤ) := mul_le_mul_of_nonneg_left h2 (by norm_num)
      norm_num at this
      rw [k3] at hb
      linarith [hb.1]
    obtain ⟨n, rfl⟩ : ∃ n : Nat, e = n + (-23) := ⟨(e + 23).toNat, by omega⟩
    rw [zpow_add₀ (by norm_num), zpow_natCast] at k3
    have k4 : f32Value (o.fma x y x) = ((K * 2 ^ n : ℤ) : ℚ) / 2 ^ 23 := by
      rw [k3]; push_cast
      have : (2 : ℚ) ^ (-23 : ℤ) = 1 / 2 ^ 23 := by norm_num
      rw [this]; ring
    rw [k4] at hb ⊢
    rw [vm]
    have e1 : ((K * 2 ^ n : ℤ) : ℚ) < 8400897 := by
      have := hb.2
      rw [div_le_iff₀ (by norm_num)] at this
      linarith
    have e2 : (8400895 : ℚ) < ((K * 2 ^ n : ℤ) : ℚ) := by
      have := hb.1
      linarith
    have e1 : K * 2 ^ n < 8400897 := by exact_mod_cast e1
    have e2 : 8400895 < K * 2 ^ n := by exact_mod_cast e2
    have : K * 2 ^ n = 8400896 := by omega
    rw [this]; norm_num
  rw [hy, show f32ToU16 0x3f803000#32 = 0x3c02#16 by decide]
  intro hN
  have := hN.nearest 0x3c01#16 (by unfold NaN16 e16 m16; decide)
  rw [vh, va, vb] at this
  norm_num [abs_le] at this

/-- C87, CPU back end, one operation between a load and a store: the lanes are those of the scalar operator. -/
theorem cpu_rounded (ho : Ieee o) (a b : BitVec 16) (ha : Finite16 a) (hb : Finite16 b) :
    (∃ r, cpuLane2 o.add a b = some r ∧ NearestEven (f16Value a + f16Value b) r) ∧
    (∃ r, cpuLane2 o.sub a b = some r ∧ NearestEven (f16Value a - f16Value b) r) ∧
    (∃ r, cpuLane2 o.mul a b = some r ∧ NearestEven (f16Value a * f16Value b) r) ∧
    (f16Value b ≠ 0 → ∃ r, cpuLane2 o.div a b = some r ∧ NearestEven (f16Value a / f16Value b) r) :=
  ⟨add16_rounded ho a b ha hb, sub16_rounded ho a b ha hb, mul16_rounded ho a b ha hb,
    div16_rounded ho a b ha hb⟩

theorem exact_val {x : ℚ} {y z : BitVec 32} (h : Nearest32 (x : ℝ) y) (hz : Finite32 z) (hv : f32Value z = x) :
    f32Value y = x := by
  have := h.2 z hz
  rw [hv, sub_self, abs_zero] at this
  have := abs_nonpos_iff.mp this
  have : (f32Value y : ℝ) = (x : ℝ) := by linarith
  exact_mod_cast this

/-- C87, CPU back end, two operations between the loads and the store: the product is not rounded to `f16` in
between, so that `a * b + c` is `2^-20` on vectors and zero with the scalar operators. -/
theorem cpu_two_operations_differ (ho : Ieee o) :
    ∃ a b c p, Finite16 a ∧ Finite16 b ∧ Finite16 c ∧ mul16 o a b = some p ∧
      cpuLane3 o.mul o.add a b c = some 0x0010#16 ∧
      (add16 o p c = some 0#16 ∨ add16 o p c = some 0x8000#16) := by
  have fa : Finite16 0x3c01#16 := by unfold Finite16 e16; decide
  have fc : Finite16 0xbc02#16 := by unfold Finite16 e16; decide
  have dx : u16ToF32 0x3c01#16 = some 0x3f802000#32 := by decide
  have dz : u16ToF32 0xbc02#16 = some 0xbf804000#32 := by decide
  have dp : u16ToF32 0x3c02#16 = some 0x3f804000#32 := by decide
  have F : ∀ x : BitVec 32, (x.toNat / 2 ^ 23 % 256 ≠ 255) → Finite32 x := fun x h => h
  have vx : f32Value 0x3f802000#32 = 1 + 1 / 2 ^ 10 := by
    rw [f32Value_pos _ (by decide) (by unfold e32; decide)]; unfold e32 m32; norm_num
  have vz : f32Value 0xbf804000#32 = -(1 + 1 / 2 ^ 9) := by
    have := (fneg_value 0x3f804000#32 (F _ (by decide))).2
    rw [show fneg 0x3f804000#32 = 0xbf804000#32 by decide] at this
    rw [this, f32Value_pos _ (by decide) (by unfold e32; decide)]; unfold e32 m32; norm_num
  have vp : f32Value 0x3f804000#32 = 1 + 1 / 2 ^ 9 := by
    rw [f32Value_pos _ (by decide) (by unfold e32; decide)]; unfold e32 m32; norm_num
  have vq : f32Value 0x3f804008#32 = 1 + 1 / 2 ^ 9 + 1 / 2 ^ 20 := by
    rw [f32Value_pos _ (by decide) (by unfold e32; decide)]; unfold e32 m32; norm_num
  have vr : f32Value 0x35800000#32 = 1 / 2 ^ 20 := by
    rw [f32Value_pos _ (by decide) (by unfold e32; decide)]; unfold e32 m32; norm_num
  have hmul : o.mul 0x3f802000#32 0x3f802000#32 = 0x3f804008#32 := by
    have h := ho.mul 0x3f802000#32 0x3f802000#32 (F _ (by decide)) (F _ (by decide))
      (by rw [vx]; norm_num [abs_lt])
    apply f32_inj _ (by rw [vq]; norm_num)
    rw [exact_val h (z := 0x3f804008#32) (F _ (by decide)) (by rw [vq, vx]; norm_num), vq, vx]
    norm_num
  have hadd : o.add 0x3f804008#32 0xbf804000#32 = 0x35800000#32 := by
    have h := ho.add 0x3f804008#32 0xbf804000#32 (F _ (by decide)) (F _ (by decide))
      (by rw [vq, vz]; norm_num [abs_lt])
    apply f32_inj _ (by rw [vr]; norm_num)
    rw [exact_val h (z := 0x35800000#32) (F _ (by decide)) (by rw [vr, vq, vz]; norm_num), vr, vq, vz]
    norm_num
  have hsum : o.add 0x3f804000#32 0xbf804000#32 = 0#32 ∨ o.add 0x3f804000#32 0xbf804000#32 = 0x80000000#32 := by
    have h := ho.add 0x3f804000#32 0xbf804000#32 (F _ (by decide)) (F _ (by decide))
      (by rw [vp, vz]; norm_num)
    apply f32_zero
    rw [exact_val h zero_f32.1 (by rw [zero_f32.2, vp, vz]; norm_num), vp, vz]
    norm_num
  refine ⟨0x3c01#16, 0x3c01#16, 0xbc02#16, 0x3c02#16, fa, fa, fc, ?_, ?_, ?_⟩
  · unfold mul16 lift2
    rw [dx]
    change some (f32ToU16 (o.mul 0x3f802000#32 0x3f802000#32)) = _
    rw [hmul]; decide
  · unfold cpuLane3 Cpu.f16Elem
    dsimp only
    rw [dx, dz]
    change some (f32ToU16 (o.add (o.mul 0x3f802000#32 0x3f802000#32) 0xbf804000#32)) = _
    rw [hmul, hadd]; decide
  · unfold add16 lift2
    rw [dp, dz]
    change some (f32ToU16 (o.add 0x3f804000#32 0xbf804000#32)) = _ ∨
      some (f32ToU16 (o.add 0x3f804000#32 0xbf804000#32)) = _
    rcases hsum with h | h
    · left; rw [h]; decide
    · right; rw [h]; decide

/-! ### The hypotheses can be met -/

theorem exists_nearest32 (x : ℝ) : ∃ y, Nearest32 x y := by
  have : Finite (BitVec 32) := Finite.of_injective (fun y => y.toFin) (fun _ _ h => BitVec.eq_of_toFin_eq h)
  obtain ⟨y, h1, h2⟩ := Set.exists_min_image {y : BitVec 32 | Finite32 y} (fun y => |(f32Value y : ℝ) - x|)
    (Set.toFinite _) ⟨0#32, zero_f32.1⟩
  exact ⟨y, h1, fun z hz => h2 z hz⟩

theorem exists_nearest64 (x : ℝ) : ∃ z, Nearest64 x z := by
  obtain ⟨B, hB⟩ := exists_nat_ge |x|
  have r0 : Rep 53 (-1074) 0 := ⟨0, 0, by norm_num, by norm_num, by norm_num⟩
  have hfin : {w : ℚ | Rep 53 (-1074) w ∧ |w| ≤ 2 * B}.Finite := by
    refine Set.Finite.subset (Set.Finite.image (fun k : ℤ => (k : ℚ) * 2 ^ (-1074 : ℤ))
      (Set.finite_Icc (-(2 * B * 2 ^ 1074 : ℤ)) (2 * B * 2 ^ 1074))) ?_
    rintro w ⟨⟨m, e, _, he, rfl⟩, hw⟩
    obtain ⟨n, rfl⟩ : ∃ n : Nat, e = n + (-1074) := ⟨(e + 1074).toNat, by omega⟩
    refine ⟨m * 2 ^ n, ?_, by push_cast; rw [zpow_add₀ (by norm_num), zpow_natCast]; ring⟩
    rw [zpow_add₀ (by norm_num), zpow_natCast, ← mul_assoc, abs_mul,
      abs_of_pos (show (0 : ℚ) < 2 ^ (-1074 : ℤ) by positivity), zpow_neg, ← div_eq_mul_inv,
      div_le_iff₀ (by positivity)] at hw
    have hw : |(m : ℚ) * 2 ^ n| ≤ ((2 * B * 2 ^ 1074 : ℤ) : ℚ) := by
      refine le_trans hw (le_of_eq ?_)
      push_cast
      rfl
    have hw : |m * 2 ^ n| ≤ 2 * B * 2 ^ 1074 := by exact_mod_cast hw
    exact abs_le.mp hw
  obtain ⟨z, h1, h2⟩ := Set.exists_min_image _ (fun w : ℚ => |(w : ℝ) - x|) hfin
    ⟨0, r0, by simp⟩
  refine ⟨z, h1.1, fun w hw => ?_⟩
  by_cases hb : |w| ≤ 2 * B
  · exact h2 w ⟨hw, hb⟩
  · have h0 := h2 0 ⟨r0, by simp⟩
    rw [not_le] at hb
    have hb : (2 * B : ℝ) < |(w : ℝ)| := by
      have := (Rat.cast_lt (K := ℝ)).mpr hb
      push_cast at this
      exact this
    simp only [Rat.cast_zero, zero_sub, abs_neg] at h0
    have := abs_sub_abs_le_abs_sub (w : ℝ) x
    linarith

theorem int32_exists (x : BitVec 32) (n : ℤ) (hn : |(n : ℚ) - f32Value x| < 1) (hx : Finite32 x) :
    ∃ y, Finite32 y ∧ f32Value y = n := by
  obtain ⟨K, e, k1, k2, k3⟩ := f32_form x
  have hn' := abs_lt.mp hn
  by_cases he : 0 ≤ e
  · obtain ⟨i, rfl⟩ := Int.eq_ofNat_of_zero_le he
    rw [zpow_natCast] at k3
    refine ⟨x, hx, ?_⟩
    rw [k3] at hn' ⊢
    have h1 : (-1 : ℤ) < n - K * 2 ^ i := by exact_mod_cast hn'.1
    have h2 : n - K * 2 ^ i < 1 := by exact_mod_cast hn'.2
    have : n = K * 2 ^ i := by omega
    rw [this]; push_cast; rfl
  · have hb : |f32Value x| < 2 ^ 23 := by
      have hp : (0 : ℚ) < 2 ^ e := by positivity
      have h2 : (2 : ℚ) ^ e ≤ 2 ^ (-1 : ℤ) := zpow_le_zpow_right₀ (by norm_num) (by omega)
      have hK : |(K : ℚ)| < 2 ^ 24 := by exact_mod_cast k1
      rw [k3, abs_mul, abs_of_pos hp]
      calc |(K : ℚ)| * 2 ^ e < 2 ^ 24 * 2 ^ e := mul_lt_mul_of_pos_right hK hp
        _ ≤ 2 ^ 24 * 2 ^ (-1 : ℤ) := mul_le_mul_of_nonneg_left h2 (by norm_num)
        _ = 2 ^ 23 := by norm_num
    have hb' := abs_lt.mp hb
    have : |(n : ℚ)| ≤ 2 ^ 24 := abs_le.mpr ⟨by linarith, by linarith⟩
    obtain ⟨y, y1, y2⟩ := f32_exists n (by exact_mod_cast this) 0 (by norm_num) (by norm_num)
    exact ⟨y, y1, by rw [y2]; simp⟩

/-- There are operations that meet the specification. -/
theorem exists_ieee : ∃ o, Ieee o := by
  choose n32 hn32 using exists_nearest32
  choose n64 hn64 using exists_nearest64
  have hf : ∀ x : BitVec 32, ∃ y, Finite32 x → Finite32 y ∧ f32Value y = ⌊f32Value x⌋ := by
    intro x
    by_cases hx : Finite32 x
    · obtain ⟨y, hy⟩ := int32_exists x ⌊f32Value x⌋ (by
        have := Int.floor_le (f32Value x)
        have := Int.lt_floor_add_one (f32Value x)
        apply abs_lt.mpr; constructor <;> linarith) hx
      exact ⟨y, fun _ => hy⟩
    · exact ⟨0, fun h => absurd h hx⟩
  have hc : ∀ x : BitVec 32, ∃ y, Finite32 x → Finite32 y ∧ f32Value y = ⌈f32Value x⌉ := by
    intro x
    by_cases hx : Finite32 x
    · obtain ⟨y, hy⟩ := int32_exists x ⌈f32Value x⌉ (by
        have := Int.le_ceil (f32Value x)
        have := Int.ceil_lt_add_one (f32Value x)
        apply abs_lt.mpr; constructor <;> linarith) hx
      exact ⟨y, fun _ => hy⟩
    · exact ⟨0, fun h => absurd h hx⟩
  choose fl hfl using hf
  choose ce hce using hc
  refine ⟨{ add := fun x y => n32 ((f32Value x + f32Value y : ℚ) : ℝ)
            sub := fun x y => n32 ((f32Value x - f32Value y : ℚ) : ℝ)
            mul := fun x y => n32 ((f32Value x * f32Value y : ℚ) : ℝ)
            div := fun x y => n32 ((f32Value x / f32Value y : ℚ) : ℝ)
            fma := fun x y z => n32 ((f32Value x * f32Value y + f32Value z : ℚ) : ℝ)
            sqrt := fun x => n32 (Real.sqrt (f32Value x))
            sqrtD := fun x => n64 (Real.sqrt (f32Value x))
            ofD := fun z => n32 (z : ℝ)
            floor := fl
            ceil := ce
            trunc := fun x => if 0 ≤ f32Value x then fl x else ce x }, ?_⟩
  constructor
  · intros; exact hn32 _
  · intros; exact hn32 _
  · intros; exact hn32 _
  · intros; exact hn32 _
  · intros; exact hn32 _
  · intros; exact hn32 _
  · intros; exact hn64 _
  · intros; exact hn32 _
  · exact hfl
  · exact hce
  · intro x hx
    dsimp only
    split
    · exact hfl x hx
    · exact hce x hx

-- 1 + 2^-10 and the largest half, whose sum is inexact
example : ∃ o, Ieee o ∧ Finite16 0x3c01#16 ∧ Finite16 0x7bff#16 ∧
    ∃ r, add16 o 0x3c01#16 0x7bff#16 = some r ∧ NearestEven (f16Value 0x3c01#16 + f16Value 0x7bff#16) r := by
  obtain ⟨o, ho⟩ := exists_ieee
  have h1 : Finite16 0x3c01#16 := by unfold Finite16 e16; decide
  have h2 : Finite16 0x7bff#16 := by unfold Finite16 e16; decide
  exact ⟨o, ho, h1, h2, add16_rounded ho _ _ h1 h2⟩

-- the square root of 3 (0x4200), the quotient 1 / 3 and the floor of 2.5 (0x4100)
example : ∃ o, Ieee o ∧
    (∃ r, sqrt16 o 0x4200#16 = some r ∧ NearestEvenR (Real.sqrt (f16Value 0x4200#16)) r) ∧
    (∃ r, div16 o 0x3c00#16 0x4200#16 = some r ∧ NearestEven (f16Value 0x3c00#16 / f16Value 0x4200#16) r) ∧
    (∃ r, floor16 o 0x4100#16 = some r ∧ ¬ NaN16 r ∧ f16Value r = ⌊f16Value 0x4100#16⌋) := by
  obtain ⟨o, ho⟩ := exists_ieee
  have F : ∀ x : BitVec 16, (x.toNat / 2 ^ 10 % 32 ≠ 31) → Finite16 x := fun x h => h
  have v : f16Value 0x4200#16 = 3 := by
    rw [f16Value_pos _ (by decide) (by unfold e16; decide)]; unfold e16 m16; norm_num
  exact ⟨o, ho, sqrt16_rounded ho _ (F _ (by decide)) (by rw [v]; norm_num),
    div16_rounded ho _ _ (F _ (by decide)) (F _ (by decide)) (by rw [v]; norm_num),
    (integral16_exact ho _ (F _ (by decide))).1⟩

-- minus infinity is not a NaN
example : ¬ NaN16 0xfc00#16 ∧ neg16 0xfc00#16 = some 0x7c00#16 := by
  refine ⟨by unfold NaN16 e16 m16; decide, ?_⟩
  rw [neg16_exact _ (by unfold NaN16 e16 m16; decide)]
  decide

end Nsimd.Props.F16Arith
