import Verif.Lemmas.FixedPoint
import Verif.Props.Round
import Verif.Props.ScalarShift
import Mathlib.Tactic.FieldSimp

/-!
# C45, C46: the fixed point module
-/

namespace Nsimd.Props.FixedPoint

open Nsimd Nsimd.ITy Nsimd.FixedPoint Nsimd.Props.Round

/-- The number an object of type `fp_t<lf, rt>` stands for. Specification
(doc/markdown/modules/fixed_point/overview.md: `rt` bits encode the fractional part). -/
def fpv (t : ITy) (rt : Nat) (a : BitVec t.w) : ℚ := (t.val a : ℚ) / 2 ^ rt

/-- `q` lies in the range of a number with `lf` integer bits, sign included. Specification
(doc/markdown/modules/fixed_point/overview.md: `lf` bits encode the integer part). -/
def InRange (lf : Nat) (q : ℚ) : Prop := -(2 ^ lf / 2) ≤ q ∧ q < 2 ^ lf / 2

/-- `r` is `q` rounded down to a multiple of `2^-rt`. Specification. -/
def RoundedDown (rt : Nat) (q r : ℚ) : Prop :=
  (∃ k : ℤ, r = k / 2 ^ rt) ∧ r ≤ q ∧ q < r + 1 / 2 ^ rt

/-- `r` is `q` rounded toward zero to a multiple of `2^-rt`. Specification. -/
def RoundedToZero (rt : Nat) (q r : ℚ) : Prop :=
  (∃ k : ℤ, r = k / 2 ^ rt) ∧ |r| ≤ |q| ∧ |q - r| < 1 / 2 ^ rt

theorem raw_range {t : ITy} (hs : t.sgn = true) {lf rt : Nat} (hw : lf + rt ≤ t.w) {v : ℤ}
    (h : InRange lf ((v : ℚ) / 2 ^ rt)) : t.minv ≤ v ∧ v ≤ t.maxv := by
  have hp : (0 : ℚ) < 2 ^ rt := by positivity
  obtain ⟨h1, h2⟩ := h
  rw [le_div_iff₀ hp] at h1
  rw [div_lt_iff₀ hp] at h2
  refine fits hs hw ?_ ?_
  · have : -(2 ^ (lf + rt)) ≤ 2 * (v : ℚ) := by rw [pow_add]; linarith
    exact_mod_cast this
  · have : 2 * (v : ℚ) < 2 ^ (lf + rt) := by rw [pow_add]; linarith
    exact_mod_cast this

theorem prod_range {t : ITy} (hs : t.sgn = true) {lf rt : Nat} (hw : lf + 2 * rt ≤ t.w) {v w : ℤ}
    (h : InRange lf ((v : ℚ) / 2 ^ rt * ((w : ℚ) / 2 ^ rt))) : t.minv ≤ v * w ∧ v * w ≤ t.maxv := by
  have e : (v : ℚ) / 2 ^ rt * ((w : ℚ) / 2 ^ rt) = ((v * w : ℤ) : ℚ) / 2 ^ (2 * rt) := by
    push_cast
    rw [pow_mul, sq, mul_pow]
    field_simp
  rw [e] at h
  exact raw_range hs hw h

/-- C45, addition: whenever the sum of the represented numbers is in range, `add` is defined and
returns it exactly. -/
theorem add_exact {lf rt : Nat} {t : ITy} (ht : storage lf rt = some t) (a b : BitVec t.w)
    (h : InRange lf (fpv t rt a + fpv t rt b)) :
    ∃ r, FixedPoint.add t a b = some r ∧ fpv t rt r = fpv t rt a + fpv t rt b := by
  obtain ⟨hs, hw⟩ := storage_le ht
  have e : fpv t rt a + fpv t rt b = ((t.val a + t.val b : ℤ) : ℚ) / 2 ^ rt := by
    unfold fpv; push_cast; ring
  rw [e] at h ⊢
  obtain ⟨h1, h2⟩ := raw_range hs (by omega) h
  refine ⟨_, by unfold FixedPoint.add; rw [prom_fits hs h1 h2]; rfl, ?_⟩
  unfold fpv
  rw [val_cast t _ h1 h2]

/-- The storage type is the smallest signed type with `lf + 2 * rt` bits, and there is none exactly when
there is no such type (or no bit at all). -/
theorem storage_smallest (lf rt : Nat) :
    (∀ t, storage lf rt = some t ↔ (0 < lf + rt ∧ t.sgn = true ∧ lf + 2 * rt ≤ t.w ∧
      ∀ t' : ITy, t'.sgn = true → lf + 2 * rt ≤ t'.w → t.w ≤ t'.w)) ∧
    (storage lf rt = none ↔ lf + rt = 0 ∨ 64 < lf + 2 * rt) := by
  have all : ∀ t : ITy, (∀ t' : ITy, t'.sgn = true → lf + 2 * rt ≤ t'.w → t.w ≤ t'.w) ↔
      (lf + 2 * rt ≤ 8 → t.w ≤ 8) ∧ (lf + 2 * rt ≤ 16 → t.w ≤ 16) ∧
      (lf + 2 * rt ≤ 32 → t.w ≤ 32) ∧ (lf + 2 * rt ≤ 64 → t.w ≤ 64) := by
    intro t
    constructor
    · intro h
      exact ⟨h .i8 rfl, h .i16 rfl, h .i32 rfl, h .i64 rfl⟩
    · rintro ⟨h1, h2, h3, h4⟩ t' hs hw
      cases t' <;> first | exact h1 hw | exact h2 hw | exact h3 hw | exact h4 hw
  unfold storage
  constructor
  · intro t
    rw [all]
    (repeat' split) <;> cases t <;> simp only [Option.some_inj, reduceCtorEq, ITy.sgn, ITy.w,
      Bool.false_eq_true, true_and, false_and, and_false, false_iff, true_iff] <;> omega
  · (repeat' split) <;> simp only [reduceCtorEq, false_iff, true_iff] <;> omega

/-- C45, subtraction. -/
theorem sub_exact {lf rt : Nat} {t : ITy} (ht : storage lf rt = some t) (a b : BitVec t.w)
    (h : InRange lf (fpv t rt a - fpv t rt b)) :
    ∃ r, FixedPoint.sub t a b = some r ∧ fpv t rt r = fpv t rt a - fpv t rt b := by
  obtain ⟨hs, hw⟩ := storage_le ht
  have e : fpv t rt a - fpv t rt b = ((t.val a - t.val b : ℤ) : ℚ) / 2 ^ rt := by
    unfold fpv; push_cast; ring
  rw [e] at h ⊢
  obtain ⟨h1, h2⟩ := raw_range hs (by omega) h
  refine ⟨_, by unfold FixedPoint.sub; rw [prom_fits hs h1 h2]; rfl, ?_⟩
  unfold fpv
  rw [val_cast t _ h1 h2]

/-- C45, negation. -/
theorem neg_exact {lf rt : Nat} {t : ITy} (ht : storage lf rt = some t) (a : BitVec t.w)
    (h : InRange lf (- fpv t rt a)) :
    ∃ r, FixedPoint.neg t a = some r ∧ fpv t rt r = - fpv t rt a := by
  obtain ⟨hs, hw⟩ := storage_le ht
  have e : - fpv t rt a = ((t.val a * (-1) : ℤ) : ℚ) / 2 ^ rt := by
    unfold fpv; push_cast; ring
  rw [e] at h ⊢
  obtain ⟨h1, h2⟩ := raw_range hs (by omega) h
  refine ⟨_, by unfold FixedPoint.neg; rw [prom_fits hs h1 h2]; rfl, ?_⟩
  unfold fpv
  rw [val_cast t _ h1 h2]

/-- C45 (partial), multiplication: whenever the product of the represented numbers is in range, `mul`
is defined and returns the product rounded down to a multiple of `2^-rt`. Missing: `rt = 0`, where
`mul` is undefined for every storage type but `i8`, see `mul_rt0_undefined`. -/
theorem mul_rounded_down_partial {lf rt : Nat} {t : ITy} (ht : storage lf rt = some t) (h0 : 0 < rt)
    (a b : BitVec t.w) (h : InRange lf (fpv t rt a * fpv t rt b)) :
    ∃ r, FixedPoint.mul t rt a b = some r ∧
      RoundedDown rt (fpv t rt a * fpv t rt b) (fpv t rt r) := by
  obtain ⟨hs, hw⟩ := storage_le ht
  obtain ⟨h1, h2⟩ := prod_range hs hw h
  obtain ⟨r, hr, hv⟩ := mul_raw hs h0 (by omega) a b h1 h2
  refine ⟨r, hr, ⟨_, rfl⟩, ?_⟩
  have hp : (0 : ℤ) < 2 ^ rt := by positivity
  have hq : (0 : ℚ) < 2 ^ rt := by positivity
  have e1 : t.val r * 2 ^ rt ≤ t.val a * t.val b := by
    rw [hv]; exact Int.ediv_mul_le _ hp.ne'
  have e2 : t.val a * t.val b < (t.val r + 1) * 2 ^ rt := by
    rw [hv]; exact Int.lt_ediv_add_one_mul_self _ hp
  have e1' : (t.val r : ℚ) * 2 ^ rt ≤ t.val a * t.val b := by exact_mod_cast e1
  have e2' : (t.val a : ℚ) * t.val b < (t.val r + 1) * 2 ^ rt := by exact_mod_cast e2
  unfold fpv
  have e3 : (t.val a : ℚ) / 2 ^ rt * (t.val b / 2 ^ rt) = t.val a * t.val b / 2 ^ rt / 2 ^ rt := by
    field_simp
  rw [e3, ← add_div]
  constructor
  · rw [div_le_div_iff_of_pos_right hq, le_div_iff₀ hq]; exact e1'
  · rw [div_lt_div_iff_of_pos_right hq, div_lt_iff₀ hq]; exact e2'

/-- C45, division: for a numerator and a quotient in range and a non-zero divisor, `div` is defined
and returns the quotient rounded toward zero to a multiple of `2^-rt`. -/
theorem div_rounded_to_zero {lf rt : Nat} {t : ITy} (ht : storage lf rt = some t) (hl : 0 < lf)
    (a b : BitVec t.w) (ha : InRange lf (fpv t rt a)) (hb : fpv t rt b ≠ 0)
    (h : InRange lf (fpv t rt a / fpv t rt b)) :
    ∃ r, FixedPoint.div t rt a b = some r ∧
      RoundedToZero rt (fpv t rt a / fpv t rt b) (fpv t rt r) := by
  obtain ⟨hs, hw⟩ := storage_le ht
  have hq : (0 : ℚ) < 2 ^ rt := by positivity
  have hb0 : t.val b ≠ 0 := by
    intro h0; apply hb; unfold fpv; rw [h0]; simp
  have hbq : (t.val b : ℚ) ≠ 0 := by exact_mod_cast hb0
  obtain ⟨h1, h2⟩ : t.minv ≤ t.val a * 2 ^ rt ∧ t.val a * 2 ^ rt ≤ t.maxv := by
    apply raw_range (lf := lf) (rt := 2 * rt) hs hw
    have : ((t.val a * 2 ^ rt : ℤ) : ℚ) / 2 ^ (2 * rt) = fpv t rt a := by
      unfold fpv; push_cast; rw [two_mul, pow_add]; field_simp
    rw [this]; exact ha
  have hwp := w_le_promW t
  obtain ⟨p, hp, hpv⟩ := shlW_fits hs (t.val a) (s := rt) (by omega) h1 h2
  have hquo : fpv t rt a / fpv t rt b = (t.val a : ℚ) * 2 ^ rt / t.val b / 2 ^ rt := by
    unfold fpv; field_simp
  -- the truncated quotient
  set n : ℤ := t.val a * 2 ^ rt with hn
  set d : ℤ := t.val b with hd
  have hnq : (t.val a : ℚ) * 2 ^ rt = (n : ℚ) := by rw [hn]; push_cast; rfl
  rw [hnq] at hquo
  have htd : n = d * Int.tdiv n d + Int.tmod n d := (Int.mul_tdiv_add_tmod n d).symm
  have hmod : |Int.tmod n d| < |d| := by
    have := Int.tmod_lt_of_pos n (b := |d|) (abs_pos.mpr hb0)
    rw [Int.abs_eq_natAbs, Int.abs_eq_natAbs]
    rw [Int.natAbs_tmod]
    have hd0 : 0 < d.natAbs := Int.natAbs_pos.mpr hb0
    exact_mod_cast Nat.mod_lt _ hd0
  have habs : |Int.tdiv n d| * |d| ≤ |n| := by
    rw [Int.abs_eq_natAbs, Int.abs_eq_natAbs, Int.abs_eq_natAbs, Int.natAbs_tdiv]
    exact_mod_cast Nat.div_mul_le_self _ _
  have hsgn : t.minv ≤ Int.tdiv n d ∧ Int.tdiv n d ≤ t.maxv := by
    have hle : |Int.tdiv n d| ≤ |n| := by
      have : 1 ≤ |d| := Int.one_le_abs hb0
      nlinarith [abs_nonneg (Int.tdiv n d)]
    rw [hquo] at h
    have hlt : (n : ℚ) / d < 2 ^ lf / 2 * 2 ^ rt := by
      have := h.2
      rwa [div_lt_iff₀ hq] at this
    have hM : Int.tdiv n d ≤ t.maxv := by
      have hlow := minv_eq hs
      by_contra hc
      push Not at hc
      have hn1 : |n| ≤ t.maxv + 1 := by
        rw [abs_le]; constructor <;> omega
      have hpos := maxv_pos t
      have habs2 : |Int.tdiv n d| = Int.tdiv n d := abs_of_pos (by omega)
      have heq : Int.tdiv n d = t.maxv + 1 := by omega
      -- then the quotient is at least `maxv + 1`, out of range
      have hd1 : |d| = 1 := by
        have : 1 ≤ |d| := Int.one_le_abs hb0
        rw [habs2, heq] at habs
        nlinarith
      have hr0 : Int.tmod n d = 0 := by
        have : |Int.tmod n d| < 1 := by rw [← hd1]; exact hmod
        exact Int.abs_lt_one_iff.mp this
      rw [hr0, heq] at htd
      have hex : (n : ℚ) / d = t.maxv + 1 := by
        rw [htd]; push_cast; field_simp; ring
      rw [hex] at hlt
      have hmw : (t.maxv : ℚ) + 1 = 2 ^ t.w / 2 := by
        have := two_maxv hs
        have h' : 2 * ((t.maxv : ℚ) + 1) = 2 ^ t.w := by exact_mod_cast this
        linarith
      rw [hmw] at hlt
      have hle2 : (2 : ℚ) ^ (lf + rt) ≤ 2 ^ t.w := pow_le_pow_right₀ (by norm_num) (by omega)
      rw [pow_add] at hle2
      linarith
    refine ⟨?_, hM⟩
    have hlow := minv_eq hs
    have hn1 : |n| ≤ t.maxv + 1 := by
      rw [abs_le]; constructor <;> omega
    have := neg_abs_le (Int.tdiv n d)
    omega
  refine ⟨t.cast (Int.tdiv n d), ?_, ⟨_, rfl⟩, ?_⟩
  · unfold FixedPoint.div
    rw [hp]
    simp only [Option.bind_eq_bind, Option.bind_some]
    rw [if_neg hb0, hpv, prom_fits hs hsgn.1 hsgn.2]
    rfl
  · unfold fpv at *
    rw [val_cast t _ hsgn.1 hsgn.2, hquo]
    have hdq : (0 : ℚ) < |(d : ℚ)| := abs_pos.mpr hbq
    have habsq : |(Int.tdiv n d : ℚ)| * |(d : ℚ)| ≤ |(n : ℚ)| := by exact_mod_cast habs
    have hmodq : |(Int.tmod n d : ℚ)| < |(d : ℚ)| := by exact_mod_cast hmod
    have htdq : (n : ℚ) = d * Int.tdiv n d + Int.tmod n d := by exact_mod_cast htd
    constructor
    · rw [abs_div, abs_div, abs_div]
      apply div_le_div_of_nonneg_right _ (abs_nonneg _)
      rw [le_div_iff₀ hdq]; exact habsq
    · have : (n : ℚ) / d / 2 ^ rt - Int.tdiv n d / 2 ^ rt = Int.tmod n d / d / 2 ^ rt := by
        rw [htdq]; field_simp; ring
      rw [this, abs_div, abs_div, abs_of_pos hq]
      apply div_lt_div_of_pos_right _ hq
      rw [div_lt_one hdq]; exact hmodq

theorem ofSmallInt_eq {t : ITy} {rt : Nat} (h : rt < 31) {k : ℤ} (h1 : t.minv ≤ k * 2 ^ rt)
    (h2 : k * 2 ^ rt ≤ t.maxv) :
    ∃ r, ofSmallInt t rt k = some r ∧ t.val r = k * 2 ^ rt :=
  ⟨_, if_pos ⟨h, h1, h2⟩, val_cast t _ h1 h2⟩

/-- C45, absolute value: exact whenever the argument is in range (`rt > 0`, `lf > 1` so that the
constant -1 exists). -/
theorem abs_exact {lf rt : Nat} {t : ITy} (ht : storage lf rt = some t) (h0 : 0 < rt) (h31 : rt < 31)
    (hl : 0 < lf) (a : BitVec t.w) (h : InRange lf (- fpv t rt a)) :
    ∃ r, FixedPoint.abs t rt a = some r ∧ fpv t rt r = |fpv t rt a| := by
  obtain ⟨hs, hw⟩ := storage_le ht
  have hq : (0 : ℚ) < 2 ^ rt := by positivity
  unfold FixedPoint.abs
  by_cases hpos : t.val a > 0
  · rw [if_pos hpos]
    refine ⟨a, rfl, ?_⟩
    rw [abs_of_pos]
    unfold fpv
    have : (0 : ℚ) < t.val a := by exact_mod_cast hpos
    positivity
  · rw [if_neg hpos]
    have h1 : t.minv ≤ -1 * 2 ^ rt ∧ -1 * (2 : ℤ) ^ rt ≤ t.maxv := by
      have e2 : 2 * (2 : ℤ) ^ rt = 2 ^ (rt + 1) := by ring
      have hp := two_pow_le (show rt + 1 ≤ lf + 2 * rt by omega)
      have hpp : (0 : ℤ) < 2 ^ (lf + 2 * rt) := by positivity
      have hpr : (0 : ℤ) < 2 ^ rt := by positivity
      exact fits hs hw (by linarith) (by linarith)
    obtain ⟨m, hm, hmv⟩ := ofSmallInt_eq h31 h1.1 h1.2
    rw [hm]
    have hin : InRange lf (fpv t rt m * fpv t rt a) := by
      have : fpv t rt m = -1 := by unfold fpv; rw [hmv]; push_cast; field_simp
      rw [this]; simpa using h
    obtain ⟨g1, g2⟩ := prod_range hs hw hin
    obtain ⟨r, hr, hv⟩ := mul_raw hs h0 (by omega) m a g1 g2
    refine ⟨r, hr, ?_⟩
    have hdiv : t.val r = - t.val a := by
      rw [hv, hmv]
      have : -1 * 2 ^ rt * t.val a = -t.val a * 2 ^ rt := by ring
      rw [this]
      exact Int.mul_ediv_cancel _ (by positivity)
    have hneg : fpv t rt a ≤ 0 := by
      unfold fpv
      apply div_nonpos_of_nonpos_of_nonneg _ hq.le
      have : t.val a ≤ 0 := by omega
      exact_mod_cast this
    rw [abs_of_nonpos hneg]
    unfold fpv
    rw [hdiv]
    push_cast
    ring

/-- With no fractional bit the sign constant of `mul` shifts by the storage size (or out of `int`),
which is undefined for every storage type but `i8`. -/
theorem mul_rt0_undefined {lf : Nat} {t : ITy} (ht : storage lf 0 = some t) (h : 8 < lf) (a b : BitVec t.w) :
    FixedPoint.mul t 0 a b = none := by
  have : FixedPoint.signVal t 0 = none := by
    unfold storage at ht
    split at ht
    · omega
    · split at ht
      · cases ht; decide
      · split at ht
        · cases ht; decide
        · split at ht
          · cases ht; decide
          · cases ht
  unfold FixedPoint.mul
  rw [this]
  rfl

/-- Division by zero is undefined. -/
theorem div_zero_undefined (t : ITy) (rt : Nat) (a b : BitVec t.w) (h : fpv t rt b = 0) :
    FixedPoint.div t rt a b = none := by
  have hb : t.val b = 0 := by
    unfold fpv at h
    have : (t.val b : ℚ) = 0 := by
      rcases div_eq_zero_iff.mp h with h | h
      · exact h
      · exact absurd h (by positivity)
    exact_mod_cast this
  unfold FixedPoint.div
  cases shlW t (t.val a) rt with
  | none => rfl
  | some p => simp [hb]

/-- `sqrt(0)` divides by zero: it is undefined for every format. -/
theorem sqrt_zero_undefined (t : ITy) (rt : Nat) : FixedPoint.sqrt t rt (t.cast 0) = none := by
  have h0 : t.val (t.cast 0) = 0 := by cases t <;> decide
  have hd : FixedPoint.div t rt (t.cast 0) (t.cast 0) = none :=
    div_zero_undefined t rt _ _ (by unfold fpv; rw [h0]; simp)
  unfold FixedPoint.sqrt sqrtLoop
  rw [hd]
  rfl

-- fp_t<8, 4>: 1.5 * -2.0625 = -3.09375 rounds down to -3.125; 3.5 / -2.0 = -1.75.
example : storage 8 4 = some .i16 := by decide
example : FixedPoint.mul .i16 4 24#16 (BitVec.ofInt 16 (-33)) = some (BitVec.ofInt 16 (-50)) := by decide
example : FixedPoint.div .i16 4 56#16 (BitVec.ofInt 16 (-32)) = some (BitVec.ofInt 16 (-28)) := by decide
example : FixedPoint.abs .i16 4 (BitVec.ofInt 16 (-28)) = some 28#16 := by decide
theorem v56 : ITy.i16.val 56#16 = 56 := by decide
theorem v32 : ITy.i16.val (BitVec.ofInt 16 (-32)) = -32 := by decide
example : InRange 8 (fpv .i16 4 56#16 + fpv .i16 4 (BitVec.ofInt 16 (-32))) ∧
    InRange 8 (fpv .i16 4 56#16 - fpv .i16 4 (BitVec.ofInt 16 (-32))) ∧
    InRange 8 (fpv .i16 4 56#16 * fpv .i16 4 (BitVec.ofInt 16 (-32))) ∧
    InRange 8 (fpv .i16 4 56#16 / fpv .i16 4 (BitVec.ofInt 16 (-32))) ∧
    InRange 8 (-fpv .i16 4 56#16) ∧ InRange 8 (fpv .i16 4 56#16) ∧
    fpv .i16 4 (BitVec.ofInt 16 (-32)) ≠ 0 := by
  unfold InRange fpv
  rw [v56, v32]
  norm_num
example : storage 9 0 = some .i16 := by decide

/-! ### Conversions from and to `float` -/

theorem roundf_int (k : ℤ) : roundf (k : ℚ) = k := by
  unfold roundf
  split
  · rw [Int.floor_eq_iff]; constructor <;> linarith
  · rw [Int.ceil_eq_iff]; constructor <;> linarith

theorem roundf_near (q : ℚ) : |(roundf q : ℚ) - q| ≤ 1 / 2 := by
  unfold roundf
  rw [abs_le]
  split
  · have h1 := Int.floor_le (q + 1 / 2)
    have h2 := Int.lt_floor_add_one (q + 1 / 2)
    constructor <;> linarith
  · have h1 := Int.le_ceil (q - 1 / 2)
    have h2 := Int.ceil_lt_add_one (q - 1 / 2)
    constructor <;> linarith

theorem roundf_tie (q : ℚ) (h : |(roundf q : ℚ) - q| = 1 / 2) : |q| < |(roundf q : ℚ)| := by
  unfold roundf at *
  split at h
  · rename_i hq
    rw [if_pos hq]
    have h1 := Int.lt_floor_add_one (q + 1 / 2)
    rcases abs_cases ((⌊q + 1 / 2⌋ : ℚ) - q) with ⟨h2, -⟩ | ⟨h2, -⟩
    · rw [abs_of_nonneg hq]
      refine lt_of_lt_of_le ?_ (le_abs_self _)
      linarith
    · linarith
  · rename_i hq
    rw [if_neg hq]
    have h1 := Int.ceil_lt_add_one (q - 1 / 2)
    rcases abs_cases ((⌈q - 1 / 2⌉ : ℚ) - q) with ⟨h2, -⟩ | ⟨h2, -⟩
    · linarith
    · rw [abs_of_neg (not_le.mp hq)]
      refine lt_of_lt_of_le ?_ (neg_le_abs _)
      linarith

/-- Scaling by a power of two stays in the format. -/
theorem rep_scale {p : Nat} {emin : ℤ} {q : ℚ} (h : Rep p emin q) (n : Nat) : Rep p emin (q * 2 ^ n) := by
  obtain ⟨m, e, hm, he, rfl⟩ := h
  refine ⟨m, e + n, hm, by omega, ?_⟩
  rw [zpow_add₀ (by norm_num), mul_assoc, zpow_natCast]

/-- C45, from `float`: for every float `v` (of any binary format, any rounding mode) the result is the
multiple of `2^-rt` nearest to `v`, within half a unit and away from zero if `v` is halfway between two
multiples, provided it fits in the storage type. -/
theorem float2int_nearest {p : Nat} {emin : ℤ} {rnd : ℚ → ℚ} (hr : Rounding p emin rnd) {t : ITy} {rt : Nat}
    (h31 : rt < 31) {v : ℚ} (hv : Rep p emin v) (h1 : t.minv + 1 ≤ v * 2 ^ rt) (h2 : v * 2 ^ rt ≤ t.maxv - 1) :
    ∃ r, float2int t rnd rt v = some r ∧ |fpv t rt r - v| ≤ 1 / 2 / 2 ^ rt ∧
      (|fpv t rt r - v| = 1 / 2 / 2 ^ rt → |v| < |fpv t rt r|) := by
  have hq : (0 : ℚ) < 2 ^ rt := by positivity
  have hf : rnd (v * 2 ^ rt) = v * 2 ^ rt := hr.fix _ (rep_scale hv rt)
  have hn := roundf_near (v * 2 ^ rt)
  have hb := abs_le.mp hn
  have g1 : t.minv ≤ roundf (v * 2 ^ rt) := by
    have : (t.minv : ℚ) ≤ roundf (v * 2 ^ rt) := by linarith [hb.1]
    exact_mod_cast this
  have g2 : roundf (v * 2 ^ rt) ≤ t.maxv := by
    have : (roundf (v * 2 ^ rt) : ℚ) ≤ t.maxv := by linarith [hb.2]
    exact_mod_cast this
  refine ⟨t.cast (roundf (v * 2 ^ rt)), ?_, ?_⟩
  · unfold float2int
    rw [if_pos h31, hf]
    simp only []
    rw [if_pos ⟨g1, g2⟩]
  · unfold fpv
    rw [val_cast t _ g1 g2]
    have : (roundf (v * 2 ^ rt) : ℚ) / 2 ^ rt - v = ((roundf (v * 2 ^ rt) : ℚ) - v * 2 ^ rt) / 2 ^ rt := by
      field_simp
    rw [this, abs_div, abs_of_pos hq]
    refine ⟨div_le_div_of_nonneg_right hn hq.le, fun h => ?_⟩
    have h3 := roundf_tie _ ((div_left_inj' hq.ne').mp h)
    rw [abs_mul, abs_of_pos hq] at h3
    rw [abs_div, abs_of_pos hq, lt_div_iff₀ hq]
    exact h3

/-- C45, to `float` and back: a number whose raw value fits in the significand of the float format
converts exactly, and converting back returns the same object. -/
theorem float_roundtrip {p : Nat} {emin : ℤ} (he : emin ≤ -30) {rnd : ℚ → ℚ} (hr : Rounding p emin rnd)
    {t : ITy} {rt : Nat} (h31 : rt < 31) (a : BitVec t.w) (ha : |t.val a| < 2 ^ p) :
    int2float t rnd rt a = some (fpv t rt a) ∧ float2int t rnd rt (fpv t rt a) = some a := by
  have hq : (0 : ℚ) < 2 ^ rt := by positivity
  have h1 : rnd (t.val a : ℚ) = t.val a := hr.fix _ (rep_int (by omega) ha)
  have hrep : Rep p emin ((t.val a : ℚ) / 2 ^ rt) :=
    ⟨t.val a, -rt, ha, by omega, by rw [zpow_neg, zpow_natCast, div_eq_mul_inv]⟩
  have h2 : rnd ((t.val a : ℚ) / 2 ^ rt) = (t.val a : ℚ) / 2 ^ rt := hr.fix _ hrep
  constructor
  · unfold int2float fpv
    rw [if_pos h31, h1, h2]
  · unfold float2int fpv
    have h3 : (t.val a : ℚ) / 2 ^ rt * 2 ^ rt = t.val a := by field_simp
    rw [if_pos h31, h3, h1, roundf_int]
    simp only []
    rw [if_pos ⟨val_lb t a, val_ub t a⟩, cast_val]

/-- The round trip loses bits beyond the significand: with a rounding into `f32` (any mode), the raw
value `2^24 + 1` never comes back. -/
theorem float_roundtrip_lossy {rnd : ℚ → ℚ} (hr : Rounding 24 (-149) rnd) (hin : ∀ q, Rep 24 (-149) (rnd q))
    {rt : Nat} {f : ℚ} (hf : int2float .i64 rnd rt 16777217#64 = some f) :
    float2int .i64 rnd rt f ≠ some 16777217#64 := by
  have hv : ITy.i64.val 16777217#64 = 16777217 := by decide
  unfold int2float at hf
  split at hf
  · rename_i h31
    have hf := Option.some.inj hf
    rw [hv] at hf
    push_cast at hf
    set g := rnd 16777217 with hg
    have hrep := hin 16777217
    rw [← hg] at hrep
    have h1 : Rep 24 (-149) (g / 2 ^ rt) ∧ g = 16777216 ∨ g = 16777218 ∨ ¬ (16777216 ≤ g ∧ g ≤ 16777218) := by
      by_cases hb : 16777216 ≤ g ∧ g ≤ 16777218
      · obtain ⟨m, e, hm, he, hge⟩ := hrep
        -- 24 bits cannot hold an odd number above 2^24
        have he1 : 1 ≤ e := by
          by_contra hc
          have hle : (2 : ℚ) ^ e ≤ 1 := zpow_le_one_of_nonpos₀ (by norm_num) (by omega)
          have hpos : (0 : ℚ) < 2 ^ e := by positivity
          have hm' : (|m| : ℚ) < 2 ^ 24 := by exact_mod_cast hm
          have : |g| < 2 ^ 24 := by
            rw [hge, abs_mul, abs_of_pos hpos]
            calc |(m : ℚ)| * 2 ^ e ≤ |(m : ℚ)| * 1 := by
                  apply mul_le_mul_of_nonneg_left hle (abs_nonneg _)
              _ < 2 ^ 24 := by simpa using hm'
          have := (abs_lt.mp this).2
          norm_num at this
          linarith [hb.1]
        obtain ⟨k, rfl⟩ : ∃ k : Nat, e = k + 1 := ⟨(e - 1).toNat, by omega⟩
        have hgi : g = ((m * 2 ^ k * 2 : ℤ) : ℚ) := by
          rw [hge]
          push_cast
          rw [zpow_add₀ (by norm_num), zpow_natCast]
          ring
        have hb1 : 16777216 ≤ m * 2 ^ k * 2 := by
          have := hb.1; rw [hgi] at this; exact_mod_cast this
        have hb2 : m * 2 ^ k * 2 ≤ 16777218 := by
          have := hb.2; rw [hgi] at this; exact_mod_cast this
        have : m * 2 ^ k * 2 = 16777216 ∨ m * 2 ^ k * 2 = 16777218 := by omega
        rcases this with h | h
        · left
          have hg6 : g = 16777216 := by rw [hgi, h]; norm_num
          refine ⟨?_, hg6⟩
          rw [hg6]
          refine ⟨1, 24 - rt, by norm_num, by omega, ?_⟩
          rw [zpow_sub₀ (by norm_num)]
          norm_num
        · right; left
          rw [hgi, h]; norm_num
      · exact Or.inr (Or.inr hb)
    have hfix6 : Rep 24 (-149) (16777216 : ℚ) := ⟨1, 24, by norm_num, by norm_num, by norm_num⟩
    have hfix8 : Rep 24 (-149) (16777218 : ℚ) := ⟨8388609, 1, by norm_num, by norm_num, by norm_num⟩
    have hq : (0 : ℚ) < 2 ^ rt := by positivity
    have key : ∀ k : ℤ, k ≠ 16777217 → Rep 24 (-149) (k : ℚ) → Rep 24 (-149) ((k : ℚ) / 2 ^ rt) → g = k →
        float2int .i64 rnd rt f ≠ some 16777217#64 := by
      intro k hk hkr hkd hgk hcontra
      rw [hgk, hr.fix _ hkd] at hf
      rw [← hf] at hcontra
      unfold float2int at hcontra
      have e : (k : ℚ) / 2 ^ rt * 2 ^ rt = k := by field_simp
      rw [if_pos h31, e, hr.fix _ hkr, roundf_int] at hcontra
      simp only [] at hcontra
      split at hcontra
      · rename_i hrange
        have := congrArg ITy.i64.val (Option.some.inj hcontra)
        rw [val_cast .i64 k hrange.1 hrange.2, hv] at this
        exact hk this
      · cases hcontra
    rcases h1 with ⟨h, hg6⟩ | h | h
    · refine key 16777216 (by norm_num) (by exact_mod_cast hfix6) ?_ (by rw [hg6]; norm_num)
      rw [hg6] at h; push_cast; exact h
    · refine key 16777218 (by norm_num) (by exact_mod_cast hfix8) ?_ (by rw [h]; norm_num)
      refine ⟨8388609, 1 - rt, by norm_num, by omega, ?_⟩
      rw [zpow_sub₀ (by norm_num)]
      norm_num
      ring
    · exfalso
      apply h
      constructor
      · have := hr.mono (show (16777216 : ℚ) ≤ 16777217 by norm_num)
        rw [hr.fix _ hfix6] at this; exact this
      · have := hr.mono (show (16777217 : ℚ) ≤ 16777218 by norm_num)
        rw [hr.fix _ hfix8] at this; exact this
  · cases hf

-- the exact "rounding" is one of the roundings quantified over; 3.5 in fp_t<8, 4>
example : Rounding 24 (-149) (fun q => q) := ⟨fun _ _ h => h, fun _ _ => rfl⟩
example : Rep 24 (-149) (7 / 2 : ℚ) := ⟨7, -1, by norm_num, by norm_num, by norm_num⟩
example : |ITy.i16.val 56#16| < 2 ^ 24 := by decide
example : ((ITy.i16.minv : ℚ) + 1 ≤ 7 / 2 * 2 ^ 4) ∧ ((7 / 2 : ℚ) * 2 ^ 4 ≤ ITy.i16.maxv - 1) := by
  norm_num [ITy.minv, ITy.maxv]
example : (int2float .i64 (fun q => q) 16 16777217#64).isSome := by decide

/-! ### Integer powers -/

theorem mul_int {lf rt : Nat} {t : ITy} (ht : storage lf rt = some t) (h0 : 0 < rt) {a b : BitVec t.w} {i j : ℤ}
    (ha : t.val a = i * 2 ^ rt) (hb : t.val b = j * 2 ^ rt) (h : 2 * |i * j| < 2 ^ lf) :
    ∃ r, FixedPoint.mul t rt a b = some r ∧ t.val r = i * j * 2 ^ rt := by
  obtain ⟨hs, hw⟩ := storage_le ht
  have hp : (0 : ℤ) < 2 ^ rt := by positivity
  have e : t.val a * t.val b = i * j * 2 ^ (2 * rt) := by rw [ha, hb, two_mul, pow_add]; ring
  have hr : t.minv ≤ t.val a * t.val b ∧ t.val a * t.val b ≤ t.maxv := by
    have hp2 : (0 : ℤ) < 2 ^ (2 * rt) := by positivity
    have := abs_lt.mp (show |2 * (i * j)| < 2 ^ lf by rw [abs_mul]; simpa using h)
    rw [e]
    refine fits hs hw ?_ ?_ <;> rw [pow_add] <;> nlinarith
  obtain ⟨r, h1, h2⟩ := mul_raw hs h0 (by omega) a b hr.1 hr.2
  refine ⟨r, h1, ?_⟩
  rw [h2, ha, hb]
  have : i * 2 ^ rt * (j * 2 ^ rt) = i * j * 2 ^ rt * 2 ^ rt := by ring
  rw [this]
  exact Int.mul_ediv_cancel _ hp.ne'

theorem expLoop_int {lf rt : Nat} {t : ITy} (ht : storage lf rt = some t) (h0 : 0 < rt) (e : Nat) :
    0 < e → ∀ (res v : BitVec t.w) (i j : ℤ), t.val res = i * 2 ^ rt → t.val v = j * 2 ^ rt → i ≠ 0 → j ≠ 0 →
      2 * |i * j ^ e| < 2 ^ lf →
      ∃ r, expLoop t rt e res v = some r ∧ t.val r = i * j ^ e * 2 ^ rt := by
  induction e using Nat.strongRecOn with
  | _ e ih =>
    intro he res v i j hres hv hi hj hb
    have hi1 : 1 ≤ |i| := Int.one_le_abs hi
    have hj1 : 1 ≤ |j| := Int.one_le_abs hj
    have hpow : ∀ n m : Nat, n ≤ m → |j| ^ n ≤ |j| ^ m := fun n m h => pow_le_pow_right₀ hj1 h
    have hjp : ∀ n : Nat, 1 ≤ |j| ^ n := fun n => one_le_pow₀ hj1
    rw [abs_mul, abs_pow] at hb
    rw [expLoop]
    by_cases h1 : e ≤ 1
    · have : e = 1 := by omega
      subst this
      rw [if_pos h1]
      have := mul_int ht h0 hres hv (by rw [abs_mul]; simpa using hb)
      simpa using this
    · rw [if_neg h1]
      have hsq : 2 * |j * j| < 2 ^ lf := by
        have := hpow 2 e (by omega)
        rw [abs_mul, ← sq]
        nlinarith [hjp e]
      obtain ⟨v', hv', hvv⟩ := mul_int ht h0 hv hv hsq
      by_cases hodd : e % 2 = 1
      · rw [if_pos hodd]
        have hij : 2 * |i * j| < 2 ^ lf := by
          have := hpow 1 e (by omega)
          rw [pow_one] at this
          rw [abs_mul]
          nlinarith
        obtain ⟨r', hr', hrv⟩ := mul_int ht h0 hres hv hij
        have ee : i * j * (j * j) ^ ((e - 1) / 2) = i * j ^ e := by
          rw [← sq, ← pow_mul, mul_assoc, ← pow_succ']
          congr 2; omega
        obtain ⟨r, hr, hrr⟩ := ih ((e - 1) / 2) (by omega) (by omega) r' v' (i * j) (j * j) hrv hvv
          (mul_ne_zero hi hj) (mul_ne_zero hj hj) (by rw [ee, abs_mul, abs_pow]; exact hb)
        rw [hr', hv']
        exact ⟨r, hr, by rw [hrr, ee]⟩
      · rw [if_neg hodd]
        have ee : i * (j * j) ^ (e / 2) = i * j ^ e := by
          rw [← sq, ← pow_mul]
          congr 2; omega
        obtain ⟨r, hr, hrr⟩ := ih (e / 2) (by omega) (by omega) res v' i (j * j) hres hvv
          hi (mul_ne_zero hj hj) (by rw [ee, abs_mul, abs_pow]; exact hb)
        rw [hv']
        exact ⟨r, hr, by rw [hrr, ee]⟩

/-- C45, `exp` with a positive integer exponent: the exponentiation by squaring terminates and is exact
on integral non-zero bases whose power is in range. -/
theorem exp_int {lf rt : Nat} {t : ITy} (ht : storage lf rt = some t) (h0 : 0 < rt) (h31 : rt < 31) (a : BitVec t.w)
    {k : ℤ} (hk : k ≠ 0) (ha : fpv t rt a = k) {n : Nat} (hn : 0 < n) (h : 2 * |k ^ n| < 2 ^ lf) :
    ∃ r, expI t rt a n = some r ∧ fpv t rt r = k ^ n := by
  obtain ⟨hs, hw⟩ := storage_le ht
  have hq : (0 : ℚ) < 2 ^ rt := by positivity
  have hp : (0 : ℤ) < 2 ^ rt := by positivity
  have hav : t.val a = k * 2 ^ rt := by
    unfold fpv at ha
    rw [div_eq_iff hq.ne'] at ha
    exact_mod_cast ha
  have h1n : 1 ≤ |k ^ n| := by rw [abs_pow]; exact one_le_pow₀ (Int.one_le_abs hk)
  have h2 : (2 : ℤ) < 2 ^ lf := by omega
  have hone : t.minv ≤ 1 * 2 ^ rt ∧ 1 * (2 : ℤ) ^ rt ≤ t.maxv := by
    have hlf : (2 : ℤ) * 2 ^ rt < 2 ^ (lf + rt) := by rw [pow_add]; nlinarith
    exact fits hs (show lf + rt ≤ t.w by omega) (by linarith) (by linarith)
  obtain ⟨one, ho, hov⟩ := ofSmallInt_eq h31 hone.1 hone.2
  obtain ⟨r, hr, hrv⟩ := expLoop_int ht h0 n hn one a 1 k hov hav one_ne_zero hk (by simpa using h)
  refine ⟨r, ?_, ?_⟩
  · unfold expI
    rw [ho]
    simp only [Option.bind_eq_bind, Option.bind_some]
    rw [if_neg (by omega), if_neg (by omega)]
    simpa using hr
  · unfold fpv
    rw [hrv]
    push_cast
    field_simp

-- (-3)^4 = 81 in fp_t<8, 4>
example : fpv .i16 4 (BitVec.ofInt 16 (-48)) = ((-3 : ℤ) : ℚ) ∧ 2 * |(-3 : ℤ) ^ 4| < 2 ^ 8 := by
  constructor
  · have : ITy.i16.val (BitVec.ofInt 16 (-48)) = -48 := by decide
    unfold fpv; rw [this]; norm_num
  · decide

/-! ### Comparisons -/

/-- What the scalar comparisons compute: they compare the operands with the `w - lf - rt` low bits of
the storage cleared. -/
theorem cmp_masked {lf rt : Nat} {t : ITy} (ht : storage lf rt = some t) (a b : BitVec t.w) :
    let s := t.w - lf - rt
    FixedPoint.eq t lf rt a b = some (decide (t.val a / 2 ^ s = t.val b / 2 ^ s)) ∧
    FixedPoint.neq t lf rt a b = some (decide (t.val a / 2 ^ s ≠ t.val b / 2 ^ s)) ∧
    FixedPoint.lt t lf rt a b = some (decide (t.val a / 2 ^ s < t.val b / 2 ^ s)) ∧
    FixedPoint.lte t lf rt a b = some (decide (t.val a / 2 ^ s ≤ t.val b / 2 ^ s)) ∧
    FixedPoint.gt t lf rt a b = some (decide (t.val a / 2 ^ s > t.val b / 2 ^ s)) ∧
    FixedPoint.gte t lf rt a b = some (decide (t.val a / 2 ^ s ≥ t.val b / 2 ^ s)) := by
  obtain ⟨hs, hw⟩ := storage_le ht
  have h0 : 0 < lf + rt := by
    by_contra hc
    have h1 : lf = 0 := by omega
    have h2 : rt = 0 := by omega
    subst h1 h2
    exact absurd ht (by simp [storage])
  intro s
  have hp : (0 : ℤ) < 2 ^ s := by positivity
  have hm := cmpMask_eq hs (show lf + rt ≤ t.w by omega) h0
  have hA := and_mask hs (s := t.w - lf - rt) (by omega) rfl a
  have hB := and_mask hs (s := t.w - lf - rt) (by omega) rfl b
  unfold FixedPoint.neq FixedPoint.eq FixedPoint.lt FixedPoint.lte FixedPoint.gt FixedPoint.gte
  simp only [hm, Option.bind_eq_bind, Option.bind_some, hA, hB, Option.pure_def, gt_iff_lt, ge_iff_le]
  refine ⟨?_, ?_, ?_, ?_, ?_, ?_⟩
  · exact congrArg some (decide_eq_decide.mpr (mul_left_inj' hp.ne'))
  · rw [← decide_not]
    exact congrArg some (decide_eq_decide.mpr (not_congr (mul_left_inj' hp.ne')))
  · exact congrArg some (decide_eq_decide.mpr (mul_lt_mul_iff_left₀ hp))
  · exact congrArg some (decide_eq_decide.mpr (mul_le_mul_iff_left₀ hp))
  · exact congrArg some (decide_eq_decide.mpr (mul_lt_mul_iff_left₀ hp))
  · exact congrArg some (decide_eq_decide.mpr (mul_le_mul_iff_left₀ hp))

/-- The scalar comparisons agree with the represented numbers on this pair of operands. Specification. -/
def CmpExact (t : ITy) (lf rt : Nat) (a b : BitVec t.w) : Prop :=
  FixedPoint.eq t lf rt a b = some (decide (fpv t rt a = fpv t rt b)) ∧
  FixedPoint.neq t lf rt a b = some (decide (fpv t rt a ≠ fpv t rt b)) ∧
  FixedPoint.lt t lf rt a b = some (decide (fpv t rt a < fpv t rt b)) ∧
  FixedPoint.lte t lf rt a b = some (decide (fpv t rt a ≤ fpv t rt b)) ∧
  FixedPoint.gt t lf rt a b = some (decide (fpv t rt a > fpv t rt b)) ∧
  FixedPoint.gte t lf rt a b = some (decide (fpv t rt a ≥ fpv t rt b))

theorem fpv_eq_iff {t : ITy} {rt : Nat} {a b : BitVec t.w} : fpv t rt a = fpv t rt b ↔ t.val a = t.val b := by
  unfold fpv
  rw [div_left_inj' (by positivity)]
  exact Int.cast_inj

theorem fpv_lt_iff {t : ITy} {rt : Nat} {a b : BitVec t.w} : fpv t rt a < fpv t rt b ↔ t.val a < t.val b := by
  unfold fpv
  rw [div_lt_div_iff_of_pos_right (by positivity)]
  exact Int.cast_lt

theorem fpv_le_iff {t : ITy} {rt : Nat} {a b : BitVec t.w} : fpv t rt a ≤ fpv t rt b ↔ t.val a ≤ t.val b := by
  unfold fpv
  rw [div_le_div_iff_of_pos_right (by positivity)]
  exact Int.cast_le

/-- C46 (partial), comparisons: exact on operands that are multiples of `2^(w - lf - rt)` in the storage,
where `w` is the number of bits of the storage type. Missing: other operands, on which the claim is
false, see `cmp_exact_iff`. -/
theorem cmp_partial {lf rt : Nat} {t : ITy} (ht : storage lf rt = some t) (a b : BitVec t.w)
    (ha : (2 : ℤ) ^ (t.w - lf - rt) ∣ t.val a) (hb : (2 : ℤ) ^ (t.w - lf - rt) ∣ t.val b) :
    CmpExact t lf rt a b := by
  obtain ⟨x, hx⟩ := ha
  obtain ⟨y, hy⟩ := hb
  have hp : (0 : ℤ) < 2 ^ (t.w - lf - rt) := by positivity
  obtain ⟨h1, h2, h3, h4, h5, h6⟩ := cmp_masked ht a b
  unfold CmpExact
  simp only [fpv_eq_iff, fpv_lt_iff, fpv_le_iff, gt_iff_lt, ge_iff_le, ne_eq] at *
  rw [h1, h2, h3, h4, h5, h6, hx, hy, Int.mul_ediv_cancel_left _ hp.ne', Int.mul_ediv_cancel_left _ hp.ne']
  simp only [mul_right_inj' hp.ne', mul_lt_mul_iff_right₀ hp, mul_le_mul_iff_right₀ hp, and_self]

/-- C46 fails: the scalar comparisons are exact for all operands only for the formats without any
fractional bit that fill the storage type. -/
theorem cmp_exact_iff {lf rt : Nat} {t : ITy} (ht : storage lf rt = some t) :
    (∀ a b : BitVec t.w, CmpExact t lf rt a b) ↔ rt = 0 ∧ lf = t.w := by
  obtain ⟨hs, hw⟩ := storage_le ht
  constructor
  · intro h
    by_contra hc
    have hpos : 0 < t.w - lf - rt := by omega
    have hlt1 : (1 : ℤ) < 2 ^ (t.w - lf - rt) := by
      have := two_pow_le (show 1 ≤ t.w - lf - rt by omega)
      omega
    have h0 : t.val (t.cast 0) = 0 := by cases t <;> decide
    have h1 : t.val (t.cast 1) = 1 := by cases t <;> decide
    have he := (h (t.cast 0) (t.cast 1)).1
    rw [(cmp_masked ht _ _).1, h0, h1, Int.ediv_eq_zero_of_lt (by norm_num) hlt1] at he
    simp only [fpv_eq_iff, h0, h1] at he
    simp at he
  · rintro ⟨rfl, hl⟩ a b
    have e : t.w - lf - 0 = 0 := by omega
    exact cmp_partial ht a b (by rw [e]; simp) (by rw [e]; simp)

/-- For every format with fractional bits, 0 and the smallest positive number compare equal, and not
less. -/
theorem eq_wrong {lf rt : Nat} {t : ITy} (ht : storage lf rt = some t) (h0 : 0 < rt) :
    ∃ a b, fpv t rt a < fpv t rt b ∧ FixedPoint.eq t lf rt a b = some true ∧
      FixedPoint.lt t lf rt a b = some false := by
  obtain ⟨hs, hw⟩ := storage_le ht
  have hlt1 : (1 : ℤ) < 2 ^ (t.w - lf - rt) := by
    have := two_pow_le (show 1 ≤ t.w - lf - rt by omega)
    omega
  have hv0 : t.val (t.cast 0) = 0 := by cases t <;> decide
  have hv1 : t.val (t.cast 1) = 1 := by cases t <;> decide
  refine ⟨t.cast 0, t.cast 1, ?_, ?_, ?_⟩
  · rw [fpv_lt_iff, hv0, hv1]; norm_num
  · rw [(cmp_masked ht _ _).1, hv0, hv1, Int.ediv_eq_zero_of_lt (by norm_num) hlt1]; simp
  · rw [(cmp_masked ht _ _).2.2.1, hv0, hv1, Int.ediv_eq_zero_of_lt (by norm_num) hlt1]; simp

/-- C46 (partial): the comparisons are never the wrong way round. A true `lt` or `gt` is right, a false
`lte` or `gte` is right, equal numbers are `eq`. Missing: the converses, false by `eq_wrong`. -/
theorem cmp_sound_partial {lf rt : Nat} {t : ITy} (ht : storage lf rt = some t) (a b : BitVec t.w) :
    (FixedPoint.lt t lf rt a b = some true → fpv t rt a < fpv t rt b) ∧
    (FixedPoint.gt t lf rt a b = some true → fpv t rt a > fpv t rt b) ∧
    (fpv t rt a ≤ fpv t rt b → FixedPoint.lte t lf rt a b = some true) ∧
    (fpv t rt a ≥ fpv t rt b → FixedPoint.gte t lf rt a b = some true) ∧
    (fpv t rt a = fpv t rt b → FixedPoint.eq t lf rt a b = some true) := by
  obtain ⟨h1, h2, h3, h4, h5, h6⟩ := cmp_masked ht a b
  have hp : (0 : ℤ) < 2 ^ (t.w - lf - rt) := by positivity
  have hmono : ∀ {x y : ℤ}, x ≤ y → x / 2 ^ (t.w - lf - rt) ≤ y / 2 ^ (t.w - lf - rt) :=
    fun h => Int.ediv_le_ediv hp h
  simp only [fpv_eq_iff, fpv_lt_iff, fpv_le_iff, gt_iff_lt, ge_iff_le] at *
  rw [h1, h3, h4, h5, h6]
  simp only [Option.some.injEq, decide_eq_true_eq]
  refine ⟨fun h => ?_, fun h => ?_, hmono, hmono, fun h => by rw [h]⟩
  · by_contra hc; exact absurd (hmono (not_lt.mp hc)) (not_le.mpr h)
  · by_contra hc; exact absurd (hmono (not_lt.mp hc)) (not_le.mpr h)

/-- The comparisons of the SIMD version compare the represented numbers, for every format: the scalar
and the SIMD interface disagree. -/
theorem simd_cmp_exact (t : ITy) (rt : Nat) (a b : BitVec t.w) :
    simdEq t a b = decide (fpv t rt a = fpv t rt b) ∧ simdLt t a b = decide (fpv t rt a < fpv t rt b) := by
  unfold simdEq simdLt Scalar.eq Scalar.lt
  simp only [fpv_eq_iff, fpv_lt_iff, and_self]

/-- The product of the SIMD version equals the scalar one wherever the exact product is in range. -/
theorem simdMul_eq {lf rt : Nat} {t : ITy} (ht : storage lf rt = some t) (h0 : 0 < rt)
    (a b : BitVec t.w) (h : InRange lf (fpv t rt a * fpv t rt b)) :
    ∃ r, simdMul t rt a b = some r ∧ FixedPoint.mul t rt a b = some r := by
  obtain ⟨hs, hw⟩ := storage_le ht
  obtain ⟨h1, h2⟩ := prod_range hs hw h
  obtain ⟨r, hr, hv⟩ := mul_raw hs h0 (by omega) a b h1 h2
  obtain ⟨q, hq, hqv⟩ := Nsimd.Props.shra_floor_div t (t.cast (t.val a * t.val b)) rt (by omega)
  rw [val_cast t _ h1 h2, ← hv] at hqv
  have := val_inj t hqv
  subst this
  refine ⟨q, ?_, hr⟩
  unfold simdMul Scalar.mul
  rw [prom_fits hs h1 h2]
  exact hq

-- fp_t<8, 4>: 1.0 == 1.5, both multiples of 1/16 but not of 2^(16 - 8 - 4) in the storage
example : FixedPoint.eq .i16 8 4 16#16 24#16 = some true := by decide
example : (2 : ℤ) ^ (ITy.i16.w - 8 - 4) ∣ ITy.i16.val 48#16 := by decide

/-! ### floor, ceil, is_int -/

/-- What `floor` computes: the largest multiple of `2^(w - lf)` in the storage that is not above. -/
theorem floor_masked {lf rt : Nat} {t : ITy} (ht : storage lf rt = some t) (hl : 0 < lf) (a : BitVec t.w) :
    ∃ r, FixedPoint.floor t lf a = some r ∧ t.val r = t.val a / 2 ^ (t.w - lf) * 2 ^ (t.w - lf) := by
  obtain ⟨hs, hw⟩ := storage_le ht
  have hwp := w_le_promW t
  have e : (t.w : ℤ) - lf = ((t.w - lf : Nat) : ℤ) := by omega
  unfold FixedPoint.floor
  rw [e, sarP_eq t _ (show t.w - lf < t.w by omega)]
  obtain ⟨p, hp, hc⟩ := shlW_mod t (t.val a / 2 ^ (t.w - lf)) (s := t.w - lf) (by omega)
  simp only [Option.bind_eq_bind, Option.bind_some]
  rw [hp]
  refine ⟨t.cast p, rfl, ?_⟩
  rw [hc]
  have hm := and_mask hs (s := t.w - lf) (by omega) rfl a
  rw [← hm]
  rw [cast_val]

/-- `floor` with no integer bits and a storage of 32 or 64 bits shifts by the width: undefined. So does
`ceil` when all bits are integer bits. -/
theorem floor_ceil_undefined (t : ITy) (h : 32 ≤ t.w) (rt : Nat) (a : BitVec t.w) :
    FixedPoint.floor t 0 a = none ∧ FixedPoint.ceil t t.w rt a = none := by
  have hp : t.promW = t.w := by
    cases t <;> first | rfl | (simp only [ITy.w] at h; omega)
  have h1 : ∀ v, sarP t v t.w = none := fun v => if_neg (by omega)
  have h2 : ∀ v, shlW t v t.w = none := fun v => if_neg (by omega)
  constructor
  · unfold FixedPoint.floor
    rw [show (t.w : ℤ) - (0 : ℕ) = t.w by omega, h1]
    rfl
  · unfold FixedPoint.ceil
    simp only [h2, Option.bind_eq_bind, Option.bind_none]
    cases FixedPoint.floor t t.w a <;> rfl

/-- Formats with these storages exist. -/
example : storage 0 16 = some .i32 ∧ storage 0 20 = some .i64 ∧ storage 32 0 = some .i32 ∧
    storage 64 0 = some .i64 := by decide

/-- What `is_int` computes: whether the `rt` storage bits from `w - lf - rt` on are zero. -/
theorem isInt_masked {lf rt : Nat} {t : ITy} (ht : storage lf rt = some t) (hl : 0 < lf) (a : BitVec t.w) :
    FixedPoint.isInt t lf rt a = some (decide (t.val a / 2 ^ (t.w - lf - rt) % 2 ^ rt = 0)) := by
  obtain ⟨hs, hw⟩ := storage_le ht
  obtain ⟨r, hr, hv⟩ := floor_masked ht hl a
  unfold FixedPoint.isInt
  rw [hr]
  simp only [Option.bind_eq_bind, Option.bind_some]
  rw [(cmp_masked ht a r).1, hv]
  refine congrArg some (decide_eq_decide.mpr ?_)
  set s := t.w - lf - rt with hsd
  have e : (2 : ℤ) ^ (t.w - lf) = 2 ^ s * 2 ^ rt := by
    rw [← pow_add]; congr 1; omega
  have hp : (0 : ℤ) < 2 ^ s := by positivity
  rw [e, ← Int.ediv_ediv_of_nonneg hp.le,
    show t.val a / 2 ^ s / 2 ^ rt * (2 ^ s * 2 ^ rt) = t.val a / 2 ^ s / 2 ^ rt * 2 ^ rt * 2 ^ s by ring,
    Int.mul_ediv_cancel _ hp.ne']
  have := Int.mul_ediv_add_emod (t.val a / 2 ^ s) (2 ^ rt)
  constructor <;> intro h <;> linarith

/-- Hence `is_int` calls `2^-rt` an integer in every format with fractional bits. -/
theorem isInt_wrong {lf rt : Nat} {t : ITy} (ht : storage lf rt = some t) (hl : 0 < lf) (h0 : 0 < rt) :
    ∃ a, fpv t rt a = 1 / 2 ^ rt ∧ FixedPoint.isInt t lf rt a = some true := by
  obtain ⟨hs, hw⟩ := storage_le ht
  have h1 : t.val (t.cast 1) = 1 := val_cast t 1 (by cases t <;> decide) (by cases t <;> decide)
  refine ⟨t.cast 1, by unfold fpv; rw [h1]; norm_num, ?_⟩
  rw [isInt_masked ht hl, h1]
  have : (1 : ℤ) / 2 ^ (t.w - lf - rt) = 0 :=
    Int.ediv_eq_zero_of_lt (by norm_num) (one_lt_pow₀ (by norm_num) (by omega))
  rw [this]
  simp

/-- C46 (partial), `floor`: it is right for the numbers of absolute value below 1 and for the multiples of
`2^(w - lf - rt)`. Missing: other arguments, see `floor_exact_iff`. -/
theorem floor_partial {lf rt : Nat} {t : ITy} (ht : storage lf rt = some t) (hl : 0 < lf) (a : BitVec t.w)
    (h : (0 ≤ fpv t rt a ∧ fpv t rt a < 1) ∨ ∃ k : ℤ, fpv t rt a = k * 2 ^ (t.w - lf - rt)) :
    ∃ r, FixedPoint.floor t lf a = some r ∧ fpv t rt r = ⌊fpv t rt a⌋ := by
  obtain ⟨hs, hw⟩ := storage_le ht
  obtain ⟨r, hr, hv⟩ := floor_masked ht hl a
  refine ⟨r, hr, ?_⟩
  have hq : (0 : ℚ) < 2 ^ rt := by positivity
  rcases h with ⟨h1, h2⟩ | ⟨k, hk⟩
  · have hf : ⌊fpv t rt a⌋ = 0 := by rw [Int.floor_eq_zero_iff]; exact ⟨h1, h2⟩
    unfold fpv at h1 h2
    have g1 : 0 ≤ t.val a := by
      have : (0 : ℚ) ≤ t.val a := by
        by_contra hc
        exact absurd h1 (not_le.mpr (div_neg_of_neg_of_pos (not_le.mp hc) hq))
      exact_mod_cast this
    have g2 : t.val a < 2 ^ (t.w - lf) := by
      rw [div_lt_one hq] at h2
      have h2' : t.val a < 2 ^ rt := by exact_mod_cast h2
      exact h2'.trans_le (two_pow_le (by omega))
    rw [hf]
    unfold fpv
    rw [hv, Int.ediv_eq_zero_of_lt g1 g2]
    simp
  · have hval : t.val a = k * 2 ^ (t.w - lf) := by
      unfold fpv at hk
      rw [div_eq_iff hq.ne'] at hk
      have e : t.w - lf = (t.w - lf - rt) + rt := by omega
      have : (t.val a : ℚ) = k * 2 ^ (t.w - lf) := by
        rw [e, pow_add, ← mul_assoc]; exact hk
      exact_mod_cast this
    have hrv : t.val r = t.val a := by
      rw [hv, hval, Int.mul_ediv_cancel _ (by positivity)]
    have : fpv t rt r = fpv t rt a := fpv_eq_iff.mpr hrv
    rw [this, hk]
    have e2 : (k : ℚ) * 2 ^ (t.w - lf - rt) = ((k * 2 ^ (t.w - lf - rt) : ℤ) : ℚ) := by push_cast; rfl
    rw [e2, Int.floor_intCast]

/-- C46 fails for `floor`: with fractional bits, `floor(1) = 0`. -/
theorem floor_wrong {lf rt : Nat} {t : ITy} (ht : storage lf rt = some t) (hl : 1 < lf) (h0 : 0 < rt) :
    ∃ a r, fpv t rt a = 1 ∧ FixedPoint.floor t lf a = some r ∧ fpv t rt r = 0 := by
  obtain ⟨hs, hw⟩ := storage_le ht
  have hone : t.minv ≤ 1 * 2 ^ rt ∧ 1 * (2 : ℤ) ^ rt ≤ t.maxv := by
    have hlf : (2 : ℤ) * 2 ^ rt < 2 ^ (lf + rt) := by
      have := two_pow_le (show rt + 2 ≤ lf + rt by omega)
      have e : (2 : ℤ) ^ (rt + 2) = 4 * 2 ^ rt := by ring
      have : (0 : ℤ) < 2 ^ rt := by positivity
      linarith
    have : (0 : ℤ) < 2 ^ rt := by positivity
    exact fits hs (show lf + rt ≤ t.w by omega) (by linarith) (by linarith)
  have hv := val_cast t _ hone.1 hone.2
  obtain ⟨r, hr, hrv⟩ := floor_masked ht (by omega) (t.cast (1 * 2 ^ rt))
  refine ⟨t.cast (1 * 2 ^ rt), r, ?_, hr, ?_⟩
  · unfold fpv; rw [hv]; push_cast; field_simp
  · rw [hv] at hrv
    have hlt : (1 : ℤ) * 2 ^ rt < 2 ^ (t.w - lf) := by
      rw [one_mul]
      exact pow_lt_pow_right₀ (by norm_num) (by omega)
    unfold fpv
    rw [hrv, Int.ediv_eq_zero_of_lt (by positivity) hlt]
    simp

/-- `floor` is right for all arguments exactly for the formats without fractional bits that fill the
storage type. -/
theorem floor_exact_iff {lf rt : Nat} {t : ITy} (ht : storage lf rt = some t) (hl : 1 < lf) :
    (∀ a, ∃ r, FixedPoint.floor t lf a = some r ∧ fpv t rt r = ⌊fpv t rt a⌋) ↔ rt = 0 ∧ lf = t.w := by
  obtain ⟨hs, hw⟩ := storage_le ht
  constructor
  · intro h
    have hrt : rt = 0 := by
      by_contra hc
      obtain ⟨a, r, ha, hr, hv⟩ := floor_wrong ht hl (by omega)
      obtain ⟨r', hr', hv'⟩ := h a
      rw [hr] at hr'
      have := Option.some.inj hr'
      subst this
      rw [ha, hv] at hv'
      simp at hv'
    refine ⟨hrt, ?_⟩
    subst hrt
    by_contra hc
    have h1 : t.val (t.cast 1) = 1 := by cases t <;> decide
    obtain ⟨r, hr, hv⟩ := h (t.cast 1)
    obtain ⟨r', hr', hv'⟩ := floor_masked ht (by omega) (t.cast 1)
    rw [hr] at hr'
    have := Option.some.inj hr'
    subst this
    have hlt : (1 : ℤ) < 2 ^ (t.w - lf) := by
      have := two_pow_le (show 1 ≤ t.w - lf by omega)
      omega
    rw [h1, Int.ediv_eq_zero_of_lt (by norm_num) hlt] at hv'
    unfold fpv at hv
    rw [h1, hv'] at hv
    simp at hv
  · rintro ⟨rfl, hlw⟩ a
    refine floor_partial ht (by omega) a (Or.inr ⟨t.val a, ?_⟩)
    have e : t.w - lf - 0 = 0 := by omega
    unfold fpv
    rw [e]
    simp

/-- The test of `ceil` is non-zero on the positive raw values below `2^(w - lf)`. -/
theorem ceil_test {lf rt : Nat} {t : ITy} (ht : storage lf rt = some t) (a : BitVec t.w)
    (hl : 0 < lf) (hlw : lf < t.w) (h1 : 0 < t.val a) (h2 : t.val a < 2 ^ (t.w - lf)) :
    ∃ p q, shlW t (t.val a) lf = some p ∧ sarP t p lf = some q ∧ q ≠ 0 := by
  obtain ⟨hs, hw⟩ := storage_le ht
  have hwp := w_le_promW t
  refine ⟨Int.bmod (t.val a * 2 ^ lf) (2 ^ t.promW), _, ?_, sarP_eq t _ hlw, ?_⟩
  · unfold shlW
    rw [if_pos ⟨by omega, by omega⟩]
    simp
  · have hp : (0 : ℤ) < 2 ^ lf := by positivity
    have hlt : t.val a * 2 ^ lf < 2 ^ t.promW := by
      calc t.val a * 2 ^ lf < 2 ^ (t.w - lf) * 2 ^ lf := by nlinarith
        _ = 2 ^ t.w := by rw [← pow_add]; congr 1; omega
        _ ≤ 2 ^ t.promW := two_pow_le hwp
    have hdv : (2 : ℤ) ^ lf ∣ Int.bmod (t.val a * 2 ^ lf) (2 ^ t.promW) := by
      have h3 : (2 : ℤ) ^ lf ∣ ((2 ^ t.promW : Nat) : ℤ) := by
        push_cast; exact pow_dvd_pow 2 (by omega)
      have h4 := Int.bmod_emod (x := t.val a * 2 ^ lf) (m := 2 ^ t.promW)
      apply (Int.dvd_iff_emod_eq_zero).mpr
      rw [← Int.emod_emod_of_dvd _ h3, h4, Int.emod_emod_of_dvd _ h3]
      exact Int.mul_emod_left _ _
    obtain ⟨k, hk⟩ := hdv
    rw [hk, Int.mul_ediv_cancel_left _ hp.ne']
    intro h0
    rw [h0, mul_zero] at hk
    have h5 := Int.bmod_emod (x := t.val a * 2 ^ lf) (m := 2 ^ t.promW)
    rw [hk] at h5
    have h6 : t.val a * 2 ^ lf % ((2 ^ t.promW : Nat) : ℤ) = t.val a * 2 ^ lf := by
      apply Int.emod_eq_of_lt (by positivity)
      push_cast; exact hlt
    rw [h6] at h5
    have : 0 < t.val a * 2 ^ lf := by positivity
    simp at h5
    omega

theorem ceil_small {lf rt : Nat} {t : ITy} (ht : storage lf rt = some t) (h31 : rt < 31) (hl : 1 < lf) (h0 : 0 < rt)
    (a : BitVec t.w) (h1 : 0 < t.val a) (h2 : t.val a < 2 ^ (t.w - lf)) :
    ∃ r, FixedPoint.ceil t lf rt a = some r ∧ fpv t rt r = 1 := by
  obtain ⟨hs, hw⟩ := storage_le ht
  have hone : t.minv ≤ 1 * 2 ^ rt ∧ 1 * (2 : ℤ) ^ rt ≤ t.maxv := by
    have hlf : (2 : ℤ) * 2 ^ rt < 2 ^ (lf + rt) := by
      have := two_pow_le (show rt + 2 ≤ lf + rt by omega)
      have e : (2 : ℤ) ^ (rt + 2) = 4 * 2 ^ rt := by ring
      have : (0 : ℤ) < 2 ^ rt := by positivity
      linarith
    have : (0 : ℤ) < 2 ^ rt := by positivity
    exact fits hs (show lf + rt ≤ t.w by omega) (by linarith) (by linarith)
  obtain ⟨one, ho, hov⟩ := ofSmallInt_eq h31 hone.1 hone.2
  obtain ⟨fl, hf, hfv⟩ := floor_masked ht (by omega) a
  rw [Int.ediv_eq_zero_of_lt h1.le h2, zero_mul] at hfv
  obtain ⟨p, q, hp, hq, hq0⟩ := ceil_test ht a (by omega) (by omega) h1 h2
  refine ⟨t.cast (0 + 1 * 2 ^ rt), ?_, ?_⟩
  · unfold FixedPoint.ceil
    rw [hf, hp]
    simp only [Option.bind_eq_bind, Option.bind_some]
    rw [hq]
    simp only [Option.bind_some]
    rw [if_neg hq0, ho]
    simp only [Option.bind_some]
    unfold FixedPoint.add
    rw [hfv, hov, zero_add, prom_fits hs hone.1 hone.2]
    rfl
  · unfold fpv
    rw [zero_add, val_cast t _ hone.1 hone.2]
    push_cast
    field_simp

/-- C46 (partial), `ceil`: right on `(0, 1]` for formats with fractional bits. Missing: other
arguments, see `ceil_wrong`. -/
theorem ceil_partial {lf rt : Nat} {t : ITy} (ht : storage lf rt = some t) (h31 : rt < 31) (hl : 1 < lf) (h0 : 0 < rt)
    (a : BitVec t.w) (h1 : 0 < fpv t rt a) (h2 : fpv t rt a ≤ 1) :
    ∃ r, FixedPoint.ceil t lf rt a = some r ∧ fpv t rt r = ⌈fpv t rt a⌉ := by
  obtain ⟨hs, hw⟩ := storage_le ht
  have hq : (0 : ℚ) < 2 ^ rt := by positivity
  have g1 : 0 < t.val a := by
    unfold fpv at h1
    have : (0 : ℚ) < t.val a := by
      by_contra hc
      exact absurd h1 (not_lt.mpr (div_nonpos_of_nonpos_of_nonneg (not_lt.mp hc) hq.le))
    exact_mod_cast this
  have g2 : t.val a < 2 ^ (t.w - lf) := by
    unfold fpv at h2
    rw [div_le_one hq] at h2
    have h2' : t.val a ≤ 2 ^ rt := by exact_mod_cast h2
    exact h2'.trans_lt (pow_lt_pow_right₀ (by norm_num) (by omega))
  obtain ⟨r, hr, hv⟩ := ceil_small ht h31 hl h0 a g1 g2
  refine ⟨r, hr, ?_⟩
  have : ⌈fpv t rt a⌉ = 1 := by
    rw [Int.ceil_eq_iff]; push_cast; exact ⟨by linarith, h2⟩
  rw [hv, this]
  norm_num

/-- C46 fails for `ceil`: with at least two fractional bits, `ceil(2) = 1`. -/
theorem ceil_wrong {lf rt : Nat} {t : ITy} (ht : storage lf rt = some t) (h31 : rt < 31) (hl : 2 < lf) (h0 : 1 < rt) :
    ∃ a r, fpv t rt a = 2 ∧ FixedPoint.ceil t lf rt a = some r ∧ fpv t rt r = 1 := by
  obtain ⟨hs, hw⟩ := storage_le ht
  have hp : (0 : ℤ) < 2 ^ rt := by positivity
  have htwo : t.minv ≤ 2 * 2 ^ rt ∧ 2 * (2 : ℤ) ^ rt ≤ t.maxv := by
    have := two_pow_le (show rt + 3 ≤ lf + rt by omega)
    have e : (2 : ℤ) ^ (rt + 3) = 8 * 2 ^ rt := by ring
    exact fits hs (show lf + rt ≤ t.w by omega) (by linarith) (by linarith)
  have hv := val_cast t _ htwo.1 htwo.2
  have hlt : (2 : ℤ) * 2 ^ rt < 2 ^ (t.w - lf) := by
    have := two_pow_le (show rt + 2 ≤ t.w - lf by omega)
    have e : (2 : ℤ) ^ (rt + 2) = 4 * 2 ^ rt := by ring
    linarith
  obtain ⟨r, hr, hrv⟩ := ceil_small ht h31 (by omega) (by omega) (t.cast (2 * 2 ^ rt))
    (by rw [hv]; positivity) (by rw [hv]; exact hlt)
  refine ⟨_, r, ?_, hr, hrv⟩
  unfold fpv
  rw [hv]
  push_cast
  field_simp

-- fp_t<8, 4>: floor(1.5) = 0, ceil(2.0) = 1.0, is_int(1.5)
example : FixedPoint.floor .i16 8 24#16 = some 0#16 := by decide
example : FixedPoint.ceil .i16 8 4 32#16 = some 16#16 := by decide
example : FixedPoint.isInt .i16 8 4 (BitVec.ofInt 16 256) = some true := by decide
example : FixedPoint.isInt .i16 8 4 40#16 = some false := by decide
-- fp_t<8, 8> of the documentation
example : storage 8 8 = some .i32 := by decide
example : 0 ≤ fpv .i16 4 8#16 ∧ fpv .i16 4 8#16 < 1 := by
  have : ITy.i16.val 8#16 = 8 := by decide
  unfold fpv; rw [this]; norm_num

end Nsimd.Props.FixedPoint
