import Verif.Lemmas.Fp16Round
import Mathlib.Data.Rat.Floor
import Mathlib.Algebra.Order.Field.Rat
import Mathlib.Tactic.FieldSimp
import Mathlib.Tactic.Positivity
import Mathlib.Tactic.NormNum

/-!
# C01–C04: half-precision conversions

The specification side is IEEE-754 as rational numbers, independent of the
model's helper functions.
-/

namespace Nsimd.Props.Fp16
open Nsimd.Fp16

/-- Exponent field of a binary32 pattern. Specification (IEEE-754). -/
def e32 (a : BitVec 32) : Nat := a.toNat / 2 ^ 23 % 256
/-- Mantissa field of a binary32 pattern. Specification (IEEE-754). -/
def m32 (a : BitVec 32) : Nat := a.toNat % 2 ^ 23
/-- Exponent field of a binary16 pattern. Specification (IEEE-754). -/
def e16 (h : BitVec 16) : Nat := h.toNat / 2 ^ 10 % 32
/-- Mantissa field of a binary16 pattern. Specification (IEEE-754). -/
def m16 (h : BitVec 16) : Nat := h.toNat % 2 ^ 10

/-- `+1` or `-1` from the sign bit. Specification, not code of the repo. -/
def sgn {n : Nat} (a : BitVec n) : ℚ := if a.msb then -1 else 1

/-- Real value of a finite binary32 pattern. Specification, not code of the repo. -/
def f32Value (a : BitVec 32) : ℚ :=
  if e32 a = 0 then sgn a * m32 a * (2 : ℚ) ^ (-149 : ℤ)
  else sgn a * (2 ^ 23 + m32 a) * (2 : ℚ) ^ ((e32 a : ℤ) - 150)

/-- Real value of a finite binary16 pattern; the pattern of infinity gets the
value `±2^16`, the first one that is out of range, which is the IEEE-754
convention for rounding with overflow. -/
def f16Value (h : BitVec 16) : ℚ :=
  if e16 h = 0 then sgn h * m16 h * (2 : ℚ) ^ (-24 : ℤ)
  else sgn h * (2 ^ 10 + m16 h) * (2 : ℚ) ^ ((e16 h : ℤ) - 25)

/-- Finite binary32 pattern. Specification (IEEE-754). -/
def Finite32 (a : BitVec 32) : Prop := e32 a ≠ 255
/-- Infinite binary32 pattern. Specification (IEEE-754). -/
def Inf32 (a : BitVec 32) : Prop := e32 a = 255 ∧ m32 a = 0
/-- Binary32 pattern of a NaN. Specification (IEEE-754). -/
def NaN32 (a : BitVec 32) : Prop := e32 a = 255 ∧ m32 a ≠ 0
/-- Finite binary16 pattern. Specification (IEEE-754). -/
def Finite16 (h : BitVec 16) : Prop := e16 h ≠ 31
/-- Infinite binary16 pattern. Specification (IEEE-754). -/
def Inf16 (h : BitVec 16) : Prop := e16 h = 31 ∧ m16 h = 0
/-- Binary16 pattern of a NaN. Specification (IEEE-754). -/
def NaN16 (h : BitVec 16) : Prop := e16 h = 31 ∧ m16 h ≠ 0

/-- `r` is the half-precision number nearest to `x`, ties to even mantissa;
infinity counts as the next value after the largest finite one. Specification, not code of the repo. -/
structure NearestEven (x : ℚ) (r : BitVec 16) : Prop where
  notNaN : ¬ NaN16 r
  nearest : ∀ h, ¬ NaN16 h → |f16Value r - x| ≤ |f16Value h - x|
  tie : ∀ h, ¬ NaN16 h → |f16Value r - x| = |f16Value h - x| →
    f16Value h = f16Value r ∨ m16 r % 2 = 0

/-! ### Bridge between fields and the magnitude function -/

theorem sgn32 (a : BitVec 32) : sgn a = if 2 ^ 31 ≤ a.toNat then -1 else 1 := by
  unfold sgn; rw [BitVec.msb_eq_decide]; simp

theorem sgn16 (a : BitVec 16) : sgn a = if 2 ^ 15 ≤ a.toNat then -1 else 1 := by
  unfold sgn; rw [BitVec.msb_eq_decide]; simp

theorem f32Value_mag (a : BitVec 32) :
    f32Value a = sgn a * (mag 23 (a.toNat % 2 ^ 31) : ℚ) * (2 : ℚ) ^ (-149 : ℤ) := by
  unfold f32Value
  have ha := a.isLt
  by_cases h : e32 a = 0
  · rw [if_pos h]
    have : a.toNat % 2 ^ 31 = m32 a := by unfold e32 m32 at *; omega
    rw [this, mag_of_lt 23 _ (by unfold m32; omega)]
  · rw [if_neg h]
    have : a.toNat % 2 ^ 31 = e32 a * 2 ^ 23 + m32 a := by unfold e32 m32 at *; omega
    rw [this, mag_of_parts 23 _ _ (by omega) (by unfold m32; omega)]
    push_cast
    rw [show (e32 a : ℤ) - 150 = ((e32 a - 1 : ℕ) : ℤ) + (-149) by omega, zpow_add₀ (by norm_num),
      zpow_natCast]
    ring

theorem f16Value_mag (h : BitVec 16) :
    f16Value h = sgn h * (G16 (h.toNat % 2 ^ 15) : ℚ) * (2 : ℚ) ^ (-149 : ℤ) := by
  have hG : (G16 (h.toNat % 2 ^ 15) : ℚ) * (2 : ℚ) ^ (-149 : ℤ) =
      (mag 10 (h.toNat % 2 ^ 15) : ℚ) * (2 : ℚ) ^ (-24 : ℤ) := by
    unfold G16
    push_cast
    rw [mul_assoc]
    congr 1
    norm_num
  rw [mul_assoc, hG]
  unfold f16Value
  have hh := h.isLt
  by_cases h0 : e16 h = 0
  · rw [if_pos h0]
    have : h.toNat % 2 ^ 15 = m16 h := by unfold e16 m16 at *; omega
    rw [this, mag_of_lt 10 _ (by unfold m16; omega)]
    ring
  · rw [if_neg h0]
    have : h.toNat % 2 ^ 15 = e16 h * 2 ^ 10 + m16 h := by unfold e16 m16 at *; omega
    rw [this, mag_of_parts 10 _ _ (by omega) (by unfold m16; omega)]
    push_cast
    rw [show (e16 h : ℤ) - 25 = ((e16 h - 1 : ℕ) : ℤ) + (-24) by omega, zpow_add₀ (by norm_num),
      zpow_natCast]
    ring

/-! ### C01 -/

/-- C01: every finite half is converted to the float of the same real value and
sign, infinities to infinities and NaNs to NaNs of the same sign; the
renormalisation loop always terminates. -/
theorem u16ToF32_exact (a : BitVec 16) :
    ∃ r, u16ToF32 a = some r ∧ r.msb = a.msb ∧
      (Finite16 a → Finite32 r ∧ f32Value r = f16Value a) ∧
      (Inf16 a → Inf32 r) ∧ (NaN16 a → NaN32 r) := by
  obtain ⟨r, u, hr, hn, hu, hfin, hinf⟩ := u16ToF32_nat a
  have ha := a.isLt
  have hmsb : r.msb = a.msb := by
    rw [BitVec.msb_eq_decide, BitVec.msb_eq_decide]
    congr 1
    simp only [eq_iff_iff]; omega
  refine ⟨r, hr, hmsb, ?_, ?_, ?_⟩
  · intro hf
    unfold Finite16 e16 at hf
    obtain ⟨h1, h2⟩ := hfin (by omega)
    refine ⟨by unfold Finite32 e32; omega, ?_⟩
    rw [f32Value_mag, f16Value_mag]
    have hs : sgn r = sgn a := by unfold sgn; rw [hmsb]
    rw [hs, show r.toNat % 2 ^ 31 = u by omega, h1]
    rfl
  · rintro ⟨h1, h2⟩
    unfold e16 at h1; unfold m16 at h2
    have := hinf (by omega)
    unfold Inf32 e32 m32
    omega
  · rintro ⟨h1, h2⟩
    unfold e16 at h1; unfold m16 at h2
    have := hinf (by omega)
    unfold NaN32 e32 m32
    omega

-- a subnormal half: 0x0001 is 2^-24
example : Finite16 0x0001#16 ∧ u16ToF32 0x0001#16 = some 0x33800000#32 := by
  refine ⟨by unfold Finite16 e16; decide, by decide⟩

/-! ### C02 -/

theorem nearest_signed {s s' : ℚ} (hs : s = 1 ∨ s = -1) (hs' : s' = 1 ∨ s' = -1)
    {G : Nat → Nat} {top r j : Nat} {X : Nat} (hN : NearestIdx G top X r) (hj : j ≤ top)
    (hG0 : G 0 = 0) :
    |s * G r - s * X| ≤ |s' * G j - s * X| ∧
    (|s * G r - s * X| = |s' * G j - s * X| → s' * (G j : ℚ) = s * G r ∨ r % 2 = 0) := by
  have h1 : |(G r : ℚ) - X| ≤ |(G j : ℚ) - X| := by exact_mod_cast (hN j hj).1
  have h2 : |(G r : ℚ) - X| = |(G j : ℚ) - X| → j = r ∨ r % 2 = 0 := by
    intro h; exact (hN j hj).2 (by exact_mod_cast h)
  have h3 : |(G r : ℚ) - X| ≤ X := by
    have := (hN 0 (Nat.zero_le _)).1
    rw [hG0] at this
    have h4 : |(G r : ℚ) - X| ≤ |((0 : ℕ) : ℚ) - X| := by exact_mod_cast this
    have x0 : (0 : ℚ) ≤ X := Nat.cast_nonneg _
    simpa [abs_of_nonneg x0] using h4
  have gr0 : (0 : ℚ) ≤ G r := Nat.cast_nonneg _
  have gj0 : (0 : ℚ) ≤ G j := Nat.cast_nonneg _
  have x0 : (0 : ℚ) ≤ X := Nat.cast_nonneg _
  have e1 : |s * G r - s * X| = |(G r : ℚ) - X| := by
    rw [← mul_sub, abs_mul]
    rcases hs with rfl | rfl <;> simp
  rw [e1]
  by_cases hss : s' = s
  · subst hss
    have e2 : |s' * G j - s' * X| = |(G j : ℚ) - X| := by
      rw [← mul_sub, abs_mul]
      rcases hs with rfl | rfl <;> simp
    rw [e2]
    refine ⟨h1, fun h => ?_⟩
    rcases h2 h with rfl | h
    · left; rfl
    · right; exact h
  · have e2 : |s' * G j - s * X| = (G j : ℚ) + X := by
      rcases hs with rfl | rfl <;> rcases hs' with rfl | rfl <;> try exact absurd rfl hss
      · rw [abs_of_nonpos (by linarith)]; ring
      · rw [abs_of_nonneg (by linarith)]; ring
    rw [e2]
    refine ⟨by linarith, fun h => ?_⟩
    have hj0 : (G j : ℚ) = 0 := by linarith
    have hrx : |(G r : ℚ) - X| = X := by linarith
    have h5 : |(G r : ℚ) - X| = |(G j : ℚ) - X| := by
      rw [hrx, hj0]; simp [abs_of_nonneg x0]
    rcases h2 h5 with rfl | h
    · left; rw [hj0]; simp
    · right; exact h

/-- C02, finite inputs: the result is the nearest half, ties to even, with the
sign of the input. -/
theorem f32ToU16_nearest (a : BitVec 32) (ha : Finite32 a) :
    NearestEven (f32Value a) (f32ToU16 a) ∧ (f32ToU16 a).msb = a.msb := by
  have hb := a.isLt
  have hc := core_le (a.toNat % 2 ^ 31)
  have hn := f32ToU16_nat a
  rw [if_neg (by unfold Finite32 e32 at ha; omega)] at hn
  have hmsb : (f32ToU16 a).msb = a.msb := by
    rw [BitVec.msb_eq_decide, BitVec.msb_eq_decide]
    congr 1
    simp only [eq_iff_iff]; omega
  have hs : sgn (f32ToU16 a) = sgn a := by unfold sgn; rw [hmsb]
  have hk : (f32ToU16 a).toNat % 2 ^ 15 = core (a.toNat % 2 ^ 31) := by omega
  have hpos : (0 : ℚ) < (2 : ℚ) ^ (-149 : ℤ) := by positivity
  have hsg : ∀ {n : Nat} (b : BitVec n), sgn b = 1 ∨ sgn b = -1 := by
    intro n b; unfold sgn; split <;> simp
  have key : ∀ h : BitVec 16, ¬ NaN16 h →
      |f16Value (f32ToU16 a) - f32Value a| ≤ |f16Value h - f32Value a| ∧
      (|f16Value (f32ToU16 a) - f32Value a| = |f16Value h - f32Value a| →
        f16Value h = f16Value (f32ToU16 a) ∨ core (a.toNat % 2 ^ 31) % 2 = 0) := by
    intro h hh
    have hj : h.toNat % 2 ^ 15 ≤ 0x7c00 := by
      unfold NaN16 e16 m16 at hh; have := h.isLt; omega
    obtain ⟨k1, k2⟩ := nearest_signed (hsg a) (hsg h) (core_nearest (a.toNat % 2 ^ 31)) hj
      (by decide)
    rw [f16Value_mag, f16Value_mag, f32Value_mag, hs, hk]
    rw [← sub_mul, ← sub_mul, abs_mul, abs_mul, abs_of_pos hpos]
    refine ⟨mul_le_mul_of_nonneg_right k1 hpos.le, fun e => ?_⟩
    rcases k2 (mul_right_cancel₀ hpos.ne' e) with h3 | h3
    · left; rw [h3]
    · right; exact h3
  refine ⟨⟨?_, fun h hh => (key h hh).1, fun h hh e => ?_⟩, hmsb⟩
  · unfold NaN16 e16 m16; omega
  · rcases (key h hh).2 e with h3 | h3
    · left; exact h3
    · right; unfold m16; omega

/-- C02, special inputs: infinities go to the infinity of the same sign, every
NaN to `0xffff`. -/
theorem f32ToU16_special (a : BitVec 32) :
    (Inf32 a → Inf16 (f32ToU16 a) ∧ (f32ToU16 a).msb = a.msb) ∧
    (NaN32 a → f32ToU16 a = 0xffff#16) := by
  have hb := a.isLt
  have hn := f32ToU16_nat a
  constructor
  · rintro ⟨h1, h2⟩
    unfold e32 at h1; unfold m32 at h2
    have hu : a.toNat % 2 ^ 31 = 0x7f800000 := by omega
    have hcore : core 0x7f800000 = 0x7c00 := by decide
    rw [if_neg (by omega), hu, hcore] at hn
    refine ⟨by unfold Inf16 e16 m16; omega, ?_⟩
    rw [BitVec.msb_eq_decide, BitVec.msb_eq_decide]
    congr 1
    simp only [eq_iff_iff]; omega
  · rintro ⟨h1, h2⟩
    unfold e32 at h1; unfold m32 at h2
    rw [if_pos (by omega)] at hn
    apply BitVec.eq_of_toNat_eq
    rw [hn]; rfl

/-- C02, thresholds: among finite inputs the result is infinite exactly from
65520 on, and zero exactly up to `2^-25`. -/
theorem f32ToU16_thresholds (a : BitVec 32) (ha : Finite32 a) :
    (Inf16 (f32ToU16 a) ↔ 65520 ≤ |f32Value a|) ∧
    ((e16 (f32ToU16 a) = 0 ∧ m16 (f32ToU16 a) = 0) ↔ |f32Value a| ≤ (2 : ℚ) ^ (-25 : ℤ)) := by
  have hb := a.isLt
  have hc := core_le (a.toNat % 2 ^ 31)
  have hn := f32ToU16_nat a
  rw [if_neg (by unfold Finite32 e32 at ha; omega)] at hn
  have hpos : (0 : ℚ) < (2 : ℚ) ^ (-149 : ℤ) := by positivity
  have habs : |f32Value a| = (mag 23 (a.toNat % 2 ^ 31) : ℚ) * (2 : ℚ) ^ (-149 : ℤ) := by
    rw [f32Value_mag, abs_mul, abs_mul, abs_of_pos hpos]
    have : |sgn a| = 1 := by unfold sgn; split <;> simp
    rw [this, Nat.abs_cast]; ring
  generalize hu : a.toNat % 2 ^ 31 = u at *
  have hmono := (mag_strictMono 23).le_iff_le (a := 0x477ff000) (b := u)
  have hmono2 := (mag_strictMono 23).le_iff_le (a := u) (b := 0x33000000)
  rw [show mag 23 0x477ff000 = 65520 * 2 ^ 149 by decide] at hmono
  rw [show mag 23 0x33000000 = 2 ^ 124 by decide] at hmono2
  have c1 : core u = 0x7c00 ↔ 0x477ff000 ≤ u := by
    constructor
    · intro h
      by_contra hcon
      unfold core at h
      rw [if_neg hcon] at h
      split at h
      · omega
      · split at h
        · rename_i h3
          have hX := mag_strictMono 23 h3
          rw [show mag 23 0x38800000 = 2 ^ 135 by decide] at hX
          have := rneDiv_le (n := mag 23 u) (sh := 125) (q := 1024) (by omega)
          omega
        · omega
    · intro h; unfold core; rw [if_pos h]
  have c2 : core u = 0 ↔ u ≤ 0x33000000 := by
    constructor
    · intro h
      by_contra hcon
      unfold core at h
      split at h
      · omega
      · split at h
        · have hX : 2 ^ 124 < mag 23 u := by
            rw [show 2 ^ 124 = mag 23 0x33000000 by decide]
            exact mag_strictMono 23 (by omega)
          unfold rneDiv at h
          split at h <;> omega
        · omega
    · intro h; unfold core; rw [if_neg (by omega), if_pos h]
  constructor
  · have : Inf16 (f32ToU16 a) ↔ core u = 0x7c00 := by unfold Inf16 e16 m16; omega
    rw [this, c1, ← hmono, habs, ← div_le_iff₀ hpos]
    rw [show (65520 : ℚ) / 2 ^ (-149 : ℤ) = ((65520 * 2 ^ 149 : ℕ) : ℚ) by norm_num]
    rw [Nat.cast_le]
  · have : (e16 (f32ToU16 a) = 0 ∧ m16 (f32ToU16 a) = 0) ↔ core u = 0 := by
      unfold e16 m16; omega
    rw [this, c2, ← hmono2, habs, ← le_div_iff₀ hpos]
    rw [show (2 : ℚ) ^ (-25 : ℤ) / 2 ^ (-149 : ℤ) = ((2 ^ 124 : ℕ) : ℚ) by norm_num]
    rw [Nat.cast_le]

-- a tie that rounds to even upwards, carrying into the exponent: 2047.5/1024
example : Finite32 0x3ffff000#32 ∧ f32ToU16 0x3ffff000#32 = 0x4000#16 := by
  refine ⟨by unfold Finite32 e32; decide, by decide⟩

end Nsimd.Props.Fp16
