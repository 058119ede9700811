import Verif.Lemmas.Ufp
import Mathlib.Algebra.Order.Field.Rat
import Mathlib.Tactic.NormNum
import Mathlib.Tactic.FieldSimp
import Mathlib.Algebra.Order.Ring.Abs
import Mathlib.Tactic.Positivity

/-!
# C05: `ufp`

Stated for every exponent size `E` and mantissa size `M ≤ 60` (the code
instantiates 5/10, 8/23, 11/52).
-/

namespace Nsimd.Props.Ufp
open Nsimd.Ufp

/-- Exponent field of a pattern. Specification (IEEE-754). -/
def expo (E M a : Nat) : Nat := a / 2 ^ M % 2 ^ E
/-- Mantissa field of a pattern. Specification (IEEE-754). -/
def mant (M a : Nat) : Nat := a % 2 ^ M
/-- Sign bit of a pattern. Specification (IEEE-754). -/
def sign (E M a : Nat) : Nat := a / 2 ^ (M + E)

/-- Real value of a *normal* pattern, exponent bias left out (a common factor).
Specification, not code of the repo. -/
def value (E M a : Nat) : ℚ :=
  (if sign E M a = 0 then 1 else -1) * (2 ^ M + mant M a) * 2 ^ expo E M a

/-- Pattern of a normal number. Specification (IEEE-754). -/
def Normal (E M a : Nat) : Prop := expo E M a ≠ 0 ∧ expo E M a ≠ 2 ^ E - 1

/-- `L` is the number of binary digits of `d`. Specification, not code of the repo. -/
def BitLength (d L : Nat) : Prop := ∀ i, d < 2 ^ i ↔ L ≤ i

theorem bitLength_of_isLen {d L : Nat} (h : IsLen d L) : BitLength d L := by
  intro i
  constructor
  · intro hi
    by_contra hcon
    rcases h.2 with h2 | h2
    · omega
    · have : 2 ^ i ≤ 2 ^ (L - 1) := Nat.pow_le_pow_right (by decide) (by omega)
      omega
  · intro hi
    have : 2 ^ L ≤ 2 ^ i := Nat.pow_le_pow_right (by decide) hi
    have := h.1; omega

/-- Never undefined behaviour; the result lies in `[-1, M+1]`.
The property claims `[0, M+1]`; `ufp_minus_one` shows that `-1` does occur. -/
theorem ufp_range_partial (E M : Nat) (hM : M ≤ 60) (a b : Nat) :
    ∃ r, ufp E M a b = some r ∧ -1 ≤ r ∧ r ≤ (M : Int) + 1 := by
  by_cases h : a / 2 ^ M % 2 ^ E ≤ b / 2 ^ M % 2 ^ E + 1 ∧ b / 2 ^ M % 2 ^ E ≤ a / 2 ^ M % 2 ^ E + 1
  · obtain ⟨L, h1, h2, -⟩ := ufp_near E M a b hM h
    exact ⟨_, h1, by omega, by omega⟩
  · exact ⟨_, ufp_far E M a b h, by omega, by omega⟩

/-- The claimed lower bound 0 fails: `ufp(3.9999998f, 1.0f) = -1`. -/
theorem ufp_minus_one :
    ufpF32 0x407fffff#32 0x3f800000#32 = some (-1) ∧
    ufpF16 0x43ff#16 0x3c00#16 = some (-1) ∧
    ufpF64 0x400fffffffffffff#64 0x3ff0000000000000#64 = some (-1) := by decide

/-- The result is `-1` exactly when the exponents differ by one and the distance
reaches `2^(M+1)` units in the last place of the operand of smaller exponent:
`2*(2^M + ma) - (2^M + mb) ≥ 2^(M+1)`, the mantissas being `ma`, `mb`. -/
theorem ufp_minus_one_iff (E M : Nat) (hM : M ≤ 60) (a b : Nat) :
    ufp E M a b = some (-1) ↔
      (expo E M a = expo E M b + 1 ∧ 2 ^ M + mant M b ≤ 2 * mant M a) ∨
      (expo E M b = expo E M a + 1 ∧ 2 ^ M + mant M a ≤ 2 * mant M b) := by
  unfold expo mant
  have hpn : 0 < 2 ^ M := Nat.two_pow_pos M
  have la := Nat.mod_lt a hpn
  have lb := Nat.mod_lt b hpn
  by_cases h : a / 2 ^ M % 2 ^ E ≤ b / 2 ^ M % 2 ^ E + 1 ∧ b / 2 ^ M % 2 ^ E ≤ a / 2 ^ M % 2 ^ E + 1
  · obtain ⟨L, h1, h2, h3⟩ := ufp_near E M a b hM h
    rw [h1]
    have hb := bitLength_of_isLen h3 (M + 1)
    have hP2 : (2 : Nat) ^ (M + 1) = 2 * 2 ^ M := by rw [pow_succ]; ring
    rw [hP2] at hb
    unfold dist at hb
    have : (some ((M : Int) + 1 - L) = some (-1)) ↔ ¬ (L ≤ M + 1) := by
      rw [Option.some_inj]; omega
    rw [this, ← hb]
    generalize a / 2 ^ M % 2 ^ E = ea at *
    generalize b / 2 ^ M % 2 ^ E = eb at *
    generalize a % 2 ^ M = xa at *
    generalize b % 2 ^ M = xb at *
    generalize 2 ^ M = P at *
    (repeat' split) <;> omega
  · rw [ufp_far E M a b h]
    simp only [Option.some_inj]
    omega

/-- `ufp` is symmetric. -/
theorem ufp_comm (E M : Nat) (hM : M ≤ 60) (a b : Nat) : ufp E M a b = ufp E M b a := by
  by_cases h : a / 2 ^ M % 2 ^ E ≤ b / 2 ^ M % 2 ^ E + 1 ∧ b / 2 ^ M % 2 ^ E ≤ a / 2 ^ M % 2 ^ E + 1
  · obtain ⟨L, h1, -, h3⟩ := ufp_near E M a b hM h
    obtain ⟨L', h1', -, h3'⟩ := ufp_near E M b a hM h.symm
    rw [dist_comm] at h3'
    rw [h1, h1', isLen_unique h3 h3']
  · rw [ufp_far E M a b h, ufp_far E M b a (fun h' => h h'.symm)]

/-- The maximum is reached exactly by operands with equal exponent and mantissa
fields. -/
theorem ufp_max_iff (E M : Nat) (hM : M ≤ 60) (a b : Nat) :
    ufp E M a b = some ((M : Int) + 1) ↔ expo E M a = expo E M b ∧ mant M a = mant M b := by
  unfold expo mant
  have hpn : 0 < 2 ^ M := Nat.two_pow_pos M
  have la := Nat.mod_lt a hpn
  have lb := Nat.mod_lt b hpn
  by_cases h : a / 2 ^ M % 2 ^ E ≤ b / 2 ^ M % 2 ^ E + 1 ∧ b / 2 ^ M % 2 ^ E ≤ a / 2 ^ M % 2 ^ E + 1
  · obtain ⟨L, h1, -, h3⟩ := ufp_near E M a b hM h
    rw [h1]
    have hb := bitLength_of_isLen h3 0
    unfold dist at hb
    have : (some ((M : Int) + 1 - L) = some ((M : Int) + 1)) ↔ L ≤ 0 := by
      rw [Option.some_inj]; omega
    rw [this, ← hb]
    generalize a / 2 ^ M % 2 ^ E = ea at *
    generalize b / 2 ^ M % 2 ^ E = eb at *
    generalize a % 2 ^ M = xa at *
    generalize b % 2 ^ M = xb at *
    generalize 2 ^ M = P at *
    (repeat' split) <;> omega
  · rw [ufp_far E M a b h]
    simp only [Option.some_inj]
    omega

/-- Sign bits are irrelevant. -/
theorem ufp_sign (E M : Nat) (a b : Nat) (s t : Nat) :
    ufp E M (a + s * 2 ^ (M + E)) (b + t * 2 ^ (M + E)) = ufp E M a b := by
  have key : ∀ x s, (x + s * 2 ^ (M + E)) % 2 ^ M = x % 2 ^ M ∧
      (x + s * 2 ^ (M + E)) / 2 ^ M % 2 ^ E = x / 2 ^ M % 2 ^ E := by
    intro x s
    have e : x + s * 2 ^ (M + E) = x + 2 ^ M * (s * 2 ^ E) := by rw [pow_add]; ring
    rw [e]
    refine ⟨Nat.add_mul_mod_self_left _ _ _, ?_⟩
    rw [Nat.add_mul_div_left _ _ (Nat.two_pow_pos M), Nat.add_mul_mod_self_right]
  unfold ufp
  rw [(key a s).1, (key a s).2, (key b t).1, (key b t).2]

/-- Exponents at least two apart: the result is 0. -/
theorem ufp_far_zero (E M : Nat) (a b : Nat)
    (h : expo E M a > expo E M b + 1 ∨ expo E M b > expo E M a + 1) : ufp E M a b = some 0 :=
  ufp_far E M a b (by unfold expo at h; omega)

/-- The integer distance computed by the code is the distance of the real values
in units in the last place of the operand of smaller exponent. -/
theorem dist_value (E M a b : Nat) (hs : sign E M a = sign E M b)
    (h : expo E M a ≤ expo E M b + 1 ∧ expo E M b ≤ expo E M a + 1) :
    |value E M a - value E M b| =
      (dist (expo E M a) (expo E M b) (mant M a + 2 ^ M) (mant M b + 2 ^ M) : ℚ) *
        2 ^ min (expo E M a) (expo E M b) := by
  have hpn : 0 < 2 ^ M := Nat.two_pow_pos M
  have la : mant M a < 2 ^ M := Nat.mod_lt a hpn
  have lb : mant M b < 2 ^ M := Nat.mod_lt b hpn
  unfold value
  rw [hs, mul_assoc, mul_assoc, ← mul_sub, abs_mul]
  have h1 : |(if sign E M b = 0 then (1 : ℚ) else -1)| = 1 := by split <;> simp
  rw [h1, one_mul]
  unfold dist
  have hPq : (2 : ℚ) ^ M = ((2 ^ M : Nat) : ℚ) := by push_cast; rfl
  rw [hPq]
  generalize expo E M a = ea at *
  generalize expo E M b = eb at *
  generalize mant M a = xa at *
  generalize mant M b = xb at *
  generalize 2 ^ M = P at *
  by_cases he : ea = eb
  · subst he
    rw [if_pos rfl, min_self, ← sub_mul, abs_mul, abs_of_pos (show (0 : ℚ) < 2 ^ ea by positivity)]
    congr 1
    split
    · rename_i h2
      rw [Nat.cast_sub h2, abs_of_nonneg]
      · push_cast; ring
      · have : (xb : ℚ) ≤ xa := by exact_mod_cast (by omega : xb ≤ xa)
        linarith
    · rename_i h2
      rw [Nat.cast_sub (by omega), abs_of_nonpos]
      · push_cast; ring
      · have : (xa : ℚ) ≤ xb := by exact_mod_cast (by omega : xa ≤ xb)
        linarith
  · rw [if_neg he]
    have qa : (xa : ℚ) < P := by exact_mod_cast la
    have qb : (xb : ℚ) < P := by exact_mod_cast lb
    have za : (0 : ℚ) ≤ xa := Nat.cast_nonneg _
    have zb : (0 : ℚ) ≤ xb := Nat.cast_nonneg _
    by_cases hlt : eb < ea
    · have : ea = eb + 1 := by omega
      subst this
      rw [if_pos hlt, min_eq_right (by omega), Nat.cast_sub (by omega), pow_succ,
        show ((P : ℚ) + xa) * (2 ^ eb * 2) - (P + xb) * 2 ^ eb = (2 * (P + xa) - (P + xb)) * 2 ^ eb
          by ring, abs_mul, abs_of_pos (show (0 : ℚ) < 2 ^ eb by positivity), abs_of_nonneg
          (by linarith)]
      push_cast; ring
    · have : eb = ea + 1 := by omega
      subst this
      rw [if_neg hlt, min_eq_left (by omega), Nat.cast_sub (by omega), pow_succ,
        show ((P : ℚ) + xa) * 2 ^ ea - (P + xb) * (2 ^ ea * 2) =
          -((2 * (P + xb) - (P + xa)) * 2 ^ ea) by ring, abs_neg, abs_mul,
        abs_of_pos (show (0 : ℚ) < 2 ^ ea by positivity), abs_of_nonneg (by linarith)]
      push_cast; ring

/-- For normal operands of one sign with exponents differing by at most one,
the result is `M + 1` minus the bit length of the distance of the real values
counted in units in the last place of the smaller operand. -/
theorem ufp_bit_length (E M : Nat) (hM : M ≤ 60) (a b : Nat)
    (_ha : Normal E M a) (_hb : Normal E M b) (hs : sign E M a = sign E M b)
    (h : expo E M a ≤ expo E M b + 1 ∧ expo E M b ≤ expo E M a + 1) :
    ∃ d L : Nat, |value E M a - value E M b| = (d : ℚ) * 2 ^ min (expo E M a) (expo E M b) ∧
      BitLength d L ∧ ufp E M a b = some ((M : Int) + 1 - L) := by
  obtain ⟨L, h1, -, h3⟩ := ufp_near E M a b hM h
  exact ⟨_, L, dist_value E M a b hs h, bitLength_of_isLen h3, h1⟩

-- 1.0f and 1.0000001f: distance 1 ulp, 23 bits in common
example : Normal 8 23 0x3f800000 ∧ Normal 8 23 0x3f800001 ∧
    sign 8 23 0x3f800000 = sign 8 23 0x3f800001 ∧
    expo 8 23 0x3f800000 = expo 8 23 0x3f800001 ∧
    ufp 8 23 0x3f800000 0x3f800001 = some 23 := by
  unfold Normal expo sign; decide

/-- The instances use the fields of the three formats: the maximum 11, 24 or 53 is returned exactly
for operands with the same bits apart from the sign bit. -/
theorem ufp_types_max_iff :
    (∀ a b : BitVec 16, ufpF16 a b = some 11 ↔ a &&& 0x7fff#16 = b &&& 0x7fff#16) ∧
    (∀ a b : BitVec 32, ufpF32 a b = some 24 ↔ a &&& 0x7fffffff#32 = b &&& 0x7fffffff#32) ∧
    (∀ a b : BitVec 64, ufpF64 a b = some 53 ↔
      a &&& 0x7fffffffffffffff#64 = b &&& 0x7fffffffffffffff#64) := by
  have key : ∀ (E M w : Nat), M ≤ 60 → E + M < w → ∀ a b : BitVec w,
      ufp E M a.toNat b.toNat = some ((M : Int) + 1) ↔
        a &&& BitVec.ofNat w (2 ^ (E + M) - 1) = b &&& BitVec.ofNat w (2 ^ (E + M) - 1) := by
    intro E M w hM hw a b
    rw [ufp_max_iff E M hM, ← BitVec.toNat_inj, BitVec.toNat_and, BitVec.toNat_and,
      BitVec.toNat_ofNat, Nat.mod_eq_of_lt (lt_of_lt_of_le (Nat.sub_lt (Nat.two_pow_pos _) (by decide))
        (Nat.pow_le_pow_right (by decide) hw.le)), Nat.and_two_pow_sub_one_eq_mod,
      Nat.and_two_pow_sub_one_eq_mod]
    unfold expo mant
    have split : ∀ x : Nat, x % 2 ^ (E + M) = x / 2 ^ M % 2 ^ E * 2 ^ M + x % 2 ^ M := by
      intro x
      rw [Nat.add_comm E M, Nat.pow_add, Nat.mod_mul]; ring
    rw [split, split]
    have la := Nat.mod_lt a.toNat (Nat.two_pow_pos M)
    have lb := Nat.mod_lt b.toNat (Nat.two_pow_pos M)
    constructor
    · rintro ⟨h1, h2⟩; rw [h1, h2]
    · intro h
      have h2 : a.toNat % 2 ^ M = b.toNat % 2 ^ M := by
        have := congrArg (· % 2 ^ M) h
        simpa [Nat.mul_add_mod_self_right] using this
      refine ⟨?_, h2⟩
      rw [h2] at h
      exact Nat.eq_of_mul_eq_mul_right (Nat.two_pow_pos M) (by omega)
  exact ⟨key 5 10 16 (by decide) (by decide), key 8 23 32 (by decide) (by decide),
    key 11 52 64 (by decide) (by decide)⟩

/-- Equal magnitudes of either sign reach the maximum: `1.5f` and `-1.5f`. -/
example : ufpF32 0x3fc00000#32 0xbfc00000#32 = some 24 := (ufp_types_max_iff.2.1 _ _).mpr (by decide)

end Nsimd.Props.Ufp
