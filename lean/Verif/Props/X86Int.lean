import Verif.Lemmas.X86Int
import Verif.Props.ScalarArith

set_option linter.unusedSimpArgs false
set_option linter.unusedVariables false

/-!
# C12, C08, C49: emulated integer operators of the x86 back end, lane by lane

All statements are for every lane width `w ≥ 1` (the code uses 8, 16, 32, 64).
-/

namespace Nsimd.Props.X86
open Nsimd.X86

/-- Specification: the canonical logical lane of a proposition. -/
def lane (w : Nat) (p : Prop) [Decidable p] : BitVec w := if p then BitVec.allOnes w else 0#w

theorem lane_not {w : Nat} (p : Prop) [Decidable p] : notb (lane w p) = lane w (¬ p) := by
  unfold lane
  by_cases h : p
  · rw [if_pos h, if_neg (not_not.2 h), notb_ones]
  · rw [if_neg h, if_pos h, notb_zero]

theorem lane_congr {w : Nat} {p q : Prop} [Decidable p] [Decidable q] (h : p ↔ q) :
    lane w p = lane w q := by
  unfold lane; simp only [h]

/-! ### C12 -/

/-- C12, unsigned comparisons: adding the sign bit and comparing signed gives
the unsigned order; `lt`, `le`, `ge` derived from it are exact too. -/
theorem unsigned_cmp_exact {w : Nat} (hw : 0 < w) (a b : BitVec w) :
    gtWithAdd a b = lane w (b.toNat < a.toNat) ∧
    ltWithAdd a b = lane w (a.toNat < b.toNat) ∧
    geNotLt a b = lane w (b.toNat ≤ a.toNat) ∧
    leNotGt a b = lane w (a.toNat ≤ b.toNat) := by
  obtain ⟨n, rfl⟩ : ∃ n, w = n + 1 := ⟨w - 1, by omega⟩
  have key : ∀ a b : BitVec (n + 1), gtWithAdd a b = lane (n + 1) (b.toNat < a.toNat) := by
    intro a b
    unfold gtWithAdd cmpgt
    rw [Nat.add_sub_cancel, toInt_add_half, toInt_add_half]
    exact lane_congr (by omega)
  refine ⟨key a b, key b a, ?_, ?_⟩
  · unfold geNotLt ltWithAdd
    rw [key, lane_not]; exact lane_congr (by omega)
  · unfold leNotGt
    rw [key, lane_not]; exact lane_congr (by omega)

/-- C12, signed comparisons and inequality. -/
theorem signed_cmp_exact {w : Nat} (a b : BitVec w) :
    gtS a b = lane w (b.toInt < a.toInt) ∧
    ltS a b = lane w (a.toInt < b.toInt) ∧
    geS a b = lane w (b.toInt ≤ a.toInt) ∧
    leS a b = lane w (a.toInt ≤ b.toInt) ∧
    neNotEq a b = lane w (a ≠ b) := by
  refine ⟨rfl, rfl, ?_, ?_, ?_⟩
  · show notb (lane w (a.toInt < b.toInt)) = _
    rw [lane_not]; exact lane_congr (by omega)
  · show notb (lane w (b.toInt < a.toInt)) = _
    rw [lane_not]; exact lane_congr (by omega)
  · show notb (lane w (a = b)) = _
    rw [lane_not]

theorem append_halves {w : Nat} (x : BitVec (w + w)) :
    x.extractLsb' w w ++ x.extractLsb' 0 w = x := by
  apply BitVec.eq_of_getLsbD_eq
  intro i hi
  rw [BitVec.getLsbD_append, BitVec.getLsbD_extractLsb', BitVec.getLsbD_extractLsb']
  split
  · simp; omega
  · rename_i h
    rw [show w + (i - w) = i by omega]
    have : i - w < w := by omega
    simp [this]

theorem halves_ext {w : Nat} (a b : BitVec (w + w)) :
    a = b ↔ a.extractLsb' w w = b.extractLsb' w w ∧ a.extractLsb' 0 w = b.extractLsb' 0 w := by
  constructor
  · rintro rfl; exact ⟨rfl, rfl⟩
  · rintro ⟨h1, h2⟩
    rw [← append_halves a, ← append_halves b, h1, h2]

theorem extract_hi_append {w : Nat} (x y : BitVec w) : (x ++ y).extractLsb' w w = x := by
  apply BitVec.eq_of_getLsbD_eq
  intro i hi
  rw [BitVec.getLsbD_extractLsb', BitVec.getLsbD_append]
  simp [hi]

theorem extract_lo_append {w : Nat} (x y : BitVec w) : (x ++ y).extractLsb' 0 w = y := by
  apply BitVec.eq_of_getLsbD_eq
  intro i hi
  rw [BitVec.getLsbD_extractLsb', BitVec.getLsbD_append]
  simp [hi]

theorem and_append {w : Nat} (x y x' y' : BitVec w) :
    (x ++ y) &&& (x' ++ y') = (x &&& x') ++ (y &&& y') := by
  apply BitVec.eq_of_getLsbD_eq
  intro i hi
  simp only [BitVec.getLsbD_and, BitVec.getLsbD_append]
  split <;> rfl

/-- C12, 64-bit equality on SSE2 from the equality of the two halves. -/
theorem eq64_exact {w : Nat} (a b : BitVec (w + w)) :
    eq64Sse2 a b = lane (w + w) (a = b) := by
  have h := halves_ext a b
  unfold eq64Sse2 swapHalves cmpeqHalves
  simp only [extract_hi_append, extract_lo_append, and_append]
  have hz : (0#w ++ 0#w : BitVec (w + w)) = 0#(w + w) := by simp
  have ho : (BitVec.allOnes w ++ BitVec.allOnes w : BitVec (w + w)) = BitVec.allOnes (w + w) := by
    apply BitVec.eq_of_getLsbD_eq
    intro i hi
    rw [BitVec.getLsbD_append]
    simp only [BitVec.getLsbD_allOnes, hi, decide_true]
    split
    · simpa using (by assumption)
    · simp; omega
  unfold cmpeq lane
  by_cases h1 : a.extractLsb' w w = b.extractLsb' w w <;>
    by_cases h2 : a.extractLsb' 0 w = b.extractLsb' 0 w
  · rw [if_pos h1, if_pos h2, if_pos (h.2 ⟨h1, h2⟩), BitVec.and_self, ho]
  · rw [if_pos h1, if_neg h2, if_neg (fun e => h2 (h.1 e).2)]; simp
  · rw [if_neg h1, if_pos h2, if_neg (fun e => h1 (h.1 e).1)]; simp
  · rw [if_neg h1, if_neg h2, if_neg (fun e => h1 (h.1 e).1)]; simp

/-- C12, SSE2 signed 64-bit comparison through memory. -/
theorem gt64_exact (a b : BitVec 64) : gt64Sse2 a b = lane 64 (b.toInt < a.toInt) := by
  unfold gt64Sse2 lane
  split <;> rfl

-- the sign bit matters: 0x80 > 0x7f unsigned but not signed
example : gtWithAdd 0x80#8 0x7f#8 = BitVec.allOnes 8 ∧ gtS 0x80#8 0x7f#8 = 0#8 := by decide
-- halves equal in one word only
example : eq64Sse2 (w := 32) 0x0000000100000002#64 0x0000000200000002#64 = 0#64 := by decide

/-! ### Selection by a canonical mask -/

/-- All variants of `if_else1` select by a canonical logical lane (part of C26
for x86). -/
theorem ifElse_canon {w : Nat} (hw : 0 < w) (h8 : w % 8 = 0) (p : Prop) [Decidable p]
    (a b : BitVec w) :
    ifElseManual (lane w p) a b = (if p then a else b) ∧
    ifElseBlend (lane w p) a b = (if p then a else b) ∧
    ifElseBlend8 (lane w p) a b = (if p then a else b) := by
  unfold lane
  by_cases h : p
  · simp only [if_pos h]
    refine ⟨ifElseManual_ones a b, ?_, ?_⟩
    · unfold ifElseBlend blendv
      rw [if_pos]; rw [BitVec.msb_allOnes hw]
    · unfold ifElseBlend8 blendvEpi8
      apply BitVec.eq_of_getLsbD_eq
      intro i hi
      have h8' : 8 * (i / 8) + 7 < w := by omega
      rw [BitVec.getLsbD_ofFnLE]
      simp [hi, h8']
  · simp only [if_neg h]
    refine ⟨ifElseManual_zero a b, ?_, ?_⟩
    · unfold ifElseBlend blendv
      rw [if_neg]; simp
    · unfold ifElseBlend8 blendvEpi8
      apply BitVec.eq_of_getLsbD_eq
      intro i hi
      rw [BitVec.getLsbD_ofFnLE]
      simp [hi]

/-! ### C08 -/

theorem manual_lane {w : Nat} (p : Prop) [Decidable p] (a b : BitVec w) :
    ifElseManual (lane w p) a b = if p then a else b := by
  unfold lane
  by_cases h : p
  · simp only [if_pos h, ifElseManual_ones]
  · simp only [if_neg h, ifElseManual_zero]

/-- C08, unsigned: the sum clamped to `2^w - 1`. -/
theorem addsU_saturates {w : Nat} (hw : 0 < w) (a b : BitVec w) :
    (addsU a b).toNat = min (a.toNat + b.toNat) (2 ^ w - 1) := by
  obtain ⟨n, rfl⟩ : ∃ n, w = n + 1 := ⟨w - 1, by omega⟩
  unfold addsU
  simp only []
  rw [(unsigned_cmp_exact hw _ _).2.1, manual_lane, apply_ite BitVec.toNat, BitVec.toNat_allOnes,
    toNat_add', Nat.pow_succ]
  have ha := toNat_bounds a; have hb := toNat_bounds b
  generalize 2 ^ n = P at *
  (repeat' split) <;> omega

theorem addsSteps_mask {n : Nat} (a b : BitVec (n + 1)) :
    (addsSteps a b).2.2.msb = true ↔ ((2 ^ n ≤ a.toNat ↔ ¬ 2 ^ n ≤ b.toNat) ∨
      (2 ^ n ≤ b.toNat ↔ 2 ^ n ≤ (a + b).toNat)) := by
  unfold addsSteps
  simp only [notb_eq, BitVec.msb_or, BitVec.msb_xor, BitVec.msb_not]
  simp only [msb_cond a, msb_cond b, msb_cond (a + b)]
  generalize (a + b).toNat = c
  by_cases h1 : 2 ^ n ≤ a.toNat <;> by_cases h2 : 2 ^ n ≤ b.toNat <;>
    by_cases h3 : 2 ^ n ≤ c <;> simp [h1, h2, h3]

theorem addsSteps_limit {n : Nat} (a b : BitVec (n + 1)) :
    (addsSteps a b).2.1.toNat = if a.msb || b.msb then 2 ^ n else 2 ^ n - 1 := by
  unfold addsSteps
  simp only [Nat.add_sub_cancel]
  rw [shr_top, BitVec.msb_or, toNat_add', BitVec.toNat_ofNat, BitVec.toNat_ofNat, Nat.pow_succ]
  have hp := Nat.two_pow_pos n
  generalize 2 ^ n = P at *
  rw [Nat.mod_eq_of_lt (show P - 1 < P * 2 by omega)]
  cases a.msb || b.msb
  · simp; omega
  · simp only [if_true]
    rw [Nat.mod_eq_of_lt (show 1 < P * 2 by omega)]
    split <;> omega

theorem addsSelect {n : Nat} (a b : BitVec (n + 1)) :
    (if (addsSteps a b).2.2.msb then a + b else (addsSteps a b).2.1).toInt =
      clampTo (-(2 ^ n : Nat)) ((2 ^ n : Nat) - 1) (a.toInt + b.toInt) := by
  have hm := addsSteps_mask a b
  have hl := addsSteps_limit a b
  have ha := toNat_bounds a; have hb := toNat_bounds b
  have hs := toNat_add' a b
  have hp := Nat.two_pow_pos n
  rw [hs] at hm
  simp only [msb_cond a, msb_cond b, Bool.or_eq_true, decide_eq_true_eq] at hl
  rw [apply_ite BitVec.toInt, toInt_cond (a + b), toInt_cond (addsSteps a b).2.1, hl, hs,
    toInt_cond a, toInt_cond b]
  unfold clampTo
  simp only [hm]
  clear hm hl hs
  generalize 2 ^ n = P at *
  generalize a.toNat = x at *
  generalize b.toNat = y at *
  by_cases h1 : P ≤ x <;> by_cases h2 : P ≤ y <;> by_cases h3 : 2 * P ≤ x + y <;>
    by_cases h4 : P ≤ x + y <;> by_cases h5 : P ≤ x + y - 2 * P <;>
    simp only [h1, h2, h3, h4, h5, if_true, if_false, true_or, or_true, or_self, not_true_eq_false,
      not_false_eq_true, true_iff, false_iff, iff_true, iff_false, iff_self, not_not] <;>
    (repeat' split) <;> omega

/-- C08, signed: both code paths return the exact sum clamped to
`[-2^(w-1), 2^(w-1) - 1]`. -/
theorem addsS_saturates {w : Nat} (hw : 0 < w) (a b : BitVec w) :
    (addsBlend a b).toInt = clampTo (-(2 ^ (w - 1) : Nat)) ((2 ^ (w - 1) : Nat) - 1)
      (a.toInt + b.toInt) ∧
    addsLogical a b = addsBlend a b := by
  obtain ⟨n, rfl⟩ : ∃ n, w = n + 1 := ⟨w - 1, by omega⟩
  have h := addsSelect a b
  refine ⟨?_, ?_⟩
  · rw [Nat.add_sub_cancel, ← h]
    rfl
  · unfold addsLogical addsBlend blendv
    simp only []
    rw [(signed_cmp_exact _ _).2.2.2.2, manual_lane, Nat.add_sub_cancel, shr_top]
    cases (addsSteps a b).2.2.msb
    · rw [if_neg (by simp), if_neg (by simp)]
    · rw [if_pos, if_pos rfl]
      simp only [if_true]
      intro e
      have := congrArg BitVec.toNat e
      simp at this

example : addsBlend 0x7fffffff#32 1#32 = 0x7fffffff#32 ∧
    addsBlend 0x80000000#32 0xffffffff#32 = 0x80000000#32 ∧
    addsU 0xffffffff#32 2#32 = 0xffffffff#32 := by decide

/-! ### C07 on x86 -/

/-- Unsigned 32/64-bit `subs` clamps at zero. -/
theorem subsU_saturates {w : Nat} (hw : 0 < w) (a b : BitVec w) :
    (subsU a b).toNat = a.toNat - b.toNat := by
  unfold subsU
  simp only []
  rw [(unsigned_cmp_exact hw _ _).1, manual_lane]
  split
  · simp; omega
  · rw [BitVec.toNat_sub_of_le]
    rw [BitVec.le_def]; omega

theorem neg_toInt {n : Nat} (b : BitVec (n + 1)) :
    (neg b).toInt = if b.toInt = -(2 ^ n : Nat) then b.toInt else -b.toInt := by
  unfold neg
  rw [toInt_cond, toInt_cond b, BitVec.toNat_sub]
  have hb := toNat_bounds b
  have hp := Nat.two_pow_pos n
  rw [Nat.pow_succ]
  generalize 2 ^ n = P at *
  generalize b.toNat = y at *
  simp only [BitVec.toNat_zero, Nat.add_zero, Nat.mul_comm P 2]
  by_cases h0 : y = 0
  · subst h0
    simp only [Nat.sub_zero, Nat.mod_self]
    (repeat' split) <;> omega
  · rw [Nat.mod_eq_of_lt (by omega)]
    (repeat' split) <;> omega

/-- C07 on signed 32/64-bit lanes: the result is the clamped difference exactly
when `b` is not the minimum of the type. The full statement (`subsS` always
clamps the exact difference) is false, see `subsS_counterexample`. -/
theorem subsS_correct_iff {w : Nat} (hw : 0 < w) (a b : BitVec w) :
    (subsS a b).toInt = clampTo (-(2 ^ (w - 1) : Nat)) ((2 ^ (w - 1) : Nat) - 1)
      (a.toInt - b.toInt) ↔ b.toInt ≠ -(2 ^ (w - 1) : Nat) := by
  obtain ⟨n, rfl⟩ : ∃ n, w = n + 1 := ⟨w - 1, by omega⟩
  unfold subsS
  rw [(addsS_saturates hw a (neg b)).1, neg_toInt, Nat.add_sub_cancel]
  unfold clampTo
  rw [toInt_cond a, toInt_cond b]
  have ha := toNat_bounds a; have hb := toNat_bounds b
  have hp := Nat.two_pow_pos n
  generalize 2 ^ n = P at *
  generalize a.toNat = x at *
  generalize b.toNat = y at *
  by_cases h1 : P ≤ x <;> by_cases h2 : P ≤ y <;>
    simp only [h1, h2, if_true, if_false] <;> (repeat' split) <;> omega

theorem subsS_counterexample :
    subsS 0#32 0x80000000#32 = 0x80000000#32 ∧ subsS 0#64 0x8000000000000000#64 =
      0x8000000000000000#64 := by decide

/-! ### C49: abs, min, max -/

theorem sshiftRight_top {n : Nat} (a : BitVec (n + 1)) :
    a.sshiftRight n = if a.msb then BitVec.allOnes (n + 1) else 0#(n + 1) := by
  apply BitVec.eq_of_getLsbD_eq
  intro i hi
  rw [BitVec.getLsbD_sshiftRight]
  by_cases h : n + i < n + 1
  · have : i = 0 := by omega
    subst this
    have hm : a.getLsbD n = a.msb := by rw [BitVec.msb_eq_getLsbD_last]; simp
    simp only [Nat.add_zero, show n < n + 1 by omega, if_true, hm]
    cases a.msb <;> simp
  · simp only [h, if_false]
    cases a.msb <;> simp [hi]

/-- C49: the three emulations of `abs` return the magnitude (modulo `2^w`, so
`INT_MIN` is mapped to itself) and agree with each other. -/
theorem abs_exact {w : Nat} (hw : 0 < w) (a : BitVec w) :
    (absBlend a).toNat = a.toInt.natAbs ∧ absArith a = absBlend a ∧ absLogical a = absBlend a := by
  obtain ⟨n, rfl⟩ : ∃ n, w = n + 1 := ⟨w - 1, by omega⟩
  have hmask : (0#(n + 1) - a >>> n) = a.sshiftRight n := by
    rw [shr_top, sshiftRight_top]
    cases a.msb
    · simp
    · apply BitVec.eq_of_toNat_eq
      simp only [if_true, BitVec.toNat_sub, BitVec.toNat_ofNat, BitVec.toNat_allOnes]
      have hp := Nat.two_pow_pos n
      have h2 : 2 ^ (n + 1) = 2 * 2 ^ n := by rw [Nat.pow_succ]; omega
      rw [h2]
      generalize 2 ^ n = P at *
      rw [Nat.mod_eq_of_lt (show 1 < 2 * P by omega), Nat.zero_mod, Nat.add_zero,
        Nat.mod_eq_of_lt (by omega)]
  have h1 : absArith a = absBlend a := by
    unfold absArith absBlend blendv
    simp only [Nat.add_sub_cancel]
    rw [sshiftRight_top]
    cases a.msb
    · simp
    · simp only [if_true, BitVec.xor_allOnes]
      apply BitVec.eq_of_toNat_eq
      rw [BitVec.toNat_not, toNat_add', BitVec.toNat_sub, BitVec.toNat_allOnes]
      have ha := toNat_bounds a
      have h2 : 2 ^ (n + 1) = 2 * 2 ^ n := by rw [Nat.pow_succ]; omega
      rw [h2]
      have hp := Nat.two_pow_pos n
      simp only [BitVec.toNat_zero, Nat.add_zero]
      generalize 2 ^ n = P at *
      generalize a.toNat = x at *
      by_cases h0 : x = 0
      · subst h0
        rw [Nat.sub_zero, Nat.mod_self]
        split <;> omega
      · rw [Nat.mod_eq_of_lt (by omega)]
        split <;> omega
  have h2 : absLogical a = absArith a := by
    unfold absLogical absArith
    simp only [Nat.add_sub_cancel, hmask]
  refine ⟨?_, h1, h2.trans h1⟩
  unfold absBlend blendv
  rw [toInt_cond, msb_cond]
  have ha := toNat_bounds a
  have hp := Nat.two_pow_pos n
  by_cases h : 2 ^ n ≤ a.toNat
  · simp only [h, decide_true, if_true, BitVec.toNat_sub, BitVec.toNat_zero, Nat.pow_succ]
    generalize 2 ^ n = P at *
    rw [Nat.add_zero, Nat.mod_eq_of_lt (by omega)]
    omega
  · simp only [h, decide_false, if_false]
    simp

/-- C49: emulated `min` and `max` return the smaller and larger operand. -/
theorem minmax_exact {w : Nat} (hw : 0 < w) (a b : BitVec w) :
    (minS a b).toInt = min a.toInt b.toInt ∧ (maxS a b).toInt = max a.toInt b.toInt ∧
    (minU a b).toNat = min a.toNat b.toNat ∧ (maxU a b).toNat = max a.toNat b.toNat := by
  unfold minS maxS minU maxU
  rw [(signed_cmp_exact _ _).1, (signed_cmp_exact _ _).1, (unsigned_cmp_exact hw _ _).1,
    (unsigned_cmp_exact hw _ _).1, manual_lane, manual_lane, manual_lane, manual_lane]
  refine ⟨?_, ?_, ?_, ?_⟩ <;> split <;> omega

example : absArith 0x80#8 = 0x80#8 ∧ absLogical 0xff#8 = 1#8 := by decide

/-! ### Splitting -/

/-- Applying a lane-wise operator to the two halves of a register (AVX integers,
KNL small integers) applies it to every lane. -/
theorem split_lanewise {n w : Nat} (f : Reg n w → Reg n w → Reg n w)
    (g : BitVec w → BitVec w → BitVec w) (hf : ∀ a b i, f a b i = g (a i) (b i))
    (a b : Reg (n + n) w) (k : Fin (n + n)) : splitOp f a b k = g (a k) (b k) := by
  unfold splitOp join
  split
  · rw [hf]; rfl
  · rw [hf]
    unfold upper
    have : n + (k.val - n) = k.val := by omega
    simp only [this]

example : ∃ f : Reg 4 32 → Reg 4 32 → Reg 4 32, ∀ a b i, f a b i = addsBlend (a i) (b i) :=
  ⟨fun a b i => addsBlend (a i) (b i), fun _ _ _ => rfl⟩

end Nsimd.Props.X86
