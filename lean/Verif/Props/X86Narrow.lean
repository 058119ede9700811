import Verif.Props.X86Int

set_option linter.unusedSimpArgs false
set_option linter.unusedVariables false

/-!
# C10, C11: 8-bit operators emulated through wider lanes on x86

Stated for whole registers: `narrow` reads a register of `n` wide lanes as `2n`
narrow lanes. The width `w` is arbitrary (the code uses `w = 8`, and `w = 16`
for 16-bit shifts on KNL), and so are the neighbouring lanes.
-/

namespace Nsimd.Props.X86
open Nsimd.X86

/-! ### Halves -/

theorem loHalf_toNat {w : Nat} (x : BitVec (w + w)) : (loHalf x).toNat = x.toNat % 2 ^ w := by
  unfold loHalf; rw [BitVec.extractLsb'_toNat]; simp

theorem hiHalf_toNat {w : Nat} (x : BitVec (w + w)) : (hiHalf x).toNat = x.toNat / 2 ^ w := by
  unfold hiHalf
  rw [BitVec.extractLsb'_toNat, Nat.shiftRight_eq_div_pow, Nat.mod_eq_of_lt]
  rw [Nat.div_lt_iff_lt_mul (Nat.two_pow_pos w), ← Nat.pow_add]
  exact x.isLt

theorem getLsbD_lo {w : Nat} (x : BitVec (w + w)) (i : Nat) :
    (loHalf x).getLsbD i = (decide (i < w) && x.getLsbD i) := by
  unfold loHalf; rw [BitVec.getLsbD_extractLsb']; simp

theorem getLsbD_hi {w : Nat} (x : BitVec (w + w)) (i : Nat) :
    (hiHalf x).getLsbD i = (decide (i < w) && x.getLsbD (w + i)) := by
  unfold hiHalf; rw [BitVec.getLsbD_extractLsb']

theorem getLsbD_maskFF (w i : Nat) : (maskFF w).getLsbD i = decide (i < w) := by
  unfold maskFF
  rw [BitVec.getLsbD_ofNat, Nat.testBit_two_pow_sub_one]
  by_cases h : i < w
  · simp [h]; omega
  · simp [h]

/-- The narrow lanes `2i` and `2i+1` are the low and the high half of lane `i`. -/
theorem narrow_halves {n w : Nat} (r : Reg n (w + w)) (i : Fin n) :
    r i = narrow r ⟨2 * i.val + 1, by omega⟩ ++ narrow r ⟨2 * i.val, by omega⟩ := by
  have e1 : narrow r ⟨2 * i.val + 1, by omega⟩ = hiHalf (r i) := by
    unfold narrow
    simp only []
    rw [if_neg (by omega)]
    congr 2
    apply Fin.ext
    simp only []
    omega
  have e0 : narrow r ⟨2 * i.val, by omega⟩ = loHalf (r i) := by
    unfold narrow
    simp only []
    rw [if_pos (by omega)]
    congr 2
    apply Fin.ext
    simp only []
    omega
  rw [e1, e0]
  apply BitVec.eq_of_toNat_eq
  rw [BitVec.toNat_append, hiHalf_toNat, loHalf_toNat, Nat.shiftLeft_eq, Nat.mul_comm,
    ← Nat.two_pow_add_eq_or_of_lt (Nat.mod_lt _ (Nat.two_pow_pos w))]
  exact (Nat.div_add_mod _ _).symm

/-- Lift a statement on wide lanes to the narrow lanes of a register. -/
theorem narrow_map {n w : Nat} (f : BitVec (w + w) → BitVec (w + w)) (g : BitVec w → BitVec w)
    (hlo : ∀ x, loHalf (f x) = g (loHalf x)) (hhi : ∀ x, hiHalf (f x) = g (hiHalf x))
    (r : Reg n (w + w)) (k : Fin (2 * n)) : narrow (fun i => f (r i)) k = g (narrow r k) := by
  unfold narrow
  simp only []
  split
  · rw [hlo]
  · rw [hhi]

/-! ### C11 -/

/-- C11: in every narrow lane the product modulo `2^w` of the lanes. -/
theorem mul8_lanes {n w : Nat} (a b : Reg n (w + w)) (k : Fin (2 * n)) :
    narrow (fun i => mul8 (a i) (b i)) k = narrow a k * narrow b k := by
  have hp := Nat.two_pow_pos w
  have hlo : ∀ x y : BitVec (w + w), loHalf (mul8 x y) = loHalf x * loHalf y := by
    intro x y
    have e : loHalf (mul8 x y) = loHalf (x * y) := by
      apply BitVec.eq_of_getLsbD_eq
      intro i hi
      unfold mul8
      simp only [getLsbD_lo, BitVec.getLsbD_or, BitVec.getLsbD_and, BitVec.getLsbD_shiftLeft,
        getLsbD_maskFF, hi]
      simp
    rw [e]
    apply BitVec.eq_of_toNat_eq
    rw [loHalf_toNat, BitVec.toNat_mul, BitVec.toNat_mul, loHalf_toNat, loHalf_toNat,
      ← Nat.mul_mod, Nat.pow_add, Nat.mod_mul_left_mod]
  have hhi : ∀ x y : BitVec (w + w), hiHalf (mul8 x y) = hiHalf x * hiHalf y := by
    intro x y
    have e : hiHalf (mul8 x y) = loHalf ((x >>> w) * (y >>> w)) := by
      apply BitVec.eq_of_getLsbD_eq
      intro i hi
      unfold mul8
      simp only [getLsbD_lo, getLsbD_hi, BitVec.getLsbD_or, BitVec.getLsbD_and,
        BitVec.getLsbD_shiftLeft, getLsbD_maskFF, hi]
      have h1 : w + i < w + w := by omega
      have h2 : ¬ (w + i < w) := by omega
      have e : w + i - w = i := by omega
      rw [e]
      simp [h1, h2]
    rw [e]
    apply BitVec.eq_of_toNat_eq
    rw [loHalf_toNat, BitVec.toNat_mul, BitVec.toNat_mul, hiHalf_toNat, hiHalf_toNat,
      BitVec.toNat_ushiftRight, BitVec.toNat_ushiftRight, Nat.shiftRight_eq_div_pow,
      Nat.shiftRight_eq_div_pow, Nat.pow_add, Nat.mod_mul_left_mod]
  unfold narrow
  simp only []
  split
  · rw [hlo]
  · rw [hhi]

-- both lanes of one pair overflow, the carry does not leak into the neighbour
example : mul8 (w := 8) 0xff80#16 0xff03#16 = 0x0180#16 := by decide

/-! ### C10 -/

/-- C10, `shl`: every narrow lane is multiplied by `2^s` modulo `2^w`. -/
theorem shl2n_lanes {n w : Nat} (r : Reg n (w + w)) (s : Nat) (k : Fin (2 * n)) :
    (narrow (fun i => shl2n (r i) s) k).toNat = (narrow r k).toNat * 2 ^ s % 2 ^ w := by
  have h : narrow (fun i => shl2n (r i) s) k = narrow r k <<< s := by
    apply narrow_map (fun x => shl2n x s) (fun x => x <<< s)
    · intro x
      apply BitVec.eq_of_getLsbD_eq
      intro i hi
      unfold shl2n maskFF00
      simp only [getLsbD_lo, BitVec.getLsbD_or, BitVec.getLsbD_and, BitVec.getLsbD_shiftLeft,
        getLsbD_maskFF, BitVec.getLsbD_not, hi]
      by_cases h1 : i < s
      · simp [h1]
      · have : i - s < w := by omega
        have : i < w + w := by omega
        simp [h1, *]
    · intro x
      apply BitVec.eq_of_getLsbD_eq
      intro i hi
      unfold shl2n maskFF00
      simp only [getLsbD_hi, BitVec.getLsbD_or, BitVec.getLsbD_and, BitVec.getLsbD_shiftLeft,
        getLsbD_maskFF, BitVec.getLsbD_not, hi]
      by_cases h1 : i < s
      · by_cases h2 : w + i < s
        · simp [h1, h2]
        · have h3 : w + i - s < w := by omega
          have : ¬ (w + i < w) := by omega
          simp [h1, h2, h3, this]
      · have h2 : ¬ (w + i < s) := by omega
        have h3 : ¬ (w + i - s < w) := by omega
        have h4 : w + i - s < w + w := by omega
        have h5 : w + i < w + w := by omega
        have h6 : i - s < w := by omega
        have e : w + i - s = w + (i - s) := by omega
        simp [h1, h2, h3, h4, h5, h6, hi, e]
  rw [h, BitVec.toNat_shiftLeft, Nat.shiftLeft_eq]

/-- C10, `shr`: every narrow lane, read unsigned, is divided by `2^s`. -/
theorem shr2n_lanes {n w : Nat} (r : Reg n (w + w)) (s : Nat) (k : Fin (2 * n)) :
    (narrow (fun i => shr2n (r i) s) k).toNat = (narrow r k).toNat / 2 ^ s := by
  have h : narrow (fun i => shr2n (r i) s) k = narrow r k >>> s := by
    apply narrow_map (fun x => shr2n x s) (fun x => x >>> s)
    · intro x
      apply BitVec.eq_of_getLsbD_eq
      intro i hi
      unfold shr2n maskFF00
      simp only [getLsbD_lo, BitVec.getLsbD_or, BitVec.getLsbD_and, BitVec.getLsbD_ushiftRight,
        getLsbD_maskFF, BitVec.getLsbD_not, hi]
      simp [Bool.and_comm]
    · intro x
      apply BitVec.eq_of_getLsbD_eq
      intro i hi
      unfold shr2n maskFF00
      simp only [getLsbD_hi, BitVec.getLsbD_or, BitVec.getLsbD_and, BitVec.getLsbD_ushiftRight,
        getLsbD_maskFF, BitVec.getLsbD_not, hi]
      have e : s + (w + i) = w + (s + i) := by omega
      have h1 : ¬ (w + i < w) := by omega
      have h2 : w + i < w + w := by omega
      have h3 : ¬ (w + (s + i) < w) := by omega
      rw [e]
      by_cases h4 : s + i < w
      · simp [h1, h2, h3, h4]
      · have : x.getLsbD (w + (s + i)) = false := BitVec.getLsbD_of_ge _ _ (by omega)
        simp [h1, h2, h3, h4, this]
  rw [h, BitVec.toNat_ushiftRight, Nat.shiftRight_eq_div_pow]

/-- C10, `shra`: every narrow lane, read signed, is floor-divided by `2^s`. -/
theorem shraI8_lanes {n w : Nat} (hw : 0 < w) (r : Reg n (w + w)) (s : Nat) (k : Fin (2 * n)) :
    (narrow (fun i => shraI8 (r i) s) k).toInt = (narrow r k).toInt / 2 ^ s := by
  have h : narrow (fun i => shraI8 (r i) s) k = (narrow r k).sshiftRight s := by
    apply narrow_map (fun x => shraI8 x s) (fun x => x.sshiftRight s)
    · intro x
      apply BitVec.eq_of_getLsbD_eq
      intro i hi
      unfold shraI8 andnot
      have hm1 : (loHalf x).msb = x.getLsbD (w - 1) := by
        rw [BitVec.msb_eq_getLsbD_last, getLsbD_lo]; simp; omega
      have hm2 : (x <<< w).msb = x.getLsbD (w - 1) := by
        rw [BitVec.msb_eq_getLsbD_last, BitVec.getLsbD_shiftLeft]
        have h1 : w + w - 1 < w + w := by omega
        have h2 : ¬ (w + w - 1 < w) := by omega
        have e : w + w - 1 - w = w - 1 := by omega
        simp [h1, h2, e]
      simp only [getLsbD_lo, BitVec.getLsbD_or, BitVec.getLsbD_and, BitVec.getLsbD_sshiftRight,
        BitVec.getLsbD_ushiftRight, getLsbD_maskFF, BitVec.getLsbD_not, hm1, hm2,
        BitVec.getLsbD_shiftLeft, hi]
      have h1 : i < w + w := by omega
      have h2 : ¬ (w + w ≤ w + i) := by omega
      by_cases h3 : s + i < w
      · have h4 : s + (w + i) < w + w := by omega
        have h5 : ¬ (s + (w + i) < w) := by omega
        have e : s + (w + i) - w = s + i := by omega
        simp [h1, h2, h3, h4, h5, e, hi]
      · have h4 : ¬ (s + (w + i) < w + w) := by omega
        simp [h1, h2, h3, h4, hi]
    · intro x
      apply BitVec.eq_of_getLsbD_eq
      intro i hi
      unfold shraI8 andnot
      have hm1 : (hiHalf x).msb = x.msb := by
        rw [BitVec.msb_eq_getLsbD_last, getLsbD_hi, BitVec.msb_eq_getLsbD_last]
        have e : w + (w - 1) = w + w - 1 := by omega
        simp [e]; omega
      simp only [getLsbD_hi, BitVec.getLsbD_or, BitVec.getLsbD_and, BitVec.getLsbD_sshiftRight,
        BitVec.getLsbD_ushiftRight, getLsbD_maskFF, BitVec.getLsbD_not, hm1, hi]
      have h1 : w + i < w + w := by omega
      have h2 : ¬ (w + i < w) := by omega
      have h3 : w + w ≤ w + (w + i) := by omega
      have e : s + (w + i) = w + (s + i) := by omega
      have h4 : ¬ (w + w ≤ w + i) := by omega
      have h5 : ¬ (w ≤ i) := by omega
      by_cases h6 : s + i < w
      · have h7 : w + (s + i) < w + w := by omega
        simp [h1, h2, h3, h4, h5, h6, h7, e]
      · have h7 : ¬ (w + (s + i) < w + w) := by omega
        simp [h1, h2, h3, h4, h5, h6, h7, e]
  rw [h, BitVec.toInt_sshiftRight, Int.shiftRight_eq_div_pow]
  norm_cast

theorem byte_getLsbD (x : BitVec 32) (k i : Nat) :
    (byte x k).getLsbD i = (decide (i < 8) && x.getLsbD (8 * k + i)) := by
  unfold byte; rw [BitVec.getLsbD_extractLsb']

theorem masklo_bit : ∀ j, j < 32 → (0xFF00FF#32).getLsbD j = decide (j / 8 % 2 = 0) := by decide
theorem maskhi_bit : ∀ j, j < 32 → (0xFF00FF00#32).getLsbD j = decide (j / 8 % 2 = 1) := by decide

/-- C10, KNL variant through 32-bit lanes: each byte is shifted on its own.
The shift count must be below 8; `shl32for8_overflow` shows what happens beyond. -/
theorem shl32for8_lanes (x : BitVec 32) (s k : Nat) (hs : s ≤ 8) (hk : k < 4) :
    byte (shl32for8 x s) k = byte x k <<< s := by
  apply BitVec.eq_of_getLsbD_eq
  intro i hi
  unfold shl32for8
  simp only [byte_getLsbD, BitVec.getLsbD_or, BitVec.getLsbD_and, BitVec.getLsbD_shiftLeft]
  have h1 : 8 * k + i < 32 := by omega
  rw [masklo_bit _ h1, maskhi_bit _ h1]
  have e : (8 * k + i) / 8 = k := by omega
  rw [e]
  by_cases h2 : i < s
  · by_cases h3 : 8 * k + i < s
    · simp [h2, h3]
    · rw [masklo_bit _ (by omega), maskhi_bit _ (by omega)]
      have e2 : (8 * k + i - s) / 8 = k - 1 := by omega
      rw [e2]
      have hk0 : 0 < k := by omega
      rcases Nat.mod_two_eq_zero_or_one k with h | h
      · have : (k - 1) % 2 = 1 := by omega
        simp [h2, h, this]
      · have : (k - 1) % 2 = 0 := by omega
        simp [h2, h, this]
  · have h3 : ¬ (8 * k + i < s) := by omega
    rw [masklo_bit _ (by omega), maskhi_bit _ (by omega)]
    have e2 : (8 * k + i - s) / 8 = k := by omega
    have e3 : 8 * k + i - s = 8 * k + (i - s) := by omega
    have h4 : i - s < 8 := by omega
    rw [e2, e3]
    rcases Nat.mod_two_eq_zero_or_one k with h | h <;> simp [h, h1, h2, h3, h4, hi]

/-- C10, KNL variant of `shr`. -/
theorem shr32for8_lanes (x : BitVec 32) (s k : Nat) (hs : s ≤ 8) (hk : k < 4) :
    byte (shr32for8 x s) k = byte x k >>> s := by
  apply BitVec.eq_of_getLsbD_eq
  intro i hi
  unfold shr32for8
  simp only [byte_getLsbD, BitVec.getLsbD_or, BitVec.getLsbD_and, BitVec.getLsbD_ushiftRight]
  have h1 : 8 * k + i < 32 := by omega
  rw [masklo_bit _ h1, maskhi_bit _ h1]
  have e : (8 * k + i) / 8 = k := by omega
  rw [e]
  have e3 : s + (8 * k + i) = 8 * k + (s + i) := by omega
  rw [e3]
  by_cases h32 : 8 * k + (s + i) < 32
  · rw [masklo_bit _ h32, maskhi_bit _ h32]
    by_cases h2 : s + i < 8
    · have e2 : (8 * k + (s + i)) / 8 = k := by omega
      rw [e2]
      rcases Nat.mod_two_eq_zero_or_one k with h | h <;> simp [h, h2, hi]
    · have e2 : (8 * k + (s + i)) / 8 = k + 1 := by omega
      rw [e2]
      rcases Nat.mod_two_eq_zero_or_one k with h | h
      · have : (k + 1) % 2 = 1 := by omega
        simp [h, this, h2]
      · have : (k + 1) % 2 = 0 := by omega
        simp [h, this, h2]
  · have h2 : ¬ (s + i < 8) := by omega
    have : x.getLsbD (8 * k + (s + i)) = false := BitVec.getLsbD_of_ge _ _ (by omega)
    simp [h2, this]

/-- The bound on the count is needed: a shift by 16 moves bytes into other lanes
instead of clearing them. -/
theorem shl32for8_overflow : byte (shl32for8 1#32 16) 2 = 1#8 := by decide

example : narrow (n := 1) (fun i => shraI8 ((fun _ => 0x80F0#16 : Reg 1 (8 + 8)) i) 3) 0 = 0xFE#8
    := by decide
example : byte (shl32for8 0x80818283#32 1) 2 = 0x02#8 := by decide

end Nsimd.Props.X86
