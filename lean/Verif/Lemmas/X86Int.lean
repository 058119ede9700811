import Verif.Model.X86Int
import Mathlib.Tactic.Ring
import Mathlib.Tactic.Linarith

namespace Nsimd.X86

theorem notb_eq {w : Nat} (a : BitVec w) : notb a = ~~~a := by
  unfold notb andnotb andnot
  rw [BitVec.and_allOnes]

theorem notb_zero (w : Nat) : notb (0#w) = BitVec.allOnes w := by
  rw [notb_eq]; exact BitVec.not_zero

theorem notb_ones (w : Nat) : notb (BitVec.allOnes w) = 0#w := by
  rw [notb_eq]; exact BitVec.not_allOnes

theorem ifElseManual_ones {w : Nat} (a b : BitVec w) : ifElseManual (BitVec.allOnes w) a b = a := by
  unfold ifElseManual andnotb andnot; simp

theorem ifElseManual_zero {w : Nat} (a b : BitVec w) : ifElseManual (0#w) a b = b := by
  unfold ifElseManual andnotb andnot; simp

theorem toNat_bounds {n : Nat} (a : BitVec (n + 1)) : a.toNat < 2 * 2 ^ n := by
  have := a.isLt; rw [Nat.pow_succ] at this; omega

theorem toInt_cond {n : Nat} (a : BitVec (n + 1)) :
    a.toInt = if 2 ^ n ≤ a.toNat then (a.toNat : Int) - 2 * (2 ^ n : Nat) else a.toNat := by
  rw [BitVec.toInt_eq_msb_cond, BitVec.msb_eq_decide]
  simp only [Nat.add_sub_cancel, decide_eq_true_eq, Nat.pow_succ, Nat.mul_comm _ 2]
  rfl

theorem msb_cond {n : Nat} (a : BitVec (n + 1)) : a.msb = decide (2 ^ n ≤ a.toNat) := by
  rw [BitVec.msb_eq_decide]; simp

theorem toNat_add' {n : Nat} (a b : BitVec (n + 1)) :
    (a + b).toNat = if 2 * 2 ^ n ≤ a.toNat + b.toNat then a.toNat + b.toNat - 2 * 2 ^ n
      else a.toNat + b.toNat := by
  rw [BitVec.toNat_add, Nat.pow_succ, Nat.mul_comm _ 2]
  have ha := toNat_bounds a; have hb := toNat_bounds b
  split
  · rw [Nat.mod_eq_sub_mod (by omega), Nat.mod_eq_of_lt (by omega)]
  · exact Nat.mod_eq_of_lt (by omega)

theorem toNat_half (n : Nat) : (BitVec.ofNat (n + 1) (2 ^ n)).toNat = 2 ^ n := by
  rw [BitVec.toNat_ofNat, Nat.mod_eq_of_lt]
  rw [Nat.pow_succ]; have := Nat.two_pow_pos n; omega

theorem toInt_add_half {n : Nat} (a : BitVec (n + 1)) :
    (a + BitVec.ofNat (n + 1) (2 ^ n)).toInt = (a.toNat : Int) - (2 ^ n : Nat) := by
  rw [toInt_cond, toNat_add', toNat_half]
  have ha := toNat_bounds a
  have := Nat.two_pow_pos n
  generalize 2 ^ n = P at *
  (repeat' split) <;> omega

theorem shr_top {n : Nat} (a : BitVec (n + 1)) :
    a >>> n = BitVec.ofNat (n + 1) (if a.msb then 1 else 0) := by
  apply BitVec.eq_of_toNat_eq
  rw [BitVec.toNat_ushiftRight, Nat.shiftRight_eq_div_pow, msb_cond, BitVec.toNat_ofNat]
  have ha := toNat_bounds a
  have hp := Nat.two_pow_pos n
  rw [Nat.pow_succ]
  by_cases h : 2 ^ n ≤ a.toNat
  · simp only [h, decide_true, if_true]
    rw [Nat.mod_eq_of_lt (by omega)]
    exact Nat.div_eq_of_lt_le (by omega) (by omega)
  · simp only [h, decide_false]
    rw [Nat.div_eq_of_lt (by omega)]; simp

end Nsimd.X86
