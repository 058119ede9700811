import Verif.Model.X86Lane
import Mathlib.Data.Nat.Basic

/-! Helper lemmas about lanes of a register seen as bits. -/

namespace Nsimd.X86

variable {N w : Nat}

theorem getLsbD_lane (r : BitVec N) (i k : Nat) (hk : k < w) :
    (lane w r i).getLsbD k = r.getLsbD (w * i + k) := by
  unfold lane
  rw [BitVec.getLsbD_extractLsb']
  simp [hk]

theorem getLsbD_insertEpi (r : BitVec N) (x : BitVec w) (i k : Nat) (hk : k < N) :
    (insertEpi r x i).getLsbD k = if k / w = i then x.getLsbD (k % w) else r.getLsbD k := by
  unfold insertEpi
  rw [BitVec.getLsbD_ofFnLE, dif_pos hk]

theorem mul_add_div' {i k : Nat} (hk : k < w) : (w * i + k) / w = i := by
  have hw : 0 < w := by omega
  rw [Nat.mul_add_div hw, Nat.div_eq_of_lt hk, Nat.add_zero]

theorem mul_add_mod'' {i k : Nat} (hk : k < w) : (w * i + k) % w = k := by
  rw [Nat.mul_add_mod, Nat.mod_eq_of_lt hk]

theorem lane_lt {j k : Nat} (hj : w * (j + 1) ≤ N) (hk : k < w) : w * j + k < N := by
  rw [Nat.mul_add, Nat.mul_one] at hj; omega

theorem lane_insertEpi (r : BitVec N) (x : BitVec w) (i j : Nat) (hj : w * (j + 1) ≤ N) :
    lane w (insertEpi r x i) j = if j = i then x else lane w r j := by
  apply BitVec.eq_of_getLsbD_eq
  intro k hk
  rw [getLsbD_lane _ _ _ hk, getLsbD_insertEpi _ _ _ _ (lane_lt hj hk), mul_add_div' hk,
    mul_add_mod'' hk]
  split
  · rfl
  · rw [getLsbD_lane _ _ _ hk]

theorem lane_lo (r : BitVec (N + N)) (i : Nat) (hi : w * (i + 1) ≤ N) :
    lane w (r.extractLsb' 0 N) i = lane w r i := by
  apply BitVec.eq_of_getLsbD_eq
  intro k hk
  rw [getLsbD_lane _ _ _ hk, getLsbD_lane _ _ _ hk, BitVec.getLsbD_extractLsb']
  simp [lane_lt hi hk]

theorem lane_hi (r : BitVec (N + N)) (h i : Nat) (hh : w * h = N) (hi : w * (i + 1) ≤ N) :
    lane w (r.extractLsb' N N) i = lane w r (h + i) := by
  apply BitVec.eq_of_getLsbD_eq
  intro k hk
  rw [getLsbD_lane _ _ _ hk, getLsbD_lane _ _ _ hk, BitVec.getLsbD_extractLsb']
  simp only [lane_lt hi hk, decide_true, Bool.true_and]
  congr 1
  rw [Nat.mul_add, hh, Nat.add_assoc]

theorem lane_append (a b : BitVec N) (h i : Nat) (hh : w * h = N) :
    lane w (b ++ a) i = if i < h then lane w a i else lane w b (i - h) := by
  apply BitVec.eq_of_getLsbD_eq
  intro k hk
  rw [getLsbD_lane _ _ _ hk, BitVec.getLsbD_append]
  by_cases hc : i < h
  · have : w * (i + 1) ≤ N := by rw [← hh]; exact Nat.mul_le_mul_left _ hc
    rw [if_pos (lane_lt this hk), if_pos hc, getLsbD_lane _ _ _ hk]
  · have : ¬ w * i + k < N := by
      rw [← hh]
      have := Nat.mul_le_mul_left w (Nat.le_of_not_lt hc)
      omega
    rw [if_neg this, if_neg hc, getLsbD_lane _ _ _ hk]
    congr 1
    rw [Nat.mul_sub, hh]
    have := Nat.mul_le_mul_left w (Nat.le_of_not_lt hc)
    omega

/-- A register whose lanes agree is equal. -/
theorem ext_lanes {a b : BitVec N} (n : Nat) (hn : w * n = N)
    (h : ∀ i, i < n → lane w a i = lane w b i) : a = b := by
  apply BitVec.eq_of_getLsbD_eq
  intro k hk
  have hw : 0 < w := by
    rcases Nat.eq_zero_or_pos w with h0 | h0
    · subst h0; rw [Nat.zero_mul] at hn; omega
    · exact h0
  have hd : k / w < n := by
    rw [Nat.div_lt_iff_lt_mul hw, Nat.mul_comm, hn]; exact hk
  have : (lane w a (k / w)).getLsbD (k % w) = (lane w b (k / w)).getLsbD (k % w) := by
    rw [h (k / w) hd]
  rw [getLsbD_lane _ _ _ (Nat.mod_lt _ hw), getLsbD_lane _ _ _ (Nat.mod_lt _ hw),
    Nat.div_add_mod] at this
  exact this

theorem setWidth_setWidth_le {m n : Nat} (h : n ≤ m) (x : BitVec n) :
    (x.setWidth m).setWidth n = x := by
  apply BitVec.eq_of_getLsbD_eq
  intro k hk
  rw [BitVec.getLsbD_setWidth, BitVec.getLsbD_setWidth]
  simp [hk, Nat.lt_of_lt_of_le hk h]

end Nsimd.X86
