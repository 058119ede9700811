import Verif.Model.Random
import Verif.Props.CpuShuffle
import Mathlib.Tactic.Ring
import Mathlib.Data.Fintype.Card

/-!
# Lemmas on the random module
-/

namespace Nsimd.Random
/-- The carries of two additions modulo `M`. -/
theorem carry_chain (t1 t2 w x y z M : Nat) (l1 : t1 < M) (l2 : t2 < M) (l3 : w < M) (hM : 2 ≤ M)
    (hAB : z * M + (y * M + t2) + (x * M + t1) + w < M * M) :
    (((z + x) % M + y) % M + ((if (t1 + t2) % M < t1 ∨ (t1 + t2) % M < t2 then 1 else 0) +
      (if ((t1 + t2) % M + w) % M < (t1 + t2) % M ∨ ((t1 + t2) % M + w) % M < w then 1 else 0)) % M)
        % M * M + ((t1 + t2) % M + w) % M = z * M + (y * M + t2) + (x * M + t1) + w := by
  have wrap : ∀ p q : Nat, p < M → q < M →
      p + q = (p + q) % M + (if (p + q) % M < p ∨ (p + q) % M < q then 1 else 0) * M ∧
      (p + q) % M < M := by
    intro p q hp hq
    refine ⟨?_, Nat.mod_lt _ (by omega)⟩
    by_cases h : p + q < M
    · rw [Nat.mod_eq_of_lt h, if_neg (by omega)]; omega
    · have e : (p + q) % M = p + q - M := by
        rw [Nat.mod_eq_sub_mod (by omega), Nat.mod_eq_of_lt (by omega)]
      rw [e, if_pos (by omega)]; omega
  obtain ⟨w1, b1⟩ := wrap t1 t2 l1 l2
  obtain ⟨w2, b2⟩ := wrap _ w b1 l3
  have c1 : (if (t1 + t2) % M < t1 ∨ (t1 + t2) % M < t2 then 1 else 0) ≤ 1 := by split <;> omega
  have c2 : (if ((t1 + t2) % M + w) % M < (t1 + t2) % M ∨ ((t1 + t2) % M + w) % M < w then 1 else 0)
      ≤ 1 := by split <;> omega
  generalize (if (t1 + t2) % M < t1 ∨ (t1 + t2) % M < t2 then 1 else 0) = k1 at *
  generalize (if ((t1 + t2) % M + w) % M < (t1 + t2) % M ∨ ((t1 + t2) % M + w) % M < w then 1 else 0)
    = k2 at *
  generalize (t1 + t2) % M = t3 at *
  generalize (t3 + w) % M = t4 at *
  have e : z * M + (y * M + t2) + (x * M + t1) + w = (z + x + y + (k1 + k2)) * M + t4 := by
    simp only [add_mul]; omega
  rw [e] at hAB ⊢
  have hS : z + x + y + (k1 + k2) < M := by
    by_contra hc
    have : M * M ≤ (z + x + y + (k1 + k2)) * M := Nat.mul_le_mul_right _ (by omega)
    omega
  rw [Nat.mod_eq_of_lt (show z + x < M by omega), Nat.mod_eq_of_lt (show z + x + y < M by omega)]
  rw [Nat.mod_eq_of_lt (show k1 + k2 < M by omega), Nat.mod_eq_of_lt hS]

/-- Half-word products: the result is the exact product. -/
theorem mulhilo_product {h : Nat} (h0 : 0 < h) (a b : BitVec (2 * h)) :
    (mulhilo a b).2.toNat * 2 ^ (2 * h) + (mulhilo a b).1.toNat = a.toNat * b.toNat := by
  have hP : 2 ^ (2 * h) = 2 ^ h * 2 ^ h := by rw [two_mul, pow_add]
  have hP2 : 2 ≤ 2 ^ h := by
    calc 2 = 2 ^ 1 := rfl
      _ ≤ 2 ^ h := Nat.pow_le_pow_right (by omega) h0
  have ha := a.isLt
  have hb := b.isLt
  -- the four halves
  have hah : (a >>> h).toNat = a.toNat / 2 ^ h := by
    rw [BitVec.toNat_ushiftRight, Nat.shiftRight_eq_div_pow]
  have hbh : (b >>> h).toNat = b.toNat / 2 ^ h := by
    rw [BitVec.toNat_ushiftRight, Nat.shiftRight_eq_div_pow]
  have low : ∀ x : BitVec (2 * h), ((x <<< h) >>> h).toNat = x.toNat % 2 ^ h := by
    intro x
    rw [BitVec.toNat_ushiftRight, BitVec.toNat_shiftLeft, Nat.shiftRight_eq_div_pow,
      Nat.shiftLeft_eq, hP, Nat.mul_mod_mul_right, Nat.mul_div_cancel _ (by omega)]
  have hal := low a
  have hbl := low b
  have shl : ∀ x : BitVec (2 * h), (x <<< h).toNat = x.toNat % 2 ^ h * 2 ^ h := by
    intro x
    rw [BitVec.toNat_shiftLeft, Nat.shiftLeft_eq, hP, Nat.mul_mod_mul_right]
  have shr : ∀ x : BitVec (2 * h), (x >>> h).toNat = x.toNat / 2 ^ h := by
    intro x
    rw [BitVec.toNat_ushiftRight, Nat.shiftRight_eq_div_pow]
  have prod : ∀ x y : BitVec (2 * h), x.toNat < 2 ^ h → y.toNat < 2 ^ h →
      (x * y).toNat = x.toNat * y.toNat := by
    intro x y hx hy
    rw [BitVec.toNat_mul, Nat.mod_eq_of_lt]
    rw [hP]
    exact Nat.mul_lt_mul'' hx hy
  have one : (1#(2 * h)).toNat = 1 := by
    rw [BitVec.toNat_ofNat, Nat.mod_eq_of_lt]; exact Nat.one_lt_two_pow (by omega)
  have zero : (0#(2 * h)).toNat = 0 := rfl
  have lah : (a >>> h).toNat < 2 ^ h := by rw [hah]; apply Nat.div_lt_of_lt_mul; rwa [← hP]
  have lbh : (b >>> h).toNat < 2 ^ h := by rw [hbh]; apply Nat.div_lt_of_lt_mul; rwa [← hP]
  have lal : ((a <<< h) >>> h).toNat < 2 ^ h := by rw [hal]; exact Nat.mod_lt _ (by omega)
  have lbl : ((b <<< h) >>> h).toNat < 2 ^ h := by rw [hbl]; exact Nat.mod_lt _ (by omega)
  have ea : a.toNat = (a >>> h).toNat * 2 ^ h + ((a <<< h) >>> h).toNat := by
    rw [hah, hal]; exact (Nat.div_add_mod' _ _).symm
  have eb : b.toNat = (b >>> h).toNat * 2 ^ h + ((b <<< h) >>> h).toNat := by
    rw [hbh, hbl]; exact (Nat.div_add_mod' _ _).symm
  unfold mulhilo
  dsimp only
  generalize a >>> h = ah at *
  generalize b >>> h = bh at *
  generalize (a <<< h) >>> h = al at *
  generalize (b <<< h) >>> h = bl at *
  have p1 := prod ah bh lah lbh
  have p2 := prod ah bl lah lbl
  have p3 := prod al bh lal lbh
  have p4 := prod al bl lal lbl
  have hAB : a.toNat * b.toNat < 2 ^ (2 * h) * 2 ^ (2 * h) := Nat.mul_lt_mul'' ha hb
  have expand : a.toNat * b.toNat = (ah * bh).toNat * 2 ^ (2 * h) + (ah * bl).toNat * 2 ^ h
      + (al * bh).toNat * 2 ^ h + (al * bl).toNat := by
    rw [p1, p2, p3, p4, ea, eb, hP]; ring
  generalize a.toNat * b.toNat = AB at *
  have hx := Nat.div_add_mod' (al * bh).toNat (2 ^ h)
  have hy := Nat.div_add_mod' (ah * bl).toNat (2 ^ h)
  have t1 := shl (al * bh)
  have t2 := shl (ah * bl)
  have s1 := shr (al * bh)
  have s2 := shr (ah * bl)
  have e1 : (al * bh).toNat * 2 ^ h = ((al * bh) >>> h).toNat * 2 ^ (2 * h) + ((al * bh) <<< h).toNat := by
    rw [s1, t1, hP, ← mul_assoc, ← add_mul, hx]
  have e2 : (ah * bl).toNat * 2 ^ h = ((ah * bl) >>> h).toNat * 2 ^ (2 * h) + ((ah * bl) <<< h).toNat := by
    rw [s2, t2, hP, ← mul_assoc, ← add_mul, hy]
  rw [e1, e2] at expand
  have l1 := ((al * bh) <<< h).isLt
  have l2 := ((ah * bl) <<< h).isLt
  have l3 := (al * bl).isLt
  clear e1 e2 s1 s2 t1 t2 hx hy p1 p2 p3 p4 ea eb lah lbh lal lbl hah hbh hal hbl low shl shr prod hP
  generalize (al * bh) <<< h = T1 at *
  generalize (ah * bl) <<< h = T2 at *
  generalize (al * bh) >>> h = X at *
  generalize (ah * bl) >>> h = Y at *
  generalize ah * bh = Z at *
  generalize al * bl = W at *
  simp only [BitVec.lt_def, BitVec.toNat_add, apply_ite BitVec.toNat, one, zero]
  have hM : 2 ≤ 2 ^ (2 * h) := Nat.le_self_pow (by omega) 2
  clear one zero
  generalize T1.toNat = t1 at *
  generalize T2.toNat = t2 at *
  generalize X.toNat = x at *
  generalize Y.toNat = y at *
  generalize Z.toNat = z at *
  generalize W.toNat = w at *
  generalize 2 ^ (2 * h) = M at *
  subst expand
  exact carry_chain t1 t2 w x y z M l1 l2 l3 hM hAB

theorem and_low (x : BitVec 64) : (x &&& 0xFFFFFFFF#64).toNat = x.toNat % 2 ^ 32 := by
  rw [BitVec.toNat_and]
  exact Nat.and_two_pow_sub_one_eq_mod x.toNat 32

theorem shr32 (x : BitVec 64) : (x >>> 32).toNat = x.toNat / 2 ^ 32 := by
  rw [BitVec.toNat_ushiftRight, Nat.shiftRight_eq_div_pow]

/-- The reference's version of the product. -/
theorem refMulhilo64_product (a b : BitVec 64) :
    (refMulhilo64 a b).2.toNat * 2 ^ 64 + (refMulhilo64 a b).1.toNat = a.toNat * b.toNat := by
  have ha := a.isLt
  have hb := b.isLt
  have prod : ∀ x y : BitVec 64, x.toNat < 2 ^ 32 → y.toNat < 2 ^ 32 →
      (x * y).toNat = x.toNat * y.toNat ∧ x.toNat * y.toNat ≤ (2 ^ 32 - 1) * (2 ^ 32 - 1) := by
    intro x y hx hy
    have : x.toNat * y.toNat ≤ (2 ^ 32 - 1) * (2 ^ 32 - 1) := Nat.mul_le_mul (by omega) (by omega)
    refine ⟨?_, this⟩
    rw [BitVec.toNat_mul, Nat.mod_eq_of_lt]
    omega
  have e0 := and_low a
  have e1 := shr32 a
  have e2 := and_low b
  have e3 := shr32 b
  unfold refMulhilo64
  dsimp only
  generalize a &&& 0xFFFFFFFF#64 = a0 at *
  generalize a >>> 32 = a1 at *
  generalize b &&& 0xFFFFFFFF#64 = b0 at *
  generalize b >>> 32 = b1 at *
  obtain ⟨p1, q1⟩ := prod a0 b0 (by omega) (by omega)
  obtain ⟨p2, q2⟩ := prod a0 b1 (by omega) (by omega)
  obtain ⟨p3, q3⟩ := prod a1 b0 (by omega) (by omega)
  obtain ⟨p4, q4⟩ := prod a1 b1 (by omega) (by omega)
  have ea : a.toNat = a1.toNat * 2 ^ 32 + a0.toNat := by omega
  have eb : b.toNat = b1.toNat * 2 ^ 32 + b0.toNat := by omega
  have expand : a.toNat * b.toNat = (a1.toNat * b1.toNat) * 2 ^ 64
      + (a0.toNat * b1.toNat) * 2 ^ 32 + (a1.toNat * b0.toNat) * 2 ^ 32
      + a0.toNat * b0.toNat := by
    rw [ea, eb]; ring
  rw [BitVec.toNat_mul, expand]
  simp only [BitVec.toNat_add, shr32, and_low, p1, p2, p3, p4]
  generalize a0.toNat * b0.toNat = w at *
  generalize a0.toNat * b1.toNat = x at *
  generalize a1.toNat * b0.toNat = y at *
  generalize a1.toNat * b1.toNat = z at *
  clear expand ea eb prod p1 p2 p3 p4
  omega

/-- Any pair of words that satisfies the product equation is the same. -/
theorem product_unique {w : Nat} (p q : BitVec w × BitVec w)
    (h : p.2.toNat * 2 ^ w + p.1.toNat = q.2.toNat * 2 ^ w + q.1.toNat) : p = q := by
  have hp1 := p.1.isLt
  have hq1 := q.1.isLt
  have e1 : p.1.toNat = q.1.toNat := by
    have := congrArg (· % 2 ^ w) h
    simpa [Nat.mul_add_mod_of_lt, hp1, hq1, Nat.mod_eq_of_lt, Nat.add_mod] using this
  have e2 : p.2.toNat = q.2.toNat := by
    rw [e1] at h
    exact Nat.eq_of_mul_eq_mul_right (Nat.two_pow_pos w) (Nat.add_right_cancel h)
  exact Prod.ext (BitVec.eq_of_toNat_eq e1) (BitVec.eq_of_toNat_eq e2)

end Nsimd.Random
