import Verif.Model.ScalarInt

namespace Nsimd.ITy

theorem val_lb (t : ITy) (x : BitVec t.w) : t.minv ≤ t.val x := by
  cases t <;> simp only [val, minv, sgn, w] at * <;> simp only [if_true, if_false, Bool.false_eq_true] <;>
    first | (have := BitVec.le_toInt x; simp at this; omega) | omega

theorem val_ub (t : ITy) (x : BitVec t.w) : t.val x ≤ t.maxv := by
  cases t <;> simp only [val, maxv, sgn, w] at * <;> simp only [if_true, if_false, Bool.false_eq_true] <;>
    first | (have := BitVec.toInt_lt (x := x); simp at this; omega) | (have := x.isLt; omega)

theorem val_cast (t : ITy) (v : Int) (h1 : t.minv ≤ v) (h2 : v ≤ t.maxv) :
    t.val (t.cast v) = v := by
  cases t <;> simp only [val, cast, maxv, minv, sgn, w] at * <;>
    simp [BitVec.toInt_ofInt, BitVec.toNat_ofInt, Int.bmod_def] <;> omega

theorem cast_val (t : ITy) (x : BitVec t.w) : t.cast (t.val x) = x := by
  unfold cast val
  split
  · simp
  · simp

theorem val_inj (t : ITy) {x y : BitVec t.w} (h : t.val x = t.val y) : x = y := by
  rw [← cast_val t x, ← cast_val t y, h]

/-- The cast is reduction modulo `2^w`. -/
theorem val_cast_mod (t : ITy) (v : Int) : t.val (t.cast v) % 2 ^ t.w = v % 2 ^ t.w := by
  cases t <;> simp only [val, cast, sgn, w] at * <;>
    simp [BitVec.toInt_ofInt, BitVec.toNat_ofInt, Int.bmod_def] <;> omega

theorem cast_eq_of_mod (t : ITy) {v v' : Int} (h : v % 2 ^ t.w = v' % 2 ^ t.w) :
    t.cast v = t.cast v' := by
  unfold cast
  apply BitVec.eq_of_toNat_eq
  simp only [BitVec.toNat_ofInt]
  have : ((2 ^ t.w : Nat) : Int) = (2 : Int) ^ t.w := by simp
  rw [this, h]

/-- Promotion never changes the value modulo `2^w`. -/
theorem prom_mod {t : ITy} {v p : Int} (h : t.prom v = some p) :
    p % 2 ^ t.w = v % 2 ^ t.w := by
  cases t <;> simp only [prom, promSgn, promW, w, if_true, if_false, Bool.false_eq_true] at * <;>
    first
    | (split at h
       · simp only [Option.some.injEq] at h; rw [h]
       · simp at h)
    | (simp only [Option.some.injEq] at h; omega)

theorem prom_cast {t : ITy} {v p : Int} (h : t.prom v = some p) : t.cast p = t.cast v :=
  cast_eq_of_mod t (prom_mod h)

theorem prom_def {t : ITy} {v : Int}
    (h : t.promSgn = true → -2 ^ (t.promW - 1) ≤ v ∧ v < 2 ^ (t.promW - 1)) :
    ∃ p, t.prom v = some p := by
  unfold prom
  split
  · rename_i hs
    rw [if_pos (h hs)]; exact ⟨_, rfl⟩
  · exact ⟨_, rfl⟩

theorem prom_eq {t : ITy} {v : Int} (hs : t.promSgn = true)
    (h : -2 ^ (t.promW - 1) ≤ v ∧ v < 2 ^ (t.promW - 1)) : t.prom v = some v := by
  unfold prom
  rw [if_pos hs, if_pos h]

theorem prom_signed {t : ITy} (ht : t.promSgn = true) (v : Int) :
    t.prom v = if -2 ^ (t.promW - 1) ≤ v ∧ v < 2 ^ (t.promW - 1) then some v else none := by
  simp [prom, ht]

end Nsimd.ITy
