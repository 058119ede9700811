import Verif.Model.FixedPoint
import Verif.Lemmas.ScalarInt
import Mathlib.Tactic.Linarith
import Mathlib.Tactic.Ring
import Mathlib.Tactic.NormNum

/-!
Helper lemmas for the fixed point module.
-/

namespace Nsimd.FixedPoint

open Nsimd.ITy

theorem storage_le {lf rt : Nat} {t : ITy} (h : storage lf rt = some t) :
    t.sgn = true ∧ lf + 2 * rt ≤ t.w := by
  unfold storage at h
  split at h
  · cases h; exact ⟨rfl, by simp only [ITy.w]; omega⟩
  · split at h
    · cases h; exact ⟨rfl, by simp only [ITy.w]; omega⟩
    · split at h
      · cases h; exact ⟨rfl, by simp only [ITy.w]; omega⟩
      · split at h
        · cases h; exact ⟨rfl, by simp only [ITy.w]; omega⟩
        · cases h

theorem two_pow_le {a b : Nat} (h : a ≤ b) : (2 : Int) ^ a ≤ 2 ^ b :=
  pow_le_pow_right₀ (by norm_num) h

theorem fits {t : ITy} (hs : t.sgn = true) {n : Nat} (hn : n ≤ t.w) {v : Int}
    (h1 : -2 ^ n ≤ 2 * v) (h2 : 2 * v < 2 ^ n) : t.minv ≤ v ∧ v ≤ t.maxv := by
  have := two_pow_le hn
  cases t <;> simp only [sgn, Bool.false_eq_true, reduceCtorEq] at hs <;>
    simp only [w, minv, maxv] at * <;> omega

theorem prom_fits {t : ITy} (hs : t.sgn = true) {v : Int} (h1 : t.minv ≤ v) (h2 : v ≤ t.maxv) :
    t.prom v = some v := by
  apply prom_eq
  · cases t <;> simp_all
  · cases t <;> simp only [sgn, Bool.false_eq_true, reduceCtorEq] at hs <;>
      simp only [promW, minv, maxv] at * <;> omega

theorem minv_eq {t : ITy} (hs : t.sgn = true) : t.minv = -t.maxv - 1 := by
  cases t <;> first | rfl | cases hs

theorem maxv_pos (t : ITy) : 0 < t.maxv := by cases t <;> decide

theorem two_maxv {t : ITy} (hs : t.sgn = true) : 2 * (t.maxv + 1) = 2 ^ t.w := by
  cases t <;> first | rfl | cases hs

theorem w_le_promW (t : ITy) : t.w ≤ t.promW := by cases t <;> decide

theorem sarP_eq (t : ITy) (v : Int) {s : Nat} (h : s < t.w) : sarP t v s = some (v / 2 ^ s) := by
  have := w_le_promW t
  unfold sarP
  rw [if_pos ⟨by omega, by omega⟩]
  simp

theorem shlW_mod (t : ITy) (v : Int) {s : Nat} (h : s < t.promW) :
    ∃ p, shlW t v s = some p ∧ t.cast p = t.cast (v * 2 ^ s) := by
  unfold shlW
  rw [if_pos ⟨by omega, by omega⟩]
  refine ⟨_, rfl, ?_⟩
  apply cast_eq_of_mod
  simp only [Int.toNat_natCast]
  have hd : ((2 : Int) ^ t.w) ∣ ((2 ^ t.promW : Nat) : Int) := by
    push_cast
    exact pow_dvd_pow 2 (w_le_promW t)
  have h2 := Int.bmod_emod (x := v * 2 ^ s) (m := 2 ^ t.promW)
  rw [← Int.emod_emod_of_dvd _ hd, h2, Int.emod_emod_of_dvd _ hd]

theorem shlW_fits {t : ITy} (hs : t.sgn = true) (v : Int) {s : Nat} (h : s < t.promW)
    (h1 : t.minv ≤ v * 2 ^ s) (h2 : v * 2 ^ s ≤ t.maxv) :
    ∃ p, shlW t v s = some p ∧ t.val (t.cast p) = v * 2 ^ s := by
  obtain ⟨p, hp, hc⟩ := shlW_mod t v h
  exact ⟨p, hp, by rw [hc, val_cast t _ h1 h2]⟩

theorem val_eq_toInt {t : ITy} (hs : t.sgn = true) (x : BitVec t.w) : t.val x = x.toInt := by
  unfold ITy.val; rw [if_pos hs]

theorem half_lb {t : ITy} (hs : t.sgn = true) (x : BitVec t.w) :
    -2 ^ t.w ≤ 2 * t.val x ∧ 2 * t.val x < 2 ^ t.w := by
  have h1 := val_lb t x
  have h2 := val_ub t x
  cases t <;> simp only [sgn, Bool.false_eq_true, reduceCtorEq] at hs <;>
    simp only [w, minv, maxv] at * <;> constructor <;> omega

/-- Dividing does not leave the range of the type. -/
theorem div_fits {t : ITy} (hs : t.sgn = true) {v : Int} (h1 : t.minv ≤ v) (h2 : v ≤ t.maxv) (s : Nat) :
    t.minv ≤ v / 2 ^ s ∧ v / 2 ^ s ≤ t.maxv := by
  have hp : (0 : Int) < 2 ^ s := by positivity
  have hm : t.minv < 0 := by cases t <;> simp_all
  have hM : 0 < t.maxv := by cases t <;> simp_all
  constructor
  · rw [Int.le_ediv_iff_mul_le hp]
    nlinarith
  · by_cases h : 0 ≤ v
    · exact (Int.ediv_le_self _ h).trans h2
    · have : v / 2 ^ s < 0 := Int.ediv_neg_of_neg_of_pos (by omega) hp
      omega

/-- The sign bits or-ed by `mul` are already set. -/
theorem or_sign {t : ITy} (hs : t.sgn = true) {rt : Nat} (h0 : 0 < rt) (hr : rt ≤ t.w) (x : BitVec t.w)
    (hx : t.val x < 0) (sv : BitVec t.w) (hsv : FixedPoint.signVal t rt = some sv) :
    t.cast (t.val x / 2 ^ rt) ||| sv = t.cast (t.val x / 2 ^ rt) := by
  have hsv' : sv = BitVec.allOnes t.w <<< (t.w - rt) := by
    simp only [FixedPoint.signVal, Option.bind_eq_bind, Option.bind_eq_some_iff] at hsv
    obtain ⟨p, hp, hq⟩ := hsv
    have hq := Option.some.inj hq
    subst hq
    unfold ITy.shlP at hp
    split at hp
    · split at hp
      · cases hp
      · have hw : t.utyp.w = t.w := by cases t <;> rfl
        have hm := prom_mod hp
        rw [hw] at hm
        rw [cast_eq_of_mod t hm]
        have e : ((t.w : Int) - rt).toNat = t.w - rt := by omega
        rw [e]
        unfold ITy.cast
        apply BitVec.eq_of_toInt_eq
        rw [BitVec.toInt_ofInt, BitVec.toInt_shiftLeft]
        congr 1
        rw [BitVec.toNat_allOnes, Nat.shiftLeft_eq]
        push_cast [Nat.one_le_two_pow]
        ring
    · cases hp
  have hc : t.cast (t.val x / 2 ^ rt) = x.sshiftRight rt := by
    apply BitVec.eq_of_toInt_eq
    rw [BitVec.toInt_sshiftRight, Int.shiftRight_eq_div_pow]
    have hf := div_fits hs (val_lb t x) (val_ub t x) rt
    have := val_cast t _ hf.1 hf.2
    rw [val_eq_toInt hs] at this
    rw [this, val_eq_toInt hs]
    push_cast
    rfl
  rw [hc, hsv']
  have hmsb : x.msb = true := by
    rw [BitVec.msb_eq_toInt]
    rw [val_eq_toInt hs] at hx
    exact decide_eq_true hx
  apply BitVec.eq_of_getLsbD_eq
  intro i hi
  simp only [BitVec.getLsbD_or, BitVec.getLsbD_shiftLeft, BitVec.getLsbD_sshiftRight,
    BitVec.getLsbD_allOnes]
  by_cases h : t.w - rt ≤ i
  · have hn : ¬ (rt + i < t.w) := by omega
    simp [hi, hn, hmsb]
  · have : i < t.w - rt := by omega
    simp [this]

theorem signVal_def {t : ITy} (hs : t.sgn = true) {rt : Nat} (h0 : 0 < rt) (hr : rt ≤ t.w) :
    ∃ sv, FixedPoint.signVal t rt = some sv := by
  unfold FixedPoint.signVal ITy.shlP
  have hw : t.utyp.w = t.w := by cases t <;> rfl
  have hpw : t.w ≤ t.utyp.promW := by cases t <;> decide
  have hnn : ¬ (t.utyp.promSgn = true ∧ (2 : Int) ^ t.w - 1 < 0) := by
    have : (0 : Int) < 2 ^ t.w := by positivity
    omega
  rw [if_pos ⟨by omega, by omega⟩, if_neg hnn]
  have hd : ∃ p, t.utyp.prom ((2 ^ t.w - 1) * 2 ^ ((t.w : Int) - rt).toNat) = some p := by
    apply prom_def
    intro hps
    have e : ((t.w : Int) - rt).toNat ≤ t.w - 1 := by omega
    have hb := two_pow_le e
    have hp : (0 : Int) < 2 ^ ((t.w : Int) - rt).toNat := by positivity
    generalize (2 : Int) ^ ((t.w : Int) - rt).toNat = y at *
    cases t <;> simp only [sgn, utyp, promSgn, Bool.false_eq_true, reduceCtorEq] at hs hps <;>
      simp only [w, utyp, promW] at * <;> constructor <;> omega
  obtain ⟨p, hp⟩ := hd
  rw [hp]
  exact ⟨_, rfl⟩

theorem mul_raw {t : ITy} (hs : t.sgn = true) {rt : Nat} (h0 : 0 < rt) (hr : rt < t.w)
    (a b : BitVec t.w) (h1 : t.minv ≤ t.val a * t.val b) (h2 : t.val a * t.val b ≤ t.maxv) :
    ∃ r, FixedPoint.mul t rt a b = some r ∧ t.val r = t.val a * t.val b / 2 ^ rt := by
  obtain ⟨sv, hsv⟩ := signVal_def hs h0 hr.le
  have hf := div_fits hs h1 h2 rt
  have hv : t.val (t.cast (t.val a * t.val b)) = t.val a * t.val b := val_cast t _ h1 h2
  refine ⟨t.cast (t.val a * t.val b / 2 ^ rt), ?_, val_cast t _ hf.1 hf.2⟩
  unfold FixedPoint.mul
  rw [hsv, prom_fits hs h1 h2]
  simp only [Option.bind_eq_bind, Option.bind_some]
  rw [sarP_eq t _ hr]
  simp only [Option.bind_some]
  split
  · rename_i hneg
    have := or_sign hs h0 hr.le _ hneg sv hsv
    rw [hv] at this
    rw [hv]
    exact congrArg some this
  · rw [hv]
    exact congrArg some (BitVec.or_zero)

/-- The masked operand of a comparison: the low `s` bits are cleared. -/
theorem and_mask {t : ITy} (hs : t.sgn = true) {s : Nat} (hsw : s < t.w) {m : BitVec t.w}
    (hm : m = t.cast (-1 * 2 ^ s)) (a : BitVec t.w) :
    t.val (a &&& m) = t.val a / 2 ^ s * 2 ^ s := by
  have hm' : m = BitVec.allOnes t.w <<< s := by
    subst hm
    apply BitVec.eq_of_toInt_eq
    unfold ITy.cast
    rw [BitVec.toInt_ofInt, BitVec.toInt_shiftLeft, BitVec.toNat_allOnes, Nat.shiftLeft_eq]
    push_cast [Nat.one_le_two_pow]
    have : ((2 : Int) ^ t.w - 1) * 2 ^ s = -1 * 2 ^ s + 2 ^ s * ((2 ^ t.w : Nat) : Int) := by
      push_cast; ring
    rw [this]
    exact (Int.add_mul_bmod_self_right _ _ _).symm
  have hp : (0 : Int) < 2 ^ s := by positivity
  have hl := val_lb t a
  have hu := val_ub t a
  have hle : t.val a / 2 ^ s * 2 ^ s ≤ t.val a := Int.ediv_mul_le _ hp.ne'
  have hge : t.minv ≤ t.val a / 2 ^ s * 2 ^ s := by
    obtain ⟨k, hk⟩ : (2 : Int) ^ s ∣ t.minv := by
      have e : t.minv = -(2 ^ (t.w - 1)) := by cases t <;> simp_all
      rw [e]
      exact (dvd_neg.mpr (pow_dvd_pow 2 (by omega)))
    have : k ≤ t.val a / 2 ^ s := by
      rw [Int.le_ediv_iff_mul_le hp]
      rw [hk] at hl; linarith
    rw [hk]
    nlinarith
  have hc : a &&& m = t.cast (t.val a / 2 ^ s * 2 ^ s) := by
    have e1 : t.cast (t.val a / 2 ^ s * 2 ^ s) = a.sshiftRight s <<< s := by
      apply BitVec.eq_of_toInt_eq
      unfold ITy.cast
      have hq : t.val a / 2 ^ s = (a.sshiftRight s).toInt := by
        rw [BitVec.toInt_sshiftRight, Int.shiftRight_eq_div_pow, val_eq_toInt hs]
        push_cast; rfl
      rw [hq, BitVec.toInt_ofInt, BitVec.toInt_shiftLeft, Nat.shiftLeft_eq]
      have h3 : (a.sshiftRight s).toInt * 2 ^ s
          = ((a.sshiftRight s).toInt) * ((2 ^ s : Nat) : Int) := by push_cast; rfl
      rw [h3]
      push_cast
      have h4 : ((a.sshiftRight s).toInt).bmod (2 ^ t.w) = ((a.sshiftRight s).toNat : Int).bmod (2 ^ t.w) := by
        rw [BitVec.toInt_eq_toNat_bmod]
        exact Int.bmod_bmod
      rw [← Int.bmod_mul_bmod, h4, Int.bmod_mul_bmod]
    rw [e1, hm']
    apply BitVec.eq_of_getLsbD_eq
    intro i hi
    simp only [BitVec.getLsbD_and, BitVec.getLsbD_shiftLeft, BitVec.getLsbD_sshiftRight,
      BitVec.getLsbD_allOnes]
    by_cases h : i < s
    · simp [h]
    · have e : s + (i - s) = i := by omega
      have e2 : i - s < t.w := by omega
      simp [h, hi, e, e2]
  rw [hc, val_cast t _ hge (hle.trans hu)]

theorem cmpMask_eq {t : ITy} (hs : t.sgn = true) {lf rt : Nat} (h : lf + rt ≤ t.w) (h0 : 0 < lf + rt) :
    FixedPoint.cmpMask t lf rt = some (t.cast (-1 * 2 ^ (t.w - lf - rt))) := by
  have e : (t.w : Int) - lf - rt = ((t.w - lf - rt : Nat) : Int) := by omega
  have := w_le_promW t
  obtain ⟨p, hp, hc⟩ := shlW_mod t (-1) (s := t.w - lf - rt) (by omega)
  unfold FixedPoint.cmpMask
  rw [e, hp]
  simp [hc]

end Nsimd.FixedPoint
