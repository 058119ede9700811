import Verif.Lemmas.ScalarInt
import Mathlib.Tactic.Ring
import Mathlib.Tactic.Linarith
import Mathlib.Tactic.Zify

set_option linter.unusedSimpArgs false
set_option linter.unusedVariables false

namespace Nsimd.Props
open ITy

theorem toNat_cast (t : ITy) (v : Int) : ((t.cast v).toNat : Int) = v % 2 ^ t.w := by
  unfold ITy.cast
  rw [BitVec.toNat_ofInt]
  have : ((2 ^ t.w : Nat) : Int) = (2 : Int) ^ t.w := by simp
  rw [this]
  have := Int.emod_nonneg v (b := 2 ^ t.w) (by cases t <;> decide)
  omega

/-- The unsigned reading of a bit pattern: the specification side of `shr`. -/
def unsignedValue {n : Nat} (x : BitVec n) : Int := x.toNat

theorem pow2_split {w s : Nat} (h : s ≤ w) : (2 : Int) ^ w = 2 ^ (w - s) * 2 ^ s := by
  rw [← Int.pow_add]; congr 1; omega

theorem pow2_pos (s : Nat) : (0 : Int) < 2 ^ s := Int.pow_pos (by decide)

theorem shrP_eq (t : ITy) (a : BitVec t.w) (s : Nat) (hs : s < t.w) :
    t.utyp.shrP (Scalar.uread t a) s = some ((a.toNat : Int) / 2 ^ s) := by
  unfold ITy.shrP Scalar.uread
  have : t.w ≤ t.utyp.promW := by cases t <;> decide
  rw [if_pos (by omega)]
  simp

/-- C09, logical right shift: for every count in `[0, w)` the operator is
defined and divides the unsigned reading by `2^s`, rounding down. -/
theorem shr_floor_div (t : ITy) (a : BitVec t.w) (s : Nat) (hs : s < t.w) :
    ∃ r, Scalar.shr t a s = some r ∧ unsignedValue r = unsignedValue a / 2 ^ s := by
  unfold Scalar.shr
  rw [shrP_eq t a s hs]
  refine ⟨_, rfl, ?_⟩
  unfold unsignedValue
  rw [toNat_cast]
  apply Int.emod_eq_of_lt
  · exact Int.ediv_nonneg (by omega) (Int.le_of_lt (pow2_pos s))
  · have h1 : (a.toNat : Int) < 2 ^ t.w := by
      have := a.isLt
      have e : ((2 ^ t.w : Nat) : Int) = (2 : Int) ^ t.w := by simp
      omega
    have h2 : (a.toNat : Int) / 2 ^ s ≤ a.toNat :=
      Int.ediv_le_self _ (by omega)
    omega

example : ∃ r, Scalar.shr .i8 (BitVec.ofInt 8 (-1)) 3 = some r ∧ unsignedValue r = 31 := ⟨31#8, by decide⟩

/-- Specification of `shl`: exact product modulo `2^w`. -/
theorem shl_mul_pow (t : ITy) (a r : BitVec t.w) (s : Nat)
    (h : Scalar.shl t a s = some r) :
    t.val r % 2 ^ t.w = (t.val a * 2 ^ s) % 2 ^ t.w := by
  simp only [Scalar.shl, Option.bind_eq_bind, Option.bind_eq_some_iff] at h
  obtain ⟨p, hp, h⟩ := h
  obtain rfl : t.cast p = r := by simpa using h
  unfold ITy.shlP at hp
  split at hp
  · split at hp
    · simp at hp
    · rw [prom_cast hp, val_cast_mod]; simp
  · simp at hp

/-- C09, left shift is defined for every count in `[0, w)` and every value of
an unsigned type, and for non-negative values of `i8`/`i16`; on `i32`/`i64`
exactly when the value is non-negative and the product fits. -/
theorem shl_defined (t : ITy) (a : BitVec t.w) (s : Nat) (hs : s < t.w) :
    (Scalar.shl t a s).isSome =
      (!t.sgn || (decide (0 ≤ t.val a) &&
        (decide (t = .i8) || decide (t = .i16) || decide (t.val a * 2 ^ s ≤ t.maxv)))) := by
  have h1 := val_lb t a; have h2 := val_ub t a
  have hw : (s : Int) < t.promW := by
    have : t.w ≤ t.promW := by cases t <;> decide
    omega
  simp only [Scalar.shl, Option.bind_eq_bind, ITy.shlP]
  rw [if_pos ⟨by omega, hw⟩]
  simp only [Int.toNat_natCast]
  have hpos := pow2_pos s
  by_cases hsg : t.promSgn = true
  · by_cases hneg : t.val a < 0
    · have hsgn : t.sgn = true := by
        cases t <;> simp only [minv, sgn] at * <;> omega
      rw [if_pos ⟨hsg, hneg⟩]
      simp [hsgn]; omega
    · rw [if_neg (by intro h; exact hneg h.2)]
      have hnn : 0 ≤ t.val a * 2 ^ s := Int.mul_nonneg (by omega) (by omega)
      unfold prom
      rw [if_pos hsg]
      by_cases h32 : t = .i32 ∨ t = .i64
      · rcases h32 with rfl | rfl
        · simp only [promW, sgn, maxv] at *
          by_cases hf : i32.val a * 2 ^ s ≤ 2147483647
          · rw [if_pos (by omega)]; simp [hf]; omega
          · rw [if_neg (by omega)]; simp; omega
        · simp only [promW, sgn, maxv] at *
          by_cases hf : i64.val a * 2 ^ s ≤ 9223372036854775807
          · rw [if_pos (by omega)]; simp [hf]; omega
          · rw [if_neg (by omega)]; simp; omega
      · have hle : t.val a * 2 ^ s ≤ 65535 * 32768 := by
          by_cases h16 : t.w = 16
          · have : (2 : Int) ^ s ≤ 2 ^ 15 := pow_le_pow_right₀ (by omega) (by omega)
            have h3 : t.val a ≤ 65535 := by
              cases t <;> simp only [maxv, w] at * <;> omega
            exact Int.mul_le_mul h3 this (by omega) (by omega)
          · have h8 : t.w = 8 := by cases t <;> simp at h32 h16 hsg ⊢
            have : (2 : Int) ^ s ≤ 2 ^ 7 := pow_le_pow_right₀ (by omega) (by omega)
            have h3 : t.val a ≤ 255 := by
              cases t <;> simp only [maxv, w] at * <;> omega
            have := Int.mul_le_mul h3 this (by omega) (by omega)
            omega
        have hp : t.promW = 32 := by cases t <;> simp at h32 hsg ⊢
        rw [if_pos (by rw [hp]; omega)]
        cases t <;> simp at h32 hsg hneg ⊢ <;> omega
  · rw [if_neg (by intro h; exact hsg h.1)]
    unfold prom
    rw [if_neg hsg]
    cases t <;> simp at hsg ⊢

example : Scalar.shl .u16 65535#16 15 = some 32768#16 := by decide
example : Scalar.shl .i16 32767#16 15 = some 32768#16 := by decide

/-- C09, arithmetic right shift: for every count in `[0, w)` the operator is
defined and divides the (signed or unsigned) value by `2^s`, rounding toward
minus infinity. -/
theorem shra_floor_div (t : ITy) (a : BitVec t.w) (s : Nat) (hs : s < t.w) :
    ∃ r, Scalar.shra t a s = some r ∧ t.val r = t.val a / 2 ^ s := by
  have hb : (a.toNat : Int) < 2 ^ t.w := by
    have := a.isLt
    have e : ((2 ^ t.w : Nat) : Int) = (2 : Int) ^ t.w := by simp
    omega
  have hpos := pow2_pos s
  have hq0 : 0 ≤ (a.toNat : Int) / 2 ^ s := Int.ediv_nonneg (by omega) (by omega)
  have hq1 : (a.toNat : Int) / 2 ^ s ≤ a.toNat := Int.ediv_le_self _ (by omega)
  unfold Scalar.shra
  rw [shrP_eq t a s hs]
  by_cases hsg : t.sgn = false
  · rw [if_pos hsg]
    refine ⟨_, rfl, ?_⟩
    have hv : t.val a = a.toNat := by simp [val, hsg]
    rw [hv]
    apply val_cast
    · cases t <;> simp only [sgn, Bool.true_eq_false, minv] at * <;> omega
    · cases t <;> simp only [sgn, Bool.true_eq_false, maxv, w] at * <;> omega
  · rw [if_neg hsg]
    have hsg' : t.sgn = true := by simpa using hsg
    by_cases hz : (s : Int) = 0
    · rw [if_pos hz]
      have : s = 0 := by omega
      subst this
      exact ⟨_, rfl, by simp⟩
    · rw [if_neg hz]
      by_cases hn : t.val a ≥ 0
      · rw [if_pos hn]
        refine ⟨_, rfl, ?_⟩
        have hv : t.val a = a.toNat := by
          have h2 := val_ub t a
          simp only [val, hsg', if_true] at *
          rw [BitVec.toInt_eq_toNat_bmod] at *
          cases t <;> simp only [sgn, Bool.false_eq_true, maxv, w, Int.bmod_def] at * <;> omega
        rw [hv]
        have h2 := val_ub t a
        rw [hv] at h2
        apply val_cast
        · cases t <;> simp only [sgn, Bool.false_eq_true, minv] at * <;> omega
        · omega
      · rw [if_neg hn]
        have hpw : t.utyp.promW ≥ t.w := by cases t <;> decide
        have hk : ((t.w : Int) - s).toNat = t.w - s := by omega
        have hone : Scalar.uread t (t.cast (-1)) = 2 ^ t.w - 1 := by
          unfold Scalar.uread; rw [toNat_cast]
          cases t <;> decide
        have hdef : ∃ p, t.utyp.shlP (Scalar.uread t (t.cast (-1))) (t.w - s) = some p := by
          unfold ITy.shlP
          rw [if_pos (by omega), hone, hk]
          have h1 : (2 : Int) ^ t.w - 1 ≥ 0 := by have := pow2_pos t.w; omega
          rw [if_neg (by omega)]
          apply prom_def
          intro hps
          have hle : (2 : Int) ^ (t.w - s) ≤ 2 ^ (t.w - 1) :=
            pow_le_pow_right₀ (by omega) (by omega)
          have h0 := pow2_pos (t.w - s)
          have hmul : (2 ^ t.w - 1) * (2 : Int) ^ (t.w - s) ≤ (2 ^ t.w - 1) * 2 ^ (t.w - 1) :=
            Int.mul_le_mul_of_nonneg_left hle h1
          have hnn : 0 ≤ (2 ^ t.w - 1) * (2 : Int) ^ (t.w - s) := Int.mul_nonneg h1 (by omega)
          have h88 : (2 ^ t.w - 1) * (2 : Int) ^ (t.w - 1) < 2 ^ (t.utyp.promW - 1) := by
            cases t <;> simp only [utyp, promSgn, promW, w] at * <;>
              first | (exact absurd hps (by decide)) | decide
          have h99 := pow2_pos (t.utyp.promW - 1)
          constructor <;> omega
        obtain ⟨p, hp⟩ := hdef
        have hmask : t.cast p = BitVec.allOnes t.w <<< (t.w - s) := by
          have e : t.cast p = t.cast ((2 ^ t.w - 1) * 2 ^ (t.w - s)) := by
            unfold ITy.shlP at hp
            rw [if_pos (by omega), hone, hk] at hp
            have h1 : (2 : Int) ^ t.w - 1 ≥ 0 := by have := pow2_pos t.w; omega
            rw [if_neg (by omega)] at hp
            have := prom_mod hp
            apply cast_eq_of_mod
            have hw : t.utyp.w = t.w := by cases t <;> rfl
            rwa [hw] at this
          rw [e]
          apply BitVec.eq_of_toNat_eq
          have h2 : (((BitVec.allOnes t.w <<< (t.w - s)).toNat : Nat) : Int) =
              ((2 ^ t.w - 1) * 2 ^ (t.w - s)) % 2 ^ t.w := by
            rw [BitVec.toNat_shiftLeft, BitVec.toNat_allOnes, Nat.shiftLeft_eq]
            have := Nat.one_le_two_pow (n := t.w)
            push_cast [this]
            rfl
          have := toNat_cast t ((2 ^ t.w - 1) * 2 ^ (t.w - s))
          omega
        have hlo : t.cast ((a.toNat : Int) / 2 ^ s) = a >>> s := by
          apply BitVec.eq_of_toNat_eq
          have := toNat_cast t ((a.toNat : Int) / 2 ^ s)
          rw [Int.emod_eq_of_lt hq0 (by omega)] at this
          rw [BitVec.toNat_ushiftRight, Nat.shiftRight_eq_div_pow]
          have e : (((a.toNat / 2 ^ s : Nat)) : Int) = (a.toNat : Int) / 2 ^ s := by
            push_cast; rfl
          omega
        refine ⟨a.sshiftRight s, ?_, ?_⟩
        · rw [hp]
          change some (t.cast p ||| t.cast ((a.toNat : Int) / 2 ^ s)) = _
          rw [hmask, hlo]
          congr 1
          have hmsb : a.msb = true := by
            rw [BitVec.msb_eq_toInt]
            simp only [val, hsg', if_true] at hn
            simpa using hn
          apply BitVec.eq_of_getLsbD_eq
          intro i hi
          rw [BitVec.getLsbD_sshiftRight]
          simp only [BitVec.getLsbD_or, BitVec.getLsbD_shiftLeft, BitVec.getLsbD_ushiftRight, hmsb,
            BitVec.getLsbD_allOnes]
          by_cases h : s + i < t.w
          · simp [h, hi, show i < t.w - s by omega, show ¬ t.w ≤ i by omega]
          · simp [h, hi, show ¬ i < t.w - s by omega, show i - (t.w - s) < t.w by omega,
              show ¬ t.w ≤ i by omega]
        · simp only [val, hsg', if_true]
          rw [BitVec.toInt_sshiftRight, Int.shiftRight_eq_div_pow]
          push_cast; rfl

example : ∃ r, Scalar.shra .i16 (BitVec.ofInt 16 (-5)) 1 = some r ∧ ITy.i16.val r = -3 :=
  ⟨BitVec.ofInt 16 (-3), by decide⟩

/-- C09: outside the width of the promoted type the shifts of the scalar back end are undefined. -/
theorem shift_undefined (t : ITy) (a : BitVec t.w) (s : Int) (hs : s < 0 ∨ (t.promW : Int) ≤ s) :
    Scalar.shl t a s = none ∧ Scalar.shr t a s = none ∧ Scalar.shra t a s = none := by
  have hu : t.utyp.promW = t.promW := by cases t <;> rfl
  have h1 : ∀ v, t.shlP v s = none := fun v => by unfold ITy.shlP; rw [if_neg (by omega)]
  have h2 : ∀ v, t.utyp.shrP v s = none := fun v => by
    unfold ITy.shrP; rw [hu, if_neg (by omega)]
  have hp : 0 < t.promW := by cases t <;> decide
  refine ⟨?_, ?_, ?_⟩
  · unfold Scalar.shl; rw [h1]; rfl
  · unfold Scalar.shr; rw [h2]; rfl
  · unfold Scalar.shra
    rw [h2, if_neg (show ¬ s = 0 by omega)]
    split
    · rfl
    · split
      · rfl
      · cases ITy.shlP t.utyp (Scalar.uread t (t.cast (-1))) (t.w - s) <;> rfl

example : Scalar.shr .i8 5#8 31 = some 0#8 ∧ Scalar.shr .i8 5#8 32 = none := by decide

/-! ### C44: order laws -/

/-- C44: `min`/`max` return the smaller/larger operand. -/
theorem min_max_spec (t : ITy) (a b : BitVec t.w) :
    t.val (Scalar.min t a b) = Min.min (t.val a) (t.val b) ∧
    t.val (Scalar.max t a b) = Max.max (t.val a) (t.val b) := by
  unfold Scalar.min Scalar.max
  constructor <;> split <;> omega

/-- C44: `abs` is the magnitude, for every value that has one in the type; the
excluded value is undefined on `i32`/`i64` and returned unchanged on
`i8`/`i16`. -/
theorem abs_spec (t : ITy) (a : BitVec t.w) :
    (¬ (t.sgn = true ∧ t.val a = t.minv) →
      ∃ r, Scalar.abs t a = some r ∧ t.val r = (t.val a).natAbs) ∧
    (t.sgn = true ∧ t.val a = t.minv →
      Scalar.abs t a = if t = .i8 ∨ t = .i16 then some a else none) := by
  have h1 := val_lb t a; have h2 := val_ub t a
  constructor
  · intro h
    unfold Scalar.abs
    by_cases hs : t.sgn = true
    · have h' : t.val a ≠ t.minv := fun e => h ⟨hs, e⟩
      rw [if_pos hs]
      split
      · exact ⟨_, rfl, by rw [cast_val]; omega⟩
      · have hp : t.prom (-t.val a) = some (-t.val a) := by
          apply prom_eq <;> cases t <;> simp only [sgn, minv, maxv, promSgn, promW] at * <;> first | omega | contradiction
        rw [hp]
        refine ⟨_, rfl, ?_⟩
        rw [val_cast]
        · omega
        · cases t <;> simp only [sgn, minv, maxv] at * <;> first | omega | contradiction
        · cases t <;> simp only [sgn, minv, maxv] at * <;> first | omega | contradiction
    · rw [if_neg hs]
      refine ⟨_, rfl, ?_⟩
      have : t.minv = 0 := by cases t <;> simp at hs ⊢
      omega
  · rintro ⟨hs, hm⟩
    unfold Scalar.abs
    have hneg : ¬ t.val a ≥ 0 := by
      cases t <;> simp only [sgn, minv] at * <;> first | omega | contradiction
    rw [if_pos hs, if_neg hneg, hm]
    split
    · rename_i ht
      have ha : a = t.cast (t.minv) := by rw [← hm, cast_val]
      rw [ha]
      rcases ht with rfl | rfl <;> decide
    · rename_i ht
      have : t = .i32 ∨ t = .i64 := by cases t <;> simp at ht hs ⊢
      rcases this with rfl | rfl <;> decide

example : ¬ (ITy.i8.sgn = true ∧ ITy.i8.val (BitVec.ofInt 8 (-127)) = ITy.i8.minv) := by decide

/-- C44: equality compares bit patterns, and the six comparisons are mutually
consistent and form a total order. -/
theorem cmp_laws (t : ITy) (a b c : BitVec t.w) :
    (Scalar.eq t a b = true ↔ a = b) ∧
    (Scalar.ne t a b = !Scalar.eq t a b) ∧
    (Scalar.ge t a b = !Scalar.lt t a b) ∧
    (Scalar.le t a b = !Scalar.gt t a b) ∧
    (Scalar.gt t a b = Scalar.lt t b a) ∧
    (Scalar.le t a b = (Scalar.lt t a b || Scalar.eq t a b)) ∧
    (Scalar.lt t a b = true → Scalar.lt t b c = true → Scalar.lt t a c = true) := by
  refine ⟨?_, ?_, ?_, ?_, ?_, ?_, ?_⟩
  · simp only [Scalar.eq, decide_eq_true_eq]
    exact ⟨fun h => val_inj t h, fun h => by rw [h]⟩
  · simp [Scalar.ne, Scalar.eq]
  · simp only [Scalar.ge, Scalar.lt, ← decide_not]
    congr 1; simp only [eq_iff_iff]; omega
  · simp only [Scalar.le, Scalar.gt, ← decide_not]
    congr 1; simp only [eq_iff_iff]; omega
  · simp [Scalar.lt, Scalar.gt]
  · simp only [Scalar.le, Scalar.lt, Scalar.eq, ← Bool.decide_or]
    congr 1; simp only [eq_iff_iff]; omega
  · simp only [Scalar.lt, decide_eq_true_eq]; omega

/-- C44: signed types compare as two's complement, unsigned types as naturals
(stated with Lean's own bit-vector orders). -/
theorem cmp_order (t : ITy) (a b : BitVec t.w) :
    Scalar.lt t a b = if t.sgn then BitVec.slt a b else BitVec.ult a b := by
  unfold Scalar.lt val
  split <;> simp [BitVec.slt, BitVec.ult]

end Nsimd.Props
