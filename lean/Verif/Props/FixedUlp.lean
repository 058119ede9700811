import Verif.Model.FixedUlp
import Verif.Props.FixedPoint

/-!
# C93: shifts, bitwise operators and `equal_ulp` of the fixed point module
-/

namespace Nsimd.Props.FixedUlp

open Nsimd Nsimd.ITy Nsimd.FixedPoint Nsimd.FixedUlp Nsimd.Props.FixedPoint

/-- C93, shifts are defined exactly for counts from 0 to the width of the promoted storage type. -/
theorem shift_defined (t : ITy) (a : BitVec t.w) (b : ℤ) :
    ((shiftRight t a b).isSome ↔ 0 ≤ b ∧ b < t.promW) ∧ ((shiftLeft t a b).isSome ↔ 0 ≤ b ∧ b < t.promW) := by
  unfold shiftRight shiftLeft sarP shlW
  constructor <;> split <;> simp_all

/-- C93, `shift_right`: the number divided by `2^b`, rounded down to the format. -/
theorem shiftRight_rounded {lf rt : Nat} {t : ITy} (ht : storage lf rt = some t) (a : BitVec t.w) (b : Nat)
    (hb : b < t.promW) :
    ∃ r, shiftRight t a b = some r ∧ RoundedDown rt (fpv t rt a / 2 ^ b) (fpv t rt r) := by
  obtain ⟨hs, -⟩ := storage_le ht
  obtain ⟨f1, f2⟩ := div_fits hs (val_lb t a) (val_ub t a) b
  refine ⟨t.cast (t.val a / 2 ^ b), ?_, ?_⟩
  · unfold shiftRight sarP
    rw [if_pos ⟨by omega, by omega⟩]
    simp
  · unfold RoundedDown fpv
    rw [val_cast t _ f1 f2]
    have hb : (0 : ℚ) < 2 ^ b := by positivity
    have hr : (0 : ℚ) < 2 ^ rt := by positivity
    have hbz : (0 : ℤ) < 2 ^ b := by positivity
    have l1 : ((t.val a / 2 ^ b * 2 ^ b : ℤ) : ℚ) ≤ t.val a := by
      exact_mod_cast Int.ediv_mul_le (t.val a) hbz.ne'
    have l2 : (t.val a : ℚ) < ((t.val a / 2 ^ b + 1) * 2 ^ b : ℤ) := by
      exact_mod_cast Int.lt_ediv_add_one_mul_self (t.val a) hbz
    push_cast at l1 l2
    refine ⟨⟨_, rfl⟩, ?_, ?_⟩
    · rw [div_div, mul_comm, ← div_div]
      rw [div_le_div_iff_of_pos_right hr, le_div_iff₀ hb]
      exact l1
    · rw [← add_div, div_div, mul_comm, ← div_div, div_lt_div_iff_of_pos_right hr, div_lt_iff₀ hb]
      exact l2

/-- C93, `shift_left`: the product with `2^b` if it is in range, in any case its low bits. -/
theorem shiftLeft_exact {lf rt : Nat} {t : ITy} (ht : storage lf rt = some t) (a : BitVec t.w) (b : Nat)
    (hb : b < t.promW) :
    ∃ r, shiftLeft t a b = some r ∧ (InRange lf (fpv t rt a * 2 ^ b) → fpv t rt r = fpv t rt a * 2 ^ b) ∧
      (2 : ℤ) ^ t.w ∣ t.val r - t.val a * 2 ^ b := by
  obtain ⟨hs, hw⟩ := storage_le ht
  obtain ⟨p, hp, hc⟩ := shlW_mod t (t.val a) hb
  refine ⟨t.cast (t.val a * 2 ^ b), ?_, ?_, ?_⟩
  · unfold shiftLeft
    rw [hp]
    exact congrArg some hc
  · intro h
    have e : fpv t rt a * 2 ^ b = ((t.val a * 2 ^ b : ℤ) : ℚ) / 2 ^ rt := by
      unfold fpv; push_cast; ring
    rw [e] at h ⊢
    obtain ⟨h1, h2⟩ := raw_range hs (by omega) h
    unfold fpv
    rw [val_cast t _ h1 h2]
  · rw [val_eq_toInt hs]
    unfold ITy.cast
    rw [BitVec.toInt_ofInt]
    have := Int.bmod_emod (x := t.val a * 2 ^ b) (m := 2 ^ t.w)
    have e : ((2 ^ t.w : ℕ) : ℤ) = 2 ^ t.w := by push_cast; rfl
    rw [e] at this
    exact Int.dvd_of_emod_eq_zero (Int.emod_eq_emod_iff_emod_sub_eq_zero.mp this)

/-- C93, bitwise operators: bit `i` of the result is the operator on bits `i`, for every bit of the
storage. -/
theorem bitwise_bits (t : ITy) (a b : BitVec t.w) (i : Nat) (hi : i < t.w) :
    (bitwiseAnd t a b).getLsbD i = (a.getLsbD i && b.getLsbD i) ∧
    (bitwiseOr t a b).getLsbD i = (a.getLsbD i || b.getLsbD i) ∧
    (bitwiseXor t a b).getLsbD i = (a.getLsbD i != b.getLsbD i) ∧
    (bitwiseNor t a b).getLsbD i = (!(a.getLsbD i || b.getLsbD i)) ∧
    (bitwiseNot t a).getLsbD i = (!a.getLsbD i) := by
  have hp : i < t.promW := lt_of_lt_of_le hi (w_le_promW t)
  unfold bitwiseAnd bitwiseOr bitwiseXor bitwiseNor bitwiseNot ext
  simp only [BitVec.getLsbD_setWidth, BitVec.getLsbD_and, BitVec.getLsbD_or, BitVec.getLsbD_xor,
    BitVec.getLsbD_not, BitVec.getLsbD_signExtend, hi, hp, decide_true, Bool.true_and, if_true, and_self]

theorem bmod_scale (d : ℤ) {k : Nat} (hk : 0 < k) (s : Nat) :
    Int.bmod (d * 2 ^ s) (2 ^ k * 2 ^ s) = Int.bmod d (2 ^ k) * 2 ^ s := by
  obtain ⟨q, hq⟩ : ((2 ^ k : ℕ) : ℤ) ∣ d - Int.bmod d (2 ^ k) :=
    Int.dvd_of_emod_eq_zero (Int.emod_eq_emod_iff_emod_sub_eq_zero.mp Int.bmod_emod.symm)
  obtain ⟨j, rfl⟩ : ∃ j, k = j + 1 := ⟨k - 1, by omega⟩
  have l1 := Int.le_bmod (x := d) (m := 2 ^ (j + 1)) (by positivity)
  have l2 := Int.bmod_lt (x := d) (m := 2 ^ (j + 1)) (by positivity)
  have hp : (0 : ℤ) < 2 ^ s := by positivity
  have e1 : ((2 ^ (j + 1) : ℕ) : ℤ) = 2 * 2 ^ j := by push_cast; ring
  have e2 : ((2 ^ (j + 1) * 2 ^ s : ℕ) : ℤ) = 2 * (2 ^ j * 2 ^ s) := by push_cast; ring
  rw [e1] at l1 l2
  have l1 : -2 ^ j ≤ Int.bmod d (2 ^ (j + 1)) := by omega
  have l2 : Int.bmod d (2 ^ (j + 1)) < 2 ^ j := by omega
  generalize Int.bmod d (2 ^ (j + 1)) = r at *
  have hx : d * 2 ^ s = r * 2 ^ s + ((2 ^ (j + 1) * 2 ^ s : ℕ) : ℤ) * q := by
    rw [e1] at hq
    rw [show d = r + 2 * 2 ^ j * q by omega, e2]; ring
  rw [hx, Int.add_mul_bmod_self_left]
  apply Int.bmod_eq_of_le
  · rw [e2]
    have : -(2 ^ j * 2 ^ s) ≤ r * 2 ^ s := by nlinarith
    omega
  · rw [e2]
    have : r * 2 ^ s < 2 ^ j * 2 ^ s := by nlinarith
    omega

/-- What `equal_ulp` computes: the difference of the numbers of units of `2^(w - lf - rt)` in the storage,
rounded down, modulo `2^(lf + rt)`. It is undefined if the difference overflows `int` or `long`, or if
`-ulp` does. -/
theorem equalUlp_spec {lf rt : Nat} {t : ITy} (ht : storage lf rt = some t) (a b : BitVec t.w) (ulp : ℤ)
    (hu : -(2 : ℤ) ^ 31 < ulp ∧ ulp < 2 ^ 31) :
    let s := t.w - lf - rt
    let d := t.val a / 2 ^ s - t.val b / 2 ^ s
    equalUlp t lf rt a b ulp =
      if 32 ≤ t.w ∧ ¬ (t.minv ≤ d * 2 ^ s ∧ d * 2 ^ s ≤ t.maxv) then none
      else some (decide (|Int.bmod d (2 ^ (lf + rt))| ≤ ulp)) := by
  obtain ⟨hs, hw⟩ := storage_le ht
  have h0 : 0 < lf + rt := by
    by_contra hc
    have h1 : lf = 0 := by omega
    have h2 : rt = 0 := by omega
    subst h1 h2
    exact absurd ht (by simp [storage])
  intro s d
  have hp : (0 : ℤ) < 2 ^ s := by positivity
  have hm := cmpMask_eq hs (show lf + rt ≤ t.w by omega) h0
  have hA := and_mask hs (s := t.w - lf - rt) (by omega) rfl a
  have hB := and_mask hs (s := t.w - lf - rt) (by omega) rfl b
  have hsw : s < t.w := by omega
  have ed : t.val a / 2 ^ s * 2 ^ s - t.val b / 2 ^ s * 2 ^ s = d * 2 ^ s := by ring
  have ha := half_lb hs (a &&& t.cast (-1 * 2 ^ (t.w - lf - rt)))
  have hb := half_lb hs (b &&& t.cast (-1 * 2 ^ (t.w - lf - rt)))
  unfold equalUlp
  simp only [hm, Option.bind_eq_bind, Option.bind_some]
  rw [hA, hB] at *
  rw [show t.w - lf - rt = s from rfl] at *
  rw [ed]
  have hi : ITy.i32.prom (-ulp) = some (-ulp) := by
    apply prom_eq
    · rfl
    · simp only [promW]; omega
  by_cases hd : 32 ≤ t.w ∧ ¬ (t.minv ≤ d * 2 ^ s ∧ d * 2 ^ s ≤ t.maxv)
  · rw [if_pos hd]
    have : t.prom (d * 2 ^ s) = none := by
      generalize d * 2 ^ s = x at hd
      obtain ⟨h1, h2⟩ := hd
      unfold ITy.prom
      cases t <;> simp only [sgn, Bool.false_eq_true, reduceCtorEq] at hs <;>
        simp only [w, minv, maxv] at h1 h2 <;> first | omega | skip
      all_goals (simp only [promSgn, promW]; rw [if_pos trivial, if_neg]; omega)
    rw [this]
    rfl
  · rw [if_neg hd]
    have hq : t.prom (d * 2 ^ s) = some (d * 2 ^ s) := by
      have hl : -2 ^ t.w < d * 2 ^ s ∧ d * 2 ^ s < 2 ^ t.w := by
        rw [← ed]; constructor <;> linarith [ha.1, ha.2, hb.1, hb.2]
      generalize d * 2 ^ s = x at hd hl
      apply prom_eq
      · cases t <;> simp_all
      · cases t <;> simp only [sgn, Bool.false_eq_true, reduceCtorEq] at hs <;>
          simp only [w, minv, maxv, promW] at * <;> omega
    rw [hq]
    simp only [Option.bind_some]
    have e : ((t.w : ℤ) - lf - rt) = (s : ℤ) := by omega
    rw [e, sarP_eq t _ hsw]
    simp only [Option.bind_some, hi]
    have hv : t.val (t.cast (d * 2 ^ s)) = Int.bmod d (2 ^ (lf + rt)) * 2 ^ s := by
      rw [val_eq_toInt hs]
      unfold ITy.cast
      rw [BitVec.toInt_ofInt]
      have ew : 2 ^ t.w = 2 ^ (lf + rt) * 2 ^ s := by rw [← pow_add]; congr 1; omega
      rw [ew]
      exact bmod_scale d h0 s
    rw [hv, Int.mul_ediv_cancel _ hp.ne']
    have hf := div_fits hs (val_lb t (t.cast (d * 2 ^ s))) (val_ub t (t.cast (d * 2 ^ s))) s
    rw [hv, Int.mul_ediv_cancel _ hp.ne'] at hf
    rw [val_cast t _ hf.1 hf.2]
    simp only [Option.pure_def, Option.some.injEq, ← Bool.decide_and]
    apply decide_eq_decide.mpr
    rw [abs_le]
    constructor <;> rintro ⟨h1, h2⟩ <;> exact ⟨by omega, by omega⟩

/-- `equal_ulp` agrees with the distance of the two numbers in units of the last place `2^-rt`.
Specification. -/
def UlpExact (t : ITy) (lf rt : Nat) (a b : BitVec t.w) (ulp : ℤ) : Prop :=
  equalUlp t lf rt a b ulp = some (decide (|fpv t rt a - fpv t rt b| ≤ ulp / 2 ^ rt))

theorem ulp_iff (t : ITy) (rt : Nat) (a b : BitVec t.w) (ulp : ℤ) :
    |fpv t rt a - fpv t rt b| ≤ ulp / 2 ^ rt ↔ |t.val a - t.val b| ≤ ulp := by
  have hr : (0 : ℚ) < 2 ^ rt := by positivity
  unfold fpv
  rw [← sub_div, abs_div, abs_of_pos hr, div_le_div_iff_of_pos_right hr]
  exact_mod_cast Iff.rfl

/-- C93 (partial), `equal_ulp`: right for formats without fractional bits that fill the storage type, if
the difference of the operands is in the range of the type. Missing: other formats and operands, see
`equalUlp_fraction`, `equalUlp_wrap` and `equalUlp_undefined`. -/
theorem equalUlp_partial {lf : Nat} {t : ITy} (ht : storage lf 0 = some t) (hl : lf = t.w) (a b : BitVec t.w)
    (ulp : ℤ) (hu : -(2 : ℤ) ^ 31 < ulp ∧ ulp < 2 ^ 31)
    (h1 : t.minv ≤ t.val a - t.val b) (h2 : t.val a - t.val b ≤ t.maxv) : UlpExact t lf 0 a b ulp := by
  obtain ⟨hs, -⟩ := storage_le ht
  have e : t.w - lf - 0 = 0 := by omega
  have h := equalUlp_spec ht a b ulp hu
  simp only [e, pow_zero, Int.ediv_one, mul_one] at h
  unfold UlpExact
  rw [h, if_neg (by tauto)]
  congr 1
  apply decide_eq_decide.mpr
  rw [ulp_iff]
  have hb : Int.bmod (t.val a - t.val b) (2 ^ (lf + 0)) = t.val a - t.val b := by
    subst hl
    have := two_maxv hs
    have := minv_eq hs
    have e2 : ((2 ^ (t.w + 0) : ℕ) : ℤ) = 2 ^ t.w := by push_cast; rfl
    apply Int.bmod_eq_of_le <;> rw [e2] <;> omega
  rw [hb]

/-- C93 fails, `equal_ulp` ignores the fractional bits: for every format with fractional bits the numbers 0
and `(2^rt - 1) / 2^rt` are equal at 0 units in the last place. -/
theorem equalUlp_fraction {lf rt : Nat} {t : ITy} (ht : storage lf rt = some t) (h0 : 0 < rt) (hl : 0 < lf) :
    ∃ a b, equalUlp t lf rt a b 0 = some true ∧ fpv t rt a = 0 ∧ fpv t rt b = (2 ^ rt - 1) / 2 ^ rt ∧
      ¬ UlpExact t lf rt a b 0 := by
  obtain ⟨hs, hw⟩ := storage_le ht
  have hrs : (2 : ℤ) ^ rt ≤ 2 ^ (t.w - lf - rt) := two_pow_le (by omega)
  have h2 : (2 : ℤ) ≤ 2 ^ rt := by simpa using two_pow_le h0
  have hmx : (2 : ℤ) ^ rt - 1 ≤ t.maxv := by
    have := two_maxv hs
    have h3 : (2 : ℤ) ^ (rt + 1) ≤ 2 ^ t.w := two_pow_le (by omega)
    rw [pow_succ] at h3
    omega
  have hmn : t.minv ≤ 0 := by have := minv_eq hs; have := maxv_pos t; omega
  have hv0 : t.val (t.cast 0) = 0 := val_cast t _ hmn (maxv_pos t).le
  have hv1 : t.val (t.cast (2 ^ rt - 1)) = 2 ^ rt - 1 := val_cast t _ (by omega) hmx
  have h := equalUlp_spec ht (t.cast 0) (t.cast (2 ^ rt - 1)) 0 (by norm_num)
  simp only [hv0, hv1, Int.zero_ediv, Int.ediv_eq_zero_of_lt (show (0 : ℤ) ≤ 2 ^ rt - 1 by omega)
    (show (2 : ℤ) ^ rt - 1 < 2 ^ (t.w - lf - rt) by omega)] at h
  have hm := maxv_pos t
  have h := h.trans (if_neg (by omega))
  have h : equalUlp t lf rt (t.cast 0) (t.cast (2 ^ rt - 1)) 0 = some true := by rw [h]; simp
  refine ⟨t.cast 0, t.cast (2 ^ rt - 1), h, ?_, ?_, ?_⟩
  · unfold fpv; rw [hv0]; simp
  · unfold fpv; rw [hv1]; push_cast; rfl
  · unfold UlpExact
    rw [h]
    intro hc
    have hc := of_decide_eq_true (Option.some.inj hc).symm
    rw [ulp_iff, hv0, hv1, abs_le] at hc
    omega

/-- C93 fails, `equal_ulp` wraps around: in 8 or 16 bits without fractional bits, the largest and the
smallest number are equal at one unit in the last place. -/
theorem equalUlp_wrap : equalUlp .i8 8 0 127#8 128#8 1 = some true ∧ fpv .i8 0 127#8 = 127 ∧
    fpv .i8 0 128#8 = -128 ∧ equalUlp .i16 16 0 32767#16 32768#16 1 = some true := by
  have h1 : ITy.i8.val 127#8 = 127 := by decide
  have h2 : ITy.i8.val 128#8 = -128 := by decide
  have h3 : ITy.i16.val 32767#16 = 32767 := by decide
  have h4 : ITy.i16.val 32768#16 = -32768 := by decide
  refine ⟨?_, ?_, ?_, ?_⟩
  · refine (equalUlp_spec (t := .i8) (by decide) 127#8 128#8 1 (by norm_num)).trans ?_
    rw [h1, h2]; decide
  · unfold fpv; rw [h1]; norm_num
  · unfold fpv; rw [h2]; norm_num
  · refine (equalUlp_spec (t := .i16) (by decide) 32767#16 32768#16 1 (by norm_num)).trans ?_
    rw [h3, h4]; decide

/-- C93 fails, `equal_ulp` is undefined in 32 and 64 bits for every format when the operands are the
smallest number of the storage type and any positive one that is not below one unit. -/
theorem equalUlp_undefined {lf rt : Nat} {t : ITy} (ht : storage lf rt = some t) (hw : 32 ≤ t.w)
    (b : BitVec t.w) (hb : (2 : ℤ) ^ (t.w - lf - rt) ≤ t.val b) (ulp : ℤ)
    (hu : -(2 : ℤ) ^ 31 < ulp ∧ ulp < 2 ^ 31) :
    equalUlp t lf rt (t.cast t.minv) b ulp = none := by
  obtain ⟨hs, hlw⟩ := storage_le ht
  have hm := minv_eq hs
  have hM := maxv_pos t
  have hv : t.val (t.cast t.minv) = t.minv := val_cast t _ le_rfl (by omega)
  refine (equalUlp_spec ht _ b ulp hu).trans (if_pos ⟨hw, ?_⟩)
  rw [hv]
  have hp : (0 : ℤ) < 2 ^ (t.w - lf - rt) := by positivity
  have l1 : t.minv / 2 ^ (t.w - lf - rt) * 2 ^ (t.w - lf - rt) ≤ t.minv := Int.ediv_mul_le _ hp.ne'
  have l2 : 1 ≤ t.val b / 2 ^ (t.w - lf - rt) := by
    rw [Int.le_ediv_iff_mul_le hp]; linarith
  have l3 : (t.minv / 2 ^ (t.w - lf - rt) - t.val b / 2 ^ (t.w - lf - rt)) * 2 ^ (t.w - lf - rt) < t.minv := by
    nlinarith
  intro h
  linarith [h.1]

/-- The hypotheses hold for `fp_t<8, 4>` in 16 bits: -3.4375 shifted, `equal_ulp` of 0 and
0.9375. -/
example : storage 8 4 = some .i16 ∧
    (∃ r, shiftRight .i16 (BitVec.ofInt 16 (-55)) 1 = some r ∧ r = BitVec.ofInt 16 (-28)) ∧
    (∃ r, shiftLeft .i16 (BitVec.ofInt 16 (-55)) 3 = some r ∧ r = BitVec.ofInt 16 (-440)) ∧
    bitwiseNor .i16 0x0f0f#16 0xff00#16 = 0x00f0#16 ∧
    equalUlp .i16 8 4 0#16 15#16 0 = some true ∧ equalUlp .i16 8 4 0#16 16#16 0 = some false := by
  refine ⟨by decide, ⟨_, rfl, by decide⟩, ⟨_, rfl, by decide⟩, by decide, by decide, by decide⟩

/-- The hypotheses of `equalUlp_partial` hold for `fp_t<16, 0>`, those of `equalUlp_undefined` for
`fp_t<16, 8>`. -/
example : UlpExact .i16 16 0 100#16 97#16 3 ∧ UlpExact .i16 16 0 100#16 97#16 2 ∧
    equalUlp .i32 16 8 (ITy.i32.cast ITy.i32.minv) 256#32 4 = none :=
  ⟨equalUlp_partial (by decide) rfl _ _ _ (by norm_num) (by decide) (by decide),
   equalUlp_partial (by decide) rfl _ _ _ (by norm_num) (by decide) (by decide),
   equalUlp_undefined (by decide) (by decide) _ (by decide) _ (by norm_num)⟩

end Nsimd.Props.FixedUlp
