import Verif.Lemmas.Newton
import Verif.Props.FixedPoint

/-!
# C67: square roots and negative exponents of the fixed point module
-/

namespace Nsimd.Props.FixedSqrt

open Nsimd Nsimd.ITy Nsimd.FixedPoint Nsimd.Props.FixedPoint

/-- `s` is the square root of `q` rounded down to a multiple of `2^-rt`. Specification. -/
def SqrtDown (rt : Nat) (q s : ℚ) : Prop :=
  (∃ k : ℤ, s = k / 2 ^ rt) ∧ 0 ≤ s ∧ s ^ 2 ≤ q ∧ q < (s + 1 / 2 ^ rt) ^ 2

/-- Division of raw values when nothing overflows. -/
theorem div_raw {t : ITy} (hs : t.sgn = true) {rt : Nat} (hr : rt < t.w) (a b : BitVec t.w)
    (ha : 0 ≤ t.val a) (hb : 0 < t.val b) (h2 : t.val a * 2 ^ rt ≤ t.maxv) :
    ∃ r, FixedPoint.div t rt a b = some r ∧ t.val r = t.val a * 2 ^ rt / t.val b := by
  have hp : (0 : Int) < 2 ^ rt := by positivity
  have hn0 : 0 ≤ t.val a * 2 ^ rt := by positivity
  have hm := minv_eq hs
  have hM := maxv_pos t
  have hwp := w_le_promW t
  obtain ⟨p, hp, hpv⟩ := shlW_fits hs (t.val a) (s := rt) (by omega) (by omega) h2
  have hq0 : 0 ≤ t.val a * 2 ^ rt / t.val b := Int.ediv_nonneg hn0 hb.le
  have hq1 : t.val a * 2 ^ rt / t.val b ≤ t.val a * 2 ^ rt := Int.ediv_le_self _ hn0
  refine ⟨t.cast (t.val a * 2 ^ rt / t.val b), ?_, val_cast t _ (by omega) (by omega)⟩
  unfold FixedPoint.div
  rw [hp]
  simp only [Option.bind_eq_bind, Option.bind_some]
  rw [if_neg (by omega), hpv, Int.tdiv_eq_ediv_of_nonneg hn0, prom_fits hs (by omega) (by omega)]
  rfl

/-- One pass of the loop is Newton's step on raw values. -/
theorem step_raw {t : ITy} (hs : t.sgn = true) {rt : Nat} (hr : rt < t.w) (h31 : rt < 31)
    (a x : BitVec t.w) {A X : Nat} (ha : t.val a * 2 ^ rt = A) (ha0 : 0 ≤ t.val a) (hx : t.val x = X) (hX : 0 < X)
    (hA : (A : Int) ≤ t.maxv) (hsum : ((X + A / X : Nat) : Int) * 2 ^ rt ≤ t.maxv)
    (h2 : (2 : Int) * 2 ^ rt ≤ t.maxv) :
    ∃ d c y z, FixedPoint.div t rt a x = some d ∧ FixedPoint.add t x d = some c ∧
      ofSmallInt t rt 2 = some z ∧ FixedPoint.div t rt c z = some y ∧ t.val y = (Newton.step A X : Nat) := by
  have hp : (1 : Int) ≤ 2 ^ rt := one_le_pow₀ (by norm_num)
  have hm := minv_eq hs
  have hM := maxv_pos t
  obtain ⟨d, hd, hdv⟩ := div_raw hs hr a x ha0 (by omega) (by omega)
  rw [ha, hx] at hdv
  have hdv' : t.val d = ((A / X : Nat) : Int) := by rw [hdv]; push_cast; rfl
  have hs0 : (0 : Int) ≤ ((X + A / X : Nat) : Int) := Int.natCast_nonneg _
  have hsle : ((X + A / X : Nat) : Int) ≤ t.maxv := by nlinarith
  have hcv : t.val x + t.val d = ((X + A / X : Nat) : Int) := by rw [hx, hdv']; push_cast; rfl
  obtain ⟨z, hz, hzv⟩ := ofSmallInt_eq (t := t) h31 (k := 2) (by omega) h2
  have hc : FixedPoint.add t x d = some (t.cast (t.val x + t.val d)) := by
    unfold FixedPoint.add
    rw [prom_fits hs (by omega) (by omega)]
    rfl
  have hcc : t.val (t.cast (t.val x + t.val d)) = ((X + A / X : Nat) : Int) := by
    rw [val_cast t _ (by omega) (by omega), hcv]
  obtain ⟨y, hy, hyv⟩ := div_raw hs hr (t.cast (t.val x + t.val d)) z (by omega) (by omega)
    (by rw [hcc]; exact hsum)
  refine ⟨d, _, y, z, hd, hc, hz, hy, ?_⟩
  rw [hyv, hcc, hzv, Int.mul_ediv_mul_of_pos_left _ _ (by omega)]
  unfold Newton.step
  push_cast
  rfl

/-- The loop computes the iterates of Newton's step: leaving early changes nothing. -/
theorem loop_raw {t : ITy} (hs : t.sgn = true) {rt : Nat} (hr : rt < t.w) (h31 : rt < 31)
    (a : BitVec t.w) {A : Nat} (ha : t.val a * 2 ^ rt = A) (ha0 : 0 ≤ t.val a)
    (hA : (A : Int) ≤ t.maxv) (h2 : (2 : Int) * 2 ^ rt ≤ t.maxv) (n : Nat) :
    ∀ (x x1 : BitVec t.w) (X : Nat), t.val x = X → (n = 0 → x1 = x) →
      (∀ k, k < n → 0 < (Newton.step A)^[k] X ∧
        (((Newton.step A)^[k] X + A / (Newton.step A)^[k] X : Nat) : Int) * 2 ^ rt ≤ t.maxv) →
      ∃ r, sqrtLoop t rt a n x x1 = some r ∧ t.val r = ((Newton.step A)^[n] X : Nat) := by
  induction n with
  | zero =>
    intro x x1 X hx h1 _
    rw [h1 rfl]
    exact ⟨x, rfl, hx⟩
  | succ n ih =>
    intro x x1 X hx _ hk
    obtain ⟨hX, hsum⟩ := hk 0 (by omega)
    obtain ⟨d, c, y, z, hd, hc, hz, hy, hyv⟩ := step_raw hs hr h31 a x ha ha0 hx hX hA hsum h2
    have hxb := val_lb t x
    have hyb := val_ub t y
    have hxu := val_ub t x
    have hm := minv_eq hs
    have hprom : t.prom (t.val x - t.val y) = some (t.val x - t.val y) := by
      apply prom_fits hs <;> omega
    unfold sqrtLoop
    rw [hd]
    simp only [Option.bind_eq_bind, Option.bind_some, hc, hz, hy, hprom]
    by_cases hstop : t.val x = 0 ∨ t.val x - t.val y = 0
    · rw [if_pos hstop]
      have hX0 : (0 : Int) < X := by simpa using hX
      have hfix : Newton.step A X = X := by
        have : t.val x = t.val y := by omega
        rw [hx, hyv] at this
        exact_mod_cast this.symm
      refine ⟨y, rfl, ?_⟩
      rw [Function.iterate_fixed hfix, hyv, hfix]
    · rw [if_neg hstop]
      refine ih y y (Newton.step A X) hyv (fun _ => rfl) fun k hkn => ?_
      have := hk (k + 1) (by omega)
      rwa [Function.iterate_succ_apply] at this

/-- `sqrt` on raw values: ten Newton steps from the argument, when nothing overflows. -/
theorem sqrt_raw {lf rt : Nat} {t : ITy} (ht : storage lf rt = some t) (h0 : 0 < rt) (h31 : rt < 31)
    (a : BitVec t.w) {a0 : Nat} (ha : t.val a = a0) (hpos : 0 < a0)
    (hr : 2 * (a0 + 2 * 2 ^ rt) < 2 ^ (lf + rt)) :
    ∃ r, FixedPoint.sqrt t rt a = some r ∧
      t.val r = ((Newton.step (a0 * 2 ^ rt))^[10] a0 : Nat) := by
  obtain ⟨hs, hw⟩ := storage_le ht
  have hp : 0 < 2 ^ rt := Nat.two_pow_pos rt
  have hp2 : 2 ≤ 2 ^ rt := by
    calc 2 = 2 ^ 1 := rfl
      _ ≤ 2 ^ rt := Nat.pow_le_pow_right (by omega) h0
  have hwpow : 2 ^ (lf + 2 * rt) ≤ 2 ^ t.w := Nat.pow_le_pow_right (by omega) hw
  have hsplit : 2 ^ (lf + 2 * rt) = 2 ^ (lf + rt) * 2 ^ rt := by rw [← Nat.pow_add]; congr 1; omega
  have hM : 2 * (t.maxv + 1) = ((2 ^ t.w : Nat) : Int) := by rw [two_maxv hs]; push_cast; rfl
  set A := a0 * 2 ^ rt with hAdef
  -- everything below this bound fits after scaling
  have hscale : ∀ v : Nat, v ≤ a0 + 2 ^ rt + 2 → ((v : Nat) : Int) * 2 ^ rt ≤ t.maxv := by
    intro v hv
    have h1 : 2 * (v * 2 ^ rt) < 2 ^ t.w := by
      have : 2 * v < 2 ^ (lf + rt) := by omega
      calc 2 * (v * 2 ^ rt) = (2 * v) * 2 ^ rt := by ring
        _ < 2 ^ (lf + rt) * 2 ^ rt := Nat.mul_lt_mul_of_pos_right this hp
        _ ≤ 2 ^ t.w := by rw [← hsplit]; exact hwpow
    have h2 : ((v : Nat) : Int) * 2 ^ rt = ((v * 2 ^ rt : Nat) : Int) := by push_cast; rfl
    rw [h2]
    omega
  have hApos : 0 < A := Nat.mul_pos hpos hp
  have hs0 : 0 < Nat.sqrt A := Nat.sqrt_pos.mpr hApos
  have hx1 : Newton.step A a0 = (a0 + 2 ^ rt) / 2 := by
    unfold Newton.step
    rw [hAdef, Nat.mul_div_cancel_left _ hpos]
  have hroot : Nat.sqrt A ≤ (a0 + 2 ^ rt) / 2 := hx1 ▸ Newton.sqrt_le_step hpos
  -- bounds of the iterates
  have hub : ∀ k, (Newton.step A)^[k + 1] a0 ≤ max ((a0 + 2 ^ rt) / 2) (Nat.sqrt A + 1) := by
    intro k
    induction k with
    | zero =>
      show Newton.step A a0 ≤ _
      rw [hx1]; exact le_max_left _ _
    | succ k ih =>
      rw [Function.iterate_succ_apply']
      have hge := (Newton.iter_ge hApos hpos k).1
      rcases Nat.lt_or_eq_of_le hge with h | h
      · have := Newton.step_le h
        omega
      · have := Newton.step_near hApos hge (by omega)
        exact le_trans this (le_max_right _ _)
  have hsum : ∀ k, (Newton.step A)^[k] a0 + A / (Newton.step A)^[k] a0 ≤ a0 + 2 ^ rt + 2 := by
    intro k
    cases k with
    | zero =>
      show a0 + A / a0 ≤ _
      rw [hAdef, Nat.mul_div_cancel_left _ hpos]
      omega
    | succ k =>
      have hge := (Newton.iter_ge hApos hpos k).1
      have hu := hub k
      generalize (Newton.step A)^[k + 1] a0 = x at *
      rcases Nat.lt_or_eq_of_le hge with h | h
      · have hq : A / x ≤ Nat.sqrt A := by
          rw [← Nat.lt_succ_iff, Nat.div_lt_iff_lt_mul (by omega)]
          calc A < (Nat.sqrt A + 1) * (Nat.sqrt A + 1) := Nat.lt_succ_sqrt A
            _ ≤ (Nat.sqrt A).succ * x := Nat.mul_le_mul_left _ h
        omega
      · rw [← h]
        have := Newton.step_root hApos
        omega
  have hAmax : (A : Int) ≤ t.maxv := by
    have := hscale a0 (by omega)
    rw [hAdef]; push_cast; exact this
  unfold FixedPoint.sqrt
  refine loop_raw hs (by omega) h31 a (A := A) (by rw [ha, hAdef]; push_cast; rfl) (by omega) hAmax
    ?_ 10 a a a0 ha (fun h => absurd h (by decide)) fun k _ => ⟨(Newton.iter_ge hApos hpos k).2,
      hscale _ (hsum k)⟩
  have := hscale 2 (by omega)
  simpa using this

theorem range_raw {lf rt : Nat} {t : ITy} {a : BitVec t.w} {a0 : Nat} (ha : t.val a = a0)
    (h : InRange lf (fpv t rt a + 2)) : 2 * (a0 + 2 * 2 ^ rt) < 2 ^ (lf + rt) := by
  have hq : (0 : ℚ) < 2 ^ rt := by positivity
  have h2 := h.2
  unfold fpv at h2
  rw [ha] at h2
  have e : ((a0 : Int) : ℚ) / 2 ^ rt + 2 = ((a0 : ℚ) + 2 * 2 ^ rt) / 2 ^ rt := by
    push_cast; field_simp
  rw [e, div_lt_iff₀ hq] at h2
  have : 2 * ((a0 : ℚ) + 2 * 2 ^ rt) < 2 ^ (lf + rt) := by rw [pow_add]; linarith
  exact_mod_cast this

theorem sqrtDown_raw (rt a0 : Nat) :
    SqrtDown rt ((a0 : ℚ) / 2 ^ rt) ((Nat.sqrt (a0 * 2 ^ rt) : ℚ) / 2 ^ rt) := by
  have hq : (0 : ℚ) < 2 ^ rt := by positivity
  have h1 := Nat.sqrt_le' (a0 * 2 ^ rt)
  have h2 := Nat.lt_succ_sqrt' (a0 * 2 ^ rt)
  have h1' : (Nat.sqrt (a0 * 2 ^ rt) : ℚ) ^ 2 ≤ a0 * 2 ^ rt := by exact_mod_cast h1
  have h2' : (a0 : ℚ) * 2 ^ rt < ((Nat.sqrt (a0 * 2 ^ rt) : ℚ) + 1) ^ 2 := by exact_mod_cast h2
  have e : (a0 : ℚ) / 2 ^ rt = a0 * 2 ^ rt / (2 ^ rt) ^ 2 := by field_simp
  refine ⟨⟨(Nat.sqrt (a0 * 2 ^ rt) : ℤ), by push_cast; rfl⟩, by positivity, ?_, ?_⟩
  · rw [e, div_pow, div_le_div_iff_of_pos_right (by positivity)]
    exact h1'
  · rw [e, ← add_div, div_pow, div_lt_div_iff_of_pos_right (by positivity)]
    exact h2'

/-- C67 (partial), every positive argument that leaves room for the sums of the loop: `sqrt` is defined and
returns the square root rounded down or more, with an error of at most `(a + 1) / 1024` (one unit if that is
less). Missing: the error is not one unit for large arguments, see `sqrt_counterexample`; overflow of the
sums, see `sqrt_overflow`; zero, see `sqrt_zero_undefined`. -/
theorem sqrt_bound_partial {lf rt : Nat} {t : ITy} (ht : storage lf rt = some t) (h0 : 0 < rt)
    (h31 : rt < 31) (a : BitVec t.w) (hpos : 0 < fpv t rt a) (hr : InRange lf (fpv t rt a + 2)) :
    ∃ r s, FixedPoint.sqrt t rt a = some r ∧ SqrtDown rt (fpv t rt a) s ∧ s ≤ fpv t rt r ∧
      fpv t rt r ≤ s + max (1 / 2 ^ rt) ((fpv t rt a + 1) / 1024) := by
  have hq : (0 : ℚ) < 2 ^ rt := by positivity
  have hv : 0 < t.val a := by
    unfold fpv at hpos
    have := (div_pos_iff_of_pos_right hq).mp hpos
    exact_mod_cast this
  obtain ⟨a0, ha⟩ := Int.eq_ofNat_of_zero_le hv.le
  have ha : t.val a = (a0 : Int) := ha
  have hpos0 : 0 < a0 := by omega
  obtain ⟨r, hr', hrv⟩ := sqrt_raw ht h0 h31 a ha hpos0 (range_raw ha hr)
  have hApos : 0 < a0 * 2 ^ rt := Nat.mul_pos hpos0 (Nat.two_pow_pos rt)
  have hx1 : Newton.step (a0 * 2 ^ rt) a0 = (a0 + 2 ^ rt) / 2 := by
    unfold Newton.step
    rw [Nat.mul_div_cancel_left _ hpos0]
  have hge := (Newton.iter_ge hApos hpos0 9).1
  have hle := Newton.iter_linear (x := Newton.step (a0 * 2 ^ rt) a0) hApos (Newton.sqrt_le_step hpos0) 9
  rw [← Function.iterate_succ_apply, hx1] at hle
  set s := Nat.sqrt (a0 * 2 ^ rt)
  set y := (Newton.step (a0 * 2 ^ rt))^[10] a0
  have hle' : y ≤ s + max 1 ((a0 + 2 ^ rt) / 1024) := by
    refine le_trans hle (Nat.add_le_add_left (max_le_max (Nat.le_refl 1) ?_) _)
    have e : (2 : Nat) ^ 9 = 512 := rfl
    rw [e]
    omega
  have hfa : fpv t rt a = (a0 : ℚ) / 2 ^ rt := by unfold fpv; rw [ha]; push_cast; rfl
  have hfr : fpv t rt r = (y : ℚ) / 2 ^ rt := by unfold fpv; rw [hrv]; push_cast; rfl
  refine ⟨r, (s : ℚ) / 2 ^ rt, hr', by rw [hfa]; exact sqrtDown_raw rt a0, ?_, ?_⟩
  · rw [hfr, div_le_div_iff_of_pos_right hq]
    exact_mod_cast hge
  · rw [hfr, hfa]
    have h3 : (y : ℚ) ≤ s + max 1 (((a0 : ℚ) + 2 ^ rt) / 1024) := by
      have c1 : (y : ℚ) ≤ ((s + max 1 ((a0 + 2 ^ rt) / 1024) : Nat) : ℚ) := by exact_mod_cast hle'
      have c2 : (((a0 + 2 ^ rt) / 1024 : Nat) : ℚ) ≤ ((a0 : ℚ) + 2 ^ rt) / 1024 := by
        have := @Nat.cast_div_le ℚ _ _ _ (a0 + 2 ^ rt) 1024
        push_cast at this
        exact this
      refine le_trans c1 ?_
      push_cast
      have := max_le_max (le_refl (1 : ℚ)) c2
      push_cast at this
      linarith
    have e : (s : ℚ) / 2 ^ rt + max (1 / 2 ^ rt) (((a0 : ℚ) / 2 ^ rt + 1) / 1024) =
        (s + max 1 (((a0 : ℚ) + 2 ^ rt) / 1024)) / 2 ^ rt := by
      have e2 : ((a0 : ℚ) / 2 ^ rt + 1) / 1024 = ((a0 : ℚ) + 2 ^ rt) / 1024 / 2 ^ rt := by field_simp
      rw [e2, max_div_div_right hq.le, ← add_div]
    rw [e]
    exact div_le_div_of_nonneg_right h3 hq.le

/-- C67 (partial), arguments from `2^-12` to `2^12`: the ten iterations suffice and the result is the square
root rounded down, or one unit more. Missing: larger and smaller arguments, where only `sqrt_bound_partial`
holds. -/
theorem sqrt_converged_partial {lf rt : Nat} {t : ITy} (ht : storage lf rt = some t) (h0 : 0 < rt)
    (h31 : rt < 31) (a : BitVec t.w) (hlo : 1 / 2 ^ 12 ≤ fpv t rt a) (hhi : fpv t rt a ≤ 2 ^ 12)
    (hr : InRange lf (fpv t rt a + 2)) :
    ∃ r s, FixedPoint.sqrt t rt a = some r ∧ SqrtDown rt (fpv t rt a) s ∧
      (fpv t rt r = s ∨ fpv t rt r = s + 1 / 2 ^ rt) := by
  obtain ⟨hs, hw⟩ := storage_le ht
  have hq : (0 : ℚ) < 2 ^ rt := by positivity
  have hpos : 0 < fpv t rt a := lt_of_lt_of_le (by norm_num) hlo
  have hv : 0 < t.val a := by
    unfold fpv at hpos
    have := (div_pos_iff_of_pos_right hq).mp hpos
    exact_mod_cast this
  obtain ⟨a0, ha⟩ := Int.eq_ofNat_of_zero_le hv.le
  have ha : t.val a = (a0 : Int) := ha
  have hpos0 : 0 < a0 := by omega
  have hrange := range_raw ha hr
  obtain ⟨r, hr', hrv⟩ := sqrt_raw ht h0 h31 a ha hpos0 hrange
  have hp := Nat.two_pow_pos rt
  have hApos : 0 < a0 * 2 ^ rt := Nat.mul_pos hpos0 hp
  have hfa : fpv t rt a = (a0 : ℚ) / 2 ^ rt := by unfold fpv; rw [ha]; push_cast; rfl
  have hx1 : Newton.step (a0 * 2 ^ rt) a0 = (a0 + 2 ^ rt) / 2 := by
    unfold Newton.step
    rw [Nat.mul_div_cancel_left _ hpos0]
  have hA64 : a0 * 2 ^ rt < 2 ^ 64 := by
    have hw64 : t.w ≤ 64 := by cases t <;> decide
    have h1 : a0 < 2 ^ (lf + rt) := by omega
    calc a0 * 2 ^ rt < 2 ^ (lf + rt) * 2 ^ rt := Nat.mul_lt_mul_of_pos_right h1 hp
      _ = 2 ^ (lf + 2 * rt) := by rw [← Nat.pow_add]; congr 1; omega
      _ ≤ 2 ^ 64 := Nat.pow_le_pow_right (by omega) (by omega)
  have hex : Newton.excess (a0 * 2 ^ rt) (Newton.step (a0 * 2 ^ rt) a0) ≤ 1024 := by
    rw [hx1]
    unfold Newton.excess
    have hAq : (0 : ℚ) < ((a0 * 2 ^ rt : Nat) : ℚ) := by exact_mod_cast hApos
    rw [div_le_iff₀ hAq]
    have h1 : (((a0 + 2 ^ rt) / 2 : Nat) : ℚ) ≤ ((a0 : ℚ) + 2 ^ rt) / 2 := by
      have := @Nat.cast_div_le ℚ _ _ _ (a0 + 2 ^ rt) 2
      push_cast at this
      exact this
    have h2 : (((a0 + 2 ^ rt) / 2 : Nat) : ℚ) ^ 2 ≤ (((a0 : ℚ) + 2 ^ rt) / 2) ^ 2 :=
      pow_le_pow_left₀ (Nat.cast_nonneg _) h1 2
    rw [hfa] at hlo hhi
    have h3 : (2 : ℚ) ^ rt ≤ 2 ^ 12 * a0 := by
      rw [div_le_div_iff₀ (by norm_num) hq] at hlo; linarith
    have h4 : (a0 : ℚ) ≤ 2 ^ 12 * 2 ^ rt := by
      rw [div_le_iff₀ hq] at hhi; exact hhi
    have ha0 : (0 : ℚ) < a0 := by exact_mod_cast hpos0
    push_cast
    have h5 : (2 : ℚ) ^ rt * 2 ^ rt ≤ 2 ^ 12 * a0 * 2 ^ rt := mul_le_mul_of_nonneg_right h3 hq.le
    have h6 : (a0 : ℚ) * a0 ≤ 2 ^ 12 * 2 ^ rt * a0 := mul_le_mul_of_nonneg_right h4 ha0.le
    have hq1 : (1 : ℚ) ≤ 2 ^ rt := one_le_pow₀ (by norm_num)
    have ha1 : (1 : ℚ) ≤ a0 := by exact_mod_cast hpos0
    rcases le_total (a0 : ℚ) (2 ^ rt) with hle | hle
    · -- a0² ≤ a0 2^rt
      have h7 : (a0 : ℚ) * a0 ≤ a0 * 2 ^ rt := mul_le_mul_of_nonneg_left hle ha0.le
      nlinarith
    · have h7 : (2 : ℚ) ^ rt * 2 ^ rt ≤ a0 * 2 ^ rt := mul_le_mul_of_nonneg_right hle hq.le
      nlinarith
  have hge := (Newton.iter_ge hApos hpos0 9).1
  have hle := Newton.iter_nine hApos hA64 (Newton.sqrt_le_step hpos0) hex
  rw [← Function.iterate_succ_apply] at hle
  set s := Nat.sqrt (a0 * 2 ^ rt)
  set y := (Newton.step (a0 * 2 ^ rt))^[10] a0
  have hfr : fpv t rt r = (y : ℚ) / 2 ^ rt := by unfold fpv; rw [hrv]; push_cast; rfl
  refine ⟨r, (s : ℚ) / 2 ^ rt, hr', by rw [hfa]; exact sqrtDown_raw rt a0, ?_⟩
  have : y = s ∨ y = s + 1 := by omega
  rw [hfr]
  rcases this with h | h
  · left; rw [h]
  · right; rw [h]; push_cast; rw [add_div]

/-- 2.25 and 1000 in `fp_t<16, 8>` satisfy the hypotheses. -/
example : storage 16 8 = some .i32 ∧ (1 / 2 ^ 12 : ℚ) ≤ fpv .i32 8 256000#32 ∧
    fpv .i32 8 256000#32 ≤ 2 ^ 12 ∧ InRange 16 (fpv .i32 8 256000#32 + 2) := by
  have : ITy.i32.val 256000#32 = 256000 := by decide
  refine ⟨by decide, ?_, ?_, ?_⟩ <;> simp only [fpv, InRange, this] <;> norm_num

/-- sqrt(2.25) = 1.5; sqrt(1000) is 31.62109375 rounded down to 1/256, and `sqrt` finds it. -/
example : FixedPoint.sqrt .i32 8 576#32 = some 384#32 ∧
    FixedPoint.sqrt .i32 8 256000#32 = some 8095#32 := by decide +kernel

/-- Ten iterations are not enough for large numbers: in `fp_t<32, 8>` the square root of 2^30, which is 2^15,
comes out above 2^20. -/
theorem sqrt_counterexample :
    storage 32 8 = some .i64 ∧ fpv .i64 8 (BitVec.ofNat 64 (2 ^ 38)) = 2 ^ 30 ∧
    ∃ r, FixedPoint.sqrt .i64 8 (BitVec.ofNat 64 (2 ^ 38)) = some r ∧ 2 ^ 20 < fpv .i64 8 r := by
  refine ⟨by decide, ?_, ?_⟩
  · have : ITy.i64.val (BitVec.ofNat 64 (2 ^ 38)) = 2 ^ 38 := by decide +kernel
    unfold fpv; rw [this]; norm_num
  · refine ⟨(FixedPoint.sqrt .i64 8 (BitVec.ofNat 64 (2 ^ 38))).get (by decide +kernel), ?_, ?_⟩
    · simp
    · have : ITy.i64.val ((FixedPoint.sqrt .i64 8 (BitVec.ofNat 64 (2 ^ 38))).get (by decide +kernel)) >
          2 ^ 28 := by decide +kernel
      unfold fpv
      rw [lt_div_iff₀ (by positivity)]
      have h : ((2 ^ 28 : ℤ) : ℚ) < (ITy.i64.val ((FixedPoint.sqrt .i64 8 (BitVec.ofNat 64 (2 ^ 38))).get
        (by decide +kernel)) : ℤ) := by exact_mod_cast this
      refine lt_of_eq_of_lt ?_ h
      norm_num

/-- The sums of the loop overflow near the top of the range: in `fp_t<8, 4>`, sqrt(127) is negative. -/
theorem sqrt_overflow :
    storage 8 4 = some .i16 ∧ InRange 8 (fpv .i16 4 2032#16) ∧
    ∃ r, FixedPoint.sqrt .i16 4 2032#16 = some r ∧ fpv .i16 4 r < 0 := by
  refine ⟨by decide, ?_, 65356#16, by decide +kernel, ?_⟩
  · have : ITy.i16.val 2032#16 = 2032 := by decide
    simp only [fpv, InRange, this]
    norm_num
  · have : ITy.i16.val 65356#16 = -180 := by decide
    simp only [fpv, this]
    norm_num

/-- Zero has no square root: the first pass divides by it. -/
theorem sqrt_zero_undefined (t : ITy) (rt : Nat) : FixedPoint.sqrt t rt 0 = none := by
  unfold FixedPoint.sqrt sqrtLoop
  have hd : FixedPoint.div t rt 0 0 = none := by
    unfold FixedPoint.div
    have h0 : t.val 0 = 0 := by cases t <;> rfl
    cases h : shlW t (t.val 0) rt with
    | none => rfl
    | some p => simp only [Option.bind_eq_bind, Option.bind_some, if_pos h0]
  rw [hd]
  rfl

/-- C67: `exp(a, 0)` is one, whatever `a`. -/
theorem exp_zero {lf rt : Nat} {t : ITy} (ht : storage lf rt = some t) (h31 : rt < 31) (h2 : 2 ≤ lf)
    (a : BitVec t.w) : ∃ r, expI t rt a 0 = some r ∧ fpv t rt r = 1 := by
  obtain ⟨hs, hw⟩ := storage_le ht
  have hq : (0 : ℚ) < 2 ^ rt := by positivity
  have hone : t.minv ≤ 1 * 2 ^ rt ∧ 1 * (2 : ℤ) ^ rt ≤ t.maxv := by
    have hp : (0 : ℤ) < 2 ^ rt := by positivity
    have h4 : (2 : ℤ) ^ 2 ≤ 2 ^ lf := pow_le_pow_right₀ (by norm_num) h2
    have hlf : (2 : ℤ) * 2 ^ rt < 2 ^ (lf + rt) := by rw [pow_add]; nlinarith
    exact fits hs (show lf + rt ≤ t.w by omega) (by linarith) (by linarith)
  obtain ⟨one, ho, hov⟩ := ofSmallInt_eq h31 hone.1 hone.2
  refine ⟨one, ?_, ?_⟩
  · unfold expI
    rw [ho]
    rfl
  · unfold fpv
    rw [hov]
    push_cast
    field_simp

/-- C67, `exp` with a negative exponent: for the inverse of an integer `j` the result is the power of `j`,
exactly, if that is in range. -/
theorem exp_neg {lf rt : Nat} {t : ITy} (ht : storage lf rt = some t) (h0 : 0 < rt) (h31 : rt < 31)
    (a : BitVec t.w) {j : ℤ} (ha : fpv t rt a * j = 1) {n : Nat} (hn : 0 < n) (h63 : n < 2 ^ 63)
    (h : 2 * |j ^ n| < 2 ^ lf) :
    ∃ r, expI t rt a (-n) = some r ∧ fpv t rt r = j ^ n := by
  obtain ⟨hs, hw⟩ := storage_le ht
  have hj : j ≠ 0 := by
    rintro rfl
    simp at ha
  have hq : (0 : ℚ) < 2 ^ rt := by positivity
  have hp : (0 : ℤ) < 2 ^ rt := by positivity
  have hav : t.val a * j = 2 ^ rt := by
    unfold fpv at ha
    rw [div_mul_eq_mul_div, div_eq_iff hq.ne', one_mul] at ha
    exact_mod_cast ha
  have hj1 : 1 ≤ |j| := Int.one_le_abs hj
  have hjn : |j| ≤ |j ^ n| := by
    rw [abs_pow]
    calc |j| = |j| ^ 1 := (pow_one _).symm
      _ ≤ |j| ^ n := pow_le_pow_right₀ hj1 hn
  have h2 : (2 : ℤ) < 2 ^ lf := by omega
  have hone : t.minv ≤ 1 * 2 ^ rt ∧ 1 * (2 : ℤ) ^ rt ≤ t.maxv := by
    have hlf : (2 : ℤ) * 2 ^ rt < 2 ^ (lf + rt) := by rw [pow_add]; nlinarith
    exact fits hs (show lf + rt ≤ t.w by omega) (by linarith) (by linarith)
  obtain ⟨one, ho, hov⟩ := ofSmallInt_eq h31 hone.1 hone.2
  -- the reciprocal is the integer
  have hav0 : t.val a ≠ 0 := by
    intro hz
    rw [hz, zero_mul] at hav
    omega
  have hsq : t.minv ≤ t.val one * 2 ^ rt ∧ t.val one * 2 ^ rt ≤ t.maxv := by
    have e : t.val one * 2 ^ rt = 2 ^ rt * 2 ^ rt := by rw [hov]; ring
    rw [e]
    have hlf : (2 : ℤ) * (2 ^ rt * 2 ^ rt) < 2 ^ (lf + 2 * rt) := by
      rw [show lf + 2 * rt = lf + (rt + rt) by omega, pow_add, pow_add]
      have : (0 : ℤ) < 2 ^ rt * 2 ^ rt := by positivity
      nlinarith
    exact fits hs hw (by have : (0 : ℤ) < 2 ^ rt * 2 ^ rt := by positivity
                         have : (0 : ℤ) < 2 ^ (lf + 2 * rt) := by positivity
                         linarith) hlf
  have hjr : t.minv ≤ j * 2 ^ rt ∧ j * 2 ^ rt ≤ t.maxv := by
    have hb : 2 * |j| < 2 ^ lf := by omega
    have hb1 : 2 * j < 2 ^ lf := by have := le_abs_self j; omega
    have hb2 : -(2 ^ lf) < 2 * j := by have := neg_abs_le j; omega
    exact fits hs (show lf + rt ≤ t.w by omega) (by rw [pow_add]; nlinarith) (by rw [pow_add]; nlinarith)
  have hwp := w_le_promW t
  obtain ⟨p, hpp, hpv⟩ := shlW_fits hs (t.val one) (s := rt) (by omega) hsq.1 hsq.2
  have hq' : Int.tdiv (t.val one * 2 ^ rt) (t.val a) = j * 2 ^ rt := by
    have e : t.val one * 2 ^ rt = j * 2 ^ rt * t.val a := by
      rw [hov]
      have : j * 2 ^ rt * t.val a = (t.val a * j) * 2 ^ rt := by ring
      rw [this, hav]
      ring
    rw [e]
    exact Int.mul_tdiv_cancel _ hav0
  have hdiv : FixedPoint.div t rt one a = some (t.cast (j * 2 ^ rt)) := by
    unfold FixedPoint.div
    rw [hpp]
    simp only [Option.bind_eq_bind, Option.bind_some]
    rw [if_neg hav0, hpv, hq', prom_fits hs hjr.1 hjr.2]
    rfl
  obtain ⟨r, hr, hrv⟩ := expLoop_int ht h0 n hn one (t.cast (j * 2 ^ rt)) 1 j hov
    (val_cast t _ hjr.1 hjr.2) one_ne_zero hj (by simpa using h)
  refine ⟨r, ?_, ?_⟩
  · unfold expI
    rw [ho]
    simp only [Option.bind_eq_bind, Option.bind_some]
    have hprom : ITy.i64.prom (- -(n : Int)) = some (n : Int) := by
      rw [neg_neg]
      have hm : ITy.i64.maxv = 2 ^ 63 - 1 := by decide
      have hm' : ITy.i64.minv = -2 ^ 63 := by decide
      exact prom_fits (by rfl) (by omega) (by omega)
    rw [if_neg (by omega), if_pos (by omega), hdiv, hprom]
    simpa using hr
  · unfold fpv
    rw [hrv]
    push_cast
    field_simp

/-- (-1/2)^-5 = -32 in `fp_t<8, 4>`. -/
example : storage 8 4 = some .i16 ∧ fpv .i16 4 (BitVec.ofInt 16 (-8)) * ((-2 : ℤ) : ℚ) = 1 ∧
    2 * |(-2 : ℤ) ^ 5| < 2 ^ 8 ∧ expI .i16 4 (BitVec.ofInt 16 (-8)) (-5) = some (BitVec.ofInt 16 (-512)) := by
  refine ⟨by decide, ?_, by decide, by decide +kernel⟩
  have : ITy.i16.val (BitVec.ofInt 16 (-8)) = -8 := by decide
  unfold fpv; rw [this]; norm_num

end Nsimd.Props.FixedSqrt
