import Verif.Lemmas.ScalarInt

set_option linter.unusedSimpArgs false
set_option linter.unusedVariables false

namespace Nsimd.Props
open ITy

/-- Specification: the exact number clamped to the range of a type. -/
def clampTo (lo hi v : Int) : Int := if v < lo then lo else if hi < v then hi else v

theorem addsS_saturates (t : ITy) (ht : t.sgn = true) (a b : BitVec t.w) :
    ∃ r, Scalar.addsS t a b = some r ∧
      t.val r = clampTo t.minv t.maxv (t.val a + t.val b) := by
  have h1 := val_lb t a; have h2 := val_ub t a
  have h3 := val_lb t b; have h4 := val_ub t b
  have hc := val_cast t (t.val a + t.val b)
  have hmax := val_cast t t.maxv (by cases t <;> decide) (by simp)
  have hmin := val_cast t t.minv (by simp) (by cases t <;> decide)
  unfold Scalar.addsS clampTo
  cases t <;> simp only [sgn, Bool.false_eq_true] at ht <;>
  · simp only [prom, maxv, minv, promSgn, promW, if_true] at *
    generalize val _ a = x at *
    generalize val _ b = y at *
    split
    · rw [if_pos (by omega)]
      exact ⟨_, rfl, by rw [hc (by omega) (by omega)]; split <;> (try split) <;> omega⟩
    · split
      · rw [if_pos (by omega)]
        simp only [Option.bind_eq_bind, Option.bind_some]
        split
        · exact ⟨_, rfl, by rw [hmax]; split <;> (try split) <;> omega⟩
        · rw [if_pos (by omega)]
          exact ⟨_, rfl, by rw [hc (by omega) (by omega)]; split <;> (try split) <;> omega⟩
      · rw [if_pos (by omega)]
        simp only [Option.bind_eq_bind, Option.bind_some]
        split
        · exact ⟨_, rfl, by rw [hmin]; split <;> (try split) <;> omega⟩
        · rw [if_pos (by omega)]
          exact ⟨_, rfl, by rw [hc (by omega) (by omega)]; split <;> (try split) <;> omega⟩

theorem addsU_saturates (t : ITy) (ht : t.sgn = false) (a b : BitVec t.w) :
    ∃ r, Scalar.addsU t a b = some r ∧
      t.val r = clampTo t.minv t.maxv (t.val a + t.val b) := by
  have h1 := val_lb t a; have h2 := val_ub t a
  have h3 := val_lb t b; have h4 := val_ub t b
  have hmax := val_cast_mod t (-1)
  have hmax1 := val_lb t (t.cast (-1))
  have hmax2 := val_ub t (t.cast (-1))
  have hm := val_cast_mod t (t.val a + t.val b)
  have hm1 := val_lb t (t.cast (t.val a + t.val b))
  have hm2 := val_ub t (t.cast (t.val a + t.val b))
  obtain ⟨p, hp⟩ : ∃ p, t.prom (t.val a + t.val b) = some p := by
    apply prom_def
    cases t <;> simp only [sgn, Bool.true_eq_false] at ht <;>
      simp only [promSgn, promW, maxv, minv] at * <;> first | omega | (intro h; cases h)
  unfold Scalar.addsU clampTo
  simp only [hp, Option.bind_eq_bind, Option.bind_some, prom_cast hp]
  generalize t.cast (t.val a + t.val b) = r at *
  split
  · refine ⟨_, rfl, ?_⟩
    cases t <;> simp only [sgn, Bool.true_eq_false] at ht <;> simp only [w, maxv, minv] at * <;>
      split <;> (try split) <;> omega
  · refine ⟨_, rfl, ?_⟩
    cases t <;> simp only [sgn, Bool.true_eq_false] at ht <;> simp only [w, maxv, minv] at * <;>
      split <;> (try split) <;> omega

/-- C06: saturated addition is defined for all operands and returns the exact
sum clamped to the range of the type. -/
theorem adds_saturates (t : ITy) (a b : BitVec t.w) :
    ∃ r, Scalar.adds t a b = some r ∧
      t.val r = clampTo t.minv t.maxv (t.val a + t.val b) := by
  unfold Scalar.adds
  cases h : t.sgn
  · simpa [h] using addsU_saturates t h a b
  · simpa [h] using addsS_saturates t h a b


-- a saturating and a non-saturating instance of the statement
example : Scalar.adds .i8 100#8 100#8 = some 127#8 ∧ Scalar.adds .u16 65000#16 1#16 = some 65001#16 := by
  decide

/-- C07, full characterisation: `subs` returns the clamped exact difference for
*every* `a` exactly when it is not asked to subtract the smallest value of a
signed type.  For that single value the claim fails for every `a`. -/
theorem subs_correct_iff (t : ITy) (a b : BitVec t.w) :
    (∃ r, Scalar.subs t a b = some r ∧
      t.val r = clampTo t.minv t.maxv (t.val a - t.val b)) ↔
    ¬ (t.sgn = true ∧ t.val b = t.minv) := by
  have h1 := val_lb t a; have h2 := val_ub t a
  have h3 := val_lb t b; have h4 := val_ub t b
  cases hs : t.sgn
  · simp only [Bool.false_eq_true, false_and, not_false_iff, iff_true]
    unfold Scalar.subs
    simp only [hs, Bool.false_eq_true, if_false, Option.bind_eq_bind]
    split
    · refine ⟨_, rfl, ?_⟩
      rw [val_cast t 0 (by cases t <;> simp at hs ⊢) (by cases t <;> simp at hs ⊢)]
      unfold clampTo
      cases t <;> simp only [sgn, Bool.true_eq_false] at hs <;> simp only [minv, maxv] at * <;>
        split <;> (try split) <;> omega
    · obtain ⟨p, hp⟩ : ∃ p, t.prom (t.val a - t.val b) = some p := by
        apply prom_def
        cases t <;> simp only [sgn, Bool.true_eq_false] at hs <;>
          simp only [promSgn, promW, maxv, minv] at * <;> first | omega | (intro h; cases h)
      simp only [hp, Option.bind_some, prom_cast hp]
      refine ⟨_, rfl, ?_⟩
      have h0 : t.minv = 0 := by cases t <;> simp at hs ⊢
      rw [val_cast t _ (by omega) (by omega)]
      unfold clampTo
      split <;> (try split) <;> omega
  · simp only [true_and]
    unfold Scalar.subs
    simp only [hs, if_true, Option.bind_eq_bind]
    by_cases hb : t.val b = t.minv
    · simp only [hb, not_true_eq_false, iff_false]
      rintro ⟨r, hr, hv⟩
      cases hp : t.prom (-t.minv) with
      | none => simp [hp] at hr
      | some p =>
        simp only [hp, Option.bind_some] at hr
        have hcast : t.val (t.cast p) = t.minv := by
          rw [prom_cast hp]
          have e := val_cast_mod t (-t.minv)
          have l := val_lb t (t.cast (-t.minv))
          have u := val_ub t (t.cast (-t.minv))
          cases t <;> simp only [sgn, Bool.false_eq_true] at hs <;>
            simp only [w, minv, maxv] at * <;> omega
        obtain ⟨r', hr', hv'⟩ := addsS_saturates t hs a (t.cast p)
        rw [hr] at hr'
        obtain rfl : r = r' := by simpa using hr'
        rw [hcast] at hv'
        rw [hv] at hv'
        unfold clampTo at hv'
        cases t <;> simp only [sgn, Bool.false_eq_true] at hs <;>
          simp only [minv, maxv] at * <;> split at hv' <;> (try split at hv') <;>
          (try split at hv') <;> (try split at hv') <;> omega
    · simp only [hb, not_false_iff, iff_true]
      obtain ⟨hp, hc⟩ : t.prom (-t.val b) = some (-t.val b) ∧
          t.val (t.cast (-t.val b)) = -t.val b := by
        constructor
        · apply prom_eq <;> cases t <;> simp only [sgn, Bool.false_eq_true] at hs <;>
            simp only [minv, maxv, promSgn, promW, if_true] at * <;> omega
        · apply val_cast <;> cases t <;> simp only [sgn, Bool.false_eq_true] at hs <;>
            simp only [minv, maxv] at * <;> omega
      simp only [hp, Option.bind_some]
      obtain ⟨r, hr, hv⟩ := addsS_saturates t hs a (t.cast (-t.val b))
      exact ⟨r, hr, by rw [hv, hc]; rfl⟩

/-- C07 as far as it holds.  Missing from the full claim: subtracting the
smallest value of a signed type (see `subs_correct_iff`, `subs_counterexample`). -/
theorem subs_saturates_partial (t : ITy) (a b : BitVec t.w)
    (h : ¬ (t.sgn = true ∧ t.val b = t.minv)) :
    ∃ r, Scalar.subs t a b = some r ∧
      t.val r = clampTo t.minv t.maxv (t.val a - t.val b) :=
  (subs_correct_iff t a b).2 h

example : ¬ (ITy.i16.sgn = true ∧ ITy.i16.val (BitVec.ofInt 16 (-32767)) = ITy.i16.minv) := by decide

/-- C07 is false as stated: `subs_i8(0, -128)` is `-128` instead of `127`, and
`subs_i32(0, INT_MIN)` is undefined behaviour. -/
theorem subs_counterexample :
    Scalar.subs .i8 0#8 (BitVec.ofInt 8 (-128)) = some (BitVec.ofInt 8 (-128)) ∧
    clampTo (-128) 127 (0 - (-128)) = 127 ∧
    Scalar.subs .i32 0#32 (BitVec.ofInt 32 (-2147483648)) = none := by decide

/-- Specification of C integer arithmetic as the user sees it: on `i32`/`i64`
the exact value if representable and undefined otherwise; on all other types
the value modulo `2^w`. -/
def WrapsOrUB (t : ITy) (v : Int) (o : Option (BitVec t.w)) : Prop :=
  if t = .i32 ∨ t = .i64 then
    if t.minv ≤ v ∧ v ≤ t.maxv then ∃ r, o = some r ∧ t.val r = v else o = none
  else ∃ r, o = some r ∧ t.val r % 2 ^ t.w = v % 2 ^ t.w

/-- Bounds on a value that fits in the promoted type. -/
theorem wrapsOrUB_of (t : ITy) (v : Int)
    (h : t ≠ .i32 → t ≠ .i64 → t ≠ .u32 → t ≠ .u64 → -2147483648 ≤ v ∧ v < 2147483648) :
    WrapsOrUB t v (do return t.cast (← t.prom v)) := by
  unfold WrapsOrUB
  split
  · rename_i ht
    split
    · rename_i hr
      have hp : t.prom v = some v := by
        apply prom_eq <;> rcases ht with rfl | rfl <;>
          simp only [minv, maxv, promSgn, promW, if_true] at * <;> omega
      exact ⟨_, by simp only [hp]; rfl, val_cast t v hr.1 hr.2⟩
    · rename_i hr
      have hp : t.prom v = none := by
        unfold prom
        rcases ht with rfl | rfl <;> simp only [minv, maxv, promSgn, promW, if_true] at * <;>
          exact if_neg (by omega)
      simp only [hp]; rfl
  · rename_i ht
    have hp : ∃ p, t.prom v = some p := by
      apply prom_def
      cases t <;> simp at ht h <;>
        simp only [minv, maxv, promSgn, promW] at * <;> first | omega | (intro h; cases h)
    obtain ⟨p, hp⟩ := hp
    refine ⟨_, by simp only [hp]; rfl, ?_⟩
    rw [prom_cast hp]
    exact val_cast_mod t v

/-- C48, addition. -/
theorem add_wraps_or_ub (t : ITy) (a b : BitVec t.w) :
    WrapsOrUB t (t.val a + t.val b) (Scalar.add t a b) := by
  have h1 := val_lb t a; have h2 := val_ub t a
  have h3 := val_lb t b; have h4 := val_ub t b
  apply wrapsOrUB_of
  intros
  cases t <;> simp only [minv, maxv] at * <;> first | contradiction | omega

/-- C48, subtraction. -/
theorem sub_wraps_or_ub (t : ITy) (a b : BitVec t.w) :
    WrapsOrUB t (t.val a - t.val b) (Scalar.sub t a b) := by
  have h1 := val_lb t a; have h2 := val_ub t a
  have h3 := val_lb t b; have h4 := val_ub t b
  apply wrapsOrUB_of
  intros
  cases t <;> simp only [minv, maxv] at * <;> first | contradiction | omega

/-- C48, negation. -/
theorem neg_wraps_or_ub (t : ITy) (a : BitVec t.w) :
    WrapsOrUB t (- t.val a) (Scalar.neg t a) := by
  have h1 := val_lb t a; have h2 := val_ub t a
  apply wrapsOrUB_of
  intros
  cases t <;> simp only [minv, maxv] at * <;> first | contradiction | omega

theorem abs_mul_le {x y : Int} {m : Int} (hx1 : -m ≤ x) (hx2 : x ≤ m) (hy1 : -m ≤ y)
    (hy2 : y ≤ m) : -(m * m) ≤ x * y ∧ x * y ≤ m * m := by
  have h1 : 0 ≤ (m - x) * (m + y) := Int.mul_nonneg (by omega) (by omega)
  have h2 : 0 ≤ (m + x) * (m - y) := Int.mul_nonneg (by omega) (by omega)
  have h3 : 0 ≤ (m - x) * (m - y) := Int.mul_nonneg (by omega) (by omega)
  have h4 : 0 ≤ (m + x) * (m + y) := Int.mul_nonneg (by omega) (by omega)
  simp only [Int.sub_mul, Int.mul_sub, Int.add_mul, Int.mul_add] at h1 h2 h3 h4
  rw [Int.mul_comm m y] at *
  rw [Int.mul_comm x m] at *
  constructor <;> omega

/-- C48, multiplication, every type but `u16`. -/
theorem mul_wraps_or_ub (t : ITy) (ht : t ≠ .u16) (a b : BitVec t.w) :
    WrapsOrUB t (t.val a * t.val b) (Scalar.mul t a b) := by
  have h1 := val_lb t a; have h2 := val_ub t a
  have h3 := val_lb t b; have h4 := val_ub t b
  apply wrapsOrUB_of
  intros
  cases t <;> simp only [minv, maxv] at * <;> (try contradiction) <;>
    · generalize val _ a = x at *
      generalize val _ b = y at *
      have := abs_mul_le (x := x) (y := y) (m := 32768) (by omega) (by omega) (by omega) (by omega)
      omega

/-- C48, division: truncation toward zero; undefined for a zero divisor, and for `i32`/`i64` when
the quotient does not fit. -/
theorem div_wraps_or_ub (t : ITy) (a b : BitVec t.w) :
    (t.val b = 0 → Scalar.div t a b = none) ∧
    (t.val b ≠ 0 → WrapsOrUB t (Int.tdiv (t.val a) (t.val b)) (Scalar.div t a b)) := by
  refine ⟨fun h => by simp [Scalar.div, h], fun h => ?_⟩
  have h1 := val_lb t a; have h2 := val_ub t a
  have he : Scalar.div t a b = (do return t.cast (← t.prom (Int.tdiv (t.val a) (t.val b)))) := by
    simp [Scalar.div, h]
  rw [he]
  apply wrapsOrUB_of
  have hn : (Int.tdiv (t.val a) (t.val b)).natAbs ≤ (t.val a).natAbs := by
    rw [Int.natAbs_tdiv]; exact Nat.div_le_self _ _
  intros
  generalize Int.tdiv (t.val a) (t.val b) = q at *
  cases t <;> simp only [minv, maxv] at * <;> first | contradiction | omega

example : Scalar.div .i8 0x80#8 0xff#8 = some 0x80#8 ∧ Scalar.div .i16 0xfff9#16 2#16 = some 0xfffd#16 ∧
    Scalar.div .i32 0x80000000#32 0xffffffff#32 = none ∧ Scalar.div .u8 7#8 0#8 = none := by decide

/-- C48, multiplication of `u16`: both operands are promoted to `int`, so the
product is undefined exactly when it reaches `2^31`. -/
theorem mul_u16 (a b : BitVec 16) :
    (a.toNat * b.toNat < 2 ^ 31 → Scalar.mul .u16 a b = some (a * b)) ∧
    (2 ^ 31 ≤ a.toNat * b.toNat → Scalar.mul .u16 a b = none) := by
  unfold Scalar.mul
  simp only [prom, val, promSgn, promW, sgn, if_true, if_false, Bool.false_eq_true]
  have : ((a.toNat : Int) * (b.toNat : Int)) = ((a.toNat * b.toNat : Nat) : Int) := by simp
  rw [this]
  constructor
  · intro h
    rw [if_pos (by omega)]
    have : a * b = ITy.cast .u16 ((a.toNat * b.toNat : Nat) : Int) := by
      apply BitVec.eq_of_toNat_eq
      simp only [ITy.cast, BitVec.ofInt_natCast, BitVec.toNat_ofNat, BitVec.toNat_mul, w]
    rw [this]; rfl
  · intro h
    rw [if_neg (by omega)]; rfl

example : Scalar.mul .u16 300#16 300#16 = some 24464#16 ∧ Scalar.mul .u16 65535#16 65535#16 = none := by
  decide


/-- C48, fused forms: whenever `(±a) * b ± c` is defined it is the exact value
modulo `2^w`. -/
theorem fma_mod (t : ITy) (a b c r : BitVec t.w) :
    (Scalar.fma t a b c = some r → r = t.cast (t.val a * t.val b + t.val c)) ∧
    (Scalar.fms t a b c = some r → r = t.cast (t.val a * t.val b - t.val c)) ∧
    (Scalar.fnma t a b c = some r → r = t.cast (-(t.val a * t.val b) + t.val c)) ∧
    (Scalar.fnms t a b c = some r → r = t.cast (-(t.val a * t.val b) - t.val c)) := by
  have key : ∀ {x y z : Int}, x % 2 ^ t.w = y % 2 ^ t.w →
      (x + z) % 2 ^ t.w = (y + z) % 2 ^ t.w ∧ (x - z) % 2 ^ t.w = (y - z) % 2 ^ t.w ∧
      (x * z) % 2 ^ t.w = (y * z) % 2 ^ t.w := by
    intro x y z h
    refine ⟨?_, ?_, ?_⟩
    · rw [Int.add_emod, h, ← Int.add_emod]
    · rw [Int.sub_emod, h, ← Int.sub_emod]
    · rw [Int.mul_emod, h, ← Int.mul_emod]
  refine ⟨?_, ?_, ?_, ?_⟩ <;> intro h
  · simp only [Scalar.fma, Option.bind_eq_bind, Option.bind_eq_some_iff] at h
    obtain ⟨p, hp, q, hq, h⟩ := h
    obtain rfl : t.cast q = r := by simpa using h
    rw [prom_cast hq]
    exact cast_eq_of_mod t (key (prom_mod hp)).1
  · simp only [Scalar.fms, Option.bind_eq_bind, Option.bind_eq_some_iff] at h
    obtain ⟨p, hp, q, hq, h⟩ := h
    obtain rfl : t.cast q = r := by simpa using h
    rw [prom_cast hq]
    exact cast_eq_of_mod t (key (prom_mod hp)).2.1
  · simp only [Scalar.fnma, Option.bind_eq_bind, Option.bind_eq_some_iff] at h
    obtain ⟨o, ho, p, hp, q, hq, h⟩ := h
    obtain rfl : t.cast q = r := by simpa using h
    rw [prom_cast hq]
    apply cast_eq_of_mod t
    have h1 := (key (z := t.val b) (prom_mod ho)).2.2
    rw [Int.neg_mul] at h1
    exact (key ((prom_mod hp).trans h1)).1
  · simp only [Scalar.fnms, Option.bind_eq_bind, Option.bind_eq_some_iff] at h
    obtain ⟨o, ho, p, hp, q, hq, h⟩ := h
    obtain rfl : t.cast q = r := by simpa using h
    rw [prom_cast hq]
    apply cast_eq_of_mod t
    have h1 := (key (z := t.val b) (prom_mod ho)).2.2
    rw [Int.neg_mul] at h1
    exact (key ((prom_mod hp).trans h1)).2.1

/-- C48, fused forms: defined for all operands on every type but `i32`, `i64`
(signed overflow) and `u16` (promotion to `int`). -/
theorem fma_defined (t : ITy) (h1 : t ≠ .i32) (h2 : t ≠ .i64) (h3 : t ≠ .u16)
    (a b c : BitVec t.w) :
    (Scalar.fma t a b c).isSome ∧ (Scalar.fms t a b c).isSome ∧
    (Scalar.fnma t a b c).isSome ∧ (Scalar.fnms t a b c).isSome := by
  have ha1 := val_lb t a; have ha2 := val_ub t a
  have hb1 := val_lb t b; have hb2 := val_ub t b
  have hc1 := val_lb t c; have hc2 := val_ub t c
  by_cases hs : t.promSgn = true
  · have hm : -(1073741824 : Int) ≤ t.val a * t.val b ∧ t.val a * t.val b ≤ 1073741824 ∧
        -32768 ≤ t.val a ∧ t.val a ≤ 32767 ∧ -32768 ≤ t.val c ∧ t.val c ≤ 32767 := by
      have := abs_mul_le (x := t.val a) (y := t.val b) (m := 32768)
      cases t <;> simp only [minv, maxv, promSgn] at * <;> first | contradiction | omega
    have hn : (-t.val a) * t.val b = -(t.val a * t.val b) := Int.neg_mul _ _
    have hw : t.promW = 32 := by cases t <;> simp at h1 h2 h3 hs ⊢
    have e1 : t.prom (t.val a * t.val b) = some (t.val a * t.val b) :=
      prom_eq hs (by rw [hw]; omega)
    have e2 : t.prom (-t.val a) = some (-t.val a) := prom_eq hs (by rw [hw]; omega)
    have e3 : t.prom (-(t.val a * t.val b)) = some (-(t.val a * t.val b)) :=
      prom_eq hs (by rw [hw]; omega)
    have e4 : t.prom (t.val a * t.val b + t.val c) = some (t.val a * t.val b + t.val c) :=
      prom_eq hs (by rw [hw]; omega)
    have e5 : t.prom (t.val a * t.val b - t.val c) = some (t.val a * t.val b - t.val c) :=
      prom_eq hs (by rw [hw]; omega)
    have e6 : t.prom (-(t.val a * t.val b) + t.val c) = some (-(t.val a * t.val b) + t.val c) :=
      prom_eq hs (by rw [hw]; omega)
    have e7 : t.prom (-(t.val a * t.val b) - t.val c) = some (-(t.val a * t.val b) - t.val c) :=
      prom_eq hs (by rw [hw]; omega)
    simp [Scalar.fma, Scalar.fms, Scalar.fnma, Scalar.fnms, e1, e2, e3, e4, e5, e6, e7, hn]
  · have e : ∀ v, t.prom v = some (v % 2 ^ t.promW) := by
      intro v; unfold prom; rw [if_neg hs]
    simp [Scalar.fma, Scalar.fms, Scalar.fnma, Scalar.fnms, e]

example : Scalar.fnms .i8 100#8 100#8 3#8 = some 237#8 := by decide

end Nsimd.Props
