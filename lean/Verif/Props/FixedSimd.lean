import Verif.Model.FixedSimd
import Verif.Props.FixedPoint
import Verif.Props.FixedSqrt
import Verif.Props.X86OpsAgree
import Verif.Props.Arm
import Verif.Props.ArmLane
import Verif.Props.Ppc
import Verif.Props.PpcLane
import Mathlib.Data.Fin.VecNotation

/-!
# C86: the SIMD interface of the fixed point module computes the scalar one in every lane
-/

namespace Nsimd.Props.FixedSimd

open Nsimd Nsimd.ITy Nsimd.FixedSimd
open Nsimd.FixedPoint (div_fits val_eq_toInt or_sign shlW_mod w_le_promW storage_le sarP_eq)

variable {t : ITy} {n : Nat}

/-- Where `f` is defined on every lane, `o` returns a register with these lanes. Specification. -/
def Lanes (B : Backend t n) (f : Fin n → Option (BitVec t.w)) (o : Option B.Reg) : Prop :=
  ∀ r : Fin n → BitVec t.w, (∀ i, f i = some (r i)) → ∃ v, o = some v ∧ ∀ i, B.lane v i = r i

/-- What the module needs of a target: wherever the scalar operator of nsimd is defined on all lanes the
operator on registers gives its results, and the shifts by less than the width of a lane move the bits
of the lanes. Specification. -/
structure Sound (B : Backend t n) : Prop where
  add : ∀ a b, Lanes B (fun i => Scalar.add t (B.lane a i) (B.lane b i)) (B.add a b)
  sub : ∀ a b, Lanes B (fun i => Scalar.sub t (B.lane a i) (B.lane b i)) (B.sub a b)
  mul : ∀ a b, Lanes B (fun i => Scalar.mul t (B.lane a i) (B.lane b i)) (B.mul a b)
  div : ∀ a b, Lanes B (fun i => Scalar.div t (B.lane a i) (B.lane b i)) (B.div a b)
  abs : ∀ a, Lanes B (fun i => Scalar.abs t (B.lane a i)) (B.abs a)
  shl : ∀ a s, s < t.w → ∃ v, B.shl a s = some v ∧ ∀ i, B.lane v i = B.lane a i <<< s
  shra : ∀ a s, s < t.w → ∃ v, B.shra a s = some v ∧ ∀ i, B.lane v i = (B.lane a i).sshiftRight s
  min : ∀ a b i, t.val (B.lane (B.min a b) i) = Min.min (t.val (B.lane a i)) (t.val (B.lane b i))
  max : ∀ a b i, t.val (B.lane (B.max a b) i) = Max.max (t.val (B.lane a i)) (t.val (B.lane b i))
  set1 : ∀ x i, B.lane (B.set1 x) i = x

variable {B : Backend t n}

theorem Lanes.bind {f : Fin n → Option (BitVec t.w)} {g : Fin n → BitVec t.w → Option (BitVec t.w)}
    {o : Option B.Reg} {k : B.Reg → Option B.Reg} (h : Lanes B f o)
    (hk : ∀ v, Lanes B (fun i => g i (B.lane v i)) (k v)) :
    Lanes B (fun i => (f i).bind (g i)) (o.bind k) := by
  intro r hr
  have h1 : ∀ i, ∃ x, f i = some x ∧ g i x = some (r i) := fun i => Option.bind_eq_some_iff.mp (hr i)
  choose p hp hg using h1
  obtain ⟨v, rfl, hv⟩ := h p hp
  exact hk v r fun i => by beta_reduce; rw [hv]; exact hg i

theorem Lanes.mono {f g : Fin n → Option (BitVec t.w)} {o : Option B.Reg} (h : Lanes B f o)
    (hfg : ∀ i r, g i = some r → f i = some r) : Lanes B g o :=
  fun r hr => h r fun i => hfg i _ (hr i)

/-- `fpsimd_t(fp_t(k))`. -/
theorem ofInt_lanes (hB : Sound B) {rt : Nat} {k : Int} {c : BitVec t.w}
    (h : FixedPoint.ofSmallInt t rt k = some c) : ∃ v, ofInt B rt k = some v ∧ ∀ i, B.lane v i = c :=
  ⟨B.set1 c, by unfold ofInt; rw [h]; rfl, fun i => hB.set1 c i⟩

/-! ### Scalar operators as shifts of bits -/

theorem cast_div (hs : t.sgn = true) (x : BitVec t.w) (rt : Nat) :
    t.cast (t.val x / 2 ^ rt) = x.sshiftRight rt := by
  apply BitVec.eq_of_toInt_eq
  rw [BitVec.toInt_sshiftRight, Int.shiftRight_eq_div_pow]
  have hf := div_fits hs (val_lb t x) (val_ub t x) rt
  have := val_cast t _ hf.1 hf.2
  rw [val_eq_toInt hs] at this
  rw [this, val_eq_toInt hs]
  push_cast
  rfl

theorem cast_mul_pow (hs : t.sgn = true) (x : BitVec t.w) (s : Nat) :
    t.cast (t.val x * 2 ^ s) = x <<< s := by
  rw [val_eq_toInt hs]
  unfold ITy.cast
  apply BitVec.eq_of_toInt_eq
  rw [BitVec.toInt_ofInt, BitVec.toInt_shiftLeft, Nat.shiftLeft_eq]
  rw [BitVec.toInt_eq_toNat_bmod, Int.bmod_mul_bmod]
  push_cast
  rfl

/-- The scalar product is the wrapped product of the storage shifted arithmetically. -/
theorem mul_shra (hs : t.sgn = true) {rt : Nat} (hr : rt < t.w) {a b r : BitVec t.w}
    (h : FixedPoint.mul t rt a b = some r) :
    ∃ p, Scalar.mul t a b = some p ∧ r = p.sshiftRight rt := by
  simp only [FixedPoint.mul, Option.bind_eq_bind, Option.bind_eq_some_iff] at h
  obtain ⟨sv, hsv, p, hp, q, hq, he⟩ := h
  refine ⟨t.cast p, ?_, ?_⟩
  · unfold Scalar.mul
    rw [hp]; rfl
  · rw [sarP_eq t _ hr] at hq
    have hq := (Option.some.inj hq).symm
    subst hq
    have he := (Option.some.inj he).symm
    rw [he, ← cast_div hs]
    split
    · rename_i hneg
      by_cases h0 : 0 < rt
      · exact or_sign hs h0 hr.le _ hneg sv hsv
      · have h0 : rt = 0 := by omega
        subst h0
        have : sv = 0 := by
          cases t <;> simp only [sgn, Bool.false_eq_true, reduceCtorEq] at hs
          · have : FixedPoint.signVal .i8 0 = some 0#8 := by decide
            rw [this] at hsv
            exact (Option.some.inj hsv).symm
          · have : FixedPoint.signVal .i16 0 = none := by decide
            rw [this] at hsv; cases hsv
          · have : FixedPoint.signVal .i32 0 = none := by decide
            rw [this] at hsv; cases hsv
          · have : FixedPoint.signVal .i64 0 = none := by decide
            rw [this] at hsv; cases hsv
        rw [this]; exact BitVec.or_zero
    · exact BitVec.or_zero

/-- The scalar quotient is the quotient of the shifted numerator. -/
theorem div_shl (hs : t.sgn = true) {rt : Nat} (hr : rt < t.w) {a b : BitVec t.w} :
    FixedPoint.div t rt a b = Scalar.div t (a <<< rt) b := by
  obtain ⟨p, hp, hc⟩ := shlW_mod t (t.val a) (s := rt) (lt_of_lt_of_le hr (w_le_promW t))
  unfold FixedPoint.div Scalar.div
  rw [hp]
  simp only [Option.bind_eq_bind, Option.bind_some]
  rw [hc, cast_mul_pow hs]

/-! ### The functions of the module -/

/-- C86, sums and differences. -/
theorem add_lanes (hB : Sound B) (a b : B.Reg) :
    Lanes B (fun i => FixedPoint.add t (B.lane a i) (B.lane b i)) (simdAdd B a b) ∧
    Lanes B (fun i => FixedPoint.sub t (B.lane a i) (B.lane b i)) (simdSub B a b) :=
  ⟨hB.add a b, hB.sub a b⟩

/-- C86, products: also those that overflow the storage of a lane of 8 or 16 bits. -/
theorem mul_lanes (hB : Sound B) {lf rt : Nat} (ht : FixedPoint.storage lf rt = some t) (a b : B.Reg) :
    Lanes B (fun i => FixedPoint.mul t rt (B.lane a i) (B.lane b i)) (simdMul B rt a b) := by
  obtain ⟨hs, hw⟩ := storage_le ht
  have hr : rt < t.w := by have : 0 < t.w := by cases t <;> decide
                           omega
  intro r hr'
  have := fun i => mul_shra hs hr (hr' i)
  choose p hp he using this
  obtain ⟨v, hv, hl⟩ := hB.mul a b p hp
  obtain ⟨u, hu, hlu⟩ := hB.shra v rt hr
  refine ⟨u, by unfold simdMul; rw [hv]; exact hu, fun i => ?_⟩
  rw [hlu, hl, he]

/-- C86, quotients. -/
theorem div_lanes (hB : Sound B) {lf rt : Nat} (ht : FixedPoint.storage lf rt = some t) (a b : B.Reg) :
    Lanes B (fun i => FixedPoint.div t rt (B.lane a i) (B.lane b i)) (simdDiv B rt a b) := by
  obtain ⟨hs, hw⟩ := storage_le ht
  have hr : rt < t.w := by have : 0 < t.w := by cases t <;> decide
                           omega
  obtain ⟨v, hv, hl⟩ := hB.shl a rt hr
  intro r hr'
  obtain ⟨u, hu, hlu⟩ := hB.div v b r fun i => by
    beta_reduce; rw [hl, ← div_shl hs hr]; exact hr' i
  exact ⟨u, by unfold simdDiv; rw [hv]; exact hu, hlu⟩

/-- C86, `fma`: the lanes are the scalar sum of the scalar product. -/
theorem fma_lanes (hB : Sound B) {lf rt : Nat} (ht : FixedPoint.storage lf rt = some t) (a b c : B.Reg) :
    Lanes B (fun i => (FixedPoint.mul t rt (B.lane a i) (B.lane b i)).bind fun p =>
      FixedPoint.add t p (B.lane c i)) (simdFma B rt a b c) :=
  (mul_lanes hB ht a b).bind fun v => (add_lanes hB v c).1

/-- C86, `rec`: the lanes are the scalar quotient of one. -/
theorem rec_lanes (hB : Sound B) {lf rt : Nat} (ht : FixedPoint.storage lf rt = some t) (a : B.Reg)
    {one : BitVec t.w} (h1 : FixedPoint.ofSmallInt t rt 1 = some one) :
    Lanes B (fun i => FixedPoint.div t rt one (B.lane a i)) (simdRec B rt a) := by
  obtain ⟨v, hv, hl⟩ := ofInt_lanes hB h1
  have := div_lanes hB ht v a
  simp only [hl] at this
  unfold simdRec
  rw [hv]
  exact this

theorem expLoop_lanes (hB : Sound B) {lf rt : Nat} (ht : FixedPoint.storage lf rt = some t) (e : Nat) :
    ∀ res v : B.Reg, Lanes B (fun i => FixedPoint.expLoop t rt e (B.lane res i) (B.lane v i))
      (expLoop B rt e res v) := by
  induction e using Nat.strong_induction_on with
  | _ e ih =>
    intro res v
    unfold FixedSimd.expLoop
    by_cases h1 : e ≤ 1
    · rw [if_pos h1]
      refine (mul_lanes hB ht res v).mono fun i r h => ?_
      rw [FixedPoint.expLoop, if_pos h1] at h
      exact h
    · rw [if_neg h1]
      by_cases h2 : e % 2 = 1
      · rw [if_pos h2]
        have hsq := mul_lanes hB ht v v
        intro r hr
        have : ∀ i, ∃ x, FixedPoint.mul t rt (B.lane res i) (B.lane v i) = some x ∧
            ∃ y, FixedPoint.mul t rt (B.lane v i) (B.lane v i) = some y ∧
              FixedPoint.expLoop t rt ((e - 1) / 2) x y = some (r i) := fun i => by
          have := hr i
          simp only at this
          rw [FixedPoint.expLoop, if_neg h1, if_pos h2] at this
          simpa only [Option.bind_eq_bind, Option.bind_eq_some_iff] using this
        choose x hx y hy hz using this
        obtain ⟨u, hu, hlu⟩ := mul_lanes hB ht res v x hx
        obtain ⟨w, hw, hlw⟩ := mul_lanes hB ht v v y hy
        rw [hu, hw]
        exact ih _ (by omega) u w r fun i => by simp only [hlu, hlw]; exact hz i
      · rw [if_neg h2]
        intro r hr
        have : ∀ i, ∃ y, FixedPoint.mul t rt (B.lane v i) (B.lane v i) = some y ∧
              FixedPoint.expLoop t rt (e / 2) (B.lane res i) y = some (r i) := fun i => by
          have := hr i
          simp only at this
          rw [FixedPoint.expLoop, if_neg h1, if_neg h2] at this
          simpa only [Option.bind_eq_bind, Option.bind_eq_some_iff] using this
        choose y hy hz using this
        obtain ⟨w, hw, hlw⟩ := mul_lanes hB ht v v y hy
        rw [hw]
        exact ih _ (by omega) res w r fun i => by simp only [hlw]; exact hz i

/-- C86, integer powers: with an exponent that has an opposite among the values of `int`, the lanes are
the scalar powers. -/
theorem exp_lanes (hB : Sound B) {lf rt : Nat} (ht : FixedPoint.storage lf rt = some t) (a : B.Reg)
    (b : Int) (hb : ITy.i32.minv < b ∧ b ≤ ITy.i32.maxv) (hn : 0 < n) :
    Lanes B (fun i => FixedPoint.expI t rt (B.lane a i) b) (simdExp B rt a b) := by
  intro r hr
  have h0 := hr ⟨0, hn⟩
  simp only [FixedPoint.expI, Option.bind_eq_bind, Option.bind_eq_some_iff] at h0
  obtain ⟨one, h1, -⟩ := h0
  obtain ⟨v, hv, hl⟩ := ofInt_lanes hB h1
  unfold simdExp
  rw [hv]
  simp only [Option.bind_eq_bind, Option.bind_some]
  simp only [FixedPoint.expI, h1, Option.bind_eq_bind, Option.bind_some] at hr
  by_cases hb0 : b = 0
  · rw [if_pos hb0]
    refine ⟨v, rfl, fun i => ?_⟩
    have := hr i
    rw [if_pos hb0] at this
    rw [hl]; exact Option.some.inj this
  · rw [if_neg hb0]
    simp only [if_neg hb0] at hr
    by_cases hneg : b < 0
    · rw [if_pos hneg]
      simp only [if_pos hneg] at hr
      have e32 : ITy.i32.prom (-b) = some (-b) := by
        simp only [ITy.minv, ITy.maxv, ITy.prom] at *
        simp only [ITy.promSgn, ITy.promW, if_true]
        rw [if_pos (by constructor <;> omega)]
      have e64 : ITy.i64.prom (-b) = some (-b) := by
        simp only [ITy.minv, ITy.maxv, ITy.prom] at *
        simp only [ITy.promSgn, ITy.promW, if_true]
        rw [if_pos (by constructor <;> omega)]
      rw [e32]
      simp only [e64, Option.bind_some] at hr ⊢
      have hd := div_lanes hB ht v a
      simp only [hl] at hd
      refine (hd.bind (g := fun i x => FixedPoint.expLoop t rt (-b).toNat one x)
        (k := fun u => expLoop B rt (-b).toNat v u) fun u => ?_) r hr
      have := expLoop_lanes hB ht (-b).toNat v u
      simpa only [hl] using this
    · rw [if_neg hneg]
      simp only [if_neg hneg] at hr
      have := expLoop_lanes hB ht b.toNat v a
      simp only [hl] at this
      exact this r hr

/-- The excluded exponent: `simd_exp` negates an `int`, the scalar `exp` an `i64`. -/
theorem exp_min_undefined (B : Backend t n) (rt : Nat) (a : B.Reg) :
    simdExp B rt a ITy.i32.minv = none := by
  have hp : ITy.i32.prom (-ITy.i32.minv) = none := by decide
  unfold simdExp
  cases ofInt B rt 1 with
  | none => rfl
  | some one =>
    simp only [Option.bind_eq_bind, Option.bind_some]
    rw [if_neg (by decide), if_pos (by decide), hp]
    cases simdDiv B rt one a <;> rfl

/-- The scalar loop of the square root without its early exit. Specification. -/
def fullLoop (t : ITy) (rt : Nat) (a two : BitVec t.w) : Nat → BitVec t.w → BitVec t.w → Option (BitVec t.w)
  | 0, _, x1 => some x1
  | k + 1, x0, _ =>
    ((FixedPoint.div t rt a x0).bind fun q => (FixedPoint.add t x0 q).bind fun s =>
      FixedPoint.div t rt s two).bind fun x1 => fullLoop t rt a two k x1 x1

/-- Once the scalar loop exits it would have stayed where it is. -/
theorem sqrtLoop_full (hs : t.sgn = true) (rt : Nat) (a : BitVec t.w) {two : BitVec t.w}
    (h2 : FixedPoint.ofSmallInt t rt 2 = some two) (k : Nat) :
    ∀ x0 y r, FixedPoint.sqrtLoop t rt a k x0 y = some r → fullLoop t rt a two k x0 y = some r := by
  have stay : ∀ k x, ((FixedPoint.div t rt a x).bind fun q => (FixedPoint.add t x q).bind fun s =>
      FixedPoint.div t rt s two) = some x → fullLoop t rt a two k x x = some x := by
    intro k
    induction k with
    | zero => intro x _; rfl
    | succ k ih => intro x h; rw [fullLoop, h]; exact ih x h
  induction k with
  | zero => intro x0 y r h; exact h
  | succ k ih =>
    intro x0 y r h
    simp only [FixedPoint.sqrtLoop, h2, Option.bind_eq_bind, Option.bind_eq_some_iff] at h
    obtain ⟨q, hq, s, hsum, two', h2', x1, hx1, d, hd, he⟩ := h
    obtain rfl := Option.some.inj h2'
    have hstep : ((FixedPoint.div t rt a x0).bind fun q => (FixedPoint.add t x0 q).bind fun s =>
        FixedPoint.div t rt s two) = some x1 := by rw [hq]; simp only [Option.bind_some]; rw [hsum]; exact hx1
    rw [fullLoop, hstep]
    simp only [Option.bind_some]
    have hx0 : t.val x0 ≠ 0 := by
      intro h0
      unfold FixedPoint.div at hq
      cases hsh : FixedPoint.shlW t (t.val a) rt with
      | none => rw [hsh] at hq; cases hq
      | some p =>
        rw [hsh] at hq
        simp only [Option.bind_eq_bind, Option.bind_some, if_pos h0] at hq
        cases hq
    by_cases hc : t.val x0 = 0 ∨ d = 0
    · rw [if_pos hc] at he
      obtain rfl := Option.some.inj he
      have hd0 : d = 0 := hc.resolve_left hx0
      have hv : t.val x0 - t.val x1 = d := by
        have hps : t.promSgn = true := by cases t <;> first | rfl | cases hs
        unfold ITy.prom at hd
        rw [if_pos hps] at hd
        split at hd
        · exact Option.some.inj hd
        · cases hd
      have : x0 = x1 := val_inj t (by omega)
      subst this
      exact stay k x0 hstep
    · rw [if_neg hc] at he
      exact ih x1 x1 r he

theorem fullLoop_lanes (hB : Sound B) {lf rt : Nat} (ht : FixedPoint.storage lf rt = some t) (a : B.Reg)
    {two : BitVec t.w} {tw : B.Reg} (h2 : ∀ i, B.lane tw i = two) (k : Nat) :
    ∀ x0 y : B.Reg, Lanes B (fun i => fullLoop t rt (B.lane a i) two k (B.lane x0 i) (B.lane y i))
      (sqrtLoop B rt a tw k x0 y) := by
  induction k with
  | zero => intro x0 y r hr; exact ⟨y, rfl, fun i => Option.some.inj (hr i)⟩
  | succ k ih =>
    intro x0 y r hr
    have : ∀ i, ∃ q, FixedPoint.div t rt (B.lane a i) (B.lane x0 i) = some q ∧
        ∃ s, FixedPoint.add t (B.lane x0 i) q = some s ∧ ∃ x1, FixedPoint.div t rt s two = some x1 ∧
          fullLoop t rt (B.lane a i) two k x1 x1 = some (r i) := fun i => by
      have := hr i
      simp only [fullLoop, Option.bind_eq_some_iff] at this
      obtain ⟨x1, ⟨q, hq, s, hs, hx⟩, he⟩ := this
      exact ⟨q, hq, s, hs, x1, hx, he⟩
    choose q hq s hs x1 hx he using this
    obtain ⟨vq, hvq, hlq⟩ := div_lanes hB ht a x0 q hq
    obtain ⟨vs, hvs, hls⟩ := (add_lanes hB x0 vq).1 s fun i => by beta_reduce; rw [hlq]; exact hs i
    obtain ⟨vx, hvx, hlx⟩ := div_lanes hB ht vs tw x1 fun i => by beta_reduce; rw [hls, h2]; exact hx i
    obtain ⟨v, hv, hl⟩ := ih vx vx r fun i => by beta_reduce; rw [hlx]; exact he i
    refine ⟨v, ?_, hl⟩
    simp only [sqrtLoop, Option.bind_eq_bind]
    rw [hvq]
    simp only [Option.bind_some]
    rw [hvs]
    simp only [Option.bind_some]
    rw [hvx]
    exact hv

theorem sqrtLoop_two {rt k : Nat} {a x0 y r : BitVec t.w}
    (h : FixedPoint.sqrtLoop t rt a (k + 1) x0 y = some r) :
    ∃ two, FixedPoint.ofSmallInt t rt 2 = some two := by
  simp only [FixedPoint.sqrtLoop, Option.bind_eq_bind, Option.bind_eq_some_iff] at h
  obtain ⟨_, _, _, _, two, h2, _⟩ := h
  exact ⟨two, h2⟩

theorem sqrtLoop_lanes (hB : Sound B) {lf rt : Nat} (ht : FixedPoint.storage lf rt = some t) (a : B.Reg)
    (hn : 0 < n) (k : Nat) (x0 y : B.Reg) :
    Lanes B (fun i => FixedPoint.sqrtLoop t rt (B.lane a i) (k + 1) (B.lane x0 i) (B.lane y i))
      ((ofInt B rt 2).bind fun two => sqrtLoop B rt a two (k + 1) x0 y) := by
  intro r hr
  obtain ⟨two, h2⟩ := sqrtLoop_two (hr ⟨0, hn⟩)
  obtain ⟨v, hv, hl⟩ := ofInt_lanes hB h2
  rw [hv]
  refine fullLoop_lanes hB ht a hl (k + 1) x0 y r fun i => ?_
  exact sqrtLoop_full (storage_le ht).1 rt _ h2 (k + 1) _ _ _ (hr i)

/-- C86, square roots: although the vector loop always does ten iterations while every scalar loop stops
when it is stationary. -/
theorem sqrt_lanes (hB : Sound B) {lf rt : Nat} (ht : FixedPoint.storage lf rt = some t) (a : B.Reg)
    (hn : 0 < n) :
    Lanes B (fun i => FixedPoint.sqrt t rt (B.lane a i)) (simdSqrt B rt a) := by
  unfold FixedPoint.sqrt simdSqrt
  exact sqrtLoop_lanes hB ht a hn 9 a a

/-! ### Values -/

open Nsimd.Props.FixedPoint (fpv InRange RoundedDown RoundedToZero)

/-- C86, values of sums and differences: exact wherever they are in range. -/
theorem add_value (hB : Sound B) {lf rt : Nat} (ht : FixedPoint.storage lf rt = some t) (a b : B.Reg) :
    ((∀ i, InRange lf (fpv t rt (B.lane a i) + fpv t rt (B.lane b i))) → ∃ v, simdAdd B a b = some v ∧
      ∀ i, fpv t rt (B.lane v i) = fpv t rt (B.lane a i) + fpv t rt (B.lane b i)) ∧
    ((∀ i, InRange lf (fpv t rt (B.lane a i) - fpv t rt (B.lane b i))) → ∃ v, simdSub B a b = some v ∧
      ∀ i, fpv t rt (B.lane v i) = fpv t rt (B.lane a i) - fpv t rt (B.lane b i)) := by
  constructor
  · intro h
    have := fun i => FixedPoint.add_exact ht _ _ (h i)
    choose r hr hv using this
    obtain ⟨v, h1, h2⟩ := (add_lanes hB a b).1 r hr
    exact ⟨v, h1, fun i => by rw [h2, hv]⟩
  · intro h
    have := fun i => FixedPoint.sub_exact ht _ _ (h i)
    choose r hr hv using this
    obtain ⟨v, h1, h2⟩ := (add_lanes hB a b).2 r hr
    exact ⟨v, h1, fun i => by rw [h2, hv]⟩

theorem val_sshiftRight (hs : t.sgn = true) (x : BitVec t.w) (s : Nat) :
    t.val (x.sshiftRight s) = t.val x / 2 ^ s := by
  have hf := div_fits hs (val_lb t x) (val_ub t x) s
  rw [← cast_div hs, val_cast t _ hf.1 hf.2]

/-- C86, values of products: rounded down to a multiple of `2^-rt` wherever the exact product is in range;
also for `rt = 0`, where the scalar product is undefined. -/
theorem mul_value (hB : Sound B) {lf rt : Nat} (ht : FixedPoint.storage lf rt = some t) (a b : B.Reg)
    (h : ∀ i, InRange lf (fpv t rt (B.lane a i) * fpv t rt (B.lane b i))) :
    ∃ v, simdMul B rt a b = some v ∧
      ∀ i, RoundedDown rt (fpv t rt (B.lane a i) * fpv t rt (B.lane b i)) (fpv t rt (B.lane v i)) := by
  obtain ⟨hs, hw⟩ := storage_le ht
  have hr : rt < t.w := by have : 0 < t.w := by cases t <;> decide
                           omega
  have hrange := fun i => FixedPoint.prod_range hs hw (h i)
  obtain ⟨p, hp, hl⟩ := hB.mul a b (fun i => t.cast (t.val (B.lane a i) * t.val (B.lane b i))) fun i => by
    unfold Scalar.mul
    beta_reduce
    rw [FixedPoint.prom_fits hs (hrange i).1 (hrange i).2]
    rfl
  obtain ⟨v, hv, hlv⟩ := hB.shra p rt hr
  refine ⟨v, by unfold simdMul; rw [hp]; exact hv, fun i => ?_⟩
  have hval : t.val (B.lane v i) = t.val (B.lane a i) * t.val (B.lane b i) / 2 ^ rt := by
    rw [hlv, val_sshiftRight hs, hl, val_cast t _ (hrange i).1 (hrange i).2]
  refine ⟨⟨_, rfl⟩, ?_⟩
  have hp : (0 : ℤ) < 2 ^ rt := by positivity
  have hq : (0 : ℚ) < 2 ^ rt := by positivity
  have e1 : t.val (B.lane v i) * 2 ^ rt ≤ t.val (B.lane a i) * t.val (B.lane b i) := by
    rw [hval]; exact Int.ediv_mul_le _ hp.ne'
  have e2 : t.val (B.lane a i) * t.val (B.lane b i) < (t.val (B.lane v i) + 1) * 2 ^ rt := by
    rw [hval]; exact Int.lt_ediv_add_one_mul_self _ hp
  have e1' : (t.val (B.lane v i) : ℚ) * 2 ^ rt ≤ t.val (B.lane a i) * t.val (B.lane b i) := by
    exact_mod_cast e1
  have e2' : (t.val (B.lane a i) : ℚ) * t.val (B.lane b i) < (t.val (B.lane v i) + 1) * 2 ^ rt := by
    exact_mod_cast e2
  unfold fpv
  have e3 : (t.val (B.lane a i) : ℚ) / 2 ^ rt * (t.val (B.lane b i) / 2 ^ rt) =
      t.val (B.lane a i) * t.val (B.lane b i) / 2 ^ rt / 2 ^ rt := by field_simp
  rw [e3, ← add_div]
  constructor
  · rw [div_le_div_iff_of_pos_right hq, le_div_iff₀ hq]; exact e1'
  · rw [div_lt_div_iff_of_pos_right hq, div_lt_iff₀ hq]; exact e2'

/-- C86, values of quotients: rounded towards zero to a multiple of `2^-rt`. -/
theorem div_value (hB : Sound B) {lf rt : Nat} (ht : FixedPoint.storage lf rt = some t) (hlf : 0 < lf)
    (a b : B.Reg) (ha : ∀ i, InRange lf (fpv t rt (B.lane a i))) (hb : ∀ i, fpv t rt (B.lane b i) ≠ 0)
    (h : ∀ i, InRange lf (fpv t rt (B.lane a i) / fpv t rt (B.lane b i))) :
    ∃ v, simdDiv B rt a b = some v ∧
      ∀ i, RoundedToZero rt (fpv t rt (B.lane a i) / fpv t rt (B.lane b i)) (fpv t rt (B.lane v i)) := by
  have := fun i => FixedPoint.div_rounded_to_zero ht hlf _ _ (ha i) (hb i) (h i)
  choose r hr hv using this
  obtain ⟨v, h1, h2⟩ := div_lanes hB ht a b r hr
  exact ⟨v, h1, fun i => by rw [h2]; exact hv i⟩

/-- C86, `abs`, `min` and `max` of the represented numbers, for all of them but the smallest of the storage
under `abs`. -/
theorem abs_min_max_value (hB : Sound B) {lf rt : Nat} (ht : FixedPoint.storage lf rt = some t)
    (a b : B.Reg) :
    ((∀ i, t.val (B.lane a i) ≠ t.minv) → ∃ v, simdAbs B a = some v ∧
      ∀ i, fpv t rt (B.lane v i) = |fpv t rt (B.lane a i)|) ∧
    (∀ i, fpv t rt (B.lane (simdMin B a b) i) = min (fpv t rt (B.lane a i)) (fpv t rt (B.lane b i))) ∧
    (∀ i, fpv t rt (B.lane (simdMax B a b) i) = max (fpv t rt (B.lane a i)) (fpv t rt (B.lane b i))) := by
  have hq : (0 : ℚ) < 2 ^ rt := by positivity
  refine ⟨fun h => ?_, fun i => ?_, fun i => ?_⟩
  · have := fun i => (Props.abs_spec t (B.lane a i)).1 fun hm => h i hm.2
    choose r hr hv using this
    obtain ⟨v, h1, h2⟩ := hB.abs a r hr
    refine ⟨v, h1, fun i => ?_⟩
    unfold fpv
    rw [h2, hv, abs_div, abs_of_pos hq]
    congr 1
    push_cast
    rfl
  · unfold fpv simdMin
    rw [hB.min, min_div_div_right hq.le]
    push_cast
    rfl
  · unfold fpv simdMax
    rw [hB.max, max_div_div_right hq.le]
    push_cast
    rfl

/-! ### Every back end is sound -/

theorem map_prom (v : Int) : (t.prom v).map t.cast = (do return t.cast (← t.prom v)) := by
  cases t.prom v <;> rfl

theorem body_lanes {f : Fin n → Option (BitVec t.w)} {r : Fin n → BitVec t.w}
    (h : ∀ i, f i = some (r i)) : Cpu.body f = some r := Cpu.body_eq_some.mpr h

theorem shlLane_eq (hs : t.sgn = true) (a : BitVec t.w) {s : Nat} (h : s < t.w) :
    shlLane t a s = some (a <<< s) := by
  obtain ⟨p, hp, hc⟩ := shlW_mod t (t.val a) (s := s) (lt_of_lt_of_le h (w_le_promW t))
  unfold shlLane
  rw [hp, Option.map_some, hc, cast_mul_pow hs]

theorem shraScalar_eq (hs : t.sgn = true) (a : BitVec t.w) {s : Nat} (h : s < t.w) :
    Scalar.shra t a s = some (a.sshiftRight s) := by
  obtain ⟨r, hr, hv⟩ := Props.shra_floor_div t a s h
  rw [hr]
  exact congrArg some (val_inj t (by rw [hv, val_sshiftRight hs]))

/-- C86: the CPU back end. -/
theorem cpu_sound (t : ITy) (hs : t.sgn = true) (n : Nat) : Sound (cpu t n) where
  add a b r hr := ⟨r, body_lanes fun i => by rw [map_prom]; exact hr i, fun _ => rfl⟩
  sub a b r hr := ⟨r, body_lanes fun i => by rw [map_prom]; exact hr i, fun _ => rfl⟩
  mul a b r hr := ⟨r, body_lanes fun i => by rw [map_prom]; exact hr i, fun _ => rfl⟩
  div a b r hr := ⟨r, body_lanes fun i => by
    have := hr i
    unfold Scalar.div at this
    rw [map_prom]; exact this, fun _ => rfl⟩
  abs a r hr := ⟨r, body_lanes hr, fun _ => rfl⟩
  shl a s h := ⟨fun i => a i <<< s, body_lanes fun i => shlLane_eq hs _ h, fun _ => rfl⟩
  shra a s h := ⟨fun i => (a i).sshiftRight s, body_lanes fun i => shraScalar_eq hs _ h, fun _ => rfl⟩
  min a b i := (Props.min_max_spec t _ _).1
  max a b i := (Props.min_max_spec t _ _).2
  set1 _ _ := rfl

/-- C86: every x86 extension. -/
theorem x86_sound (x : X86.Simd) (t : ITy) (hs : t.sgn = true) (undef : BitVec (X86Ops.bits x)) :
    Sound (x86 x t undef) where
  add a b r hr := ⟨_, rfl, fun i => (X86Ops.agree_add_sub_neg x t a b i i.isLt _).1 (hr i)⟩
  sub a b r hr := ⟨_, rfl, fun i => (X86Ops.agree_add_sub_neg x t a b i i.isLt _).2.1 (hr i)⟩
  mul a b r hr := by
    obtain ⟨v, hv, hl⟩ := X86Ops.agree_mul x t undef a b
      (fun i => if h : i < X86Ops.le x t then r ⟨i, h⟩ else 0) fun i hi => by
        rw [dif_pos hi]; exact hr ⟨i, hi⟩
    exact ⟨v, hv, fun i => by
      have := hl i i.isLt
      rw [dif_pos i.isLt] at this
      exact this⟩
  div a b r hr := by
    obtain ⟨h1, h2⟩ := X86Lane.emul2 (X86Ops.ext x) t undef a b (Scalar.div t)
    have hsome := h1.mpr fun i hi => by
      have := hr ⟨i, hi⟩
      exact Option.isSome_iff_exists.mpr ⟨_, this⟩
    obtain ⟨v, hv⟩ := Option.isSome_iff_exists.mp hsome
    exact ⟨v, hv, fun i => Option.some.inj ((h2 v hv i i.isLt).symm.trans (hr i))⟩
  abs a r hr := ⟨_, rfl, fun i => X86Ops.agree_abs x t a i i.isLt _ (hr i)⟩
  shl a s h := ⟨_, rfl, fun i => BitVec.eq_of_toNat_eq (by
    have := X86Ops.shl_spec x t a s (fun _ h8 => by omega) i i.isLt
    rw [BitVec.toNat_shiftLeft, Nat.shiftLeft_eq]
    exact this)⟩
  shra a s h := by
    obtain ⟨v, hv, hl⟩ := X86Ops.shra_spec x t undef a s h
    exact ⟨v, hv, fun i => val_inj t (by rw [val_sshiftRight hs]; exact hl i i.isLt)⟩
  min a b i := (X86Ops.max_min_spec x t a b i i.isLt).2
  max a b i := (X86Ops.max_min_spec x t a b i i.isLt).1
  set1 c i := X86Ops.lane_set1 x t c i i.isLt

/-- C86: neon128 and aarch64. -/
theorem neon_sound (a64 : Bool) (t : ITy) (hs : t.sgn = true) (n : Nat) : Sound (neon a64 t n) where
  add a b r hr := ⟨_, rfl, fun i => (ArmLane.scalar_agree t a b i _).1 (hr i)⟩
  sub a b r hr := ⟨_, rfl, fun i => (ArmLane.scalar_agree t a b i _).2.1 (hr i)⟩
  mul a b r hr := by
    unfold neon
    dsimp only
    split
    · exact ⟨r, body_lanes hr, fun _ => rfl⟩
    · exact ⟨_, rfl, fun i => (ArmLane.scalar_agree t a b i _).2.2.1 (hr i)⟩
  div a b r hr := ⟨r, body_lanes hr, fun _ => rfl⟩
  abs a r hr := by
    unfold neon
    dsimp only
    split
    · exact ⟨r, body_lanes hr, fun _ => rfl⟩
    · exact ⟨_, rfl, fun i => (ArmLane.abs_spec t a i).2.1 _ (hr i)⟩
  shl a s h := ⟨_, rfl, fun i => (Arm.shiftsNeon_spec t _ s h).1⟩
  shra a s h := ⟨_, rfl, fun i => by
    have := (Arm.shiftsNeon_spec t (a i) s h).2.2
    rw [if_pos hs] at this
    exact this⟩
  min a b i := by
    unfold neon
    dsimp only
    split
    · exact (ArmLane.minmax_spec t a b i).2.2.1
    · exact (ArmLane.minmax_spec t a b i).1
  max a b i := by
    unfold neon
    dsimp only
    split
    · exact (ArmLane.minmax_spec t a b i).2.2.2.1
    · exact (ArmLane.minmax_spec t a b i).2.1
  set1 _ _ := rfl

/-- C86: SVE. -/
theorem sve_sound (t : ITy) (hs : t.sgn = true) (n : Nat) : Sound (sve t n) where
  add a b r hr := ⟨_, rfl, fun i => (ArmLane.scalar_agree t a b i _).1 (hr i)⟩
  sub a b r hr := ⟨_, rfl, fun i => (ArmLane.scalar_agree t a b i _).2.1 (hr i)⟩
  mul a b r hr := ⟨_, rfl, fun i => (ArmLane.scalar_agree t a b i _).2.2.1 (hr i)⟩
  div a b r hr := by
    unfold sve
    dsimp only
    split
    · exact ⟨_, rfl, fun i => (ArmLane.divSve_spec t a b i).1 _ (hr i)⟩
    · exact ⟨r, body_lanes hr, fun _ => rfl⟩
  abs a r hr := ⟨_, rfl, fun i => (ArmLane.abs_spec t a i).2.1 _ (hr i)⟩
  shl a s h := ⟨_, rfl, fun i => (Arm.shiftsSve_spec t _ s h).1⟩
  shra a s h := ⟨_, rfl, fun i => by
    have := (Arm.shiftsSve_spec t (a i) s h).2.2
    rw [if_pos hs] at this
    exact this⟩
  min a b i := (ArmLane.minmax_spec t a b i).1
  max a b i := (ArmLane.minmax_spec t a b i).2.1
  set1 _ _ := rfl

theorem prom_range (hs : t.sgn = true) {v p : Int} (h : t.prom v = some p) :
    t = .i64 → t.minv ≤ v ∧ v ≤ t.maxv := by
  rintro rfl
  unfold ITy.prom at h
  simp only [ITy.promSgn, ITy.promW, if_true] at h
  split at h
  · rename_i hv
    simp only [ITy.minv, ITy.maxv]
    norm_num at hv ⊢
    omega
  · cases h

theorem wraps_lanes {x : Ppc.Ext} {v : Fin n → Int} {o : Option (X86.Reg n t.w)}
    (h : PpcLane.Wraps x t v o) {r : Fin n → BitVec t.w} (hc : ∀ i, r i = t.cast (v i))
    (hf : t = .i64 → ∀ i, t.minv ≤ v i ∧ v i ≤ t.maxv) : ∃ u, o = some u ∧ ∀ i, u i = r i := by
  unfold PpcLane.Wraps at h
  split at h
  · rename_i hx
    rw [if_pos (hf hx.2)] at h
    obtain ⟨u, hu, hv⟩ := h
    exact ⟨u, hu, fun i => by rw [hc, ← hv, cast_val]⟩
  · obtain ⟨u, hu, hv⟩ := h
    exact ⟨u, hu, fun i => by rw [hc]; exact X86Ops.cast_eq_of_val_mod t (hv i).2.2⟩

theorem prom_some {v : Int} {r : BitVec t.w} (h : (do return t.cast (← t.prom v)) = some r) :
    ∃ p, t.prom v = some p := by
  cases hp : t.prom v with
  | none => rw [hp] at h; cases h
  | some p => exact ⟨p, rfl⟩

theorem wraps_scalar (hs : t.sgn = true) {x : Ppc.Ext} {v : Fin n → Int} {o : Option (X86.Reg n t.w)}
    (h : PpcLane.Wraps x t v o) {r : Fin n → BitVec t.w}
    (hr : ∀ i, (do return t.cast (← t.prom (v i))) = some (r i)) : ∃ u, o = some u ∧ ∀ i, u i = r i := by
  refine wraps_lanes h (fun i => (ArmLane.bind_prom (hr i)).symm) fun ht i => ?_
  obtain ⟨p, hp⟩ := prom_some (hr i)
  exact prom_range hs hp ht

/-- C86: POWER, VMX and VSX. -/
theorem ppc_sound (x : Ppc.Ext) (t : ITy) (hs : t.sgn = true) (n : Nat) : Sound (ppc x t n) where
  add a b r hr := wraps_scalar hs (PpcLane.wrap_spec x t a b).1 hr
  sub a b r hr := wraps_scalar hs (PpcLane.wrap_spec x t a b).2.1 hr
  mul a b r hr := wraps_scalar hs (PpcLane.wrap_spec x t a b).2.2.1 hr
  div a b r hr := ⟨r, (PpcLane.div_spec x t a b r).mpr hr, fun _ => rfl⟩
  abs a r hr := by
    have key : ∀ i, r i = t.cast |t.val (a i)| ∧ (t = .i64 → t.minv ≤ |t.val (a i)| ∧ |t.val (a i)| ≤ t.maxv) := by
      intro i
      have h := hr i
      change Scalar.abs t (a i) = some (r i) at h
      have hl := val_lb t (a i)
      have hu := val_ub t (a i)
      unfold Scalar.abs at h
      rw [if_pos hs] at h
      split at h
      · rename_i hp
        rw [abs_of_nonneg hp]
        exact ⟨(Option.some.inj h).symm, fun _ => ⟨hl, hu⟩⟩
      · rename_i hp
        rw [abs_of_neg (by omega)]
        refine ⟨(ArmLane.bind_prom h).symm, ?_⟩
        obtain ⟨p, hp⟩ := prom_some h
        exact prom_range hs hp
    exact wraps_lanes (PpcLane.abs_spec x t a) (fun i => (key i).1) fun ht i => (key i).2 ht
  shl a s h := by
    unfold ppc
    dsimp only
    split
    · exact ⟨fun i => a i <<< s, body_lanes fun i => shlLane_eq hs _ h, fun _ => rfl⟩
    · exact ⟨_, rfl, fun i => (Ppc.shifts_partial t _ s h).1⟩
  shra a s h := by
    unfold ppc
    dsimp only
    split
    · exact ⟨fun i => (a i).sshiftRight s, body_lanes fun i => shraScalar_eq hs _ h, fun _ => rfl⟩
    · exact ⟨_, rfl, fun i => (Ppc.shifts_partial t _ s h).2.2 hs⟩
  min a b i := (PpcLane.minmax_spec x t a b i).1
  max a b i := (PpcLane.minmax_spec x t a b i).2
  set1 _ _ := rfl

/-! ### Concrete cases -/

-- fp_t<8, 4> is stored on 16 bits; 1.5 * -2.25 = -3.375 and 2.0 * 0.5 = 1.0 on neon128
example : FixedPoint.storage 8 4 = some .i16 := by decide
example : (simdMul (neon false .i16 2) 4 ![24#16, 32#16] ![-36#16, 8#16]).map (fun v => (v 0, v 1)) =
    some (-54#16, 16#16) := by decide +kernel
example : FixedPoint.mul .i16 4 24#16 (-36#16) = some (-54#16) := by decide +kernel
-- -3.375 / 1.5 = -2.25 on the CPU back end
example : (simdDiv (cpu .i16 1) 4 ![-54#16] ![24#16]).map (fun v => v 0) = some (-36#16) := by
  decide +kernel
-- 4 lanes of fp_t<16, 8> (32 bits) on SSE2: 2.5 * 2.5 + 1 = 7.25 everywhere
example : (simdFma (x86 .sse2 .i32 0) 8 (X86Ops.set1 .sse2 .i32 640#32) (X86Ops.set1 .sse2 .i32 640#32)
    (X86Ops.set1 .sse2 .i32 256#32)).map (fun v => (x86 .sse2 .i32 0).lane v ⟨3, by decide⟩) = some 1856#32 := by
  decide +kernel
-- 1 / 0.25 = 4, 1 / 2 = 0.5 on VSX; 3^2 = 9 and 3^-1 = 0.3125 on SVE; sqrt(9) = 3 and sqrt(2.25) = 1.5
example : (simdRec (ppc .vsx .i16 1) 4 ![4#16, 32#16]).map (fun v => (v 0, v 1)) =
    some (64#16, 8#16) := by decide +kernel
example : (simdExp (sve .i16 1) 4 ![48#16] 2).map (fun v => v 0) = some 144#16 ∧
    (simdExp (sve .i16 1) 4 ![48#16] (-1)).map (fun v => v 0) = some 5#16 := by decide +kernel
example : (simdSqrt (neon true .i16 2) 4 ![144#16, 36#16]).map (fun v => (v 0, v 1)) =
    some (48#16, 24#16) ∧ FixedPoint.sqrt .i16 4 144#16 = some 48#16 := by decide +kernel
example : InRange 8 (fpv .i16 4 24#16 * fpv .i16 4 (-36#16)) := by
  have h1 : ITy.i16.val 24#16 = 24 := by decide
  have h2 : ITy.i16.val (-36#16) = -36 := by decide
  unfold InRange fpv
  rw [h1, h2]
  norm_num

end Nsimd.Props.FixedSimd
