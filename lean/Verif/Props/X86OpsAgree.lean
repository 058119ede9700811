import Verif.Props.X86OpsSat
import Verif.Props.ScalarShift

/-!
# The x86 back end agrees with the scalar operators

Whenever the scalar operator of egg/scalar.py is defined on the lanes `i`, the x86 operator gives
the same bits in lane `i`, on every extension and integer type. `subs` is the exception.
-/

namespace Nsimd.Props.X86Ops
open Nsimd.X86 Nsimd.X86Ops

theorem cast_eq_of_val_mod (t : ITy) {r : BitVec t.w} {v : Int}
    (h : t.val r % 2 ^ t.w = v % 2 ^ t.w) : r = t.cast v := by
  rw [← ITy.cast_val t r]; exact ITy.cast_eq_of_mod t h

theorem promoted {t : ITy} {v : Int} {r : BitVec t.w} (h : (t.prom v).map t.cast = some r) :
    r = t.cast v := by
  cases hp : t.prom v with
  | none => rw [hp] at h; cases h
  | some p =>
    rw [hp] at h
    rw [← Option.some.inj h]
    exact ITy.prom_cast hp

/-- `add`, `sub`, `neg`. -/
theorem agree_add_sub_neg (x : Simd) (t : ITy) (a b : BitVec (bits x)) (i : Nat) (hi : i < le x t)
    (r : BitVec t.w) :
    (Scalar.add t (lane t.w a i) (lane t.w b i) = some r → lane t.w (add x t a b) i = r) ∧
    (Scalar.sub t (lane t.w a i) (lane t.w b i) = some r → lane t.w (sub x t a b) i = r) ∧
    (Scalar.neg t (lane t.w a i) = some r → lane t.w (X86Ops.neg x t a) i = r) := by
  obtain ⟨h1, h2, h3⟩ := add_sub_neg_spec x t a b i hi
  refine ⟨fun h => ?_, fun h => ?_, fun h => ?_⟩
  · rw [h1]
    refine (promoted (v := V t a i + V t b i) ?_).symm
    unfold Scalar.add at h
    cases hp : t.prom (t.val (lane t.w a i) + t.val (lane t.w b i)) with
    | none => rw [hp] at h; cases h
    | some p => rw [hp] at h; unfold V; rw [hp]; exact h
  · rw [h2]
    refine (promoted (v := V t a i - V t b i) ?_).symm
    unfold Scalar.sub at h
    cases hp : t.prom (t.val (lane t.w a i) - t.val (lane t.w b i)) with
    | none => rw [hp] at h; cases h
    | some p => rw [hp] at h; unfold V; rw [hp]; exact h
  · rw [h3]
    refine (promoted (v := -V t a i) ?_).symm
    unfold Scalar.neg at h
    cases hp : t.prom (-t.val (lane t.w a i)) with
    | none => rw [hp] at h; cases h
    | some p => rw [hp] at h; unfold V; rw [hp]; exact h

example : Scalar.sub .i8 (lane 8 (set1 .avx2 .i8 0x80#8) 30) (lane 8 (set1 .avx2 .i8 1#8) 30) =
    some 0x7F#8 := by decide +kernel

/-- `mul`: if the scalar product is defined on every lane, so is the vector one, with the same
lanes, whatever the undefined register holds. -/
theorem agree_mul (x : Simd) (t : ITy) (undef a b : BitVec (bits x)) (r : Nat → BitVec t.w)
    (h : ∀ i, i < le x t → Scalar.mul t (lane t.w a i) (lane t.w b i) = some (r i)) :
    ∃ v, mul x t undef a b = some v ∧ ∀ i, i < le x t → lane t.w v i = r i := by
  obtain ⟨h1, h2⟩ := mul_spec x t undef a b
  have hs : (mul x t undef a b).isSome := by
    rw [h1]
    intro hm hsg i hi
    have := h i hi
    have ht : t = .i32 ∨ t = .i64 := by
      rcases hm with ⟨hw, -⟩ | ⟨hw, -⟩ <;> cases t <;> simp_all [ITy.w, ITy.sgn]
    have hw := mul_wraps_or_ub t (by rcases ht with rfl | rfl <;> decide) (lane t.w a i) (lane t.w b i)
    unfold WrapsOrUB at hw
    rw [if_pos ht] at hw
    by_contra hc
    unfold V at hc
    rw [if_neg hc, this] at hw
    cases hw
  obtain ⟨v, hv⟩ := Option.isSome_iff_exists.mp hs
  refine ⟨v, hv, fun i hi => ?_⟩
  rw [h2 v hv i hi]
  refine (promoted (v := V t a i * V t b i) ?_).symm
  have := h i hi
  unfold Scalar.mul at this
  cases hp : t.prom (t.val (lane t.w a i) * t.val (lane t.w b i)) with
  | none => rw [hp] at this; cases this
  | some p => rw [hp] at this; unfold V; rw [hp]; exact this

example : ∀ i, i < le .sse2 .i64 → Scalar.mul .i64 (lane 64 (set1 .sse2 .i64 (-3)) i)
    (lane 64 (set1 .sse2 .i64 5) i) = some (-15) := by decide +kernel

/-- `shl`, `shr` and `shra`, count below the width. -/
theorem agree_shift (x : Simd) (t : ITy) (undef a : BitVec (bits x)) (s : Nat) (hs : s < t.w)
    (i : Nat) (hi : i < le x t) (r : BitVec t.w) :
    (Scalar.shl t (lane t.w a i) s = some r → lane t.w (shl x t a s) i = r) ∧
    (Scalar.shr t (lane t.w a i) s = some r → lane t.w (shr x t a s) i = r) ∧
    (Scalar.shra t (lane t.w a i) s = some r →
      ∃ v, shra x t undef a s = some v ∧ lane t.w v i = r) := by
  have hk : x = .knl → t.w = 8 → s ≤ 8 := fun _ h => by omega
  refine ⟨fun h => ?_, fun h => ?_, fun h => ?_⟩
  · have h1 := shl_spec x t a s hk i hi
    have h2 := shl_mul_pow t _ _ s h
    rw [cast_eq_of_val_mod t h2]
    apply BitVec.eq_of_toNat_eq
    have h3 := toNat_cast t (t.val (lane t.w a i) * 2 ^ s)
    have h4 : t.val (lane t.w a i) % 2 ^ t.w = ((lane t.w a i).toNat : Int) := by
      have := toNat_cast t (t.val (lane t.w a i))
      rw [ITy.cast_val] at this; exact this.symm
    have h5 : ((t.cast (t.val (lane t.w a i) * 2 ^ s)).toNat : Int) =
        (((lane t.w a i).toNat * 2 ^ s % 2 ^ t.w : Nat) : Int) := by
      rw [h3, Int.mul_emod, h4]
      push_cast
      rw [Int.mul_emod ((lane t.w a i).toNat : Int) (2 ^ s)]
      congr 2
      rw [← h4, Int.emod_emod_of_dvd _ (dvd_refl _)]
    rw [h1]
    exact_mod_cast h5.symm
  · obtain ⟨q, hq, hv⟩ := shr_floor_div t (lane t.w a i) s hs
    rw [hq] at h
    rw [← Option.some.inj h]
    apply BitVec.eq_of_toNat_eq
    rw [shr_spec x t a s hk i hi]
    unfold unsignedValue at hv
    have : (q.toNat : Int) = (((lane t.w a i).toNat / 2 ^ s : Nat) : Int) := by
      rw [hv]; push_cast; rfl
    exact_mod_cast this.symm
  · obtain ⟨q, hq, hv⟩ := shra_floor_div t (lane t.w a i) s hs
    rw [hq] at h
    obtain ⟨v, h1, h2⟩ := shra_spec x t undef a s hs
    refine ⟨v, h1, ?_⟩
    rw [← Option.some.inj h]
    exact t.val_inj ((h2 i hi).trans hv.symm)

example : Scalar.shra .i8 (lane 8 (set1 .knl .i8 0x90#8) 17) 3 = some 0xF2#8 ∧
    Scalar.shl .u16 (lane 16 (set1 .avx .u16 3#16) 5) 15 = some 0x8000#16 := by decide +kernel

/-- `min`, `max`, `adds`. -/
theorem agree_min_max_adds (x : Simd) (t : ITy) (a b : BitVec (bits x)) (i : Nat)
    (hi : i < le x t) :
    lane t.w (min x t a b) i = Scalar.min t (lane t.w a i) (lane t.w b i) ∧
    lane t.w (max x t a b) i = Scalar.max t (lane t.w a i) (lane t.w b i) ∧
    some (lane t.w (adds x t a b) i) = Scalar.adds t (lane t.w a i) (lane t.w b i) := by
  obtain ⟨h1, h2⟩ := max_min_spec x t a b i hi
  refine ⟨t.val_inj ?_, t.val_inj ?_, ?_⟩
  · refine Eq.trans h2 ?_
    unfold V Scalar.min
    split <;> omega
  · refine Eq.trans h1 ?_
    unfold V Scalar.max
    split <;> omega
  · obtain ⟨r, hr, hv⟩ := adds_saturates t (lane t.w a i) (lane t.w b i)
    rw [hr]
    exact congrArg some (t.val_inj ((adds_spec x t a b i hi).trans hv.symm))

example : lane 64 (adds .avx .i64 (set1 .avx .i64 (2 ^ 63 - 1)) (set1 .avx .i64 5)) 2 =
    0x7FFFFFFFFFFFFFFF#64 := by decide +kernel

/-- Comparisons, `to_logical`, `to_mask`, selection. -/
theorem agree_logic (x : Simd) (t : ITy) (a b : BitVec (bits x)) :
    Repr x t (eq x t a b) (fun i => Scalar.eq t (lane t.w a i) (lane t.w b i)) ∧
    Repr x t (ne x t a b) (fun i => Scalar.ne t (lane t.w a i) (lane t.w b i)) ∧
    Repr x t (lt x t a b) (fun i => Scalar.lt t (lane t.w a i) (lane t.w b i)) ∧
    Repr x t (leq x t a b) (fun i => Scalar.le t (lane t.w a i) (lane t.w b i)) ∧
    Repr x t (gt x t a b) (fun i => Scalar.gt t (lane t.w a i) (lane t.w b i)) ∧
    Repr x t (ge x t a b) (fun i => Scalar.ge t (lane t.w a i) (lane t.w b i)) ∧
    Repr x t (toLogical x t a) (fun i => Scalar.toLogical t (lane t.w a i)) :=
  ⟨eq_repr x t a b, ne_repr x t a b, lt_repr x t a b, leq_repr x t a b, gt_repr x t a b,
    ge_repr x t a b, toLogical_repr x t a⟩

/-- `to_mask`. -/
theorem agree_toMask (x : Simd) (t : ITy) {l : BitVec (lbits x t)} {p : Nat → Bool}
    (h : Repr x t l p) (i : Nat) (hi : i < le x t) :
    lane t.w (toMask x t l) i = Scalar.toMask t (p i) := by
  rw [toMask_lane x t h i hi]
  unfold Scalar.toMask
  cases p i
  · cases t <;> decide
  · cases t <;> decide

example : Repr .avx .u32 (gt .avx .u32 (set1 .avx .u32 0x80000000#32) (set1 .avx .u32 1#32))
    (fun _ => true) := by
  refine (gt_repr .avx .u32 _ _).congr fun i hi => ?_
  unfold V
  rw [lane_set1 _ _ _ _ hi, lane_set1 _ _ _ _ hi]
  decide

/-- `abs`: where the scalar operator is defined. -/
theorem agree_abs (x : Simd) (t : ITy) (a : BitVec (bits x)) (i : Nat) (hi : i < le x t)
    (r : BitVec t.w) (h : Scalar.abs t (lane t.w a i) = some r) :
    lane t.w (X86Ops.abs x t a) i = r := by
  have h1 := abs_spec x t a i hi
  have h2 : r = t.cast ((V t a i).natAbs : Int) := by
    unfold Scalar.abs at h
    unfold V
    by_cases hs : t.sgn = true
    · rw [if_pos hs] at h
      split at h
      · rw [Int.natAbs_of_nonneg (by assumption)]; exact (Option.some.inj h).symm
      · rename_i hn
        rw [Int.ofNat_natAbs_of_nonpos (by omega)]
        refine promoted ?_
        cases hp : t.prom (-t.val (lane t.w a i)) with
        | none => rw [hp] at h; cases h
        | some p => rw [hp] at h; exact h
    · rw [if_neg hs] at h
      have : 0 ≤ t.val (lane t.w a i) := by unfold ITy.val; rw [if_neg hs]; omega
      rw [Int.natAbs_of_nonneg this, ITy.cast_val]
      exact (Option.some.inj h).symm
  rw [h2]
  apply BitVec.eq_of_toNat_eq
  have h3 := toNat_cast t ((V t a i).natAbs : Int)
  have h4 : (V t a i).natAbs < 2 ^ t.w := by rw [← h1]; exact BitVec.isLt _
  rw [Int.emod_eq_of_lt (by omega) (by exact_mod_cast h4)] at h3
  rw [h1]; exact_mod_cast h3.symm

example : Scalar.abs .i8 (lane 8 (set1 .sse2 .i8 0x80#8) 3) = some 0x80#8 := by decide +kernel

/-- The scalar operator a fused vector operator stands for. Specification, not code of the repo. -/
def scalarFma : Fma → (t : ITy) → BitVec t.w → BitVec t.w → BitVec t.w → Option (BitVec t.w)
  | .fma => Scalar.fma
  | .fms => Scalar.fms
  | .fnma => Scalar.fnma
  | .fnms => Scalar.fnms

/-- The fused operators: in every lane where both are defined, they agree. -/
theorem agree_fma (f : Fma) (x : Simd) (t : ITy) (undef : (y : Simd) → BitVec (bits y))
    (a b c v : BitVec (bits x)) (hv : fma f x t undef a b c = some v) (i : Nat) (hi : i < le x t)
    (r : BitVec t.w)
    (h : scalarFma f t (lane t.w a i) (lane t.w b i) (lane t.w c i) = some r) :
    lane t.w v i = r := by
  rw [(fma_spec f x t undef a b c).2 v hv i hi]
  obtain ⟨h1, h2, h3, h4⟩ := fma_mod t (lane t.w a i) (lane t.w b i) (lane t.w c i) r
  cases f
  · exact (h1 h).symm
  · exact (h2 h).symm
  · exact (h3 h).symm
  · exact (h4 h).symm

example : scalarFma .fnms .i16 7#16 5#16 3#16 = some (-38 : BitVec 16) ∧
    (fma .fnms .avx .i16 (fun _ => 0) (set1 .avx .i16 7#16) (set1 .avx .i16 5#16)
      (set1 .avx .i16 3#16)).map (V .i16 · 11) = some (-38) := by decide +kernel

/-- `subs`: the two agree in every lane whose subtrahend is not the smallest signed value. -/
theorem agree_subs_partial (x : Simd) (t : ITy) (a b : BitVec (bits x)) (i : Nat) (hi : i < le x t)
    (hb : ¬ (t.sgn = true ∧ V t b i = t.minv)) :
    some (lane t.w (subs x t a b) i) = Scalar.subs t (lane t.w a i) (lane t.w b i) := by
  obtain ⟨r, hr, hv⟩ := (subs_correct_iff t (lane t.w a i) (lane t.w b i)).mpr hb
  rw [hr]
  refine congrArg some (t.val_inj (((subs_partial x t a b i hi).mpr ?_).trans hv.symm))
  rintro ⟨ht, hm⟩
  exact hb ⟨by rcases ht with rfl | rfl <;> rfl, hm⟩

/-- `subs` of 8- and 16-bit signed lanes disagrees with the scalar operator when the subtrahend is
the smallest value: the instruction saturates, the scalar code negates first and wraps. -/
theorem disagree_subs (x : Simd) (t : ITy) (ht : t = .i8 ∨ t = .i16) (a b : BitVec (bits x))
    (i : Nat) (hi : i < le x t) (hb : V t b i = t.minv) :
    some (lane t.w (subs x t a b) i) ≠ Scalar.subs t (lane t.w a i) (lane t.w b i) := by
  intro h
  have h1 := (subs_partial x t a b i hi).mpr (by rcases ht with rfl | rfl <;> simp)
  have h2 := (subs_correct_iff t (lane t.w a i) (lane t.w b i)).mp ⟨_, h.symm, h1⟩
  exact h2 ⟨by rcases ht with rfl | rfl <;> rfl, hb⟩

example : V .i8 (subs .skylake .i8 0 (set1 .skylake .i8 0x80#8)) 63 = 127 ∧
    Scalar.subs .i8 0#8 0x80#8 = some 0x80#8 := by decide +kernel

end Nsimd.Props.X86Ops
