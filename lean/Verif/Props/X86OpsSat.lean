import Verif.Props.X86OpsArith
import Verif.Props.ScalarArith

/-!
# abs and the saturated operators of the x86 back end on every extension and type
-/

namespace Nsimd.Props.X86Ops
open Nsimd.X86 Nsimd.X86Ops

/-! ### abs -/

theorem absInstr_eq {w : Nat} (a : BitVec w) : absInstr a = absBlend a := by
  unfold absInstr absBlend blendv; simp

theorem absNoShift_lane (x : Simd) (t : ITy) (a : BitVec (bits x)) (i : Nat)
    (hi : i < le x t) : lane t.w (absNoShift x t a) i = absBlend (lane t.w a i) := by
  have hs : lane t.w (shr x t a (t.w - 1)) i = lane t.w a i >>> (t.w - 1) := by
    apply BitVec.eq_of_toNat_eq
    rw [shr_spec x t a _ (fun _ _ => by omega) i hi, BitVec.toNat_ushiftRight,
      Nat.shiftRight_eq_div_pow]
  unfold absNoShift
  rw [lane_xor, lane_vmap2 _ _ _ _ (fits hi), lane_vmap2 _ _ _ _ (fits hi), hs, lane_zero]
  exact (Props.X86.abs_exact (w_pos t) _).2.2

theorem abs_lane (x : Simd) (t : ITy) (ht : t.sgn = true) (a : BitVec (bits x)) (i : Nat)
    (hi : i < le x t) : lane t.w (abs x t a) i = absBlend (lane t.w a i) := by
  have hI : ∀ y (a : BitVec (bits y)) i, i < le y t →
      lane t.w (vmap1 t.w absInstr a) i = absBlend (lane t.w a i) := by
    intro y a i hi
    rw [lane_vmap1 _ _ _ (fits hi), absInstr_eq]
  have hB : ∀ y (a : BitVec (bits y)) i, i < le y t →
      lane t.w (vmap1 t.w absBlend a) i = absBlend (lane t.w a i) :=
    fun y a i hi => lane_vmap1 _ _ _ (fits hi)
  have hA : ∀ y (a : BitVec (bits y)) i, i < le y t →
      lane t.w (vmap1 t.w absArith a) i = absBlend (lane t.w a i) := by
    intro y a i hi
    rw [lane_vmap1 _ _ _ (fits hi)]
    exact (Props.X86.abs_exact (w_pos t) _).2.1
  have hS : ∀ y (a : BitVec (bits y)) i, i < le y t →
      lane t.w (split1 y (fun _ => vmap1 t.w absInstr) a) i = absBlend (lane t.w a i) :=
    fun y a i hi => lane_split1 y t _ absBlend (fun y a i hi => hI y a i hi) a i hi
  have hN := fun (y : Simd) => absNoShift_lane y t
  have h64 : ∀ (a : BitVec (bits .avx)) i, i < le .avx t →
      lane t.w (split1 .avx (fun y => absNoShift y t) a) i = absBlend (lane t.w a i) :=
    fun a i hi => lane_split1 .avx t _ absBlend (fun y a i hi => hN y a i hi) a i hi
  unfold X86Ops.abs
  rw [if_neg (by rw [ht]; decide)]
  cases t with
  | u8 => cases ht
  | u16 => cases ht
  | u32 => cases ht
  | u64 => cases ht
  | i8 =>
    cases x with
    | sse2 => exact hN .sse2 a i hi
    | sse42 => exact hI .sse42 a i hi
    | avx => exact hS .avx a i hi
    | avx2 => exact hI .avx2 a i hi
    | knl => exact hS .knl a i hi
    | skylake => exact hI .skylake a i hi
  | i16 =>
    cases x with
    | sse2 => exact hA .sse2 a i hi
    | sse42 => exact hI .sse42 a i hi
    | avx => exact hS .avx a i hi
    | avx2 => exact hI .avx2 a i hi
    | knl => exact hS .knl a i hi
    | skylake => exact hI .skylake a i hi
  | i32 =>
    cases x with
    | sse2 => exact hA .sse2 a i hi
    | sse42 => exact hI .sse42 a i hi
    | avx => exact hS .avx a i hi
    | avx2 => exact hI .avx2 a i hi
    | knl => exact hI .knl a i hi
    | skylake => exact hI .skylake a i hi
  | i64 =>
    cases x with
    | sse2 => exact hN .sse2 a i hi
    | sse42 => exact hN .sse42 a i hi
    | avx => exact h64 a i hi
    | avx2 => exact hB .avx2 a i hi
    | knl => exact hI .knl a i hi
    | skylake => exact hI .skylake a i hi

/-- `abs` on every extension and type: the magnitude, with the smallest value left as it is. -/
theorem abs_spec (x : Simd) (t : ITy) (a : BitVec (bits x)) (i : Nat) (hi : i < le x t) :
    (lane t.w (abs x t a) i).toNat = (V t a i).natAbs := by
  by_cases ht : t.sgn = true
  · rw [abs_lane x t ht a i hi, (Props.X86.abs_exact (w_pos t) _).1]
    unfold V ITy.val
    rw [if_pos ht]
  · unfold X86Ops.abs V ITy.val
    rw [if_pos (by simpa using ht), if_neg ht]
    simp

example : V .i16 (abs .knl .i16 (set1 .knl .i16 (-300))) 20 = 300 ∧
    V .i64 (abs .avx .i64 (set1 .avx .i64 (-5))) 3 = 5 := by decide +kernel

/-! ### Saturated addition -/

theorem clamp_val (t : ITy) (v : Int) :
    t.val (t.cast (Max.max t.minv (Min.min t.maxv v))) = clampTo t.minv t.maxv v := by
  have hb : t.minv ≤ t.maxv := by cases t <;> decide
  rw [ITy.val_cast _ _ (by omega) (by omega)]
  unfold clampTo
  (repeat' split) <;> omega

theorem addsUns_val (x : Simd) (t : ITy) (ht : t.sgn = false) (a b : BitVec (bits x)) (i : Nat)
    (hi : i < le x t) :
    V t (addsUns x t a b) i = clampTo t.minv t.maxv (V t a i + V t b i) := by
  have hv : ∀ v : BitVec t.w, t.val v = (v.toNat : Int) := fun v => by unfold ITy.val; simp [ht]
  have h := ifElse_lane x t (lt_repr x t (add x t a b) a) (set1 x t (t.cast t.maxv)) (add x t a b) i hi
  have hu := Props.X86.addsU_saturates (w_pos t) (lane t.w a i) (lane t.w b i)
  have ho : t.cast t.maxv = BitVec.allOnes t.w := by cases t <;> first | exact absurd ht (by decide) | decide +kernel
  have e : lane t.w (addsUns x t a b) i = addsU (lane t.w a i) (lane t.w b i) := by
    unfold addsUns addsU
    dsimp only
    rw [h, lane_set1 x t _ i hi, ho, (Props.X86.unsigned_cmp_exact (w_pos t) _ _).2.1,
      Props.X86.manual_lane]
    unfold V
    rw [add_lane x t a b i hi, hv, hv]
    simp only [decide_eq_true_eq, Int.ofNat_lt]
  unfold V
  rw [e, hv, hu, hv, hv]
  have h1 := (lane t.w a i).isLt
  have h2 := (lane t.w b i).isLt
  unfold clampTo
  cases t <;> first | exact absurd ht (by decide) | (simp only [ITy.minv, ITy.maxv, ITy.w] at *; (repeat' split) <;> omega)

set_option maxRecDepth 4000 in
theorem addsSgn_lane (x : Simd) (t u : ITy) (hw : u.w = t.w) (h8 : t.w ≠ 8)
    (hmax : ∀ i, i < le x t → lane t.w (set1 x u (u.cast t.maxv)) i = BitVec.ofNat t.w (2 ^ (t.w - 1) - 1))
    (a b : BitVec (bits x)) (i : Nat) (hi : i < le x t) :
    lane t.w (addsSgn x t u a b) i = addsBlend (lane t.w a i) (lane t.w b i) := by
  have hle : ∀ x, le x u = le x t := fun x => by simp only [le, hw]
  have hadd : ∀ (a b : BitVec (bits x)), lane t.w (add x u a b) i = lane t.w a i + lane t.w b i := by
    intro a b
    have := add_lane x u a b i (by rw [hle]; exact hi)
    rw [hw] at this; exact this
  have hshr : ∀ (x : Simd) (a : BitVec (bits x)), i < le x t → ∀ s,
      lane t.w (shr x u a s) i = lane t.w a i >>> s := by
    intro x a hi s
    have := shr_spec x u a s (fun _ h => absurd (hw ▸ h) h8) i (by rw [hle]; exact hi)
    rw [hw] at this
    apply BitVec.eq_of_toNat_eq
    rw [this, BitVec.toNat_ushiftRight, Nat.shiftRight_eq_div_pow]
  have hst : lane t.w (addsSteps x t u a b).1 i = (X86.addsSteps (lane t.w a i) (lane t.w b i)).1 ∧
      lane t.w (addsSteps x t u a b).2.1 i = (X86.addsSteps (lane t.w a i) (lane t.w b i)).2.1 ∧
      lane t.w (addsSteps x t u a b).2.2 i = (X86.addsSteps (lane t.w a i) (lane t.w b i)).2.2 := by
    unfold X86Ops.addsSteps X86.addsSteps xorb orb
    dsimp only
    rw [hadd, hadd, hshr x _ hi, hmax i hi, lane_or, lane_or, lane_xor, X86Ops.notb_eq,
      lane_compl _ _ (fits hi), lane_xor, hadd, X86.notb_eq]
    exact ⟨rfl, rfl, rfl⟩
  obtain ⟨s1, s2, s3⟩ := hst
  have hB : ∀ (y : Simd) (r m k : BitVec (bits y)) (hi : i < le y t),
      lane t.w (vmap3 t.w blendv m r k) i = blendv (lane t.w m i) (lane t.w r i) (lane t.w k i) :=
    fun y r m k hi => lane_vmap3 _ _ _ _ _ (fits hi)
  have hL : ∀ (y : Simd) (r m k : BitVec (bits y)) (hi : i < le y t),
      lane t.w (ifElse y t (toLogical y t (shr y u k (t.w - 1))) r m) i =
        ifElseManual (neNotEq (lane t.w k i >>> (t.w - 1)) 0#t.w) (lane t.w r i) (lane t.w m i) := by
    intro y r m k hi
    rw [ifElse_lane y t (toLogical_repr y t _) r m i hi,
      (Props.X86.signed_cmp_exact _ _).2.2.2.2, Props.X86.manual_lane]
    unfold V
    rw [hshr y k hi]
    have : t.val (0#t.w) = 0 := by cases t <;> rfl
    simp only [decide_eq_true_eq, ne_eq, eq_iff_val t (lane t.w k i >>> (t.w - 1)) 0#t.w, this]
  have hbl := (Props.X86.addsS_saturates (w_pos t) (lane t.w a i) (lane t.w b i)).2
  have e1 : blendv (lane t.w (X86Ops.addsSteps x t u a b).2.1 i)
      (lane t.w (X86Ops.addsSteps x t u a b).1 i) (lane t.w (X86Ops.addsSteps x t u a b).2.2 i) =
      addsBlend (lane t.w a i) (lane t.w b i) := by
    rw [s1, s2, s3]; rfl
  have e2 : ifElseManual (neNotEq (lane t.w (X86Ops.addsSteps x t u a b).2.2 i >>> (t.w - 1)) 0#t.w)
      (lane t.w (X86Ops.addsSteps x t u a b).1 i) (lane t.w (X86Ops.addsSteps x t u a b).2.1 i) =
      addsBlend (lane t.w a i) (lane t.w b i) := by
    rw [s1, s2, s3, ← hbl]; rfl
  cases x with
  | sse2 => exact (hL .sse2 (X86Ops.addsSteps .sse2 t u a b).1 (X86Ops.addsSteps .sse2 t u a b).2.1
      (X86Ops.addsSteps .sse2 t u a b).2.2 hi).trans e2
  | knl => exact (hL .knl (X86Ops.addsSteps .knl t u a b).1 (X86Ops.addsSteps .knl t u a b).2.1
      (X86Ops.addsSteps .knl t u a b).2.2 hi).trans e2
  | skylake => exact (hL .skylake (X86Ops.addsSteps .skylake t u a b).1 (X86Ops.addsSteps .skylake t u a b).2.1
      (X86Ops.addsSteps .skylake t u a b).2.2 hi).trans e2
  | sse42 => exact (hB .sse42 (X86Ops.addsSteps .sse42 t u a b).1 (X86Ops.addsSteps .sse42 t u a b).2.1
      (X86Ops.addsSteps .sse42 t u a b).2.2 hi).trans e1
  | avx => exact (hB .avx (X86Ops.addsSteps .avx t u a b).1 (X86Ops.addsSteps .avx t u a b).2.1
      (X86Ops.addsSteps .avx t u a b).2.2 hi).trans e1
  | avx2 => exact (hB .avx2 (X86Ops.addsSteps .avx2 t u a b).1 (X86Ops.addsSteps .avx2 t u a b).2.1
      (X86Ops.addsSteps .avx2 t u a b).2.2 hi).trans e1

theorem addsSgn32 (x : Simd) (a b : BitVec (bits x)) (i : Nat) (hi : i < le x .i32) :
    lane 32 (addsSgn x .i32 .u32 a b) i = addsBlend (lane 32 a i) (lane 32 b i) :=
  addsSgn_lane x .i32 .u32 rfl (by decide) (fun i hi => (lane_set1 x .u32 _ i hi).trans (by decide))
    a b i hi

theorem addsSgn64 (x : Simd) (a b : BitVec (bits x)) (i : Nat) (hi : i < le x .i64) :
    lane 64 (addsSgn x .i64 .u64 a b) i = addsBlend (lane 64 a i) (lane 64 b i) :=
  addsSgn_lane x .i64 .u64 rfl (by decide) (fun i hi => (lane_set1 x .u64 _ i hi).trans (by decide))
    a b i hi

/-- `adds` on every extension and type: the exact sum clamped to the type. -/
theorem adds_spec (x : Simd) (t : ITy) (a b : BitVec (bits x)) (i : Nat) (hi : i < le x t) :
    V t (adds x t a b) i = clampTo t.minv t.maxv (V t a i + V t b i) := by
  have hn : V t (if satSplit x then split2 x (fun _ => vmap2 t.w (addsInstr t)) a b
      else vmap2 t.w (addsInstr t) a b) i = clampTo t.minv t.maxv (V t a i + V t b i) := by
    unfold V
    split
    · rw [lane_split2 x t _ (addsInstr t) (fun y a b i hi => lane_vmap2 _ _ _ _ (fits hi)) a b i hi]
      exact clamp_val t _
    · rw [lane_vmap2 _ _ _ _ (fits hi)]
      exact clamp_val t _
  cases t with
  | i8 => exact hn
  | u8 => exact hn
  | i16 => exact hn
  | u16 => exact hn
  | u32 => exact addsUns_val x .u32 rfl a b i hi
  | u64 => exact addsUns_val x .u64 rfl a b i hi
  | i32 =>
    refine (congrArg BitVec.toInt (addsSgn32 x a b i hi)).trans ?_
    exact (Props.X86.addsS_saturates (w := 32) (by decide) _ _).1
  | i64 =>
    refine (congrArg BitVec.toInt (addsSgn64 x a b i hi)).trans ?_
    exact (Props.X86.addsS_saturates (w := 64) (by decide) _ _).1

example : V .i32 (adds .avx .i32 (set1 .avx .i32 0x7fffffff) (set1 .avx .i32 9)) 6 = 2 ^ 31 - 1 ∧
    V .u16 (adds .knl .u16 (set1 .knl .u16 0xfff0) (set1 .knl .u16 0x20)) 31 = 65535 := by
  decide +kernel

/-! ### Saturated subtraction -/

theorem subsUns_val (x : Simd) (t : ITy) (ht : t.sgn = false) (a b : BitVec (bits x)) (i : Nat)
    (hi : i < le x t) :
    V t (subsUns x t a b) i = clampTo t.minv t.maxv (V t a i - V t b i) := by
  have hv : ∀ v : BitVec t.w, t.val v = (v.toNat : Int) := fun v => by unfold ITy.val; simp [ht]
  have h := ifElse_lane x t (gt_repr x t b a) (set1 x t (t.cast t.minv)) (sub x t a b) i hi
  have hu := Props.X86.subsU_saturates (w_pos t) (lane t.w a i) (lane t.w b i)
  have ho : t.cast t.minv = 0#t.w := by cases t <;> first | exact absurd ht (by decide) | decide +kernel
  have e : lane t.w (subsUns x t a b) i = subsU (lane t.w a i) (lane t.w b i) := by
    unfold subsUns subsU
    dsimp only
    rw [h, lane_set1 x t _ i hi, ho, (Props.X86.unsigned_cmp_exact (w_pos t) _ _).1,
      Props.X86.manual_lane]
    unfold V
    rw [sub_lane x t a b i hi, hv, hv]
    simp only [decide_eq_true_eq, Int.ofNat_lt]
  unfold V
  rw [e, hv, hu, hv, hv]
  have h1 := (lane t.w a i).isLt
  have h2 := (lane t.w b i).isLt
  unfold clampTo
  cases t <;> first | exact absurd ht (by decide) | (simp only [ITy.minv, ITy.maxv, ITy.w] at *; (repeat' split) <;> omega)

/-- `subs` on every extension and type: lane `i` is the exact difference clamped to the type,
exactly when the lane of the subtrahend is not the smallest `i32`/`i64`. The full claim (always) is
false, see `subs_counterexample`. -/
theorem subs_partial (x : Simd) (t : ITy) (a b : BitVec (bits x)) (i : Nat) (hi : i < le x t) :
    V t (subs x t a b) i = clampTo t.minv t.maxv (V t a i - V t b i) ↔
      ¬ ((t = .i32 ∨ t = .i64) ∧ V t b i = t.minv) := by
  have hn : V t (if satSplit x then split2 x (fun _ => vmap2 t.w (subsInstr t)) a b
      else vmap2 t.w (subsInstr t) a b) i = clampTo t.minv t.maxv (V t a i - V t b i) := by
    unfold V
    split
    · rw [lane_split2 x t _ (subsInstr t) (fun y a b i hi => lane_vmap2 _ _ _ _ (fits hi)) a b i hi]
      exact clamp_val t _
    · rw [lane_vmap2 _ _ _ _ (fits hi)]
      exact clamp_val t _
  cases t with
  | i8 => exact iff_of_true hn (by simp)
  | u8 => exact iff_of_true hn (by simp)
  | i16 => exact iff_of_true hn (by simp)
  | u16 => exact iff_of_true hn (by simp)
  | u32 => exact iff_of_true (subsUns_val x .u32 rfl a b i hi) (by simp)
  | u64 => exact iff_of_true (subsUns_val x .u64 rfl a b i hi) (by simp)
  | i32 =>
    have e : lane 32 (subs x .i32 a b) i = subsS (lane 32 a i) (lane 32 b i) := by
      refine (addsSgn32 x a (X86Ops.neg x .i32 b) i hi).trans ?_
      have h1 : lane 32 (X86Ops.neg x .i32 b) i = -(lane 32 b i) := neg_lane x .i32 b i hi
      rw [h1]
      unfold subsS X86.neg
      simp
    have := Props.X86.subsS_correct_iff (w := 32) (by decide) (lane 32 a i) (lane 32 b i)
    rw [← e] at this
    refine Iff.trans (b := _) this ?_
    simp only [true_or, true_and]
    exact Iff.rfl
  | i64 =>
    have e : lane 64 (subs x .i64 a b) i = subsS (lane 64 a i) (lane 64 b i) := by
      refine (addsSgn64 x a (X86Ops.neg x .i64 b) i hi).trans ?_
      have h1 : lane 64 (X86Ops.neg x .i64 b) i = -(lane 64 b i) := neg_lane x .i64 b i hi
      rw [h1]
      unfold subsS X86.neg
      simp
    have := Props.X86.subsS_correct_iff (w := 64) (by decide) (lane 64 a i) (lane 64 b i)
    rw [← e] at this
    refine Iff.trans (b := _) this ?_
    simp only [or_true, true_and]
    exact Iff.rfl

/-- `0 - INT_MIN` saturates to the wrong side on every extension. -/
theorem subs_counterexample (x : Simd) (i : Nat) (hi : i < le x .i32) :
    V .i32 (subs x .i32 0 (set1 x .i32 0x80000000#32)) i ≠ 2 ^ 31 - 1 := by
  intro h
  have hb : V .i32 (set1 x .i32 0x80000000#32) i = ITy.i32.minv := by
    have := lane_set1 x .i32 0x80000000#32 i hi
    unfold V
    rw [this]; decide
  have ha : V .i32 (0 : BitVec (bits x)) i = 0 := by unfold V; rw [lane_zero]; decide
  refine ((subs_partial x .i32 0 (set1 x .i32 0x80000000#32) i hi).mp ?_) ⟨Or.inl rfl, hb⟩
  rw [h, ha, hb]; decide

example : V .i64 (subs .skylake .i64 (set1 .skylake .i64 0x7ffffffffffffff0)
    (set1 .skylake .i64 (-0x20))) 7 = 2 ^ 63 - 1 := by decide +kernel

end Nsimd.Props.X86Ops
