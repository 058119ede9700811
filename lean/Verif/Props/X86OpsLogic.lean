import Verif.Lemmas.X86Ops

/-!
# Comparisons, logicals and selection of the x86 back end on every extension

A logical stands for truth values `p`: before AVX-512 lane `i` is all ones or zero, on AVX-512
bit `i` of the mask is `p i`.
-/

namespace Nsimd.Props.X86Ops
open Nsimd.X86 Nsimd.X86Ops

/-- A logical of extension `x` and type `t` stands for the truth values `p`.
Specification, not code of the repo. -/
def Repr (x : Simd) (t : ITy) (l : BitVec (lbits x t)) (p : Nat → Bool) : Prop :=
  match x with
  | .knl => ∀ i, i < le .knl t → l.getLsbD i = p i
  | .skylake => ∀ i, i < le .skylake t → l.getLsbD i = p i
  | .sse2 => ∀ i, i < le .sse2 t → lane t.w l i = if p i then BitVec.allOnes t.w else 0
  | .sse42 => ∀ i, i < le .sse42 t → lane t.w l i = if p i then BitVec.allOnes t.w else 0
  | .avx => ∀ i, i < le .avx t → lane t.w l i = if p i then BitVec.allOnes t.w else 0
  | .avx2 => ∀ i, i < le .avx2 t → lane t.w l i = if p i then BitVec.allOnes t.w else 0

/-- The value of lane `i`, read in type `t`. Specification, not code of the repo. -/
def V {N : Nat} (t : ITy) (a : BitVec N) (i : Nat) : Int := t.val (lane t.w a i)

/-! ### The order of one lane -/

theorem ltT_iff (t : ITy) (a b : BitVec t.w) : ltT t a b = decide (t.val a < t.val b) := by
  unfold ltT ITy.val
  split
  · rw [BitVec.slt_eq_decide]
  · unfold BitVec.ult; simp

theorem leT_iff (t : ITy) (a b : BitVec t.w) : leT t a b = decide (t.val a ≤ t.val b) := by
  unfold leT ITy.val
  split
  · rw [BitVec.sle_eq_decide]
  · unfold BitVec.ule; simp

theorem eq_iff_val (t : ITy) (a b : BitVec t.w) : a = b ↔ t.val a = t.val b :=
  ⟨fun h => by rw [h], t.val_inj⟩

theorem lane_bool {w : Nat} (p : Prop) [Decidable p] :
    Props.X86.lane w p = if decide p = true then BitVec.allOnes w else 0 := by
  unfold Props.X86.lane; simp

theorem eqLane_spec (x : Simd) (t : ITy) (a b : BitVec t.w) :
    eqLane x t a b = Props.X86.lane t.w (a = b) := by
  have h : ∀ {w : Nat} (a b : BitVec w), cmpeq a b = Props.X86.lane w (a = b) := fun _ _ => rfl
  cases x <;> cases t <;> first | exact Props.X86.eq64_exact (w := 32) a b | exact h a b

theorem gtLaneS_spec (x : Simd) (w : Nat) (a b : BitVec w) :
    gtLaneS x w a b = Props.X86.lane w (b.toInt < a.toInt) := by
  unfold gtLaneS
  split
  · rename_i h
    obtain ⟨-, rfl⟩ := h
    exact Props.X86.gt64_exact a b
  · rfl

theorem gtLane_spec (x : Simd) (t : ITy) (a b : BitVec t.w) :
    gtLane x t a b = Props.X86.lane t.w (t.val b < t.val a) := by
  unfold gtLane ITy.val
  split
  · rw [gtLaneS_spec]
  · rw [gtLaneS_spec]
    have := (Props.X86.unsigned_cmp_exact (w_pos t) a b).1
    unfold gtWithAdd at this
    have h2 : cmpgt (a + BitVec.ofNat t.w (2 ^ (t.w - 1))) (b + BitVec.ofNat t.w (2 ^ (t.w - 1)))
        = Props.X86.lane t.w ((b + BitVec.ofNat t.w (2 ^ (t.w - 1))).toInt <
          (a + BitVec.ofNat t.w (2 ^ (t.w - 1))).toInt) := rfl
    rw [← h2]
    refine this.trans (Props.X86.lane_congr ?_)
    exact Int.ofNat_lt.symm

/-! ### Comparisons -/

theorem cmpMask_bit (t : ITy) (p : BitVec t.w → BitVec t.w → Bool) (a b : BitVec 512) (i : Nat)
    (hi : i < 512 / t.w) :
    (cmpMask t.w p a b).getLsbD i = p (lane t.w a i) (lane t.w b i) := by
  unfold cmpMask
  rw [BitVec.getLsbD_ofFnLE, dif_pos hi]

theorem splitCmpAvx_lane (t : ITy) (op : BitVec t.w → BitVec t.w → BitVec t.w) (a b : BitVec 256)
    (i : Nat) (hi : i < le .avx t) :
    lane t.w (splitCmpAvx t.w op a b) i = op (lane t.w a i) (lane t.w b i) :=
  merge2 t _ (half256 t) (vmap2 t.w op) op
    (fun a b i hi => lane_vmap2 op a b i (fits (x := .sse42) hi)) a b i (by rw [← le256]; exact hi)

/-- The shape shared by `eq` and `gt` (proof helper), egg/platform_x86.py:1564-1602, 1634-1682. -/
def cmpShape (op : Simd → (t : ITy) → BitVec t.w → BitVec t.w → BitVec t.w)
    (m : (t : ITy) → BitVec t.w → BitVec t.w → Bool) (x : Simd) (t : ITy) (a b : BitVec (bits x)) :
    BitVec (lbits x t) :=
  match x with
  | .sse2 => vmap2 t.w (op .sse2 t) a b
  | .sse42 => vmap2 t.w (op .sse42 t) a b
  | .avx => splitCmpAvx t.w (op .sse42 t) a b
  | .avx2 => vmap2 t.w (op .avx2 t) a b
  | .knl =>
    match t with
    | .i8 => splitCmp8 (op .avx2 .i8) (fun i => lane 8 a i) (fun i => lane 8 b i)
    | .u8 => splitCmp8 (op .avx2 .u8) (fun i => lane 8 a i) (fun i => lane 8 b i)
    | .i16 => splitCmp16 (op .avx2 .i16) (fun i => lane 16 a i) (fun i => lane 16 b i)
    | .u16 => splitCmp16 (op .avx2 .u16) (fun i => lane 16 a i) (fun i => lane 16 b i)
    | t => cmpMask t.w (m t) a b
  | .skylake => cmpMask t.w (m t) a b

theorem cmp_repr (x : Simd) (t : ITy) (op : Simd → (t : ITy) → BitVec t.w → BitVec t.w → BitVec t.w)
    (m : (t : ITy) → BitVec t.w → BitVec t.w → Bool) (P : ITy → Int → Int → Bool)
    (hop : ∀ x t a b, op x t a b = Props.X86.lane t.w (P t (t.val a) (t.val b) = true))
    (hm : ∀ t a b, m t a b = P t (t.val a) (t.val b))
    (a b : BitVec (bits x)) (l : BitVec (lbits x t)) (hl : l = cmpShape op m x t a b) :
    Repr x t l (fun i => P t (V t a i) (V t b i)) := by
  have h1 : ∀ (x : Simd) (a b : BitVec t.w), op x t a b =
      if P t (t.val a) (t.val b) = true then BitVec.allOnes t.w else 0 := by
    intro x a b; rw [hop]; rfl
  subst hl
  cases x
  · intro i hi; exact (lane_vmap2 _ _ _ _ (fits hi)).trans (h1 _ _ _)
  · intro i hi; exact (lane_vmap2 _ _ _ _ (fits hi)).trans (h1 _ _ _)
  · intro i hi; exact (splitCmpAvx_lane _ _ _ _ _ hi).trans (h1 _ _ _)
  · intro i hi; exact (lane_vmap2 _ _ _ _ (fits hi)).trans (h1 _ _ _)
  · intro i hi
    cases t with
    | i8 =>
      exact Props.X86.splitCmp8_bits (op .avx2 .i8)
        (fun a b => P .i8 (ITy.i8.val a) (ITy.i8.val b)) (fun a b => hop .avx2 .i8 a b) _ _ ⟨i, hi⟩
    | u8 =>
      exact Props.X86.splitCmp8_bits (op .avx2 .u8)
        (fun a b => P .u8 (ITy.u8.val a) (ITy.u8.val b)) (fun a b => hop .avx2 .u8 a b) _ _ ⟨i, hi⟩
    | i16 =>
      exact Props.X86.splitCmp16_bits (op .avx2 .i16)
        (fun a b => P .i16 (ITy.i16.val a) (ITy.i16.val b)) (fun a b => hop .avx2 .i16 a b) _ _ ⟨i, hi⟩
    | u16 =>
      exact Props.X86.splitCmp16_bits (op .avx2 .u16)
        (fun a b => P .u16 (ITy.u16.val a) (ITy.u16.val b)) (fun a b => hop .avx2 .u16 a b) _ _ ⟨i, hi⟩
    | i32 => exact (cmpMask_bit .i32 _ _ _ _ hi).trans (hm _ _ _)
    | u32 => exact (cmpMask_bit .u32 _ _ _ _ hi).trans (hm _ _ _)
    | i64 => exact (cmpMask_bit .i64 _ _ _ _ hi).trans (hm _ _ _)
    | u64 => exact (cmpMask_bit .u64 _ _ _ _ hi).trans (hm _ _ _)
  · intro i hi; exact (cmpMask_bit _ _ _ _ _ hi).trans (hm _ _ _)

/-- `eq` of integers on every extension and type: lane `i` tells whether the lanes `i` are equal. -/
theorem eq_repr (x : Simd) (t : ITy) (a b : BitVec (bits x)) :
    Repr x t (eq x t a b) fun i => decide (V t a i = V t b i) := by
  refine cmp_repr x t eqLane (fun t a b => a == b) (fun _ a b => decide (a = b)) ?_ ?_ a b _ ?_
  · intro x t a b
    rw [eqLane_spec]
    exact Props.X86.lane_congr (by rw [decide_eq_true_iff, eq_iff_val])
  · intro t a b
    rw [Bool.eq_iff_iff, beq_iff_eq, decide_eq_true_iff, eq_iff_val]
  · cases x <;> cases t <;> rfl

/-- `gt` of integers on every extension and type. -/
theorem gt_repr (x : Simd) (t : ITy) (a b : BitVec (bits x)) :
    Repr x t (gt x t a b) fun i => decide (V t b i < V t a i) := by
  refine cmp_repr x t gtLane (fun t a b => !leT t a b) (fun _ a b => decide (b < a)) ?_ ?_ a b _ ?_
  · intro x t a b
    rw [gtLane_spec]
    exact Props.X86.lane_congr (by rw [decide_eq_true_iff])
  · intro t a b
    rw [leT_iff, ← decide_not, decide_eq_decide, Int.not_le]
  · cases x <;> cases t <;> rfl

/-- `lt` of integers on every extension and type. -/
theorem lt_repr (x : Simd) (t : ITy) (a b : BitVec (bits x)) :
    Repr x t (lt x t a b) fun i => decide (V t a i < V t b i) := gt_repr x t b a

theorem Repr.congr {x : Simd} {t : ITy} {l : BitVec (lbits x t)} {p q : Nat → Bool}
    (h : Repr x t l p) (e : ∀ i, i < le x t → p i = q i) : Repr x t l q := by
  cases x <;> intro i hi
  all_goals rw [← e i hi]
  all_goals exact h i hi

/-! ### Logical operators -/

/-- `notl`. -/
theorem notl_repr (x : Simd) (t : ITy) {l : BitVec (lbits x t)} {p : Nat → Bool}
    (h : Repr x t l p) : Repr x t (notl x t l) fun i => !p i := by
  have key : ∀ (y : Simd) (l : BitVec (bits y)) (i : Nat), i < le y t →
      lane t.w l i = (if p i then BitVec.allOnes t.w else 0) →
      lane t.w (notb y l) i = if (!p i) then BitVec.allOnes t.w else 0 := by
    intro y l i hi h
    rw [X86Ops.notb_eq, lane_compl _ _ (fits hi), h]
    cases p i <;> simp
  cases x
  · exact fun i hi => key .sse2 l i hi (h i hi)
  · exact fun i hi => key .sse42 l i hi (h i hi)
  · exact fun i hi => key .avx l i hi (h i hi)
  · exact fun i hi => key .avx2 l i hi (h i hi)
  · intro i hi
    show (~~~l).getLsbD i = _
    rw [BitVec.getLsbD_not, h i hi]
    simp only [Bool.and_eq_right_iff_imp, decide_eq_true_eq]
    exact fun _ => hi
  · intro i hi
    show (~~~l).getLsbD i = _
    rw [BitVec.getLsbD_not, h i hi]
    simp only [Bool.and_eq_right_iff_imp, decide_eq_true_eq]
    exact fun _ => hi

/-- `andl`, `orl`, `xorl`, `andnotl`. -/
theorem logic_repr (x : Simd) (t : ITy) {l m : BitVec (lbits x t)} {p q : Nat → Bool}
    (hl : Repr x t l p) (hm : Repr x t m q) :
    Repr x t (andl x t l m) (fun i => p i && q i) ∧ Repr x t (orl x t l m) (fun i => p i || q i) ∧
    Repr x t (xorl x t l m) (fun i => p i ^^ q i) ∧
    Repr x t (andnotl x t l m) (fun i => p i && !q i) := by
  have k1 : ∀ {N : Nat} (l m : BitVec N) (i : Nat), t.w * (i + 1) ≤ N →
      lane t.w l i = (if p i then BitVec.allOnes t.w else 0) →
      lane t.w m i = (if q i then BitVec.allOnes t.w else 0) →
      lane t.w (l &&& m) i = (if (p i && q i) then BitVec.allOnes t.w else 0) ∧
      lane t.w (l ||| m) i = (if (p i || q i) then BitVec.allOnes t.w else 0) ∧
      lane t.w (l ^^^ m) i = (if (p i ^^ q i) then BitVec.allOnes t.w else 0) ∧
      lane t.w (l &&& ~~~m) i = (if (p i && !q i) then BitVec.allOnes t.w else 0) := by
    intro N l m i hi h1 h2
    rw [lane_and, lane_or, lane_xor, lane_and, lane_compl _ _ hi, h1, h2]
    cases p i <;> cases q i <;> simp
  have k2 : ∀ {n : Nat} (l m : BitVec n) (i : Nat), i < n → l.getLsbD i = p i → m.getLsbD i = q i →
      (l &&& m).getLsbD i = (p i && q i) ∧ (l ||| m).getLsbD i = (p i || q i) ∧
      (l ^^^ m).getLsbD i = (p i ^^ q i) ∧ (l &&& ~~~m).getLsbD i = (p i && !q i) := by
    intro n l m i hi h1 h2
    rw [BitVec.getLsbD_and, BitVec.getLsbD_or, BitVec.getLsbD_xor, BitVec.getLsbD_and,
      BitVec.getLsbD_not, h1, h2]
    simp [hi]
  cases x
  · exact ⟨fun i hi => (k1 l m i (fits hi) (hl i hi) (hm i hi)).1,
      fun i hi => (k1 l m i (fits hi) (hl i hi) (hm i hi)).2.1,
      fun i hi => (k1 l m i (fits hi) (hl i hi) (hm i hi)).2.2.1,
      fun i hi => (k1 l m i (fits hi) (hl i hi) (hm i hi)).2.2.2⟩
  · exact ⟨fun i hi => (k1 l m i (fits hi) (hl i hi) (hm i hi)).1,
      fun i hi => (k1 l m i (fits hi) (hl i hi) (hm i hi)).2.1,
      fun i hi => (k1 l m i (fits hi) (hl i hi) (hm i hi)).2.2.1,
      fun i hi => (k1 l m i (fits hi) (hl i hi) (hm i hi)).2.2.2⟩
  · exact ⟨fun i hi => (k1 l m i (fits hi) (hl i hi) (hm i hi)).1,
      fun i hi => (k1 l m i (fits hi) (hl i hi) (hm i hi)).2.1,
      fun i hi => (k1 l m i (fits hi) (hl i hi) (hm i hi)).2.2.1,
      fun i hi => (k1 l m i (fits hi) (hl i hi) (hm i hi)).2.2.2⟩
  · exact ⟨fun i hi => (k1 l m i (fits hi) (hl i hi) (hm i hi)).1,
      fun i hi => (k1 l m i (fits hi) (hl i hi) (hm i hi)).2.1,
      fun i hi => (k1 l m i (fits hi) (hl i hi) (hm i hi)).2.2.1,
      fun i hi => (k1 l m i (fits hi) (hl i hi) (hm i hi)).2.2.2⟩
  · exact ⟨fun i hi => (k2 l m i hi (hl i hi) (hm i hi)).1,
      fun i hi => (k2 l m i hi (hl i hi) (hm i hi)).2.1,
      fun i hi => (k2 l m i hi (hl i hi) (hm i hi)).2.2.1,
      fun i hi => (k2 l m i hi (hl i hi) (hm i hi)).2.2.2⟩
  · exact ⟨fun i hi => (k2 l m i hi (hl i hi) (hm i hi)).1,
      fun i hi => (k2 l m i hi (hl i hi) (hm i hi)).2.1,
      fun i hi => (k2 l m i hi (hl i hi) (hm i hi)).2.2.1,
      fun i hi => (k2 l m i hi (hl i hi) (hm i hi)).2.2.2⟩

/-- `set1l`: every lane is the truth value of the scalar. -/
theorem set1l_repr (x : Simd) (t : ITy) (c : Int) :
    Repr x t (set1l x t c) fun _ => decide (c ≠ 0) := by
  have k1 : ∀ {N : Nat} (i : Nat), t.w * (i + 1) ≤ N →
      lane t.w (if c ≠ 0 then ~~~(0 : BitVec N) else 0) i =
        if decide (c ≠ 0) then BitVec.allOnes t.w else 0 := by
    intro N i hi
    by_cases h : c = 0
    · simp only [h, ne_eq, not_true_eq_false, if_false, decide_false, Bool.false_eq_true]
      exact lane_zero i
    · simp only [h, ne_eq, not_false_eq_true, if_true, decide_true]
      rw [lane_compl _ _ hi, lane_zero]; simp
  have k2 : ∀ {n : Nat} (i : Nat), i < n →
      (if c ≠ 0 then ~~~(0 : BitVec n) else 0).getLsbD i = decide (c ≠ 0) := by
    intro n i hi
    by_cases h : c = 0 <;> simp [h, hi]
  cases x
  · exact fun i hi => k1 i (fits hi)
  · exact fun i hi => k1 i (fits hi)
  · exact fun i hi => k1 i (fits hi)
  · exact fun i hi => k1 i (fits hi)
  · exact fun i hi => k2 i hi
  · exact fun i hi => k2 i hi

/-- `ne` of integers on every extension and type. -/
theorem ne_repr (x : Simd) (t : ITy) (a b : BitVec (bits x)) :
    Repr x t (ne x t a b) fun i => decide (V t a i ≠ V t b i) := by
  have hn : ∀ x a b, Repr x t (notl x t (eq x t a b)) fun i => decide (V t a i ≠ V t b i) :=
    fun x a b => (notl_repr x t (eq_repr x t a b)).congr fun i _ => (decide_not).symm
  have hc : ∀ (a b : BitVec 512) i, i < 512 / t.w →
      (cmpMask t.w (· != ·) a b).getLsbD i = decide (V t a i ≠ V t b i) := by
    intro a b i hi
    rw [cmpMask_bit _ _ _ _ _ hi, Bool.eq_iff_iff, bne_iff_ne, decide_eq_true_iff]
    exact not_congr (eq_iff_val t _ _)
  cases x
  · exact hn .sse2 a b
  · exact hn .sse42 a b
  · exact hn .avx a b
  · exact hn .avx2 a b
  · unfold ne; dsimp only
    split
    · exact fun i hi => hc a b i hi
    · exact hn .knl a b
  · exact fun i hi => hc a b i hi

/-- `ge` of integers on every extension and type. -/
theorem ge_repr (x : Simd) (t : ITy) (a b : BitVec (bits x)) :
    Repr x t (ge x t a b) fun i => decide (V t b i ≤ V t a i) := by
  have hn : ∀ x a b, Repr x t (notl x t (lt x t a b)) fun i => decide (V t b i ≤ V t a i) :=
    fun x a b => (notl_repr x t (lt_repr x t a b)).congr fun i _ => by
      rw [← decide_not, decide_eq_decide, Int.not_lt]
  have hc : ∀ (a b : BitVec 512) i, i < 512 / t.w →
      (cmpMask t.w (fun a b => !ltT t a b) a b).getLsbD i = decide (V t b i ≤ V t a i) := by
    intro a b i hi
    rw [cmpMask_bit _ _ _ _ _ hi, ltT_iff, ← decide_not, decide_eq_decide, Int.not_lt]
    rfl
  cases x
  · exact hn .sse2 a b
  · exact hn .sse42 a b
  · exact hn .avx a b
  · exact hn .avx2 a b
  · unfold ge; dsimp only
    split
    · exact fun i hi => hc a b i hi
    · exact hn .knl a b
  · exact fun i hi => hc a b i hi

/-- `le` of integers on every extension and type. -/
theorem leq_repr (x : Simd) (t : ITy) (a b : BitVec (bits x)) :
    Repr x t (leq x t a b) fun i => decide (V t a i ≤ V t b i) := by
  have hn : ∀ x a b, Repr x t (notl x t (gt x t a b)) fun i => decide (V t a i ≤ V t b i) :=
    fun x a b => (notl_repr x t (gt_repr x t a b)).congr fun i _ => by
      rw [← decide_not, decide_eq_decide, Int.not_lt]
  have hc : ∀ (a b : BitVec 512) i, i < 512 / t.w →
      (cmpMask t.w (leT t) a b).getLsbD i = decide (V t a i ≤ V t b i) := by
    intro a b i hi
    rw [cmpMask_bit _ _ _ _ _ hi, leT_iff]
    rfl
  cases x
  · exact hn .sse2 a b
  · exact hn .sse42 a b
  · exact hn .avx a b
  · exact hn .avx2 a b
  · unfold leq; dsimp only
    split
    · exact fun i hi => hc a b i hi
    · exact hn .knl a b
  · exact fun i hi => hc a b i hi

-- signed and unsigned orders differ; on KNL the mask has one bit per 8-bit lane
example : (lt .sse42 .i32 (set1 .sse42 .i32 (-1)) (set1 .sse42 .i32 1)) ≠ 0 ∧
    (lt .sse42 .u32 (set1 .sse42 .u32 (-1)) (set1 .sse42 .u32 1)) = 0 := by decide +kernel

/-! ### Selection -/

theorem maskBlend_lane (t : ITy) (k : BitVec (512 / t.w)) (a b : BitVec 512) (i : Nat)
    (hi : i < le .skylake t) :
    lane t.w (maskBlend t.w k a b) i = if k.getLsbD i then lane t.w b i else lane t.w a i := by
  apply BitVec.eq_of_getLsbD_eq
  intro j hj
  unfold maskBlend
  rw [getLsbD_lane _ _ _ hj, BitVec.getLsbD_ofFnLE, dif_pos (lane_lt (fits hi) hj)]
  simp only [mul_add_div' hj]
  split <;> rw [getLsbD_lane _ _ _ hj]

theorem bit_test {n : Nat} (k : BitVec n) (i : Nat) (hi : i < n) :
    (k >>> i) &&& 1#n = 0#n ↔ k.getLsbD i = false := by
  constructor
  · intro h
    have := congrArg (fun v => BitVec.getLsbD v 0) h
    simp only [BitVec.getLsbD_and, BitVec.getLsbD_ushiftRight, Nat.add_zero, BitVec.getLsbD_zero,
      BitVec.getLsbD_one] at this
    simpa [show 0 < n by omega] using this
  · intro h
    apply BitVec.eq_of_getLsbD_eq
    intro j hj
    rw [BitVec.getLsbD_and, BitVec.getLsbD_ushiftRight, BitVec.getLsbD_one]
    by_cases h0 : j = 0
    · subst h0; simp [h]
    · simp [h0]

theorem loopBlend_lane (t : ITy) (k : BitVec (512 / t.w)) (a b : BitVec 512) (i : Nat)
    (hi : i < le .knl t) :
    lane t.w (loopBlend t.w k a b) i = if k.getLsbD i then lane t.w a i else lane t.w b i := by
  apply BitVec.eq_of_getLsbD_eq
  intro j hj
  unfold loopBlend
  rw [getLsbD_lane _ _ _ hj, BitVec.getLsbD_ofFnLE, dif_pos (lane_lt (fits hi) hj)]
  simp only [mul_add_div' hj, bit_test k i hi]
  cases k.getLsbD i <;> simp only [if_true, if_false, Bool.true_eq_false, Bool.false_eq_true]  <;> rw [getLsbD_lane _ _ _ hj]

theorem manual_lane' (x : Simd) (t : ITy) (l a b : BitVec (bits x)) (c : Bool) (i : Nat)
    (hi : i < le x t) (h : lane t.w l i = if c then BitVec.allOnes t.w else 0) :
    lane t.w (manual x l a b) i = if c then lane t.w a i else lane t.w b i := by
  unfold manual orb andb X86Ops.andnotb andnot
  rw [lane_or, lane_and, lane_and, lane_compl _ _ (fits hi), h]
  cases c <;> simp

theorem blend8_lane (t : ITy) (m a b : BitVec t.w) (c : Bool)
    (h : m = if c then BitVec.allOnes t.w else 0) :
    blendvEpi8 b a m = if c then a else b := by
  have h8 : t.w % 8 = 0 := by cases t <;> rfl
  have := (Props.X86.ifElse_canon (w_pos t) h8 (c = true) a b).2.2
  rw [h]
  simpa [ifElseBlend8, Props.X86.lane] using this

/-- `if_else1` of integers on every extension and type. -/
theorem ifElse_lane (x : Simd) (t : ITy) {l : BitVec (lbits x t)} {p : Nat → Bool}
    (h : Repr x t l p) (a b : BitVec (bits x)) (i : Nat) (hi : i < le x t) :
    lane t.w (ifElse x t l a b) i = if p i then lane t.w a i else lane t.w b i := by
  cases x
  · exact manual_lane' .sse2 t l a b _ i hi (h i hi)
  · have := lane_vmap3 (N := 128) (fun m a b => blendvEpi8 b a m) l a b i (fits (x := .sse42) hi)
    exact this.trans (blend8_lane t _ _ _ _ (h i hi))
  · exact manual_lane' .avx t l a b _ i hi (h i hi)
  · have := lane_vmap3 (N := 256) (fun m a b => blendvEpi8 b a m) l a b i (fits (x := .avx2) hi)
    exact this.trans (blend8_lane t _ _ _ _ (h i hi))
  · unfold ifElse; dsimp only
    split
    · rw [maskBlend_lane t l b a i hi, h i hi]
    · rw [loopBlend_lane t l a b i hi, h i hi]
  · refine (maskBlend_lane t l b a i hi).trans ?_
    rw [h i hi]

/-- `to_mask`: all ones in the true lanes, zero in the others. -/
theorem toMask_lane (x : Simd) (t : ITy) {l : BitVec (lbits x t)} {p : Nat → Bool}
    (h : Repr x t l p) (i : Nat) (hi : i < le x t) :
    lane t.w (toMask x t l) i = if p i then BitVec.allOnes t.w else 0 := by
  have ho : ∀ i, i < le .knl t → lane t.w (~~~(0 : BitVec 512)) i = BitVec.allOnes t.w := by
    intro i hi
    rw [lane_compl _ _ (fits (x := .knl) hi), lane_zero]; simp
  cases x
  · exact h i hi
  · exact h i hi
  · exact h i hi
  · exact h i hi
  · unfold toMask; dsimp only
    split
    · have e : set1 .knl .i32 (-1#32) = ~~~(0 : BitVec 512) := by decide +kernel
      rw [e, maskBlend_lane t l _ _ i hi, h i hi, ho i hi, lane_zero]
    · rw [loopBlend_lane t l _ _ i hi, h i hi, ho i hi, lane_zero]
  · refine (maskBlend_lane t l _ _ i hi).trans ?_
    rw [h i hi, ho i hi, lane_zero]

/-- `to_logical`: the lanes different from zero; the left inverse of `to_mask`. -/
theorem toLogical_repr (x : Simd) (t : ITy) (a : BitVec (bits x)) :
    Repr x t (toLogical x t a) fun i => decide (V t a i ≠ 0) := by
  refine (ne_repr x t a 0).congr fun i _ => ?_
  have : V t (0 : BitVec (bits x)) i = 0 := by
    unfold V; rw [lane_zero]; cases t <;> rfl
  rw [this]

/-- A logical only stands for one sequence of truth values, and converting it to a mask and back
keeps them. -/
theorem toLogical_toMask (x : Simd) (t : ITy) {l : BitVec (lbits x t)} {p : Nat → Bool}
    (h : Repr x t l p) : ∀ q, Repr x t (toLogical x t (toMask x t l)) q →
      ∀ i, i < le x t → q i = p i := by
  have uniq : ∀ (l : BitVec (lbits x t)) (p q : Nat → Bool), Repr x t l p → Repr x t l q →
      ∀ i, i < le x t → p i = q i := by
    intro l p q hp hq i hi
    have h1 : ∀ v : BitVec t.w, v = (if p i then BitVec.allOnes t.w else 0) →
        v = (if q i then BitVec.allOnes t.w else 0) → p i = q i := by
      intro v h1 h2
      have hne : BitVec.allOnes t.w ≠ 0 := by cases t <;> decide
      rw [h1] at h2
      cases hp : p i <;> cases hq : q i <;>
        simp only [hp, hq, if_true, if_false, Bool.false_eq_true] at h2
      · rfl
      · exact absurd h2.symm hne
      · exact absurd h2 hne
      · rfl
    cases x
    · exact h1 _ (hp i hi) (hq i hi)
    · exact h1 _ (hp i hi) (hq i hi)
    · exact h1 _ (hp i hi) (hq i hi)
    · exact h1 _ (hp i hi) (hq i hi)
    · exact (hp i hi).symm.trans (hq i hi)
    · exact (hp i hi).symm.trans (hq i hi)
  intro q hq i hi
  rw [uniq _ _ _ hq (toLogical_repr x t _) i hi]
  unfold V
  rw [toMask_lane x t h i hi]
  cases p i
  · simp only [Bool.false_eq_true, if_false]; cases t <;> rfl
  · simp only [if_true]; cases t <;> decide

/-- `storel` before AVX-512 stores 1 and 0; `loadl` reads everything but zero as true, so what is
stored is loaded back. -/
theorem storel_loadl (x : Simd) (t : ITy) {l : BitVec (lbits x t)} {p : Nat → Bool}
    (h : Repr x t l p) :
    (∀ i, i < le x t → V t (storelReg x t l) i = if p i then 1 else 0) ∧
    (∀ v : BitVec (bits x), Repr x t (loadlReg x t v) fun i => decide (V t v i ≠ 0)) ∧
    Repr x t (loadlReg x t (storelReg x t l)) p := by
  have h1 : ∀ i, i < le x t → V t (storelReg x t l) i = if p i then 1 else 0 := by
    intro i hi
    unfold V storelReg
    rw [ifElse_lane x t h _ _ i hi, lane_set1 x t _ i hi, lane_set1 x t _ i hi]
    cases p i
    · simp only [Bool.false_eq_true, if_false]; cases t <;> rfl
    · simp only [if_true]; cases t <;> rfl
  have h2 : ∀ v : BitVec (bits x), Repr x t (loadlReg x t v) fun i => decide (V t v i ≠ 0) := by
    intro v
    refine (notl_repr x t (eq_repr x t v _)).congr fun i hi => ?_
    have : V t (set1 x t 0) i = 0 := by
      unfold V; rw [lane_set1 x t _ i hi]; cases t <;> rfl
    rw [this, ← decide_not]
  refine ⟨h1, h2, (h2 _).congr fun i hi => ?_⟩
  rw [h1 i hi]
  cases p i <;> simp

example : Repr .sse2 .i32 (eq .sse2 .i32 (set1 .sse2 .i32 3) (set1 .sse2 .i32 3)) fun _ => true :=
  (eq_repr .sse2 .i32 _ _).congr fun i hi => by simp

/-! ### Reductions -/

theorem canon_reg (t : ITy) {N : Nat} (n : Nat) (l : BitVec N) (p : Nat → Bool)
    (h : ∀ i, i < n → lane t.w l i = if p i then BitVec.allOnes t.w else 0) :
    Props.X86.Canon (reg n t.w l) fun i => p i := fun i => by
  unfold reg
  rw [h i i.isLt]
  rfl

theorem canon_halves' (t : ITy) (l : BitVec 256) (p : Nat → Bool)
    (h : ∀ i, i < le .avx t → lane t.w l i = if p i then BitVec.allOnes t.w else 0) :
    Props.X86.Canon (reg (le .sse42 t) t.w (X86Ops.lower (N := 128) l)) (fun i => p i) ∧
    Props.X86.Canon (reg (le .sse42 t) t.w (X86Ops.upper (N := 128) l))
      (fun i => p (le .sse42 t + i)) := by
  constructor
  · refine canon_reg t _ _ p fun i hi => ?_
    rw [lane_lower (N := 128) l i (fits (x := .sse42) hi)]
    exact h i (by rw [le256]; omega)
  · refine canon_reg t _ _ (fun i => p (le .sse42 t + i)) fun i hi => ?_
    rw [lane_upper (N := 128) l _ i (half256 t) (fits (x := .sse42) hi)]
    exact h _ (by rw [le256]; omega)

theorem forall_fin {n : Nat} (p : Nat → Bool) :
    (∀ i : Fin n, p i = true) ↔ ∀ i, i < n → p i = true :=
  ⟨fun h i hi => h ⟨i, hi⟩, fun h i => h i i.isLt⟩

theorem exists_fin {n : Nat} (p : Nat → Bool) :
    (∃ i : Fin n, p i = true) ↔ ∃ i, i < n ∧ p i = true :=
  ⟨fun ⟨i, h⟩ => ⟨i, i.isLt, h⟩, fun ⟨i, hi, h⟩ => ⟨⟨i, hi⟩, h⟩⟩

/-- `all` and `any` of integers on every extension and type. -/
theorem all_any_spec (x : Simd) (t : ITy) {l : BitVec (lbits x t)} {p : Nat → Bool}
    (h : Repr x t l p) :
    (all x t l = true ↔ ∀ i, i < le x t → p i = true) ∧
    (any x t l = true ↔ ∃ i, i < le x t ∧ p i = true) := by
  have h8 : t.w = 8 * (t.w / 8) := by cases t <;> rfl
  have h0 : 0 < t.w / 8 := by cases t <;> decide
  have h16 : 128 / t.w * (t.w / 8) = 16 := by cases t <;> rfl
  have h32 : 256 / t.w * (t.w / 8) = 32 := by cases t <;> rfl
  have h4 : 512 / t.w % 4 = 0 := by cases t <;> rfl
  rw [← forall_fin, ← exists_fin]
  cases x
  · exact Props.X86.sse_all_any (canon_reg t _ l p h) h8 h0 h16
  · exact Props.X86.sse_all_any (canon_reg t _ l p h) h8 h0 h16
  · obtain ⟨c1, c2⟩ := canon_halves' t l p h
    have a1 := Props.X86.sse_all_any c1 h8 h0 h16
    have a2 := Props.X86.sse_all_any c2 h8 h0 h16
    have e := le256 t
    constructor
    · show (_ && _) = true ↔ _
      rw [Bool.and_eq_true, forall_fin, e]
      refine (and_congr a1.1 a2.1).trans ?_
      rw [forall_fin, forall_fin (fun i => p (le .sse42 t + i))]
      constructor
      · rintro ⟨k1, k2⟩ i hi
        by_cases hlt : i < le .sse42 t
        · exact k1 i hlt
        · have := k2 (i - le .sse42 t) (by omega)
          rwa [show le .sse42 t + (i - le .sse42 t) = i by omega] at this
      · intro k
        exact ⟨fun i hi => k i (by omega), fun i hi => k _ (by omega)⟩
    · show (_ || _) = true ↔ _
      rw [Bool.or_eq_true, exists_fin, e]
      refine (or_congr a1.2 a2.2).trans ?_
      rw [exists_fin, exists_fin (fun i => p (le .sse42 t + i))]
      constructor
      · rintro (⟨i, hi, k⟩ | ⟨i, hi, k⟩)
        · exact ⟨i, by omega, k⟩
        · exact ⟨_, by omega, k⟩
      · rintro ⟨i, hi, k⟩
        by_cases hlt : i < le .sse42 t
        · exact Or.inl ⟨i, hlt, k⟩
        · refine Or.inr ⟨i - le .sse42 t, by omega, ?_⟩
          rwa [show le .sse42 t + (i - le .sse42 t) = i by omega]
  · exact Props.X86.avx2_all_any (canon_reg t _ l p h) h8 h0 h32
  · exact Props.X86.avx512_all_any (p := fun i => p i) (fun i => h i i.isLt) h4
  · exact Props.X86.avx512_all_any (p := fun i => p i) (fun i => h i i.isLt) h4

theorem nbtrueReg_spec (t : ITy) {N : Nat} (hN : N = 128 ∨ N = 256) (l : BitVec N) (p : Nat → Bool)
    (h : ∀ i, i < N / t.w → lane t.w l i = if p i then BitVec.allOnes t.w else 0) :
    nbtrueReg N t l = Props.X86.count (fun i : Fin (N / t.w) => p i) := by
  have hc := canon_reg t (N / t.w) l p h
  have n := Props.X86.nbtrue_counts
  cases t with
  | i8 => exact n.1 hc (by show N / 8 ≤ 32; omega)
  | u8 => exact n.1 hc (by show N / 8 ≤ 32; omega)
  | i16 => exact n.2.1 hc (by show N / 16 ≤ 16; omega)
  | u16 => exact n.2.1 hc (by show N / 16 ≤ 16; omega)
  | i32 => exact n.2.2.1 hc (by decide) (by show N / 32 ≤ 32; omega)
  | u32 => exact n.2.2.1 hc (by decide) (by show N / 32 ≤ 32; omega)
  | i64 => exact n.2.2.1 hc (by decide) (by show N / 64 ≤ 32; omega)
  | u64 => exact n.2.2.1 hc (by decide) (by show N / 64 ≤ 32; omega)

/-- `nbtrue` of integers on every extension and type counts the true lanes. -/
theorem nbtrue_spec (x : Simd) (t : ITy) {l : BitVec (lbits x t)} {p : Nat → Bool}
    (h : Repr x t l p) : nbtrue x t l = Props.X86.count (fun i : Fin (le x t) => p i) := by
  have h64 : 512 / t.w ≤ 64 := by cases t <;> decide
  cases x
  · exact nbtrueReg_spec t (Or.inl rfl) l p h
  · exact nbtrueReg_spec t (Or.inl rfl) l p h
  · unfold nbtrue; dsimp only
    split
    · exact nbtrueReg_spec t (Or.inr rfl) l p h
    · rw [nbtrueReg_spec t (Or.inl rfl) (X86Ops.lower (N := 128) l) p,
        nbtrueReg_spec t (Or.inl rfl) (X86Ops.upper (N := 128) l) (fun i => p (128 / t.w + i))]
      · have e : le .avx t = 128 / t.w + 128 / t.w := le256 t
        have := Props.X86.halves_count (m := 128 / t.w) (fun i => p i)
        refine this.trans ?_
        rw [e]
      · intro i hi
        rw [lane_upper (N := 128) l _ i (half256 t) (fits (x := .sse42) hi)]
        exact h _ (by rw [le256]; exact Nat.add_lt_add_left hi _)
      · intro i hi
        rw [lane_lower (N := 128) l i (fits (x := .sse42) hi)]
        exact h i (by rw [le256]; exact Nat.lt_of_lt_of_le hi (Nat.le_add_right _ _))
  · exact nbtrueReg_spec t (Or.inr rfl) l p h
  · exact Props.X86.nbtrue512_counts (p := fun i => p i) (fun i => h i i.isLt) h64
  · exact Props.X86.nbtrue512_counts (p := fun i => p i) (fun i => h i i.isLt) h64

-- all 64 lanes of an 8-bit KNL comparison are true
example : nbtrue .knl .u8 (set1l .knl .u8 1) = 64 := by decide +kernel
example : any .avx .i16 (lt .avx .i16 (set1 .avx .i16 (-3)) 0) = true ∧
    all .avx .u16 (lt .avx .u16 (set1 .avx .u16 (-3)) 0) = false := by decide +kernel

end Nsimd.Props.X86Ops
