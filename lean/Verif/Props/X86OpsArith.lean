import Verif.Props.X86OpsLogic

/-!
# Integer arithmetic of the x86 back end on every extension and type

Lane `i` of the result is the mathematical operation on the lanes `i` of the arguments, reduced to
the type.
-/

namespace Nsimd.Props.X86Ops
open Nsimd.X86 Nsimd.X86Ops

/-! ### Addition, subtraction, negation -/

theorem cast_add (t : ITy) (a b : BitVec t.w) : t.cast (t.val a + t.val b) = a + b := by
  have := ITy.cast_val t a
  have h2 := ITy.cast_val t b
  unfold ITy.cast at *
  rw [BitVec.ofInt_add, this, h2]

theorem cast_sub (t : ITy) (a b : BitVec t.w) : t.cast (t.val a - t.val b) = a - b := by
  have := ITy.cast_val t a
  have h2 := ITy.cast_val t b
  unfold ITy.cast at *
  rw [Int.sub_eq_add_neg, BitVec.ofInt_add, BitVec.ofInt_neg, this, h2, BitVec.sub_eq_add_neg]

theorem cast_mul (t : ITy) (a b : BitVec t.w) : t.cast (t.val a * t.val b) = a * b := by
  have := ITy.cast_val t a
  have h2 := ITy.cast_val t b
  unfold ITy.cast at *
  rw [BitVec.ofInt_mul, this, h2]

theorem cast_neg (t : ITy) (a : BitVec t.w) : t.cast (-(t.val a)) = -a := by
  have := ITy.cast_val t a
  unfold ITy.cast at *
  rw [BitVec.ofInt_neg, this]

theorem add_lane (x : Simd) (t : ITy) (a b : BitVec (bits x)) (i : Nat) (hi : i < le x t) :
    lane t.w (add x t a b) i = lane t.w a i + lane t.w b i := by
  unfold add
  split
  · exact lane_vmap2 _ _ _ _ (fits hi)
  · exact lane_split2 x t _ (· + ·) (fun y a b i hi => lane_vmap2 _ _ _ _ (fits hi)) a b i hi

theorem sub_lane (x : Simd) (t : ITy) (a b : BitVec (bits x)) (i : Nat) (hi : i < le x t) :
    lane t.w (sub x t a b) i = lane t.w a i - lane t.w b i := by
  unfold sub
  split
  · exact lane_vmap2 _ _ _ _ (fits hi)
  · exact lane_split2 x t _ (· - ·) (fun y a b i hi => lane_vmap2 _ _ _ _ (fits hi)) a b i hi

theorem neg_lane (x : Simd) (t : ITy) (a : BitVec (bits x)) (i : Nat) (hi : i < le x t) :
    lane t.w (neg x t a) i = -(lane t.w a i) := by
  unfold X86Ops.neg
  rw [sub_lane x t _ _ i hi, lane_zero]; simp

/-- `add`, `sub` and `neg` on every extension and type. -/
theorem add_sub_neg_spec (x : Simd) (t : ITy) (a b : BitVec (bits x)) (i : Nat)
    (hi : i < le x t) :
    lane t.w (add x t a b) i = t.cast (V t a i + V t b i) ∧
    lane t.w (sub x t a b) i = t.cast (V t a i - V t b i) ∧
    lane t.w (neg x t a) i = t.cast (-(V t a i)) := by
  unfold V
  rw [add_lane x t _ _ i hi, sub_lane x t _ _ i hi, neg_lane x t _ i hi, cast_add, cast_sub, cast_neg]
  exact ⟨rfl, rfl, rfl⟩

-- a carry does not leave its lane
example : add .avx .u8 (set1 .avx .u8 0xff) (set1 .avx .u8 1) = 0 := by decide +kernel

/-! ### Multiplication -/

theorem mulDirect_lane {N : Nat} (t : ITy) (n : Nat) (hN : 16 * n = N) (a b : BitVec N)
    (i : Nat) (hi : t.w * (i + 1) ≤ N) :
    lane t.w (mulDirect t a b) i = lane t.w a i * lane t.w b i := by
  have h8 : ∀ i, 8 * (i + 1) ≤ N →
      lane 8 (vmap2 16 (mul8 (w := 8)) a b) i = lane 8 a i * lane 8 b i := by
    intro i hi
    have hk : i < 2 * n := by omega
    rw [← narrow_reg (w := 8) n (vmap2 16 (mul8 (w := 8)) a b) ⟨i, hk⟩]
    have : (fun j : Fin n => lane (8 + 8) (vmap2 16 (mul8 (w := 8)) a b) j) =
        fun j : Fin n => mul8 (w := 8) (lane (8 + 8) a j) (lane (8 + 8) b j) := by
      funext j
      exact lane_vmap2 (w := 16) _ _ _ _ (by have := j.isLt; omega)
    rw [this, Props.X86.mul8_lanes, narrow_reg, narrow_reg]
  cases t with
  | i8 => exact h8 i hi
  | u8 => exact h8 i hi
  | _ => exact lane_vmap2 _ _ _ _ hi

/-- The extensions and types where `mul` calls the scalar operator on each lane.
Specification, not code of the repo. -/
def mulScalar (x : Simd) (t : ITy) : Prop := (t.w = 64 ∧ x ≠ .skylake) ∨ (t.w = 32 ∧ x = .sse2)

theorem mulCode_emulate (x : Simd) (t : ITy) : mulCode x t = .emulate ↔ mulScalar x t := by
  unfold mulScalar
  cases x <;> cases t <;> simp [mulCode, ITy.w]

theorem d16 (x : Simd) : ∃ n, 16 * n = bits x := by
  cases x
  · exact ⟨8, rfl⟩
  · exact ⟨8, rfl⟩
  · exact ⟨16, rfl⟩
  · exact ⟨16, rfl⟩
  · exact ⟨32, rfl⟩
  · exact ⟨32, rfl⟩

/-- `mul` on every extension and type: lane `i` is the product of the lanes `i` modulo `2^w`; the
only undefined case is an overflowing signed product where the code multiplies scalars. -/
theorem mul_spec (x : Simd) (t : ITy) (undef a b : BitVec (bits x)) :
    ((mul x t undef a b).isSome ↔ (mulScalar x t → t.sgn = true → ∀ i, i < le x t →
      t.minv ≤ V t a i * V t b i ∧ V t a i * V t b i ≤ t.maxv)) ∧
    ∀ r, mul x t undef a b = some r → ∀ i, i < le x t →
      lane t.w r i = t.cast (V t a i * V t b i) := by
  have hm := mulCode_emulate x t
  have hd : ∀ y (a b : BitVec (bits y)) i, i < le y t →
      lane t.w (mulDirect t a b) i = lane t.w a i * lane t.w b i := by
    intro y a b i hi
    obtain ⟨n, hn⟩ := d16 y
    exact mulDirect_lane t n hn a b i (fits hi)
  unfold mul
  cases hc : mulCode x t with
  | direct =>
    have : ¬ mulScalar x t := fun h => by rw [← hm, hc] at h; cases h
    refine ⟨by simp [this], ?_⟩
    rintro r ⟨⟩ i hi
    unfold V
    rw [cast_mul, hd x a b i hi]
  | split =>
    have : ¬ mulScalar x t := fun h => by rw [← hm, hc] at h; cases h
    refine ⟨by simp [this], ?_⟩
    rintro r ⟨⟩ i hi
    unfold V
    rw [cast_mul]
    exact lane_split2 x t _ (· * ·) (fun y => hd y) a b i hi
  | emulate =>
    have hs : mulScalar x t := hm.mp hc
    have ht : t = .i32 ∨ t = .u32 ∨ t = .i64 ∨ t = .u64 := by
      rcases hs with ⟨h, -⟩ | ⟨h, -⟩ <;> cases t <;> simp [ITy.w] at *
    obtain ⟨h1, h2⟩ := Props.X86Lane.mul_spec (ext x) t ht undef a b
    refine ⟨?_, fun r hr i hi => h2 r hr i hi⟩
    refine h1.trans ⟨fun h _ hs i hi => h i hi hs, fun h i hi hsg => h hs hsg i hi⟩

example : (mul .sse2 .i32 0 (set1 .sse2 .i32 3) (set1 .sse2 .i32 (-5))).map (V .i32 · 2) =
    some (-15) := by decide +kernel
example : mul .sse2 .i32 0 (set1 .sse2 .i32 0x40000000) (set1 .sse2 .i32 4) = none := by
  decide +kernel

/-- What a fused operator means. Specification, not code of the repo. -/
def fmaValue : Fma → Int → Int → Int → Int
  | .fma, a, b, c => a * b + c
  | .fms, a, b, c => a * b - c
  | .fnma, a, b, c => -(a * b) + c
  | .fnms, a, b, c => -(a * b) - c

/-- The first factor of a fused operator. Specification, not code of the repo. -/
def fmaFactor (f : Fma) (t : ITy) (a : BitVec t.w) : Int :=
  match f with
  | .fma | .fms => t.val a
  | .fnma | .fnms => t.val (t.cast (-(t.val a)))

theorem fma_lane_value (f : Fma) (t : ITy) (a b c : BitVec t.w) :
    (if f.adds then (if f.negs then -a else a) * b + c else (if f.negs then -a else a) * b - c) =
      t.cast (fmaValue f (t.val a) (t.val b) (t.val c)) := by
  have ha := ITy.cast_val t a
  have hb := ITy.cast_val t b
  have hc := ITy.cast_val t c
  unfold ITy.cast at *
  cases f <;> simp only [Fma.adds, Fma.negs, fmaValue, if_true, if_false, Bool.false_eq_true,
    Int.sub_eq_add_neg, BitVec.ofInt_add, BitVec.ofInt_mul, BitVec.ofInt_neg, ha, hb, hc,
    BitVec.sub_eq_add_neg, BitVec.neg_mul]

theorem fmaFactor_eq (f : Fma) (t : ITy) (a : BitVec t.w) :
    t.val (if f.negs then -a else a) = fmaFactor f t a := by
  cases f <;> simp [Fma.negs, fmaFactor, cast_neg]

theorem fmaEmulate_spec (f : Fma) (x : Simd) (t : ITy) (undef a b c : BitVec (bits x)) :
    ((fmaEmulate f x t undef a b c).isSome ↔ (mulScalar x t → t.sgn = true → ∀ i, i < le x t →
      t.minv ≤ fmaFactor f t (lane t.w a i) * V t b i ∧
      fmaFactor f t (lane t.w a i) * V t b i ≤ t.maxv)) ∧
    ∀ r, fmaEmulate f x t undef a b c = some r → ∀ i, i < le x t →
      lane t.w r i = t.cast (fmaValue f (V t a i) (V t b i) (V t c i)) := by
  have hn : ∀ i, i < le x t → lane t.w (if f.negs then neg x t a else a) i =
      if f.negs then -(lane t.w a i) else lane t.w a i := by
    intro i hi
    split
    · exact neg_lane x t a i hi
    · rfl
  obtain ⟨h1, h2⟩ := mul_spec x t undef (if f.negs then neg x t a else a) b
  constructor
  · have : (fmaEmulate f x t undef a b c).isSome =
        (mul x t undef (if f.negs then neg x t a else a) b).isSome := by
      unfold fmaEmulate
      cases mul x t undef (if f.negs then neg x t a else a) b <;> rfl
    rw [this, h1]
    refine imp_congr_right fun _ => imp_congr_right fun _ => forall_congr' fun i =>
      forall_congr' fun hi => ?_
    unfold V
    rw [hn i hi, fmaFactor_eq]
  · intro r hr i hi
    unfold fmaEmulate at hr
    cases hm : mul x t undef (if f.negs then neg x t a else a) b with
    | none => rw [hm] at hr; cases hr
    | some m =>
      rw [hm] at hr
      have hl := h2 m hm i hi
      unfold V at hl
      rw [hn i hi, cast_mul] at hl
      have hr' : (if f.adds then add x t m c else sub x t m c) = r := Option.some.inj hr
      unfold V
      rw [← fma_lane_value, ← hr', ← hl]
      split
      · exact add_lane x t m c i hi
      · exact sub_lane x t m c i hi

/-- Integer `fma`, `fms`, `fnma`, `fnms` on every extension and type: lane `i` is `±(a b) ± c`
modulo `2^w`; undefined only when a scalar signed product overflows. -/
theorem fma_spec (f : Fma) (x : Simd) (t : ITy) (undef : (y : Simd) → BitVec (bits y))
    (a b c : BitVec (bits x)) :
    ((fma f x t undef a b c).isSome ↔ (mulScalar x t → t.sgn = true → ∀ i, i < le x t →
      t.minv ≤ fmaFactor f t (lane t.w a i) * V t b i ∧
      fmaFactor f t (lane t.w a i) * V t b i ≤ t.maxv)) ∧
    ∀ r, fma f x t undef a b c = some r → ∀ i, i < le x t →
      lane t.w r i = t.cast (fmaValue f (V t a i) (V t b i) (V t c i)) := by
  have half : ∀ (y z : Simd) (n : Nat) (hn : t.w * n = bits y) (hz : le z t = n + n)
      (hy : le y t = n) (hs : mulScalar y t ↔ mulScalar z t) (a b c : BitVec (bits y + bits y)),
      let o := (do
        let l ← fmaEmulate f y t (undef y) (X86Ops.lower a) (X86Ops.lower b) (X86Ops.lower c)
        let h ← fmaEmulate f y t (undef y) (X86Ops.upper a) (X86Ops.upper b) (X86Ops.upper c)
        return merge l h : Option (BitVec (bits y + bits y)))
      (o.isSome ↔ (mulScalar z t → t.sgn = true → ∀ i, i < le z t →
        t.minv ≤ fmaFactor f t (lane t.w a i) * V t b i ∧
        fmaFactor f t (lane t.w a i) * V t b i ≤ t.maxv)) ∧
      ∀ r, o = some r → ∀ i, i < le z t →
        lane t.w r i = t.cast (fmaValue f (V t a i) (V t b i) (V t c i)) := by
    intro y z n hn hz hy hs a b c o
    have s1 := fmaEmulate_spec f y t (undef y) (X86Ops.lower a) (X86Ops.lower b) (X86Ops.lower c)
    have s2 := fmaEmulate_spec f y t (undef y) (X86Ops.upper a) (X86Ops.upper b) (X86Ops.upper c)
    have l1 : ∀ (a : BitVec (bits y + bits y)) i, i < n → lane t.w (X86Ops.lower a) i = lane t.w a i :=
      fun a i hi => lane_lower a i (fits (x := y) (by omega))
    have l2 : ∀ (a : BitVec (bits y + bits y)) i, i < n →
        lane t.w (X86Ops.upper a) i = lane t.w a (n + i) :=
      fun a i hi => lane_upper a n i hn (fits (x := y) (by omega))
    have hsome : o.isSome ↔ ((fmaEmulate f y t (undef y) (X86Ops.lower a) (X86Ops.lower b)
          (X86Ops.lower c)).isSome ∧
        (fmaEmulate f y t (undef y) (X86Ops.upper a) (X86Ops.upper b) (X86Ops.upper c)).isSome) := by
      show Option.isSome (do
        let l ← fmaEmulate f y t (undef y) (X86Ops.lower a) (X86Ops.lower b) (X86Ops.lower c)
        let h ← fmaEmulate f y t (undef y) (X86Ops.upper a) (X86Ops.upper b) (X86Ops.upper c)
        return merge l h) ↔ _
      cases fmaEmulate f y t (undef y) (X86Ops.lower a) (X86Ops.lower b) (X86Ops.lower c) <;>
        cases fmaEmulate f y t (undef y) (X86Ops.upper a) (X86Ops.upper b) (X86Ops.upper c) <;> simp
    constructor
    · rw [hsome, s1.1, s2.1, hs, hz, hy]
      constructor
      · rintro ⟨h1, h2⟩ hm hsg i hi
        by_cases hlt : i < n
        · have := h1 hm hsg i hlt
          unfold V at this ⊢
          rwa [l1 a i hlt, l1 b i hlt] at this
        · have hk : i - n < n := by omega
          have := h2 hm hsg (i - n) hk
          unfold V at this ⊢
          rwa [l2 a _ hk, l2 b _ hk, show n + (i - n) = i by omega] at this
      · intro h
        constructor
        · intro hm hsg i hi
          have := h hm hsg i (by omega)
          unfold V at this ⊢
          rwa [l1 a i hi, l1 b i hi]
        · intro hm hsg i hi
          have := h hm hsg (n + i) (by omega)
          unfold V at this ⊢
          rwa [l2 a i hi, l2 b i hi]
    · intro r hr i hi
      have hs' := hsome.mp (by rw [hr]; rfl)
      obtain ⟨l, hl⟩ := Option.isSome_iff_exists.mp hs'.1
      obtain ⟨h, hh⟩ := Option.isSome_iff_exists.mp hs'.2
      have ho : o = some (merge l h) := by
        show (do
          let l ← fmaEmulate f y t (undef y) (X86Ops.lower a) (X86Ops.lower b) (X86Ops.lower c)
          let h ← fmaEmulate f y t (undef y) (X86Ops.upper a) (X86Ops.upper b) (X86Ops.upper c)
          return merge l h) = _
        rw [hl, hh]; rfl
      rw [ho] at hr
      rw [← Option.some.inj hr]
      refine merge_cases n hn l h (fun i v => v = t.cast (fmaValue f (V t a i) (V t b i) (V t c i)))
        ?_ ?_ i (by omega)
      · intro i hi
        rw [s1.2 l hl i (by omega)]
        unfold V
        rw [l1 a i hi, l1 b i hi, l1 c i hi]
      · intro i hi
        rw [s2.2 h hh i (by omega)]
        unfold V
        rw [l2 a i hi, l2 b i hi, l2 c i hi]
  cases x
  · exact fmaEmulate_spec f .sse2 t (undef .sse2) a b c
  · exact fmaEmulate_spec f .sse42 t (undef .sse42) a b c
  · exact half .sse42 .avx (le .sse42 t) (half256 t) (le256 t) rfl (by simp [mulScalar]) a b c
  · exact fmaEmulate_spec f .avx2 t (undef .avx2) a b c
  · exact half .avx2 .knl (le .avx2 t) (half512 t) (le512 t) rfl (by simp [mulScalar]) a b c
  · exact fmaEmulate_spec f .skylake t (undef .skylake) a b c

example : (fma .fnms .avx .i32 (fun _ => 0) (set1 .avx .i32 3) (set1 .avx .i32 4)
    (set1 .avx .i32 5)).map (V .i32 · 7) = some (-17) := by decide +kernel

/-! ### Shifts -/

theorem narrow1 {N w : Nat} (f : BitVec (w + w) → BitVec (w + w)) (n : Nat) (hN : (w + w) * n = N)
    (a : BitVec N) (i : Nat) (hi : i < 2 * n) :
    lane w (vmap1 (w + w) f a) i = narrow (fun j : Fin n => f (lane (w + w) a j)) ⟨i, hi⟩ := by
  rw [← narrow_reg (w := w) n (vmap1 (w + w) f a) ⟨i, hi⟩]
  congr 1
  funext j
  refine lane_vmap1 (w := w + w) _ _ _ ?_
  rw [← hN]
  exact Nat.mul_le_mul_left _ j.isLt

theorem byte1 {N : Nat} (f : BitVec 32 → BitVec 32) (a : BitVec N) (n : Nat) (hN : 32 * n = N)
    (i : Nat) (hi : i < 4 * n) :
    lane 8 (vmap1 32 f a) i = byte (f (lane 32 a (i / 4))) (i % 4) := by
  have h := byte_lane (vmap1 32 f a) (i / 4) (i % 4)
  rw [if_pos (Nat.mod_lt _ (by decide))] at h
  rw [lane_vmap1 _ _ _ (by omega)] at h
  rw [h]
  congr 1
  omega

theorem shlDirect_lane {N : Nat} (t : ITy) (n : Nat) (hN : 16 * n = N) (a : BitVec N) (s : Nat)
    (i : Nat) (hi : t.w * (i + 1) ≤ N) :
    (lane t.w (shlDirect t a s) i).toNat = (lane t.w a i).toNat * 2 ^ s % 2 ^ t.w := by
  have h8 : ∀ i, 8 * (i + 1) ≤ N → (lane 8 (vmap1 16 (fun v => shl2n (w := 8) v s) a) i).toNat =
      (lane 8 a i).toNat * 2 ^ s % 2 ^ 8 := by
    intro i hi
    rw [narrow1 (w := 8) _ n hN a i (by omega), Props.X86.shl2n_lanes, narrow_reg]
  have hg : ∀ {w : Nat} (i : Nat), w * (i + 1) ≤ N → (lane w (vmap1 w (· <<< s) a) i).toNat =
      (lane w a i).toNat * 2 ^ s % 2 ^ w := by
    intro w i hi
    rw [lane_vmap1 _ _ _ hi, BitVec.toNat_shiftLeft, Nat.shiftLeft_eq]
  cases t with
  | i8 => exact h8 i hi
  | u8 => exact h8 i hi
  | _ => exact hg i hi

theorem shrDirect_lane {N : Nat} (t : ITy) (n : Nat) (hN : 16 * n = N) (a : BitVec N) (s : Nat)
    (i : Nat) (hi : t.w * (i + 1) ≤ N) :
    (lane t.w (shrDirect t a s) i).toNat = (lane t.w a i).toNat / 2 ^ s := by
  have h8 : ∀ i, 8 * (i + 1) ≤ N → (lane 8 (vmap1 16 (fun v => shr2n (w := 8) v s) a) i).toNat =
      (lane 8 a i).toNat / 2 ^ s := by
    intro i hi
    rw [narrow1 (w := 8) _ n hN a i (by omega), Props.X86.shr2n_lanes, narrow_reg]
  have hg : ∀ {w : Nat} (i : Nat), w * (i + 1) ≤ N → (lane w (vmap1 w (· >>> s) a) i).toNat =
      (lane w a i).toNat / 2 ^ s := by
    intro w i hi
    rw [lane_vmap1 _ _ _ hi, BitVec.toNat_ushiftRight, Nat.shiftRight_eq_div_pow]
  cases t with
  | i8 => exact h8 i hi
  | u8 => exact h8 i hi
  | _ => exact hg i hi

theorem toNat_split1 (x : Simd) (t : ITy) (f : (y : Simd) → BitVec (bits y) → BitVec (bits y))
    (g : Nat → Nat) (hf : ∀ y a i, i < le y t → (lane t.w (f y a) i).toNat = g (lane t.w a i).toNat)
    (a : BitVec (bits x)) (i : Nat) (hi : i < le x t) :
    (lane t.w (split1 x f a) i).toNat = g (lane t.w a i).toNat := by
  rw [lane_split1 x t f (fun v => BitVec.ofNat t.w (g v.toNat)) ?_ a i hi]
  · have := hf x a i hi
    rw [BitVec.toNat_ofNat, ← this]
    exact Nat.mod_eq_of_lt (lane t.w (f x a) i).isLt
  · intro y a i hi
    rw [← hf y a i hi]
    simp

/-- `shl` on every extension and type: multiplication by `2^s` modulo `2^w`. On KNL 8-bit lanes
are shifted inside 32-bit lanes and the count must not exceed 8. -/
theorem shl_spec (x : Simd) (t : ITy) (a : BitVec (bits x)) (s : Nat)
    (hs : x = .knl → t.w = 8 → s ≤ 8) (i : Nat) (hi : i < le x t) :
    (lane t.w (shl x t a s) i).toNat = (lane t.w a i).toNat * 2 ^ s % 2 ^ t.w := by
  have hd : ∀ y (a : BitVec (bits y)) i, i < le y t →
      (lane t.w (shlDirect t a s) i).toNat = (lane t.w a i).toNat * 2 ^ s % 2 ^ t.w := by
    intro y a i hi
    obtain ⟨n, hn⟩ := d16 y
    exact shlDirect_lane t n hn a s i (fits hi)
  have k8 : (t = .i8 ∨ t = .u8) → x = .knl → ∀ (a : BitVec 512) i, i < 64 →
      (lane 8 (vmap1 32 (fun v => shl32for8 v s) a) i).toNat = (lane 8 a i).toNat * 2 ^ s % 2 ^ 8 := by
    intro ht hx a i hi
    have hs8 : s ≤ 8 := hs hx (by rcases ht with rfl | rfl <;> rfl)
    have hm := Nat.mod_lt i (show 4 > 0 by decide)
    rw [byte1 _ a 16 rfl i hi, Props.X86.shl32for8_lanes _ s _ hs8 hm, byte_lane, if_pos hm,
      show 4 * (i / 4) + i % 4 = i by omega, BitVec.toNat_shiftLeft, Nat.shiftLeft_eq]
  have k16 : ∀ (a : BitVec 512) i, i < 32 → (lane 16 (vmap1 32 (fun v => shl2n (w := 16) v s) a) i).toNat
      = (lane 16 a i).toNat * 2 ^ s % 2 ^ 16 := by
    intro a i hi
    rw [narrow1 (w := 16) _ 16 rfl a i (by omega), Props.X86.shl2n_lanes, narrow_reg]
  cases x with
  | avx => exact toNat_split1 .avx t _ (fun v => v * 2 ^ s % 2 ^ t.w) (fun y a i hi => hd y a i hi) a i hi
  | knl =>
    cases t with
    | i8 => exact k8 (Or.inl rfl) rfl a i hi
    | u8 => exact k8 (Or.inr rfl) rfl a i hi
    | i16 => exact k16 a i hi
    | u16 => exact k16 a i hi
    | _ => exact hd .knl a i hi
  | _ => exact hd _ a i hi

/-- `shr` on every extension and type: the unsigned value divided by `2^s`. -/
theorem shr_spec (x : Simd) (t : ITy) (a : BitVec (bits x)) (s : Nat)
    (hs : x = .knl → t.w = 8 → s ≤ 8) (i : Nat) (hi : i < le x t) :
    (lane t.w (shr x t a s) i).toNat = (lane t.w a i).toNat / 2 ^ s := by
  have hd : ∀ y (a : BitVec (bits y)) i, i < le y t →
      (lane t.w (shrDirect t a s) i).toNat = (lane t.w a i).toNat / 2 ^ s := by
    intro y a i hi
    obtain ⟨n, hn⟩ := d16 y
    exact shrDirect_lane t n hn a s i (fits hi)
  have k8 : (t = .i8 ∨ t = .u8) → x = .knl → ∀ (a : BitVec 512) i, i < 64 →
      (lane 8 (vmap1 32 (fun v => shr32for8 v s) a) i).toNat = (lane 8 a i).toNat / 2 ^ s := by
    intro ht hx a i hi
    have hs8 : s ≤ 8 := hs hx (by rcases ht with rfl | rfl <;> rfl)
    have hm := Nat.mod_lt i (show 4 > 0 by decide)
    rw [byte1 _ a 16 rfl i hi, Props.X86.shr32for8_lanes _ s _ hs8 hm, byte_lane, if_pos hm,
      show 4 * (i / 4) + i % 4 = i by omega, BitVec.toNat_ushiftRight, Nat.shiftRight_eq_div_pow]
  have k16 : ∀ (a : BitVec 512) i, i < 32 → (lane 16 (vmap1 32 (fun v => shr2n (w := 16) v s) a) i).toNat
      = (lane 16 a i).toNat / 2 ^ s := by
    intro a i hi
    rw [narrow1 (w := 16) _ 16 rfl a i (by omega), Props.X86.shr2n_lanes, narrow_reg]
  cases x with
  | avx => exact toNat_split1 .avx t _ (fun v => v / 2 ^ s) (fun y a i hi => hd y a i hi) a i hi
  | knl =>
    cases t with
    | i8 => exact k8 (Or.inl rfl) rfl a i hi
    | u8 => exact k8 (Or.inr rfl) rfl a i hi
    | i16 => exact k16 a i hi
    | u16 => exact k16 a i hi
    | _ => exact hd .knl a i hi
  | _ => exact hd _ a i hi

theorem shraDirect_lane {N : Nat} (t : ITy) (ht : t.sgn = true) (n : Nat) (hN : 16 * n = N)
    (a : BitVec N) (s : Nat) (i : Nat) (hi : t.w * (i + 1) ≤ N) :
    (lane t.w (shraDirect t a s) i).toInt = (lane t.w a i).toInt / 2 ^ s := by
  have h8 : ∀ i, 8 * (i + 1) ≤ N → (lane 8 (vmap1 16 (fun v => shraI8 (w := 8) v s) a) i).toInt =
      (lane 8 a i).toInt / 2 ^ s := by
    intro i hi
    rw [narrow1 (w := 8) _ n hN a i (by omega), Props.X86.shraI8_lanes (by decide), narrow_reg]
  have hg : ∀ {w : Nat} (i : Nat), w * (i + 1) ≤ N → (lane w (vmap1 w (·.sshiftRight s) a) i).toInt =
      (lane w a i).toInt / 2 ^ s := by
    intro w i hi
    rw [lane_vmap1 _ _ _ hi, BitVec.toInt_sshiftRight, Int.shiftRight_eq_div_pow]
    norm_cast
  cases t with
  | i8 => exact h8 i hi
  | u8 => cases ht
  | u16 => cases ht
  | u32 => cases ht
  | u64 => cases ht
  | _ => exact hg i hi

theorem toInt_split1 (x : Simd) (t : ITy) (f : (y : Simd) → BitVec (bits y) → BitVec (bits y))
    (g : Int → Int) (hf : ∀ y a i, i < le y t → (lane t.w (f y a) i).toInt = g (lane t.w a i).toInt)
    (a : BitVec (bits x)) (i : Nat) (hi : i < le x t) :
    (lane t.w (split1 x f a) i).toInt = g (lane t.w a i).toInt := by
  rw [lane_split1 x t f (fun v => BitVec.ofInt t.w (g v.toInt)) ?_ a i hi]
  · have := hf x a i hi
    rw [← this, BitVec.ofInt_toInt, this]
  · intro y a i hi
    rw [← hf y a i hi, BitVec.ofInt_toInt]

/-- `shra` on every extension and type, count below the width: the floor of the value (of its
type) divided by `2^s`. -/
theorem shra_spec (x : Simd) (t : ITy) (undef a : BitVec (bits x)) (s : Nat) (hs : s < t.w) :
    ∃ r, shra x t undef a s = some r ∧ ∀ i, i < le x t → V t r i = V t a i / 2 ^ s := by
  unfold shra V
  by_cases hsg : t.sgn = false
  · rw [if_pos hsg]
    refine ⟨_, rfl, fun i hi => ?_⟩
    have := shr_spec x t a s (fun _ h8 => by omega) i hi
    unfold ITy.val
    simp only [hsg, Bool.false_eq_true, if_false, this]
    simp
  · rw [if_neg hsg]
    have hsg : t.sgn = true := by simpa using hsg
    have hv : ∀ v : BitVec t.w, t.val v = v.toInt := fun v => by unfold ITy.val; simp [hsg]
    have hd : ∀ y (a : BitVec (bits y)) i, i < le y t →
        (lane t.w (shraDirect t a s) i).toInt = (lane t.w a i).toInt / 2 ^ s := by
      intro y a i hi
      obtain ⟨n, hn⟩ := d16 y
      exact shraDirect_lane t hsg n hn a s i (fits hi)
    have hsp : ∀ i, i < le x t → (lane t.w (split1 x (fun _ v => shraDirect t v s) a) i).toInt =
        (lane t.w a i).toInt / 2 ^ s :=
      toInt_split1 x t _ (fun v => v / 2 ^ s) (fun y a i hi => hd y a i hi) a
    simp only [hv]
    have he : ∃ r, shraEmul (ext x) t undef a s = some r ∧ ∀ i, i < le x t →
        (lane t.w r i).toInt = (lane t.w a i).toInt / 2 ^ s := by
      obtain ⟨r, h1, h2⟩ := Props.X86Lane.shra_spec (ext x) t undef a s hs
      refine ⟨r, h1, fun i hi => ?_⟩
      rw [← hv, ← hv]; exact h2 i hi
    have h1 : ∃ r, some (shraDirect t a s) = some r ∧ ∀ i, i < le x t →
        (lane t.w r i).toInt = (lane t.w a i).toInt / 2 ^ s := ⟨_, rfl, hd x a⟩
    have h2 : ∃ r, some (split1 x (fun _ v => shraDirect t v s) a) = some r ∧ ∀ i, i < le x t →
        (lane t.w r i).toInt = (lane t.w a i).toInt / 2 ^ s := ⟨_, rfl, hsp⟩
    cases t with
    | u8 => cases hsg
    | u16 => cases hsg
    | u32 => cases hsg
    | u64 => cases hsg
    | i8 =>
      cases x with
      | sse2 => exact h1
      | sse42 => exact h1
      | avx => exact h2
      | avx2 => exact h1
      | knl => exact h2
      | skylake => exact h1
    | i16 =>
      cases x with
      | sse2 => exact h1
      | sse42 => exact h1
      | avx => exact h2
      | avx2 => exact h1
      | knl => exact h2
      | skylake => exact h1
    | i32 =>
      cases x with
      | sse2 => exact h1
      | sse42 => exact h1
      | avx => exact h2
      | avx2 => exact h1
      | knl => exact h1
      | skylake => exact h1
    | i64 =>
      cases x with
      | sse2 => exact he
      | sse42 => exact he
      | avx => exact he
      | avx2 => exact he
      | knl => exact h1
      | skylake => exact h1

example : (shra .knl .i8 0 (set1 .knl .i8 (-7)) 1).map (V .i8 · 33) = some (-4) := by decide +kernel

/-! ### min, max, abs -/

/-- `max` and `min` on every extension and type. -/
theorem max_min_spec (x : Simd) (t : ITy) (a b : BitVec (bits x)) (i : Nat) (hi : i < le x t) :
    V t (max x t a b) i = Max.max (V t a i) (V t b i) ∧
    V t (min x t a b) i = Min.min (V t a i) (V t b i) := by
  have hM : ∀ u v : BitVec t.w, t.val (maxT t u v) = Max.max (t.val u) (t.val v) := by
    intro u v
    unfold maxT
    rw [ltT_iff]
    split <;> simp_all <;> omega
  have hm : ∀ u v : BitVec t.w, t.val (minT t u v) = Min.min (t.val u) (t.val v) := by
    intro u v
    unfold minT
    rw [ltT_iff]
    split <;> simp_all <;> omega
  unfold X86Ops.max X86Ops.min
  cases minmaxCode x t with
  | native =>
    constructor
    · show V t (vmap2 t.w (maxT t) a b) i = _
      unfold V
      rw [lane_vmap2 _ _ _ _ (fits hi), hM]
    · show V t (vmap2 t.w (minT t) a b) i = _
      unfold V
      rw [lane_vmap2 _ _ _ _ (fits hi), hm]
  | split =>
    constructor
    · show V t (split2 x (fun _ => vmap2 t.w (maxT t)) a b) i = _
      unfold V
      rw [lane_split2 x t _ (maxT t) (fun y a b i hi => lane_vmap2 _ _ _ _ (fits hi)) a b i hi, hM]
    · show V t (split2 x (fun _ => vmap2 t.w (minT t)) a b) i = _
      unfold V
      rw [lane_split2 x t _ (minT t) (fun y a b i hi => lane_vmap2 _ _ _ _ (fits hi)) a b i hi, hm]
  | other =>
    constructor
    · show V t (ifElse x t (gt x t a b) a b) i = _
      have := ifElse_lane x t (gt_repr x t a b) a b i hi
      unfold V at *
      rw [this]
      split <;> simp_all <;> omega
    · show V t (ifElse x t (gt x t b a) a b) i = _
      have := ifElse_lane x t (gt_repr x t b a) a b i hi
      unfold V at *
      rw [this]
      split <;> simp_all <;> omega

example : V .u64 (max .sse2 .u64 (set1 .sse2 .u64 (-1)) (set1 .sse2 .u64 5)) 1 = 2 ^ 64 - 1 ∧
    V .i64 (max .sse2 .i64 (set1 .sse2 .i64 (-1)) (set1 .sse2 .i64 5)) 1 = 5 := by decide +kernel

end Nsimd.Props.X86Ops
