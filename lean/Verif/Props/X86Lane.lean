import Verif.Lemmas.X86Lane
import Verif.Lemmas.Cpu
import Verif.Props.ScalarArith
import Verif.Props.ScalarShift

/-!
# Lane insertion, lane extraction and operators emulated through them (C64)

Specification: `lane w r i` is bits `w * i … w * i + w - 1` of the register.
-/

namespace Nsimd.Props.X86Lane
open Nsimd Nsimd.X86

theorem bits_65280 (m : Nat) (h : m < 16) : (65280#32).getLsbD m = decide (8 ≤ m) :=
  (by decide : ∀ m : Fin 16, (65280#32).getLsbD m = decide (8 ≤ m.val)) ⟨m, h⟩
theorem bits_255 (m : Nat) (h : m < 16) : (255#32).getLsbD m = decide (m < 8) :=
  (by decide : ∀ m : Fin 16, (255#32).getLsbD m = decide (m.val < 8)) ⟨m, h⟩
theorem bits_65535 (m : Nat) (h : m < 16) : (65535#32).getLsbD m = true :=
  (by decide : ∀ m : Fin 16, (65535#32).getLsbD m = true) ⟨m, h⟩

theorem setSse2_8_lane (v : BitVec 128) (s : BitVec 8) (i j : Nat) (hi : i < 16) (hj : j < 16) :
    lane 8 (setSse2_8 v s i) j = if j = i then s else lane 8 v j := by
  apply BitVec.eq_of_getLsbD_eq
  intro k hk
  have h65280 := bits_65280 ((8 * j + k) % 16) (by omega)
  have h255 := bits_255 ((8 * j + k) % 16) (by omega)
  rw [getLsbD_lane _ _ _ hk]
  unfold setSse2_8 insertEpi16 extractEpi
  split
  · rename_i h2
    rw [getLsbD_insertEpi _ _ _ _ (by omega)]
    split
    · rename_i hd
      rw [BitVec.getLsbD_setWidth, BitVec.getLsbD_or, BitVec.getLsbD_and, BitVec.getLsbD_setWidth,
        BitVec.getLsbD_setWidth, h65280]
      have hm : (8 * j + k) % 16 < 16 := by omega
      have hm' : (8 * j + k) % 16 < 32 := by omega
      simp only [hm, hm', decide_true, Bool.true_and]
      rw [getLsbD_lane _ _ _ hm]
      by_cases hji : j = i
      · subst hji
        rw [if_pos rfl, show (8 * j + k) % 16 = k by omega]
        simp [show ¬ 8 ≤ k by omega]
      · rw [if_neg hji, getLsbD_lane _ _ _ hk, show 16 * (i / 2) + (8 * j + k) % 16 = 8 * j + k by omega,
          BitVec.getLsbD_of_ge s _ (by omega), show decide (8 ≤ (8 * j + k) % 16) = true by
            simp only [decide_eq_true_eq]; omega]
        simp
    · rename_i hd
      rw [if_neg (by omega), getLsbD_lane _ _ _ hk]
  · rename_i h2
    rw [getLsbD_insertEpi _ _ _ _ (by omega)]
    split
    · rename_i hd
      have hm : (8 * j + k) % 16 < 16 := by omega
      have hm' : (8 * j + k) % 16 < 32 := by omega
      rw [BitVec.getLsbD_setWidth, BitVec.getLsbD_or, BitVec.getLsbD_and, BitVec.getLsbD_setWidth,
        BitVec.getLsbD_shiftLeft, BitVec.getLsbD_setWidth, h255]
      simp only [hm, hm', decide_true, Bool.true_and]
      rw [getLsbD_lane _ _ _ hm]
      by_cases hji : j = i
      · subst hji
        rw [if_pos rfl, show (8 * j + k) % 16 = k + 8 by omega]
        have h8 : ¬ k + 8 < 8 := by omega
        simp [h8, show k < 32 by omega]
      · rw [if_neg hji, getLsbD_lane _ _ _ hk,
          show 16 * (i / 2) + (8 * j + k) % 16 = 8 * j + k by omega]
        have : (8 * j + k) % 16 < 8 := by omega
        simp [this]
    · rename_i hd
      rw [if_neg (by omega), getLsbD_lane _ _ _ hk]

theorem setSse2_16_lane (v : BitVec 128) (s : BitVec 16) (i j : Nat) (hj : j < 8) :
    lane 16 (setSse2_16 v s i) j = if j = i then s else lane 16 v j := by
  unfold setSse2_16 insertEpi16
  rw [setWidth_setWidth_le (by decide), lane_insertEpi _ _ _ _ (by omega)]

theorem setSse2_32_lane (v : BitVec 128) (s : BitVec 32) (i j : Nat) (hj : j < 4) :
    lane 32 (setSse2_32 v s i) j = if j = i then s else lane 32 v j := by
  apply BitVec.eq_of_getLsbD_eq
  intro k hk
  have h65535 := bits_65535 ((32 * j + k) % 16) (by omega)
  have hm : (32 * j + k) % 16 < 16 := by omega
  rw [getLsbD_lane _ _ _ hk]
  unfold setSse2_32 insertEpi16
  rw [getLsbD_insertEpi _ _ _ _ (by omega), getLsbD_insertEpi _ _ _ _ (by omega)]
  by_cases hji : j = i
  · subst hji
    rw [if_pos rfl]
    by_cases hk16 : k < 16
    · rw [if_neg (by omega), if_pos (by omega), BitVec.getLsbD_setWidth, BitVec.getLsbD_and, h65535,
        show (32 * j + k) % 16 = k by omega]
      simp [hk16]
    · rw [if_pos (by omega), BitVec.getLsbD_setWidth, BitVec.getLsbD_sshiftRight,
        show (32 * j + k) % 16 = k - 16 by omega]
      simp [show k - 16 < 16 by omega, show 16 + (k - 16) = k by omega, hk,
        show ¬ 32 ≤ k - 16 by omega]
  · rw [if_neg hji, if_neg (by omega), if_neg (by omega), getLsbD_lane _ _ _ hk]

theorem setSse2_64_lane (v : BitVec 128) (s : BitVec 64) (i j : Nat) (hi : i < 2) (hj : j < 2) :
    lane 64 (setSse2_64 v s i) j = if j = i then s else lane 64 v j := by
  have hlo : lane 64 (s.setWidth 128) 0 = s := by
    apply BitVec.eq_of_getLsbD_eq
    intro k hk
    rw [getLsbD_lane _ _ _ hk, BitVec.getLsbD_setWidth]
    simp [show k < 128 by omega]
  have hhi : lane 64 (s.setWidth 128 <<< 64) 1 = s := by
    apply BitVec.eq_of_getLsbD_eq
    intro k hk
    rw [getLsbD_lane _ _ _ hk, BitVec.getLsbD_shiftLeft, BitVec.getLsbD_setWidth]
    simp [show 64 + k < 128 by omega, show k < 128 by omega]
  have hid : ∀ x : BitVec 64, lane 64 x 0 = x := by
    intro x
    apply BitVec.eq_of_getLsbD_eq
    intro k hk
    rw [getLsbD_lane _ _ _ hk]; simp
  unfold setSse2_64 unpackhi64 unpacklo64
  have h0 := fun a b : BitVec 64 => lane_append (w := 64) a b 1 0 rfl
  have h1 := fun a b : BitVec 64 => lane_append (w := 64) a b 1 1 rfl
  rcases (by omega : i = 0 ∨ i = 1) with rfl | rfl <;>
    rcases (by omega : j = 0 ∨ j = 1) with rfl | rfl <;>
    simp_all

theorem setAvx512_lane {N w : Nat} (h : Nat) (hh : w * h = N) (hw : 0 < w) (v : BitVec (N + N)) (s : BitVec w)
    (i j : Nat) (hi : i < h + h) (hj : j < h + h) :
    lane w (setAvx512 v s i) j = if j = i then s else lane w v j := by
  have hhalf : (N + N) / 2 / w = h := by
    rw [show (N + N) / 2 = N by omega, ← hh, Nat.mul_div_cancel_left _ hw]
  have hb : ∀ {a}, a < h → w * (a + 1) ≤ N := fun {a} ha => by
    rw [← hh]; exact Nat.mul_le_mul_left _ ha
  unfold setAvx512 insertHalf
  simp only [hhalf]
  split
  · rename_i hc
    rw [if_pos trivial, lane_append _ _ h _ hh]
    split
    · rename_i hjh
      rw [lane_insertEpi _ _ _ _ (hb hjh)]
      split
      · rfl
      · rw [lane_lo _ _ (hb hjh)]
    · rename_i hjh
      rw [if_neg (by omega), lane_hi _ h _ hh (hb (by omega)), show h + (j - h) = j by omega]
  · rename_i hc
    rw [if_neg (by decide), lane_append _ _ h _ hh]
    split
    · rename_i hjh
      rw [if_neg (by omega), lane_lo _ _ (hb hjh)]
    · rename_i hjh
      rw [lane_insertEpi _ _ _ _ (hb (by omega))]
      by_cases hji : j = i
      · subst hji; rw [if_pos rfl, if_pos rfl]
      · rw [if_neg hji, if_neg (by omega), lane_hi _ h _ hh (hb (by omega)),
          show h + (j - h) = j by omega]

/-- `set_lane` replaces lane `i` by the scalar and keeps every other lane, on every extension and
for every lane width. -/
theorem setLane_spec (x : Ext) (t : ITy) (v : BitVec x.bits) (s : BitVec t.w) (i j : Nat)
    (hi : i < x.le t) (hj : j < x.le t) :
    lane t.w (setLane x t v s i) j = if j = i then s else lane t.w v j := by
  have hb : t.w * (j + 1) ≤ x.bits := by
    rw [Nat.mul_comm]; exact Nat.mul_le_of_le_div _ _ _ hj
  cases x with
  | sse2 =>
    cases t <;> simp only [Ext.le, Ext.bits] at hi hj
    · exact setSse2_8_lane v s i j (by omega) (by omega)
    · exact setSse2_16_lane v s i j (by omega)
    · exact setSse2_32_lane v s i j (by omega)
    · exact setSse2_64_lane v s i j (by omega) (by omega)
    · exact setSse2_8_lane v s i j (by omega) (by omega)
    · exact setSse2_16_lane v s i j (by omega)
    · exact setSse2_32_lane v s i j (by omega)
    · exact setSse2_64_lane v s i j (by omega) (by omega)
  | sse42 => cases t <;> exact lane_insertEpi v s i j hb
  | avx => cases t <;> exact lane_insertEpi v s i j hb
  | avx2 => cases t <;> exact lane_insertEpi v s i j hb
  | avx512 =>
    cases t <;> simp only [Ext.le, Ext.bits] at hi hj
    · exact setAvx512_lane (N := 256) (w := 8) 32 rfl (by decide) v s i j (by omega) (by omega)
    · exact setAvx512_lane (N := 256) (w := 16) 16 rfl (by decide) v s i j (by omega) (by omega)
    · exact setAvx512_lane (N := 256) (w := 32) 8 rfl (by decide) v s i j (by omega) (by omega)
    · exact setAvx512_lane (N := 256) (w := 64) 4 rfl (by decide) v s i j (by omega) (by omega)
    · exact setAvx512_lane (N := 256) (w := 8) 32 rfl (by decide) v s i j (by omega) (by omega)
    · exact setAvx512_lane (N := 256) (w := 16) 16 rfl (by decide) v s i j (by omega) (by omega)
    · exact setAvx512_lane (N := 256) (w := 32) 8 rfl (by decide) v s i j (by omega) (by omega)
    · exact setAvx512_lane (N := 256) (w := 64) 4 rfl (by decide) v s i j (by omega) (by omega)

theorem getSse2_8_lane (v : BitVec 128) (i : Nat) : getSse2_8 v i = lane 8 v i := by
  apply BitVec.eq_of_getLsbD_eq
  intro k hk
  have h255 := bits_255 (k) (by omega)
  rw [getLsbD_lane _ _ _ hk]
  unfold getSse2_8
  rw [BitVec.getLsbD_setWidth, BitVec.getLsbD_and, BitVec.getLsbD_setWidth, BitVec.getLsbD_ushiftRight, h255]
  simp [hk, show k < 32 by omega]

theorem getSse2_32_64_lane {w : Nat} (hw : 8 ∣ w) (v : BitVec 128) (i : Nat) :
    getSse2_32_64 w v i = lane w v i := by
  apply BitVec.eq_of_getLsbD_eq
  intro k hk
  rw [getLsbD_lane _ _ _ hk]
  unfold getSse2_32_64
  rw [BitVec.getLsbD_setWidth, BitVec.getLsbD_ushiftRight]
  rw [Nat.mul_div_cancel' (Nat.dvd_mul_left_of_dvd hw i), Nat.mul_comm i w]
  simp [hk]

theorem small_lane {N w : Nat} (hw : w ≤ 32) (v : BitVec N) (i : Nat) :
    (extractEpi w v i).setWidth w = lane w v i := setWidth_setWidth_le hw _

theorem getHalf_lane {N w : Nat} (h : Nat) (hh : w * h = N) (hw : 0 < w) (v : BitVec (N + N)) (i : Nat)
    (hi : i < h + h) : getHalf w v i = lane w v i := by
  have hhalf : (N + N) / 2 / w = h := by
    rw [show (N + N) / 2 = N by omega, ← hh, Nat.mul_div_cancel_left _ hw]
  have hb : ∀ {a}, a < h → w * (a + 1) ≤ N := fun {a} ha => by
    rw [← hh]; exact Nat.mul_le_mul_left _ ha
  unfold getHalf
  simp only [hhalf]
  split
  · rename_i hc; rw [lane_lo _ _ (hb hc)]
  · rw [lane_hi _ h _ hh (hb (by omega)), show h + (i - h) = i by omega]

theorem getHalfSmall_lane {N w : Nat} (h : Nat) (hh : w * h = N) (hw : 0 < w) (hw' : w ≤ 32)
    (v : BitVec (N + N)) (i : Nat) (hi : i < h + h) : getHalfSmall w v i = lane w v i := by
  rw [← getHalf_lane h hh hw v i hi]
  unfold getHalfSmall getHalf
  simp only [small_lane hw']

/-- `get_lane` returns lane `i`, on every extension and for every lane width. -/
theorem getLane_spec (x : Ext) (t : ITy) (v : BitVec x.bits) (i : Nat) (hi : i < x.le t) :
    getLane x t v i = lane t.w v i := by
  cases x <;> cases t <;> simp only [Ext.le, Ext.bits] at hi <;>
    first
    | exact getSse2_8_lane v i
    | exact small_lane (w := 16) (by decide) v i
    | exact small_lane (w := 8) (by decide) v i
    | exact getSse2_32_64_lane (by decide) v i
    | rfl
    | exact getHalfSmall_lane (N := 128) (w := 8) 16 rfl (by decide) (by decide) v i (by omega)
    | exact getHalfSmall_lane (N := 128) (w := 16) 8 rfl (by decide) (by decide) v i (by omega)
    | exact getHalfSmall_lane (N := 256) (w := 8) 32 rfl (by decide) (by decide) v i (by omega)
    | exact getHalfSmall_lane (N := 256) (w := 16) 16 rfl (by decide) (by decide) v i (by omega)
    | exact getHalf_lane (N := 256) (w := 32) 8 rfl (by decide) v i (by omega)
    | exact getHalf_lane (N := 256) (w := 64) 4 rfl (by decide) v i (by omega)

/-- Loops of `set_lane`: the lanes done so far hold their scalar, the others are unchanged. -/
theorem fill_spec (x : Ext) (t : ITy) (g : Nat → Option (BitVec t.w)) (k : Nat) (hk : k ≤ x.le t)
    (u r : BitVec x.bits) :
    (List.range k).foldlM (fun ret i => (g i).map fun s => setLane x t ret s i) u = some r ↔
      (∀ i, i < k → g i = some (lane t.w r i)) ∧
      ∀ i, k ≤ i → i < x.le t → lane t.w r i = lane t.w u i := by
  have hbits : t.w * x.le t = x.bits := by cases x <;> cases t <;> rfl
  induction k generalizing r with
  | zero =>
    simp only [List.range_zero, List.foldlM_nil, Nat.not_lt_zero, false_imp_iff, implies_true,
      true_and, Nat.zero_le, true_imp_iff]
    constructor
    · intro h i _; rw [← Option.some.inj h]
    · intro h
      exact congrArg some (ext_lanes _ hbits fun i hi => (h i hi).symm)
  | succ k ih =>
    rw [List.range_succ, List.foldlM_append]
    simp only [List.foldlM_cons, List.foldlM_nil, Option.bind_eq_bind, Option.pure_def]
    rw [Option.bind_eq_some_iff]
    constructor
    · rintro ⟨r', hr', hs⟩
      replace hr' := (ih (by omega) r').mp hr'
      obtain ⟨s, hs, heq⟩ := Option.bind_eq_some_iff.mp hs
      obtain ⟨y, hy, rfl⟩ := Option.map_eq_some_iff.mp hs
      cases heq
      have hset := fun j hj => setLane_spec x t r' y k j (by omega) hj
      refine ⟨?_, ?_⟩
      · intro i hi
        rw [hset i (by omega)]
        split
        · rename_i h; rw [h, hy]
        · exact hr'.1 i (by omega)
      · intro i hi hil
        rw [hset i hil, if_neg (by omega)]
        exact hr'.2 i (by omega) hil
    · rintro ⟨h1, h2⟩
      refine ⟨setLane x t r (lane t.w u k) k, ?_, ?_⟩
      · refine (ih (by omega) _).mpr ⟨?_, ?_⟩
        · intro i hi
          rw [setLane_spec x t r _ k i (by omega) (by omega), if_neg (by omega)]
          exact h1 i (by omega)
        · intro i hi hil
          rw [setLane_spec x t r _ k i (by omega) hil]
          split
          · rename_i h; rw [h]
          · exact h2 i (by omega) hil
      · rw [h1 k (by omega), Option.map_some, Option.bind_some]
        congr 1
        refine ext_lanes _ hbits fun i hi => ?_
        rw [setLane_spec x t _ _ k i (by omega) hi]
        split
        · rename_i h; rw [h]
        · rename_i h; rw [setLane_spec x t _ _ k i (by omega) hi, if_neg h]

/-- An operator emulated through lane extraction and insertion is defined exactly when the scalar
operator is defined on every lane, and then lane `i` is the scalar operator on the lanes `i` of
the arguments; the undefined initial register does not matter. -/
theorem emulTrick_spec (x : Ext) (t : ITy) (undef : BitVec x.bits)
    (f : List (BitVec t.w) → Option (BitVec t.w)) (args : List (BitVec x.bits))
    (r : BitVec x.bits) :
    emulTrick x t undef f args = some r ↔
      ∀ i, i < x.le t → f (args.map fun a => lane t.w a i) = some (lane t.w r i) := by
  unfold emulTrick
  rw [fill_spec x t (fun i => f (args.map fun a => getLane x t a i)) _ (Nat.le_refl _)]
  constructor
  · rintro ⟨h, -⟩ i hi
    rw [← h i hi]
    simp only [getLane_spec x t _ i hi]
  · intro h
    refine ⟨fun i hi => ?_, fun i h1 h2 => by omega⟩
    rw [← h i hi]
    simp only [getLane_spec x t _ i hi]

theorem fold_isSome {α β : Type} (g : Nat → Option β) (h : α → β → Nat → α) (k : Nat) (u : α) :
    ((List.range k).foldlM (fun r i => (g i).map fun s => h r s i) u).isSome ↔
      ∀ i, i < k → (g i).isSome := by
  induction k with
  | zero => simp
  | succ k ih =>
    rw [List.range_succ, List.foldlM_append]
    simp only [List.foldlM_cons, List.foldlM_nil, Option.bind_eq_bind, Option.pure_def]
    constructor
    · intro hs
      cases hf : (List.range k).foldlM (fun r i => (g i).map fun s => h r s i) u with
      | none => rw [hf] at hs; cases hs
      | some r =>
        have := ih.mp (by rw [hf]; rfl)
        intro i hi
        rcases Nat.lt_succ_iff_lt_or_eq.mp hi with hi | rfl
        · exact this i hi
        · rw [hf] at hs
          cases hg : g i with
          | none => rw [hg] at hs; cases hs
          | some y => rfl
    · intro hs
      obtain ⟨r, hr⟩ := Option.isSome_iff_exists.mp (ih.mpr fun i hi => hs i (by omega))
      obtain ⟨y, hy⟩ := Option.isSome_iff_exists.mp (hs k (by omega))
      rw [hr, Option.bind_some, hy]; rfl

/-- When an emulated operator is defined. -/
theorem emulTrick_isSome (x : Ext) (t : ITy) (undef : BitVec x.bits)
    (f : List (BitVec t.w) → Option (BitVec t.w)) (args : List (BitVec x.bits)) :
    (emulTrick x t undef f args).isSome ↔
      ∀ i, i < x.le t → (f (args.map fun a => lane t.w a i)).isSome := by
  unfold emulTrick
  rw [fold_isSome]
  refine forall_congr' fun i => forall_congr' fun hi => ?_
  simp only [getLane_spec x t _ i hi]

/-- A scalar operator of two arguments on each lane; `some` only when every lane is defined. -/
theorem emul2 (x : Ext) (t : ITy) (undef a b : BitVec x.bits)
    (g : BitVec t.w → BitVec t.w → Option (BitVec t.w)) :
    ((emulTrick x t undef (call2 g) [a, b]).isSome ↔
      ∀ i, i < x.le t → (g (lane t.w a i) (lane t.w b i)).isSome) ∧
    ∀ r, emulTrick x t undef (call2 g) [a, b] = some r →
      ∀ i, i < x.le t → g (lane t.w a i) (lane t.w b i) = some (lane t.w r i) := by
  refine ⟨?_, ?_⟩
  · rw [emulTrick_isSome]
    exact Iff.rfl
  · intro r hr i hi
    exact ((emulTrick_spec x t undef _ _ r).mp hr) i hi

/-- Integer division on x86, every extension and type: defined exactly when no divisor is zero and
no `i32`/`i64` quotient overflows, and then lane `i` is the quotient of the lanes `i`, truncated
toward zero and reduced to the type. -/
theorem div_spec (x : Ext) (t : ITy) (undef a b : BitVec x.bits) :
    ((divEmul x t undef a b).isSome ↔ ∀ i, i < x.le t →
      t.val (lane t.w b i) ≠ 0 ∧ ((t = .i32 ∨ t = .i64) →
        Int.tdiv (t.val (lane t.w a i)) (t.val (lane t.w b i)) ≤ t.maxv)) ∧
    ∀ r, divEmul x t undef a b = some r → ∀ i, i < x.le t →
      lane t.w r i = t.cast (Int.tdiv (t.val (lane t.w a i)) (t.val (lane t.w b i))) := by
  have hd : ∀ u v : BitVec t.w, (Scalar.div t u v).isSome ↔ (t.val v ≠ 0 ∧
      ((t = .i32 ∨ t = .i64) → Int.tdiv (t.val u) (t.val v) ≤ t.maxv)) := by
    intro u v
    by_cases hv : t.val v = 0
    · simp [(div_wraps_or_ub t u v).1 hv, hv]
    · have hw := (div_wraps_or_ub t u v).2 hv
      unfold WrapsOrUB at hw
      have hlb : (t = .i32 ∨ t = .i64) → t.minv ≤ Int.tdiv (t.val u) (t.val v) := by
        have h1 := ITy.val_lb t u; have h2 := ITy.val_ub t u
        have hn : (Int.tdiv (t.val u) (t.val v)).natAbs ≤ (t.val u).natAbs := by
          rw [Int.natAbs_tdiv]; exact Nat.div_le_self _ _
        generalize Int.tdiv (t.val u) (t.val v) = q at *
        rintro (rfl | rfl) <;> simp only [ITy.minv, ITy.maxv] at * <;> omega
      by_cases ht : t = .i32 ∨ t = .i64
      · rw [if_pos ht] at hw
        by_cases hm : Int.tdiv (t.val u) (t.val v) ≤ t.maxv
        · rw [if_pos ⟨hlb ht, hm⟩] at hw
          obtain ⟨r, hr, -⟩ := hw
          simp [hr, hv, hm]
        · rw [if_neg (fun h => hm h.2)] at hw
          simp only [hw, Option.isSome_none, Bool.false_eq_true, false_iff, not_and]
          exact fun _ h => hm (h ht)
      · rw [if_neg ht] at hw
        obtain ⟨r, hr, -⟩ := hw
        simp only [hr, Option.isSome_some, true_iff]
        exact ⟨hv, fun h => absurd h ht⟩
  have he := emul2 x t undef a b (Scalar.div t)
  unfold divEmul
  refine ⟨?_, ?_⟩
  · rw [he.1]
    exact forall_congr' fun i => forall_congr' fun _ => hd _ _
  · intro r hr i hi
    have := he.2 r hr i hi
    unfold Scalar.div at this
    split at this
    · cases this
    · simp only [Option.bind_eq_bind, Option.bind_eq_some_iff, Option.pure_def, Option.some.injEq] at this
      obtain ⟨p, hp, hc⟩ := this
      rw [← hc, ITy.prom_cast hp]

/-- Emulated integer multiplication on x86 (64-bit lanes on SSE, AVX and KNL, 32-bit lanes on
SSE2): defined exactly when no signed product overflows, and then lane `i` is the product of the
lanes `i` modulo `2^w`. -/
theorem mul_spec (x : Ext) (t : ITy) (ht : t = .i32 ∨ t = .u32 ∨ t = .i64 ∨ t = .u64)
    (undef a b : BitVec x.bits) :
    ((mulEmul x t undef a b).isSome ↔ ∀ i, i < x.le t → t.sgn = true →
      t.minv ≤ t.val (lane t.w a i) * t.val (lane t.w b i) ∧
      t.val (lane t.w a i) * t.val (lane t.w b i) ≤ t.maxv) ∧
    ∀ r, mulEmul x t undef a b = some r → ∀ i, i < x.le t →
      lane t.w r i = t.cast (t.val (lane t.w a i) * t.val (lane t.w b i)) := by
  have hd : ∀ u v : BitVec t.w, (Scalar.mul t u v).isSome ↔
      (t.sgn = true → t.minv ≤ t.val u * t.val v ∧ t.val u * t.val v ≤ t.maxv) := by
    intro u v
    have hw := mul_wraps_or_ub t (by rintro rfl; simp at ht) u v
    unfold WrapsOrUB at hw
    rcases ht with rfl | rfl | rfl | rfl
    · rw [if_pos (Or.inl rfl)] at hw
      split at hw
      · rename_i h; obtain ⟨r, hr, -⟩ := hw; rw [hr]; exact ⟨fun _ _ => h, fun _ => rfl⟩
      · rename_i h; rw [hw]; exact ⟨fun h' => (by cases h'), fun h' => absurd (h' rfl) h⟩
    · rw [if_neg (by decide)] at hw
      obtain ⟨r, hr, -⟩ := hw; rw [hr]; simp
    · rw [if_pos (Or.inr rfl)] at hw
      split at hw
      · rename_i h; obtain ⟨r, hr, -⟩ := hw; rw [hr]; exact ⟨fun _ _ => h, fun _ => rfl⟩
      · rename_i h; rw [hw]; exact ⟨fun h' => (by cases h'), fun h' => absurd (h' rfl) h⟩
    · rw [if_neg (by decide)] at hw
      obtain ⟨r, hr, -⟩ := hw; rw [hr]; simp
  have he := emul2 x t undef a b (Scalar.mul t)
  unfold mulEmul
  refine ⟨?_, ?_⟩
  · rw [he.1]
    exact forall_congr' fun i => forall_congr' fun _ => hd _ _
  · intro r hr i hi
    have := he.2 r hr i hi
    unfold Scalar.mul at this
    simp only [Option.bind_eq_bind, Option.bind_eq_some_iff, Option.pure_def, Option.some.injEq] at this
    obtain ⟨p, hp, hc⟩ := this
    rw [← hc, ITy.prom_cast hp]

/-- Emulated arithmetic shift on x86: for a count below the width, lane `i` is the floor of the
lane divided by `2^s`. -/
theorem shra_spec (x : Ext) (t : ITy) (undef a : BitVec x.bits) (s : Nat) (hs : s < t.w) :
    ∃ r, shraEmul x t undef a s = some r ∧ ∀ i, i < x.le t →
      t.val (lane t.w r i) = t.val (lane t.w a i) / 2 ^ s := by
  have hS : (shraEmul x t undef a s).isSome := by
    unfold shraEmul
    rw [emulTrick_isSome]
    intro i _
    obtain ⟨r, hr, -⟩ := shra_floor_div t (lane t.w a i) s hs
    show (Scalar.shra t (lane t.w a i) s).isSome
    rw [hr]; rfl
  obtain ⟨r, hr⟩ := Option.isSome_iff_exists.mp hS
  refine ⟨r, hr, fun i hi => ?_⟩
  unfold shraEmul at hr
  have := ((emulTrick_spec x t undef _ _ r).mp hr) i hi
  obtain ⟨q, hq, hv⟩ := shra_floor_div t (lane t.w a i) s hs
  have h2 : Scalar.shra t (lane t.w a i) s = some (lane t.w r i) := this
  rw [hq] at h2
  rw [← Option.some.inj h2, hv]

/-- The 32-bit variant of the emulation: with aligned arrays, the same lanes. -/
theorem emulBuf_partial (x : Ext) (t : ITy) (addrs : List Nat) (undef : BitVec x.bits)
    (f : List (BitVec t.w) → Option (BitVec t.w)) (args : List (BitVec x.bits))
    (ha : ∀ a ∈ addrs, a % (x.bits / 8) = 0) :
    emulBuf x t addrs f args = (emulTrick x t undef f args).map fun r (i : Fin (x.le t)) => lane t.w r i := by
  unfold emulBuf
  rw [if_pos ha]
  cases he : emulTrick x t undef f args with
  | some r =>
    rw [Option.map_some, Cpu.body_eq_some]
    intro i
    exact (emulTrick_spec x t undef f args r).mp he i i.2
  | none =>
    rw [Option.map_none, ← Option.not_isSome_iff_eq_none, Cpu.body_isSome]
    intro h
    have := (emulTrick_isSome x t undef f args).mpr fun i hi => h ⟨i, hi⟩
    rw [he] at this; cases this

/-- The claim fails in 32-bit builds when the compiler places a buffer at an address that is not a
multiple of the register size: the aligned store is undefined, whatever the operator. -/
theorem emulBuf_counterexample (f : List (BitVec 64) → Option (BitVec 64)) (a b : BitVec 128) :
    emulBuf .sse2 .i64 [0x1008, 0x1020] f [a, b] = none := by
  unfold emulBuf
  rw [if_neg (by simp [Ext.bits])]

example : ∀ a ∈ [0x1000, 0x1020], a % (Ext.sse2.bits / 8) = 0 := by decide

example : lane 8 (setLane .sse2 .i8 0#128 0xab#8 5) 5 = 0xab#8 ∧
    getLane .sse2 .u32 (0x11223344_55667788_99aabbcc_ddeeff00#128) 2 = 0x55667788#32 ∧
    getLane .avx512 .i8 (0x7f#512 <<< 496) 62 = 0x7f#8 := by decide +kernel

example : divEmul .sse42 .i32 0xdead#128 (0xfffffff9_00000064_00000000_00000007#128)
    (0x00000002_0000000a_00000005_fffffffe#128) =
    some (0xfffffffd_0000000a_00000000_fffffffd#128) := by decide +kernel
example : mulEmul .sse2 .u64 0#128 (0x0000000000000003_8000000000000001#128)
    (0x0000000000000005_0000000000000003#128) =
    some (0x000000000000000f_8000000000000003#128) := by decide +kernel
example : mulEmul .sse2 .i64 0#128 (0x0000000000000003_8000000000000001#128)
    (0x0000000000000005_0000000000000003#128) = none := by decide +kernel
example : shraEmul .sse2 .i64 0#128 (0x8000000000000000_0000000000000100#128) 4 =
    some (0xf800000000000000_0000000000000010#128) := by decide +kernel

end Nsimd.Props.X86Lane
