import Verif.Model.Arm
import Verif.Lemmas.ScalarInt
import Mathlib.Tactic.Ring
import Mathlib.Tactic.DefEqTransformations
import Mathlib.Data.Fintype.BigOperators
import Mathlib.Data.Fin.VecNotation

/-!
# C55-C58 on ARM: loop tail masks, all/any/nbtrue, shifts, integer fma

-/

namespace Nsimd.Props.Arm
open Nsimd.Arm
open Nsimd.X86 (Reg)

variable {n w : Nat}

/-! ### Loop tail masks -/

theorem val_cast_small (t : ITy) {x : Int} (h0 : 0 ≤ x) (h1 : x ≤ t.maxv) :
    t.val (t.cast x) = x := by
  unfold ITy.val ITy.cast
  cases t <;> simp only [ITy.sgn, ITy.w, ITy.maxv, if_true, BitVec.toInt_ofInt, BitVec.toNat_ofInt,
    Int.bmod, Bool.false_eq_true, if_false] at * <;> omega

/-- `mask_for_loop_tail(i, N)` of the ARM, x86 and POWER back ends, for a lane type that can hold
the lane numbers: it is undefined exactly when `N - i` overflows an `int`, and lane `k` is true
exactly when `i + k < N`. -/
theorem maskForLoopTail_partial (t : ITy) (n : Nat) (i N : Int) (hn : (n : Int) - 1 ≤ t.maxv) :
    ((maskForLoopTail t n i N).isSome ↔ N - i < 2 ^ 31) ∧
    ∀ p, maskForLoopTail t n i N = some p → ∀ k : Fin n,
      (p k = true ↔ i + (k : Nat) < N) := by
  unfold maskForLoopTail
  by_cases h : i ≥ N
  · rw [if_pos h]
    refine ⟨⟨fun _ => by omega, fun _ => rfl⟩, ?_⟩
    intro p hp k
    rw [← Option.some.inj hp]
    simp only [Bool.false_eq_true, false_iff]
    omega
  · rw [if_neg h]
    have hp : ITy.i32.prom (N - i) = if N - i < 2 ^ 31 then some (N - i) else none := by
      unfold ITy.prom
      rw [if_pos rfl]
      simp only [ITy.promW]
      by_cases h' : N - i < 2 ^ 31
      · rw [if_pos (by omega), if_pos h']
      · rw [if_neg (by omega), if_neg h']
    rw [hp]
    by_cases h' : N - i < 2 ^ 31
    · rw [if_pos h']
      refine ⟨⟨fun _ => h', fun _ => rfl⟩, ?_⟩
      intro p hp k
      rw [← Option.some.inj hp]
      have hk := k.isLt
      beta_reduce
      by_cases hd : N - i < (n : Int)
      · rw [if_pos hd, decide_eq_true_iff, val_cast_small t (by omega) (by omega),
          val_cast_small t (by omega) (by omega)]
        omega
      · rw [if_neg hd]
        simp only [true_iff]
        omega
    · rw [if_neg h']
      refine ⟨⟨(fun h => by cases h), fun h => absurd h h'⟩, ?_⟩
      intro p hp
      cases hp

example : (maskForLoopTail .i8 16 90 100).map (fun p => (List.finRange 16).map p) =
    some [true, true, true, true, true, true, true, true, true, true,
      false, false, false, false, false, false] := by decide

/-- The masks are right for all loop bounds exactly when the lane numbers fit in the lane
type. -/
theorem maskForLoopTail_iff (t : ITy) (n : Nat) :
    (∀ (i N : Int) (p : Fin n → Bool), maskForLoopTail t n i N = some p →
      ∀ k : Fin n, p k = true ↔ i + (k : Nat) < N) ↔ (n : Int) - 1 ≤ t.maxv := by
  constructor
  · intro h
    by_contra hc
    have hm : 0 ≤ t.maxv := by cases t <;> decide
    have hlt : (t.maxv + 1).toNat < n := by omega
    have hs : ∃ p, maskForLoopTail t n 0 1 = some p ∧
        ∀ k : Fin n, p k = decide (t.val (t.cast (k.val : Int)) < t.val (t.cast 1)) := by
      unfold maskForLoopTail
      rw [if_neg (by decide)]
      refine ⟨_, rfl, fun k => ?_⟩
      beta_reduce
      rw [if_pos (by omega)]
      rfl
    obtain ⟨p, hp, hk⟩ := hs
    have := (h 0 1 p hp ⟨_, hlt⟩).1
    rw [hk] at this
    have hv : t.val (t.cast ((t.maxv + 1).toNat : Int)) < t.val (t.cast 1) := by
      cases t <;> decide
    have h2 := this (decide_eq_true hv)
    simp only at h2
    omega
  · intro hn i N p hp
    exact (maskForLoopTail_partial t n i N hn).2 p hp

/-- With 256 lanes of i8 (SVE vectors of 2048 bits) the mask for a tail of one element enables
129 lanes: lane 200 is true although `0 + 200 < 1` is false. -/
theorem maskForLoopTail_i8_counterexample :
    ∃ p, maskForLoopTail .i8 256 0 1 = some p ∧ p 200 = true ∧
      ((List.finRange 256).countP fun k => p k) = 129 := by
  refine ⟨fun k => decide (ITy.i8.val (ITy.i8.cast (k.val : Int)) < ITy.i8.val (ITy.i8.cast 1)),
    ?_, ?_, ?_⟩
  · unfold maskForLoopTail
    rw [if_neg (by decide)]
    congr 1
  · decide
  · decide +kernel

/-- Widths of the vector registers, in bits: 128 for SSE, NEON, VMX, VSX, 256 for AVX, 512 for
AVX-512, and every multiple of 128 up to 2048 for SVE. Specification. -/
def vectorBits (b : Nat) : Prop := b % 128 = 0 ∧ 0 < b ∧ b ≤ 2048

/-- Over all register widths and integer types, the masks are right except for i8 on registers
of more than 1024 bits. -/
theorem maskForLoopTail_widths (t : ITy) (b : Nat) (hb : vectorBits b) :
    (∀ (i N : Int) (p : Fin (b / t.w) → Bool), maskForLoopTail t (b / t.w) i N = some p →
      ∀ k : Fin (b / t.w), p k = true ↔ i + (k : Nat) < N) ↔ ¬ (t = .i8 ∧ 1024 < b) := by
  rw [maskForLoopTail_iff]
  obtain ⟨h1, h2, h3⟩ := hb
  cases t <;> simp only [ITy.w, ITy.maxv, reduceCtorEq, false_and, true_and, not_false_eq_true,
    iff_true] <;> omega

example : vectorBits 2048 ∧ vectorBits 384 := by unfold vectorBits; decide

/-! ### all, any, nbtrue -/

/-- A logical register: every lane is all ones or zero. Specification. -/
def Canonical (r : Reg n w) : Prop := ∀ i, r i = BitVec.allOnes w ∨ r i = 0#w

/-- Number of true lanes. Specification. -/
def count (r : Reg n w) : Nat := (Finset.univ.filter fun i => r i ≠ 0#w).card

/-- `all` on NEON is true exactly when every lane is. -/
theorem allNeon_spec (r : Reg n w) : allNeon r = true ↔ ∀ i, r i ≠ 0#w := by
  simp [allNeon]

/-- `any` on NEON is true exactly when some lane is. -/
theorem anyNeon_spec (r : Reg n w) : anyNeon r = true ↔ ∃ i, r i ≠ 0#w := by
  simp [anyNeon]

example : allNeon (n := 2) (w := 8) ![0xff#8, 0#8] = false ∧
    anyNeon (n := 2) (w := 8) ![0xff#8, 0#8] = true := by decide

theorem foldl_min_ne (l : List (Fin n)) (r : Reg n w) (a : BitVec w) :
    (l.foldl (fun acc i => if (r i).toNat < acc.toNat then r i else acc) a ≠ 0#w) ↔
      a ≠ 0#w ∧ ∀ i ∈ l, r i ≠ 0#w := by
  induction l generalizing a with
  | nil => simp
  | cons j l ih =>
    rw [List.foldl_cons, ih]
    have hz : ∀ x : BitVec w, x ≠ 0#w ↔ 0 < x.toNat := by
      intro x
      rw [Nat.pos_iff_ne_zero, Ne, BitVec.toNat_eq]
      simp
    simp only [hz, List.forall_mem_cons]
    split
    · constructor
      · rintro ⟨h1, h2⟩; exact ⟨by omega, h1, h2⟩
      · rintro ⟨_, h1, h2⟩; exact ⟨h1, h2⟩
    · constructor
      · rintro ⟨h1, h2⟩; exact ⟨h1, by omega, h2⟩
      · rintro ⟨h1, _, h2⟩; exact ⟨h1, h2⟩

theorem foldl_max_ne (l : List (Fin n)) (r : Reg n w) (a : BitVec w) :
    (l.foldl (fun acc i => if acc.toNat < (r i).toNat then r i else acc) a ≠ 0#w) ↔
      a ≠ 0#w ∨ ∃ i ∈ l, r i ≠ 0#w := by
  induction l generalizing a with
  | nil => simp
  | cons j l ih =>
    rw [List.foldl_cons, ih]
    have hz : ∀ x : BitVec w, x ≠ 0#w ↔ 0 < x.toNat := by
      intro x
      rw [Nat.pos_iff_ne_zero, Ne, BitVec.toNat_eq]
      simp
    simp only [hz, List.exists_mem_cons_iff]
    split
    · constructor
      · rintro (h | h)
        · exact Or.inr (Or.inl h)
        · exact Or.inr (Or.inr h)
      · rintro (h | h | h)
        · exact Or.inl (by omega)
        · exact Or.inl h
        · exact Or.inr h
    · constructor
      · rintro (h | h)
        · exact Or.inl h
        · exact Or.inr (Or.inr h)
      · rintro (h | h | h)
        · exact Or.inl h
        · exact Or.inl (by omega)
        · exact Or.inr h

/-- `all` on AArch64, lanes of at most 32 bits. -/
theorem allAarch64_spec (hw : 0 < w) (r : Reg n w) :
    allAarch64 r = true ↔ ∀ i, r i ≠ 0#w := by
  unfold allAarch64 vminv
  rw [bne_iff_ne, foldl_min_ne]
  have : BitVec.allOnes w ≠ 0#w := by
    intro h
    have := congrArg (fun x : BitVec w => x.getLsbD 0) h
    simp [hw] at this
  simp [this]

/-- `any` on AArch64, lanes of at most 32 bits. -/
theorem anyAarch64_spec (r : Reg n w) : anyAarch64 r = true ↔ ∃ i, r i ≠ 0#w := by
  unfold anyAarch64 vmaxv
  rw [bne_iff_ne, foldl_max_ne]
  simp

example : allAarch64 (n := 2) (w := 8) ![0xff#8, 0#8] = false ∧
    anyAarch64 (n := 2) (w := 8) ![0xff#8, 0#8] = true := by decide

theorem halves_eq_zero (x : BitVec 64) :
    x = 0#64 ↔ x.setWidth 32 = 0#32 ∧ (x >>> 32).setWidth 32 = 0#32 := by
  constructor
  · rintro rfl; decide
  · rintro ⟨h1, h2⟩
    have e1 := congrArg BitVec.toNat h1
    have e2 := congrArg BitVec.toNat h2
    simp only [BitVec.toNat_setWidth, BitVec.toNat_ushiftRight, Nat.shiftRight_eq_div_pow,
      BitVec.toNat_ofNat] at e1 e2
    have := x.isLt
    apply BitVec.eq_of_toNat_eq
    simp only [BitVec.toNat_ofNat]
    omega

/-- `all` on AArch64 for canonical logicals of 64-bit lanes. -/
theorem allAarch64_64_spec (r : Reg n 64) (hr : Canonical r) :
    allAarch64_64 r = true ↔ ∀ i, r i ≠ 0#64 := by
  have h := allAarch64_spec (by decide) (reinterpret32 r)
  unfold allAarch64 at h
  unfold allAarch64_64
  rw [h]
  constructor
  · intro h i hi
    refine h ⟨2 * i.val, by omega⟩ ?_
    unfold reinterpret32
    rw [if_pos (show 2 * i.val % 2 = 0 by omega)]
    have : (⟨2 * i.val / 2, by omega⟩ : Fin n) = i := Fin.ext (show 2 * i.val / 2 = i.val by omega)
    rw [this, hi]
    rfl
  · intro h j
    have hj := h ⟨j.val / 2, by omega⟩
    unfold reinterpret32
    rcases hr ⟨j.val / 2, by omega⟩ with hc | hc
    · split <;> rw [hc] <;> decide
    · exact absurd hc hj

/-- `any` on AArch64 for 64-bit lanes. -/
theorem anyAarch64_64_spec (r : Reg n 64) :
    anyAarch64_64 r = true ↔ ∃ i, r i ≠ 0#64 := by
  have h := anyAarch64_spec (reinterpret32 r)
  unfold anyAarch64 at h
  unfold anyAarch64_64
  rw [h]
  constructor
  · rintro ⟨j, hj⟩
    refine ⟨⟨j.val / 2, by omega⟩, fun hc => hj ?_⟩
    unfold reinterpret32
    rw [halves_eq_zero] at hc
    split
    · exact hc.1
    · exact hc.2
  · rintro ⟨i, hi⟩
    rw [Ne, halves_eq_zero, Classical.not_and_iff_not_or_not] at hi
    rcases hi with hi | hi
    · refine ⟨⟨2 * i.val, by omega⟩, ?_⟩
      unfold reinterpret32
      rw [if_pos (show 2 * i.val % 2 = 0 by omega)]
      have : (⟨2 * i.val / 2, by omega⟩ : Fin n) = i :=
        Fin.ext (show 2 * i.val / 2 = i.val by omega)
      rw [this]
      exact hi
    · refine ⟨⟨2 * i.val + 1, by omega⟩, ?_⟩
      unfold reinterpret32
      rw [if_neg (show ¬ (2 * i.val + 1) % 2 = 0 by omega)]
      have : (⟨(2 * i.val + 1) / 2, by omega⟩ : Fin n) = i :=
        Fin.ext (show (2 * i.val + 1) / 2 = i.val by omega)
      rw [this]
      exact hi

/-- `all` on 64-bit lanes of AArch64 needs canonical logicals: a lane `1` makes it false. -/
example : allAarch64_64 (n := 2) (fun _ => 1#64) = false := by decide

example : allAarch64_64 (n := 2) (fun _ => BitVec.allOnes 64) = true := by decide

/-- `all` and `any` on SVE. -/
theorem allSve_anySve_spec (p : Fin n → Bool) :
    (allSve p = true ↔ ∀ i, p i = true) ∧ (anySve p = true ↔ ∃ i, p i = true) := by
  constructor
  · simp [allSve]
  · simp [anySve]

example : allSve (n := 3) ![true, false, true] = false ∧ anySve (n := 3) ![true, false, true] = true := by
  decide

theorem countP_eq_card (p : Fin n → Bool) :
    (List.finRange n).countP p = (Finset.univ.filter fun i => p i = true).card := by
  have h : Finset.univ = (List.finRange n).toFinset := by ext; simp
  rw [List.countP_eq_length_filter, h, ← List.toFinset_filter, List.toFinset_card_of_nodup]
  exact (List.nodup_finRange n).filter _

theorem toInt_canonical (hw : 0 < w) {x : BitVec w} (hx : x = BitVec.allOnes w ∨ x = 0#w) :
    x.toInt = if x ≠ 0#w then -1 else 0 := by
  rcases hx with rfl | rfl
  · rw [BitVec.toInt_allOnes, if_pos hw, if_pos]
    intro h
    have := congrArg (fun x : BitVec w => x.getLsbD 0) h
    simp [hw] at this
  · simp

theorem foldlM_count (t : ITy) (ht : t.sgn = true) (r : Reg n t.w) (hr : Canonical r)
    (l : List (Fin n)) (c : Nat) (hl : c + l.length ≤ 2 ^ 31) :
    l.foldlM (fun acc i => t.prom (acc + (r i).toInt)) (-(c : Int)) =
      some (-((c + l.countP (fun i => decide (r i ≠ 0#t.w)) : Nat) : Int)) := by
  induction l generalizing c with
  | nil => simp
  | cons j l ih =>
    rw [List.length_cons] at hl
    have hw : 0 < t.w := by cases t <;> decide
    have hp : ∀ v : Int, -2 ^ 31 ≤ v → v ≤ 0 → t.prom v = some v := by
      intro v h1 h2
      unfold ITy.prom
      rw [if_pos (by cases t <;> first | rfl | cases ht), if_pos]
      cases t <;> simp only [ITy.promW] <;> omega
    rw [List.foldlM_cons, toInt_canonical hw (hr j), List.countP_cons]
    by_cases h : r j ≠ 0#t.w
    · rw [if_pos h, hp _ (by omega) (by omega)]
      have := ih (c + 1) (by omega)
      rw [show (-(c : Int) + -1) = -((c + 1 : Nat) : Int) by omega]
      refine Eq.trans this ?_
      rw [if_pos (decide_eq_true h)]
      congr 3
      omega
    · rw [if_neg h, hp _ (by omega) (by omega), Int.add_zero, if_neg (by simpa using h)]
      exact ih c (by omega)

theorem cast32_toInt {x : Int} (h : -2 ^ 31 ≤ x) (h' : x < 2 ^ 31) :
    (ITy.i32.cast x).toInt = x := by
  unfold ITy.cast
  rw [BitVec.toInt_ofInt]
  show Int.bmod x (2 ^ 32) = x
  simp only [Int.bmod]
  omega

theorem prom32 {x : Int} (h : -2 ^ 31 ≤ x) (h' : x < 2 ^ 31) : ITy.i32.prom x = some x := by
  unfold ITy.prom
  rw [if_pos rfl, if_pos]
  simp only [ITy.promW]
  omega

theorem count_le (r : Reg n w) : count r ≤ n := by
  have := Finset.card_filter_le (Finset.univ : Finset (Fin n)) (fun i => r i ≠ 0#w)
  rwa [Finset.card_univ, Fintype.card_fin] at this

/-- `nbtrue` on NEON: defined and equal to the number of true lanes. -/
theorem nbtrueNeon_spec (t : ITy) (ht : t.sgn = true) (hn : n < 2 ^ 31) (r : Reg n t.w)
    (hr : Canonical r) : nbtrueNeon t r = some (count r : Int) := by
  unfold nbtrueNeon
  have h := foldlM_count t ht r hr (List.finRange n) 0 (by simp; omega)
  rw [countP_eq_card] at h
  have hc := count_le r
  simp only [decide_eq_true_eq] at h
  rw [show ((Finset.univ.filter fun i => r i ≠ 0#t.w).card) = count r from rfl] at h
  have h0 : (-((0 : Nat) : Int)) = 0 := rfl
  rw [h0, Nat.zero_add] at h
  rw [h]
  show ITy.i32.prom (-(ITy.i32.cast (-(count r : Int))).toInt) = _
  rw [cast32_toInt (by omega) (by omega), prom32 (by omega) (by omega)]
  congr 1
  omega

theorem foldl_vaddv (r : Reg n w) (hw : 0 < w) (hr : Canonical r) (l : List (Fin n)) (c : Nat) :
    l.foldl (fun acc i => acc + r i) (BitVec.ofInt w (-(c : Int))) =
      BitVec.ofInt w (-((c + l.countP (fun i => decide (r i ≠ 0#w)) : Nat) : Int)) := by
  induction l generalizing c with
  | nil => simp
  | cons j l ih =>
    rw [List.foldl_cons, List.countP_cons]
    have e : r j = BitVec.ofInt w (if r j ≠ 0#w then -1 else 0) := by
      rw [← toInt_canonical hw (hr j), BitVec.ofInt_toInt]
    by_cases h : r j ≠ 0#w
    · rw [if_pos h] at e
      rw [if_pos (decide_eq_true h), e, ← BitVec.ofInt_add,
        show (-(c : Int) + -1) = -((c + 1 : Nat) : Int) by omega, ih (c + 1)]
      congr 3
      omega
    · rw [if_neg h] at e
      rw [if_neg (by simpa using h), e, ← BitVec.ofInt_add, Int.add_zero, ih c]
      rfl

theorem vaddv_spec (hw : 0 < w) (r : Reg n w) (hr : Canonical r) :
    vaddv r = BitVec.ofInt w (-(count r : Int)) := by
  unfold vaddv
  have h := foldl_vaddv r hw hr (List.finRange n) 0
  rw [countP_eq_card] at h
  simp only [decide_eq_true_eq, Nat.zero_add] at h
  exact h

/-- `nbtrue` on AArch64 for lanes of at most 32 bits. -/
theorem nbtrueAarch64_spec (hw : w = 8 ∨ w = 16 ∨ w = 32) (hn : n * w = 128) (r : Reg n w)
    (hr : Canonical r) : nbtrueAarch64 r = some (count r : Int) := by
  unfold nbtrueAarch64
  have hc := count_le r
  have hw0 : 0 < w := by omega
  rw [vaddv_spec hw0 r hr, BitVec.toInt_ofInt]
  have : Int.bmod (-(count r : Int)) (2 ^ w) = -(count r : Int) := by
    simp only [Int.bmod]
    rcases hw with rfl | rfl | rfl <;> omega
  rw [this, prom32 (by omega) (by rcases hw with rfl | rfl | rfl <;> omega)]
  congr 1
  omega

theorem reinterpret32_canonical (r : Reg n 64) (hr : Canonical r) :
    Canonical (reinterpret32 r) := by
  intro i
  unfold reinterpret32
  rcases hr ⟨i.val / 2, by omega⟩ with h | h
  · left; split <;> rw [h] <;> decide
  · right; split <;> rw [h] <;> decide

/-- `nbtrue` on AArch64 for 64-bit lanes. -/
theorem nbtrueAarch64_64_spec (r : Reg 2 64) (hr : Canonical r) :
    nbtrueAarch64_64 r = some (count r : Int) := by
  have h : ∀ a b : BitVec 64, (a = BitVec.allOnes 64 ∨ a = 0#64) →
      (b = BitVec.allOnes 64 ∨ b = 0#64) →
      nbtrueAarch64_64 (fun i : Fin 2 => if i = 0 then a else b) =
        some (count (fun i : Fin 2 => if i = 0 then a else b) : Int) := by
    rintro a b (rfl | rfl) (rfl | rfl) <;> decide
  have e : r = fun i : Fin 2 => if i = 0 then r 0 else r 1 := by
    funext i
    have hi := i.isLt
    by_cases h0 : i = 0
    · rw [if_pos h0, h0]
    · rw [if_neg h0, show i = 1 from Fin.ext (by
        have : i.val ≠ 0 := fun h => h0 (Fin.ext h)
        show i.val = 1
        omega)]
  rw [e]
  exact h _ _ (hr 0) (hr 1)

/-- `nbtrue` on SVE. -/
theorem nbtrueSve_spec (hn : n < 2 ^ 31) (p : Fin n → Bool) :
    nbtrueSve p = ((Finset.univ.filter fun i => p i = true).card : Int) := by
  unfold nbtrueSve
  rw [countP_eq_card]
  have := Finset.card_filter_le (Finset.univ : Finset (Fin n)) (fun i => p i = true)
  rw [Finset.card_univ, Fintype.card_fin] at this
  exact cast32_toInt (by omega) (by omega)

/-- The f16 vectors are pairs: `all`, `any` and `nbtrue` are those of the lanes of both halves. -/
theorem f16_pairs {L : Type} (lanes : L → Fin n → Bool) (all any : L → Bool)
    (nb : L → Option Int) (hall : ∀ v, all v = true ↔ ∀ i, lanes v i = true)
    (hany : ∀ v, any v = true ↔ ∃ i, lanes v i = true)
    (hnb : ∀ v, nb v = some ((Finset.univ.filter fun i => lanes v i = true).card : Int))
    (hn : n < 2 ^ 30) (v : L × L) :
    (allF16 all v = true ↔ (∀ i, lanes v.1 i = true) ∧ ∀ i, lanes v.2 i = true) ∧
    (anyF16 any v = true ↔ (∃ i, lanes v.1 i = true) ∨ ∃ i, lanes v.2 i = true) ∧
    nbtrueF16 nb v = some (((Finset.univ.filter fun i => lanes v.1 i = true).card +
      (Finset.univ.filter fun i => lanes v.2 i = true).card : Nat) : Int) := by
  refine ⟨?_, ?_, ?_⟩
  · simp [allF16, hall]
  · simp [anyF16, hany]
  · have h1 := Finset.card_filter_le (Finset.univ : Finset (Fin n)) (fun i => lanes v.1 i = true)
    have h2 := Finset.card_filter_le (Finset.univ : Finset (Fin n)) (fun i => lanes v.2 i = true)
    rw [Finset.card_univ, Fintype.card_fin] at h1 h2
    unfold nbtrueF16
    rw [hnb, hnb]
    rw [Option.bind_some, Option.bind_some, prom32 (by omega) (by omega), Int.natCast_add]

example : nbtrueF16 (fun p : Fin 4 → Bool => some (nbtrueSve p))
    (![true, false, true, true], ![false, false, true, false]) = some 4 := by decide

example : nbtrueNeon .i8 (n := 16) (fun i => if i.val % 3 = 0 then BitVec.allOnes 8 else 0#8) =
    some 6 := by decide
example : nbtrueAarch64 (n := 8) (w := 16)
    (fun i => if i.val % 3 = 0 then BitVec.allOnes 16 else 0#16) = some 3 := by decide

/-! ### Shifts -/

/-- `shl`, `shr`, `shra` of a shift count below the lane width, on NEON and AArch64. -/
theorem shiftsNeon_spec (t : ITy) (x : BitVec t.w) (s : Nat) (hs : s < t.w) :
    shlNeon t x s = x <<< s ∧ shrNeon t x s = x >>> s ∧
    shraNeon t x s = if t.sgn then x.sshiftRight s else x >>> s := by
  have hw : 8 ≤ t.w ∧ t.w ≤ 64 := by cases t <;> decide
  have h1 : ((t.cast (s : Int)).setWidth 8).toInt = s := by
    unfold ITy.cast
    rw [BitVec.toInt_setWidth, BitVec.toNat_ofInt]
    simp only [Int.bmod]
    cases t <;> simp only [ITy.w] at * <;> omega
  have h2 : ((t.cast (-(s : Int))).setWidth 8).toInt = -s := by
    unfold ITy.cast
    rw [BitVec.toInt_setWidth, BitVec.toNat_ofInt]
    simp only [Int.bmod]
    cases t <;> simp only [ITy.w] at * <;> omega
  have hl : shrNeon t x s = x >>> s := by
    unfold shrNeon vshlU
    simp only [h2]
    by_cases h0 : s = 0
    · subst h0; simp
    · rw [if_neg (by omega)]
      simp
  refine ⟨?_, hl, ?_⟩
  · unfold shlNeon vshlU
    simp only [h1]
    rw [if_pos (by omega)]
    simp
  · unfold shraNeon
    split
    · unfold vshlS
      simp only [h2]
      by_cases h0 : s = 0
      · subst h0; simp
      · rw [if_neg (by omega)]
        simp
    · exact hl

/-- `shl`, `shr`, `shra` of a shift count below the lane width, on SVE. -/
theorem shiftsSve_spec (t : ITy) (x : BitVec t.w) (s : Nat) (hs : s < t.w) :
    shlSve t x s = x <<< s ∧ shrSve t x s = x >>> s ∧
    shraSve t x s = if t.sgn then x.sshiftRight s else x >>> s := by
  have h1 : (t.cast (s : Int)).toNat = s := by
    unfold ITy.cast
    rw [BitVec.toNat_ofInt]
    cases t <;> simp only [ITy.w] at * <;> omega
  refine ⟨?_, ?_, ?_⟩
  · unfold shlSve svlsl
    rw [h1, if_pos hs]
  · unfold shrSve svlsr
    rw [h1, if_pos hs]
  · unfold shraSve svasr shrSve svlsr
    rw [h1, if_pos hs, Nat.min_eq_left (by omega)]

example : shraNeon .i8 0x90#8 3 = 0xf2#8 ∧ shraSve .i8 0x90#8 3 = 0xf2#8 := by decide

/-! ### fma -/

/-- The integer fused operators compute `a b + c`, `- a b + c`, `a b - c`, `- a b - c`
modulo `2^w`. -/
theorem fma_spec (a b c : BitVec w) :
    fma a b c = BitVec.ofInt w (a.toInt * b.toInt + c.toInt) ∧
    fnma a b c = BitVec.ofInt w (-(a.toInt * b.toInt) + c.toInt) ∧
    fms a b c = BitVec.ofInt w (a.toInt * b.toInt - c.toInt) ∧
    fnms a b c = BitVec.ofInt w (-(a.toInt * b.toInt) - c.toInt) := by
  have hneg : ∀ x : Int, BitVec.ofInt w (-x) = -BitVec.ofInt w x := fun x => BitVec.ofInt_neg
  simp only [Int.sub_eq_add_neg, BitVec.ofInt_add, BitVec.ofInt_mul, hneg, BitVec.ofInt_toInt]
  unfold fms fnms fnma fma neg
  refine ⟨?_, ?_, ?_, ?_⟩
  · rw [BitVec.mul_comm b a, BitVec.add_comm]
  · rw [BitVec.mul_comm b a, BitVec.sub_eq_add_neg, BitVec.add_comm]
  · rw [BitVec.mul_comm b a, BitVec.neg_sub, BitVec.add_comm]
  · rw [BitVec.mul_comm b a, BitVec.neg_add, BitVec.add_comm, BitVec.sub_eq_add_neg]

example : fma 100#8 3#8 7#8 = 51#8 ∧ fnms 100#8 3#8 7#8 = 205#8 := by decide

/-! ### Conversions between integer widths -/

/-- `upcvt`: the two results hold, in order, the lanes of the argument, each with the same
value; the destination is signed or not, of twice the width. -/
theorem upcvt_spec (s d : ITy) (r : Reg (n * 2) s.w) (k : Fin (n * 2)) :
    (if h : k.val < n then (upcvt s.sgn d.w r).1 ⟨k, h⟩
      else (upcvt s.sgn d.w r).2 ⟨k - n, by omega⟩) = d.cast (s.val (r k)) := by
  have hm : ∀ x : BitVec s.w, (movl s.sgn x : BitVec d.w) = d.cast (s.val x) := by
    intro x
    unfold movl ITy.val ITy.cast
    split
    · rfl
    · apply BitVec.eq_of_toNat_eq
      simp [BitVec.toNat_ofInt, BitVec.toNat_setWidth]
  unfold upcvt
  split
  · exact hm _
  · simp only
    rw [hm]
    congr 3
    apply Fin.ext
    simp only
    omega

example : (upcvt true 16 (n := 2) (fun i => if i.val = 3 then 0x80#8 else 5#8)).2 1 = 0xff80#16 ∧
    (upcvt false 16 (n := 2) (fun i => if i.val = 3 then 0x80#8 else 5#8)).2 1 = 0x80#16 := by
  decide

/-- Except from a signed to an unsigned type, `upcvt` keeps the value of every lane. -/
theorem upcvt_value (s d : ITy) (hd : d.w = 2 * s.w) (hsd : s.sgn = true → d.sgn = true)
    (r : Reg (n * 2) s.w) (k : Fin (n * 2)) :
    d.val (if h : k.val < n then (upcvt s.sgn d.w r).1 ⟨k, h⟩
      else (upcvt s.sgn d.w r).2 ⟨k - n, by omega⟩) = s.val (r k) := by
  rw [upcvt_spec]
  have h1 := ITy.val_lb s (r k)
  have h2 := ITy.val_ub s (r k)
  apply ITy.val_cast
  · cases s <;> cases d <;> simp only [ITy.w, ITy.sgn, ITy.minv, ITy.maxv] at * <;>
      first | omega | simp at hsd
  · cases s <;> cases d <;> simp only [ITy.w, ITy.sgn, ITy.minv, ITy.maxv] at * <;>
      first | omega | simp at hsd

example : ITy.i32.w = 2 * ITy.u16.w ∧ (ITy.u16.sgn = true → ITy.i32.sgn = true) := by decide

theorem setWidth_eq_cast (s d : ITy) (hd : d.w ≤ s.w) (x : BitVec s.w) :
    x.setWidth d.w = d.cast (s.val x) := by
  unfold ITy.val ITy.cast
  apply BitVec.eq_of_toNat_eq
  rw [BitVec.toNat_ofInt, BitVec.toNat_setWidth]
  split
  · rw [BitVec.toInt_eq_toNat_cond]
    cases s <;> cases d <;> simp only [ITy.w] at * <;> omega
  · omega

/-- `downcvt` on NEON and SVE: the lanes of the two arguments, in order, each reduced to the
destination type. -/
theorem downcvt_spec (s d : ITy) (hd : s.w = 2 * d.w) (a b : Reg n s.w) (k : Fin (n * 2)) :
    downcvt d.w a b k =
      d.cast (s.val (if h : k.val < n then a ⟨k, h⟩ else b ⟨k - n, by omega⟩)) := by
  unfold downcvt
  split
  · exact setWidth_eq_cast s d (by omega) _
  · exact setWidth_eq_cast s d (by omega) _

example : downcvt 8 (n := 2) (w := 16) ![0x1234#16, 0xabcd#16] ![0x00ff#16, 0x8001#16] 3 = 0x01#8 := by
  decide

/-- `downcvt` on SVE. -/
theorem downcvtSve_spec (a b : Reg n (w * 2)) : downcvtSve a b = downcvt w a b := by
  have h : ∀ (r : Reg n (w * 2)) (j : Fin n), svreinterpretHalf r ⟨2 * j, by omega⟩ =
      (r j).setWidth w := by
    intro r j
    unfold svreinterpretHalf
    have h1 : (⟨2 * j.val / 2, by omega⟩ : Fin n) = j := Fin.ext (show 2 * j.val / 2 = j.val by omega)
    simp only
    rw [h1, show 2 * j.val % 2 = 0 by omega, Nat.mul_zero, BitVec.ushiftRight_zero]
  funext k
  unfold downcvtSve svuzp1 downcvt
  split
  · rename_i hk
    exact h a ⟨k, hk⟩
  · exact h b ⟨k - n, by omega⟩

example : downcvtSve (n := 2) (w := 8) ![0x1234#16, 0xabcd#16] ![0x00ff#16, 0x8001#16] 1 = 0xcd#8 := by
  decide

end Nsimd.Props.Arm
