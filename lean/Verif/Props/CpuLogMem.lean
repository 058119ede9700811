import Verif.Props.CpuLogical
import Mathlib.Data.Fin.VecNotation

/-!
# C69: logical vectors in memory on the CPU backend
-/

namespace Nsimd.Props.CpuLogMem
open Nsimd Nsimd.Cpu Nsimd.Fp16 Nsimd.Props.Cpu

variable {n : Nat} {M α : Type}

/-- The memory formats of `storel` and `loadl`: the bits of an element, the bits of the numbers 1 and 0, and
which bits are a zero (of either sign for floats). Specification, not code of the repo. -/
structure Format (w : Nat) where
  one : BitVec w
  isZero : BitVec w → Prop

/-- Integers. Specification, not code of the repo. -/
def intFormat (w : Nat) : Format w := ⟨BitVec.ofNat w 1, fun x => x.toNat = 0⟩

/-- IEEE binary formats with `m` stored significand bits and a bias: the exponent of 1 is the bias.
Specification, not code of the repo. -/
def ieeeFormat (w m bias : Nat) : Format w :=
  ⟨BitVec.ofNat w (bias * 2 ^ m), fun x => x.toNat % 2 ^ (w - 1) = 0⟩

/-- `storel`: defined exactly if the `n` elements are mapped; true lanes write a 1, false lanes a 0, and the
rest of the memory is unchanged. Specification, not code of the repo. -/
def StoresAs {w : Nat} (f : Format w) (e : Elem (BitVec w) α) : Prop :=
  ∀ (n : Nat) (m : Mem (BitVec w)) (p : Int) (l : LVec n) (P : Fin n → Prop), Rep l P →
    ((storel e m p l).isSome ↔ ∀ i : Fin n, (m (p + (i : Nat))).isSome) ∧
    ∀ m', storel e m p l = some m' →
      (∀ i : Fin n, (P i → m' (p + (i : Nat)) = some f.one) ∧ (¬ P i → m' (p + (i : Nat)) = some 0)) ∧
      ∀ a, ¬ (p ≤ a ∧ a < p + n) → m' a = m a

/-- `loadl`: defined exactly if the `n` elements are mapped; a lane is true unless its element is a zero.
Specification, not code of the repo. -/
def LoadsAs {w : Nat} (f : Format w) (e : Elem (BitVec w) α) : Prop :=
  ∀ (n : Nat) (m : Mem (BitVec w)) (p : Int),
    ((loadl e n m p).isSome ↔ ∀ i : Fin n, (m (p + (i : Nat))).isSome) ∧
    ∀ l, loadl e n m p = some l →
      Rep l fun i => ∀ x, m (p + (i : Nat)) = some x → ¬ f.isZero x

theorem storesAs {w : Nat} (f : Format w) (e : Elem (BitVec w) α) (h1 : e.enc e.one = f.one)
    (h0 : e.enc e.zero = 0) : StoresAs f e := by
  intro n m p l P hl
  constructor
  · unfold storel
    rw [stores_isSome]
    constructor
    · intro h i
      exact h i (List.mem_finRange _) _ _ rfl
    · intro h i _ a u hu
      cases hu
      exact h i
  · intro m' hm
    have hs : store e m p (fun i => if l i = 0#32 then e.zero else e.one) = some m' := hm
    have hw := store_writes e m m' p _ hs
    refine ⟨fun i => ⟨fun hp => ?_, fun hp => ?_⟩, hw.2⟩
    · rw [hw.1 i, if_neg ((Rep.ne_zero hl i).mpr hp), h1]
    · rw [hw.1 i, if_pos ((hl i).2 hp), h0]

theorem loadsAs {w : Nat} (f : Format w) (e : Elem (BitVec w) α)
    (h : ∀ x, ∃ y, e.dec x = some y ∧ (e.isZero y = true ↔ f.isZero x)) : LoadsAs f e := by
  intro n m p
  constructor
  · unfold loadl
    rw [body_isSome]
    refine forall_congr' fun i => ?_
    cases hx : m (p + (i : Nat)) with
    | none => simp
    | some x =>
      obtain ⟨y, hy, -⟩ := h x
      simp [hy]
  · intro l hl i
    unfold loadl at hl
    have hi := body_eq_some.mp hl i
    cases hx : m (p + (i : Nat)) with
    | none => rw [hx] at hi; cases hi
    | some x =>
      obtain ⟨y, hy, hz⟩ := h x
      rw [hx, Option.bind_some, hy, Option.map_some, Option.some_inj] at hi
      rw [← hi]
      constructor
      · intro hp
        rw [if_neg (fun c => hp x hx (hz.mp c))]
        rfl
      · intro hp
        have : f.isZero x := by
          by_contra c
          exact hp fun x' hx' => by rw [hx] at hx'; cases hx'; exact c
        rw [if_pos (hz.mpr this)]
        rfl

/-- C69 for the integer types. -/
theorem int_spec (t : ITy) : StoresAs (intFormat t.w) (intElem t) ∧ LoadsAs (intFormat t.w) (intElem t) := by
  refine ⟨storesAs _ _ ?_ ?_, loadsAs _ _ fun x => ⟨x, rfl, ?_⟩⟩
  · cases t <;> rfl
  · cases t <;> rfl
  · have hx := x.isLt
    show decide (t.val x = 0) = true ↔ x.toNat = 0
    rw [decide_eq_true_iff]
    unfold ITy.val
    split
    · rw [BitVec.toInt_eq_toNat_cond]
      split <;> omega
    · omega

theorem and_low31 (y : BitVec 32) : (y &&& 0x7fffffff#32 = 0#32) ↔ y.toNat % 2 ^ 31 = 0 := by
  have := and_mask y.toNat 31
  rw [← BitVec.toNat_inj, BitVec.toNat_and]
  simp only [BitVec.toNat_ofNat, Nat.reducePow, Nat.reduceMod, Nat.reduceSub] at *
  omega

theorem and_low63 (y : BitVec 64) : (y &&& 0x7fffffffffffffff#64 = 0#64) ↔ y.toNat % 2 ^ 63 = 0 := by
  have := and_mask y.toNat 63
  rw [← BitVec.toNat_inj, BitVec.toNat_and]
  simp only [BitVec.toNat_ofNat, Nat.reducePow, Nat.reduceMod, Nat.reduceSub] at *
  omega

/-- C69 for f16: binary16 in memory. -/
theorem f16_spec : StoresAs (ieeeFormat 16 10 15) f16Elem ∧ LoadsAs (ieeeFormat 16 10 15) f16Elem := by
  refine ⟨storesAs _ _ (by decide +kernel) (by decide +kernel), loadsAs _ _ fun x => ?_⟩
  obtain ⟨r, u, hr, hn, hu, hfin, hinf⟩ := u16ToF32_nat x
  refine ⟨r, hr, ?_⟩
  show decide (r &&& 0x7fffffff#32 = 0#32) = true ↔ x.toNat % 2 ^ 15 = 0
  rw [decide_eq_true_iff]
  rw [and_low31, hn]
  have e : (x.toNat / 2 ^ 15 * 2 ^ 31 + u) % 2 ^ 31 = u := by omega
  rw [e]
  rcases lt_or_ge (x.toNat % 2 ^ 15) (31 * 1024) with h | h
  · have hm := (hfin h).1
    constructor
    · rintro rfl
      by_contra hne
      have := mag_strictMono 10 (Nat.pos_of_ne_zero hne)
      have hz : mag 23 0 = 0 := by decide
      rw [hz] at hm
      have : 0 < mag 10 (x.toNat % 2 ^ 15) := by omega
      have := Nat.mul_pos this (Nat.two_pow_pos 125)
      omega
    · intro h0
      rw [show x.toNat % 2 ^ 15 = 0 from h0] at hm
      have hz : mag 10 0 = 0 := by decide
      rw [hz, Nat.zero_mul] at hm
      by_contra hne
      have := mag_strictMono 23 (Nat.pos_of_ne_zero hne)
      omega
  · have := hinf h
    constructor
    · intro h0; omega
    · intro h0; have : x.toNat % 2 ^ 15 = 0 := h0; omega

/-- C69 for f32: binary32 in memory. -/
theorem f32_spec : StoresAs (ieeeFormat 32 23 127) f32Elem ∧ LoadsAs (ieeeFormat 32 23 127) f32Elem := by
  refine ⟨storesAs _ _ (by decide +kernel) (by decide +kernel), loadsAs _ _ fun x => ⟨x, rfl, ?_⟩⟩
  simp only [f32Elem, ieeeFormat, decide_eq_true_eq]
  exact and_low31 x

/-- C69 for f64: binary64 in memory. -/
theorem f64_spec : StoresAs (ieeeFormat 64 52 1023) f64Elem ∧ LoadsAs (ieeeFormat 64 52 1023) f64Elem := by
  refine ⟨storesAs _ _ (by decide +kernel) (by decide +kernel), loadsAs _ _ fun x => ⟨x, rfl, ?_⟩⟩
  simp only [f64Elem, ieeeFormat, decide_eq_true_eq]
  exact and_low63 x

/-- What `storel` wrote, `loadl` reads back, for any element type with these formats. -/
theorem loadl_storel {w : Nat} (f : Format w) (e : Elem (BitVec w) α) (hs : StoresAs f e) (hl : LoadsAs f e)
    (h1 : ¬ f.isZero f.one) (h0 : f.isZero 0) (m m' : Mem (BitVec w)) (p : Int) (l : LVec n)
    (P : Fin n → Prop) (hP : Rep l P) (h : storel e m p l = some m') : loadl e n m' p = some l := by
  have hw := ((hs n m p l P hP).2 m' h).1
  have hm : ∀ i : Fin n, (m' (p + (i : Nat))).isSome := by
    intro i
    by_cases hp : P i
    · rw [(hw i).1 hp]; rfl
    · rw [(hw i).2 hp]; rfl
  obtain ⟨l', hl'⟩ := Option.isSome_iff_exists.mp ((hl n m' p).1.mpr hm)
  rw [hl']
  congr 1
  funext i
  have r := (hl n m' p).2 l' hl' i
  by_cases hp : P i
  · rw [(hP i).1 hp, r.1]
    intro x hx
    rw [(hw i).1 hp] at hx
    cases hx; exact h1
  · rw [(hP i).2 hp, r.2]
    intro c
    exact c 0 ((hw i).2 hp) h0

/-- The hypotheses on the formats hold for all types. -/
theorem formats_ok :
    (∀ t : ITy, ¬ (intFormat t.w).isZero (intFormat t.w).one ∧ (intFormat t.w).isZero 0) ∧
    (¬ (ieeeFormat 16 10 15).isZero (ieeeFormat 16 10 15).one ∧ (ieeeFormat 16 10 15).isZero 0) ∧
    (¬ (ieeeFormat 32 23 127).isZero (ieeeFormat 32 23 127).one ∧ (ieeeFormat 32 23 127).isZero 0) ∧
    ¬ (ieeeFormat 64 52 1023).isZero (ieeeFormat 64 52 1023).one ∧ (ieeeFormat 64 52 1023).isZero 0 := by
  refine ⟨fun t => ?_, ?_, ?_, ?_⟩
  · cases t <;> exact ⟨by unfold intFormat; decide, rfl⟩
  all_goals exact ⟨by unfold ieeeFormat; decide, rfl⟩

/-- The number 1 of f16 is 0x3c00, 0x8000 is a zero and 0x0001 is not. -/
example : (ieeeFormat 16 10 15).one = 0x3c00#16 ∧ (ieeeFormat 16 10 15).isZero 0x8000#16 ∧
    ¬ (ieeeFormat 16 10 15).isZero 1#16 := by
  unfold ieeeFormat; decide

/-- A logical vector of a comparison, written to mapped memory. -/
example : Rep (cmp2 (Cmp.op .i8 .gt) ![3#8, 0xff#8] ![1#8, 1#8]) (fun i => i = 0) ∧
    (storel f16Elem (fun _ => some 7#16) 5 (cmp2 (Cmp.op .i8 .gt) ![3#8, 0xff#8] ![1#8, 1#8])).isSome := by
  refine ⟨fun i => ?_, ?_⟩
  · match i with
    | 0 => decide
    | 1 => decide
  · have hr : Rep (cmp2 (Cmp.op .i8 .gt) ![3#8, 0xff#8] ![1#8, 1#8]) (fun i => i = 0) := fun i => by
      match i with
      | 0 => decide
      | 1 => decide
    exact (f16_spec.1 2 _ 5 _ _ hr).1.mpr fun _ => rfl

end Nsimd.Props.CpuLogMem
