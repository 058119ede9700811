import Verif.Model.Ppc
import Verif.Lemmas.Cpu
import Verif.Props.Arm
import Verif.Props.ScalarShift
import Mathlib.Data.Fin.VecNotation

/-!
# C55-C60 on POWER: lane operators of VMX and VSX

Stated for any lane count and width unless the code fixes them.
-/

namespace Nsimd.Props.Ppc
open Nsimd.Ppc
open Nsimd.X86 (Reg)
open Nsimd.Cpu (Vec Mem Elem LBin body_eq_some stores_isSome stores_frame stores_last finRange_lt)
open Nsimd.Props.Arm (Canonical count count_le)

variable {n w : Nat}

/-! ### Shifts -/

theorem toNat_count (t : ITy) (s : Nat) (hs : s < t.w) : (t.cast (s : Int)).toNat % t.w = s := by
  unfold ITy.cast
  rw [BitVec.toNat_ofInt]
  cases t <;> simp only [ITy.w] at * <;> omega

/-- `shl` and `shr` with a count below the lane width, and `shra` of signed types. -/
theorem shifts_partial (t : ITy) (x : BitVec t.w) (s : Nat) (hs : s < t.w) :
    shl t x s = x <<< s ∧ shr t x s = x >>> s ∧
    (t.sgn = true → shra t x s = x.sshiftRight s) := by
  refine ⟨?_, ?_, fun _ => ?_⟩
  · unfold shl vecSl; rw [toNat_count t s hs]
  · unfold shr vecSr; rw [toNat_count t s hs]
  · unfold shra vecSra; rw [toNat_count t s hs]

example : shl .i16 0x1234#16 4 = 0x2340#16 ∧ shra .i8 0x90#8 3 = 0xf2#8 := by decide

/-- On unsigned types `shra` agrees with the other back ends, which shift logically, exactly when
the count is zero or the top bit is clear. -/
theorem shra_unsigned_iff (t : ITy) (x : BitVec t.w) (s : Nat) (hs : s < t.w) :
    shra t x s = x >>> s ↔ s = 0 ∨ x.msb = false := by
  unfold shra vecSra
  rw [toNat_count t s hs]
  constructor
  · intro h
    by_contra hc
    rw [not_or] at hc
    have hm : x.msb = true := by simpa using hc.2
    have := congrArg BitVec.msb h
    rw [BitVec.msb_sshiftRight, hm, BitVec.msb_ushiftRight] at this
    simp [hc.1] at this
  · rintro (rfl | h)
    · simp
    · exact BitVec.sshiftRight_eq_of_msb_false h

example : shra .u16 0x7fff#16 3 = 0x0fff#16 := by decide

/-- `shra` of the u8 `0x80` by one is `0xc0` on POWER, `0x40` elsewhere. -/
theorem shra_counterexample : shra .u8 0x80#8 1 = 0xc0#8 ∧ Scalar.shra .u8 0x80#8 1 = some 0x40#8 ∧
    Arm.shraNeon .u8 0x80#8 1 = 0x40#8 := by decide

/-! ### Logicals -/

/-- Truth value of a lane of a logical. Specification. -/
def truth (x : BitVec w) : Bool := x != 0#w

/-- Meaning of the operators on truth values. Specification. -/
def meaning : LBin → Bool → Bool → Bool
  | .andl, a, b => a && b
  | .orl, a, b => a || b
  | .xorl, a, b => a != b
  | .andnotl, a, b => a && !b

theorem allOnes_ne (hw : 0 < w) : BitVec.allOnes w ≠ 0#w := by
  intro h
  have := congrArg (fun x : BitVec w => x.getLsbD 0) h
  simp [hw] at this

/-- The native logical operators keep logicals canonical and compute the Boolean operation. -/
theorem lop2_spec (hw : 0 < w) (o : LBin) (a b : Reg n w) (ha : Canonical a) (hb : Canonical b) :
    Canonical (lop2 o a b) ∧ ∀ i, truth (lop2 o a b i) = meaning o (truth (a i)) (truth (b i)) := by
  have h1 := allOnes_ne hw
  constructor <;> intro i <;> rcases ha i with h | h <;> rcases hb i with h' | h' <;>
    cases o <;> simp [lop2, meaning, truth, h, h', h1]

example : lop2 (n := 2) .andnotl ![0xff#8, 0xff#8] ![0#8, 0xff#8] 0 = 0xff#8 := by decide

/-- `notl` keeps logicals canonical and negates. -/
theorem lnot1_spec (hw : 0 < w) (a : Reg n w) (ha : Canonical a) :
    Canonical (lnot1 a) ∧ ∀ i, truth (lnot1 a i) = !truth (a i) := by
  have h1 := allOnes_ne hw
  constructor <;> intro i <;> rcases ha i with h | h <;> simp [lnot1, truth, h, h1]

/-- The emulated 64-bit operators of VMX always return canonical logicals and, on canonical
logicals, compute the Boolean operation. -/
theorem lop2_64_spec (o : LBin) (a b : Reg n 64) (ha : Canonical a) (hb : Canonical b) :
    Canonical (lop2_64 o a b) ∧
    ∀ i, truth (lop2_64 o a b i) = meaning o (truth (a i)) (truth (b i)) := by
  constructor <;> intro i <;> unfold lop2_64 <;> rcases ha i with h | h <;>
    rcases hb i with h' | h' <;> rw [h, h'] <;> cases o <;> decide

example : lop2_64 (n := 2) .xorl ![BitVec.allOnes 64, BitVec.allOnes 64] ![0#64, BitVec.allOnes 64] =
    ![BitVec.allOnes 64, 0#64] := by decide

/-- The emulated 64-bit `notl` of VMX. -/
theorem lnot1_64_spec (a : Reg n 64) (ha : Canonical a) :
    Canonical (lnot1_64 a) ∧ ∀ i, truth (lnot1_64 a i) = !truth (a i) := by
  constructor <;> intro i <;> unfold lnot1_64 <;> rcases ha i with h | h <;> rw [h] <;> decide

/-- `set1l` and `to_logical` give canonical logicals with the right truth values. -/
theorem set1l_toLogical_spec (hw : 0 < w) (b : Int) (a : Reg n w) :
    (Canonical (set1l n w b) ∧ ∀ i, truth (set1l n w b i) = decide (b ≠ 0)) ∧
    Canonical (toLogical a) ∧ ∀ i, truth (toLogical a i) = decide (a i ≠ 0#w) := by
  have h1 := allOnes_ne hw
  have h2 : BitVec.ofInt w (-1) = BitVec.allOnes w := by
    rw [BitVec.ofInt_neg (n := 1), ← BitVec.neg_one_eq_allOnes]; rfl
  refine ⟨⟨?_, ?_⟩, ?_, ?_⟩
  · intro i; unfold set1l; split <;> simp [h2]
  · intro i; unfold set1l; split <;> rename_i h <;> simp [truth, h2, h1, h]
  · intro i; unfold toLogical; simp only; split <;> simp
  · intro i; unfold toLogical truth; simp only; split <;> rename_i h <;> simp [h1, h]

/-- The 64-bit versions of VMX. -/
theorem set1l_toLogical_64_spec (b : Int) (a : Reg n 64) :
    (Canonical (set1l_64 n b) ∧ ∀ i, truth (set1l_64 n b i) = decide (b ≠ 0)) ∧
    Canonical (toLogical_64 a) ∧ ∀ i, truth (toLogical_64 a i) = decide (a i ≠ 0#64) := by
  have h : ∀ c : Bool, (boolLane64 c = BitVec.allOnes 64 ∨ boolLane64 c = 0#64) ∧
      truth (boolLane64 c) = c := by decide
  refine ⟨⟨fun i => (h _).1, fun i => (h _).2⟩, fun i => (h _).1, fun i => ?_⟩
  unfold toLogical_64
  rw [(h _).2]
  by_cases hc : a i = 0#64 <;> simp [hc]

example : set1l 4 32 7 2 = BitVec.allOnes 32 ∧ toLogical (n := 2) (w := 8) ![0x80#8, 0#8] 0 = 0xff#8 ∧
    toLogical_64 (n := 2) ![5#64, 0#64] 1 = 0#64 := by decide

/-- `if_else1` selects, lane by lane. -/
theorem ifElse1_spec (hw : 0 < w) (l a b : Reg n w) (hl : Canonical l) (i : Fin n) :
    ifElse1 l a b i = if truth (l i) then a i else b i := by
  have h1 := allOnes_ne hw
  rcases hl i with h | h <;> simp [ifElse1, truth, h, h1]

/-- `if_else1` on 64-bit types of VMX. -/
theorem ifElse1_64_spec (l a b : Reg n 64) (i : Fin n) :
    ifElse1_64 l a b i = if truth (l i) then a i else b i := by
  by_cases h : l i = 0#64 <;> simp [ifElse1_64, truth, h]

example : ifElse1 (n := 2) (w := 8) ![0xff#8, 0#8] ![1#8, 2#8] ![3#8, 4#8] = ![1#8, 4#8] := by decide

example : Canonical (n := 4) (w := 32) (fun i => if i.val = 2 then BitVec.allOnes 32 else 0#32) := by
  unfold Canonical; decide

/-- `all` and `any`. -/
theorem all_any_spec (a : Reg n w) :
    (all a = true ↔ ∀ i, a i ≠ 0#w) ∧ (any a = true ↔ ∃ i, a i ≠ 0#w) := by
  simp [all, any]

example : all (n := 2) (w := 8) ![0xff#8, 0#8] = false ∧ any (n := 2) (w := 8) ![0xff#8, 0#8] = true := by
  decide

/-- `nbtrue` of native types is defined and counts the true lanes. -/
theorem nbtrue_spec (hn : n < 2 ^ 31) (a : Reg n w) : nbtrue a = some (count a : Int) := by
  have h : ∀ (l : List (Fin n)) (c : Nat), c + l.length < 2 ^ 31 →
      l.foldlM (fun acc i => ITy.i32.prom (acc + if a i ≠ 0#w then 1 else 0)) (c : Int) =
        some (((c + l.countP (fun i => decide (a i ≠ 0#w))) : Nat) : Int) := by
    intro l
    induction l with
    | nil => intro c _; simp
    | cons j l ih =>
      intro c hc
      rw [List.length_cons] at hc
      rw [List.foldlM_cons, List.countP_cons]
      by_cases h : a j ≠ 0#w
      · rw [if_pos h, Arm.prom32 (by omega) (by omega)]
        refine Eq.trans (ih (c + 1) (by omega)) ?_
        rw [if_pos (decide_eq_true h)]
        congr 2
        omega
      · rw [if_neg h, Arm.prom32 (by omega) (by omega), Int.add_zero,
          if_neg (by simpa using h)]
        exact ih c (by omega)
  have := h (List.finRange n) 0 (by simp; omega)
  rw [Arm.countP_eq_card] at this
  simp only [decide_eq_true_eq, Nat.zero_add] at this
  exact this

/-- `nbtrue` of 64-bit types on VMX. -/
theorem nbtrue_64_spec (a : Reg 2 64) (ha : Canonical a) : nbtrue_64 a = some (count a : Int) := by
  have h : ∀ x y : BitVec 64, (x = BitVec.allOnes 64 ∨ x = 0#64) →
      (y = BitVec.allOnes 64 ∨ y = 0#64) →
      nbtrue_64 (fun i : Fin 2 => if i = 0 then x else y) =
        some (count (fun i : Fin 2 => if i = 0 then x else y) : Int) := by
    rintro x y (rfl | rfl) (rfl | rfl) <;> decide
  have e : a = fun i : Fin 2 => if i = 0 then a 0 else a 1 := by
    funext i
    by_cases h0 : i = 0
    · rw [if_pos h0, h0]
    · rw [if_neg h0, show i = 1 from Fin.ext (by
        have : i.val ≠ 0 := fun h => h0 (Fin.ext h)
        show i.val = 1
        omega)]
  rw [e]
  exact h _ _ (ha 0) (ha 1)

example : nbtrue (n := 4) (w := 32) ![1#32, 0#32, 5#32, 9#32] = some 3 ∧
    nbtrue_64 ![BitVec.allOnes 64, 0#64] = some 1 := by decide

/-! ### fma -/

/-- The integer fused operators modulo `2^w`. -/
theorem fma_spec (a b c : BitVec w) :
    fma a b c = BitVec.ofInt w (a.toInt * b.toInt + c.toInt) ∧
    fnma a b c = BitVec.ofInt w (-(a.toInt * b.toInt) + c.toInt) ∧
    fms a b c = BitVec.ofInt w (a.toInt * b.toInt - c.toInt) ∧
    fnms a b c = BitVec.ofInt w (-(a.toInt * b.toInt) - c.toInt) := by
  have hneg : ∀ x : Int, BitVec.ofInt w (-x) = -BitVec.ofInt w x := fun x => BitVec.ofInt_neg
  simp only [Int.sub_eq_add_neg, BitVec.ofInt_add, BitVec.ofInt_mul, hneg, BitVec.ofInt_toInt]
  unfold fms fnms fnma fma
  refine ⟨rfl, ?_, ?_, ?_⟩
  · rw [BitVec.sub_eq_add_neg, BitVec.add_comm]
  · rw [BitVec.sub_eq_add_neg]
  · rw [BitVec.sub_eq_add_neg, BitVec.add_comm]

example : fms 100#8 3#8 7#8 = 37#8 ∧ fnma 100#8 3#8 7#8 = 219#8 := by decide

/-! ### Conversions between integer widths -/

/-- `upcvt` of 8 and 16-bit integers: the lanes in order, each with the same value modulo the
width of the destination. -/
theorem upcvt_spec (s d : ITy) (r : Reg (n * 2) s.w) (k : Fin (n * 2)) :
    (if h : k.val < n then (upcvt s d r).1 ⟨k, h⟩
      else (upcvt s d r).2 ⟨k - n, by omega⟩) = d.cast (s.val (r k)) := by
  have hx : ∀ x : BitVec s.w, (if s.sgn then x.signExtend d.w
      else x.signExtend d.w &&& BitVec.ofNat d.w (2 ^ s.w - 1)) = d.cast (s.val x) := by
    intro x
    unfold ITy.val ITy.cast
    split
    · rfl
    · apply BitVec.eq_of_getLsbD_eq
      intro i hi
      rw [BitVec.getLsbD_and, BitVec.getLsbD_signExtend]
      have e1 : (BitVec.ofInt d.w (x.toNat : Int)) = x.setWidth d.w := by
        apply BitVec.eq_of_toNat_eq
        simp [BitVec.toNat_ofInt, BitVec.toNat_setWidth]
      rw [e1, BitVec.getLsbD_setWidth, BitVec.getLsbD_ofNat, Nat.testBit_two_pow_sub_one]
      by_cases h : i < s.w
      · simp [h, hi]
      · simp [h, hi, BitVec.getLsbD_of_ge x i (by omega)]
  unfold upcvt upcvtS upcvtU vecUnpack
  by_cases h : k.val < n
  · rw [dif_pos h, ← hx]
    split <;> rfl
  · rw [dif_neg h, ← hx]
    have : (⟨n + (k.val - n), by omega⟩ : Fin (n * 2)) = k := Fin.ext (by simp only; omega)
    split <;> simp [this]

/-- `upcvt` of 32-bit integers. -/
theorem upcvt32_spec (s d : ITy) (r : Reg 4 s.w) (k : Fin 4) :
    (if h : k.val < 2 then (upcvt32 s d r).1 ⟨k, h⟩
      else (upcvt32 s d r).2 ⟨k - 2, by omega⟩) = d.cast (s.val (r k)) := by
  match k with
  | ⟨0, _⟩ => rfl
  | ⟨1, _⟩ => rfl
  | ⟨2, _⟩ => rfl
  | ⟨3, _⟩ => rfl

/-- `downcvt`: the lanes of both arguments in order, each reduced modulo `2^w`. -/
theorem downcvt_spec (s d : ITy) (hd : s.w = 2 * d.w) (a b : Reg n s.w) (k : Fin (n * 2)) :
    downcvt d.w a b k =
      d.cast (s.val (if h : k.val < n then a ⟨k, h⟩ else b ⟨k - n, by omega⟩)) := by
  unfold downcvt
  split
  · exact Arm.setWidth_eq_cast s d (by omega) _
  · exact Arm.setWidth_eq_cast s d (by omega) _

/-- `downcvt` of 64-bit integers. -/
theorem downcvt64_spec (s d : ITy) (a b : Reg 2 s.w) (k : Fin 4) :
    downcvt64 s d a b k =
      d.cast (s.val (if h : k.val < 2 then a ⟨k, h⟩ else b ⟨k - 2, by omega⟩)) := by
  match k with
  | ⟨0, _⟩ => rfl
  | ⟨1, _⟩ => rfl
  | ⟨2, _⟩ => rfl
  | ⟨3, _⟩ => rfl

example : downcvt 8 (n := 2) (w := 16) ![0x1234#16, 0xabcd#16] ![0x00ff#16, 0x8001#16] 3 = 0x01#8 ∧
    downcvt64 .i64 .u32 ![0x123456789#64, 0#64] ![7#64, 1#64] 0 = 0x23456789#32 := by decide

example : (upcvt .u8 .u16 (n := 8) fun _ => 0x80#8).2 3 = 0x80#16 ∧
    (upcvt .i8 .u16 (n := 8) fun _ => 0x80#8).1 3 = 0xff80#16 := by decide

/-! ### Memory -/

section Mem
variable {M α : Type} (e : Elem M α)

theorem foldlM_insert (x : Fin n → Option α) (l : List (Fin n)) (v r : Vec n α) :
    l.foldlM (fun v i => (x i).map fun xi => insertLane v i xi) v = some r ↔
      (∀ i ∈ l, x i = some (r i)) ∧ ∀ i, i ∉ l → r i = v i := by
  induction l generalizing v with
  | nil =>
    simp only [List.foldlM_nil, List.not_mem_nil, false_imp_iff, implies_true, true_and,
      not_false_eq_true, true_imp_iff]
    constructor
    · intro h i; rw [← Option.some.inj h]
    · intro h; exact congrArg some (funext fun i => (h i).symm)
  | cons j l ih =>
    rw [List.foldlM_cons]
    cases hx : x j with
    | none =>
      constructor
      · intro h; cases h
      · intro h; rw [h.1 j (List.mem_cons_self)] at hx; cases hx
    | some y =>
      show l.foldlM _ (insertLane v j y) = some r ↔ _
      rw [ih]
      constructor
      · rintro ⟨h1, h2⟩
        have hj : r j = y := by
          by_cases hm : j ∈ l
          · have := h1 j hm; rw [hx] at this; exact (Option.some.inj this).symm
          · rw [h2 j hm]; simp [insertLane]
        refine ⟨?_, ?_⟩
        · intro i hi
          rcases List.mem_cons.mp hi with rfl | hi
          · rw [hx, hj]
          · exact h1 i hi
        · intro i hi
          rw [List.mem_cons, not_or] at hi
          rw [h2 i hi.2]
          simp [insertLane, hi.1]
      · rintro ⟨h1, h2⟩
        refine ⟨fun i hi => h1 i (List.mem_cons_of_mem _ hi), ?_⟩
        intro i hi
        unfold insertLane
        by_cases hij : i = j
        · rw [if_pos hij, hij]
          have := h1 j (List.mem_cons_self)
          rw [hx] at this
          exact (Option.some.inj this).symm
        · rw [if_neg hij]
          exact h2 i (by rw [List.mem_cons, not_or]; exact ⟨hij, hi⟩)

theorem fromLanes_eq_some (x : Fin (n + 1) → Option α) (r : Vec (n + 1) α) :
    fromLanes x = some r ↔ ∀ i, x i = some (r i) := by
  unfold fromLanes
  have hl : (List.finRange (n + 1)).drop 1 = (List.finRange n).map Fin.succ := by
    rw [List.finRange_succ]; rfl
  cases h0 : x 0 with
  | none =>
    constructor
    · intro h; cases h
    · intro h; rw [h 0] at h0; cases h0
  | some x0 =>
    show List.foldlM _ (fun _ => x0) _ = some r ↔ _
    rw [foldlM_insert, hl]
    constructor
    · rintro ⟨h1, h2⟩ i
      refine Fin.cases ?_ ?_ i
      · rw [h0, h2 0 (by simp [Fin.succ_ne_zero])]
      · intro j; exact h1 _ (List.mem_map.mpr ⟨j, List.mem_finRange j, rfl⟩)
    · intro h
      refine ⟨fun i _ => h i, ?_⟩
      intro i
      refine Fin.cases ?_ ?_ i
      · intro _
        have := h 0
        rw [h0] at this
        exact (Option.some.inj this).symm
      · intro j hj
        exact absurd (List.mem_map.mpr ⟨j, List.mem_finRange j, rfl⟩) hj

/-- `gather` reads lane `i` at `p + off i`. -/
theorem gather_reads (m : Mem M) (p : Int) (off : Vec (n + 1) Int) (v : Vec (n + 1) α) :
    gather e m p off = some v ↔
      ∀ i, ∃ y, m (p + off i) = some y ∧ e.dec y = some (v i) := by
  unfold gather
  rw [fromLanes_eq_some]
  simp only [Option.bind_eq_some_iff]

/-- `gather` of f16: what the code computes.  Every lane holds the element at the first offset. -/
theorem gatherF16_reads (m : Mem M) (p : Int) (off : Vec 8 Int) (v0 v1 : Vec 4 α) :
    gatherF16 e m p off = some (v0, v1) ↔
      ∃ y x, m (p + off 0) = some y ∧ e.dec y = some x ∧ (∀ i, v0 i = x) ∧ ∀ i, v1 i = x := by
  have hh : ∀ v : Vec 4 α, gatherF16Half e m p off = some v ↔
      ∀ i, (m (p + off 0)).bind e.dec = some (v i) := by
    intro v
    unfold gatherF16Half
    rw [fromLanes_eq_some]
  unfold gatherF16
  simp only [Option.bind_eq_some_iff, Option.map_eq_some_iff, Prod.mk.injEq]
  constructor
  · rintro ⟨a, ha, b, hb, rfl, rfl⟩
    rw [hh] at ha hb
    obtain ⟨y, hy, hx⟩ := Option.bind_eq_some_iff.mp (ha 0)
    refine ⟨y, a 0, hy, hx, ?_, ?_⟩
    · intro i; exact Option.some.inj ((ha i).symm.trans (ha 0))
    · intro i; exact Option.some.inj ((hb i).symm.trans (ha 0))
  · rintro ⟨y, x, hy, hx, h0, h1⟩
    refine ⟨v0, ?_, v1, ?_, rfl, rfl⟩
    · rw [hh]; intro i; rw [h0 i, hy]; exact hx
    · rw [hh]; intro i; rw [h1 i, hy]; exact hx

/-- The claim fails for f16: with offsets 0, 1, 2, ... over the memory `0, 1, 2, ...` lane 1 is 0
instead of 1. -/
theorem gatherF16_counterexample :
    ∃ v0 v1, gatherF16 (Cpu.intElem .i16) (fun a => if 0 ≤ a ∧ a < 8 then some (BitVec.ofInt 16 a)
      else none) 0 (fun i => (i.val : Int)) = some (v0, v1) ∧ v0 1 ≠ 1#16 := by
  refine ⟨fun _ => 0#16, fun _ => 0#16, ?_, by decide⟩
  rw [gatherF16_reads]
  exact ⟨0#16, 0#16, rfl, rfl, fun _ => rfl, fun _ => rfl⟩

/-- `gather_linear` reads lane `i` at `p + step * i`, when the products fit an `int`. -/
theorem gatherLinear_reads (m : Mem M) (p step : Int) (v : Vec (n + 1) α)
    (hs : ∀ i : Fin (n + 1), -2 ^ 31 ≤ step * (i : Nat) ∧ step * (i : Nat) < 2 ^ 31) :
    gatherLinear e n m p step = some v ↔
      ∀ i : Fin (n + 1), ∃ y, m (p + step * (i : Nat)) = some y ∧ e.dec y = some (v i) := by
  unfold gatherLinear
  rw [fromLanes_eq_some]
  constructor
  · intro h i
    have := h i
    by_cases h0 : i = 0
    · subst h0
      rw [if_pos rfl] at this
      simpa [Option.bind_eq_some_iff] using this
    · rw [if_neg h0, Arm.prom32 (hs i).1 (hs i).2] at this
      simpa [Option.bind_eq_some_iff] using this
  · intro h i
    obtain ⟨y, hy, hd⟩ := h i
    by_cases h0 : i = 0
    · subst h0
      rw [if_pos rfl]
      have : m p = some y := by simpa using hy
      rw [this]; exact hd
    · rw [if_neg h0, Arm.prom32 (hs i).1 (hs i).2, Option.bind_some, hy]; exact hd

/-- `scatter`: defined when the addresses are mapped; the highest lane aimed at an address wins;
nothing else changes. -/
theorem scatter_spec (m : Mem M) (p : Int) (off : Vec n Int) (v : Vec n α) :
    ((scatter e m p off v).isSome ↔ ∀ i, (m (p + off i)).isSome) ∧
    ∀ m', scatter e m p off v = some m' →
      (∀ i, (∀ j, i < j → off j ≠ off i) → m' (p + off i) = some (e.enc (v i))) ∧
      ∀ a, (∀ i, p + off i ≠ a) → m' a = m a := by
  unfold scatter
  refine ⟨?_, ?_⟩
  · rw [stores_isSome]
    constructor
    · intro h i; exact h i (List.mem_finRange i) _ _ rfl
    · intro h i _ a u hu; cases hu; exact h i
  · intro m' h
    refine ⟨?_, ?_⟩
    · intro i hi
      refine stores_last (finRange_lt n) h (List.mem_finRange i) rfl ?_
      intro j _ hj u hu
      have := congrArg Prod.fst (Option.some.inj hu)
      simp only at this
      exact hi j hj (by omega)
    · intro a ha
      refine stores_frame h ?_
      intro j _ u hu
      exact ha j (congrArg Prod.fst (Option.some.inj hu))

/-- `scatter_linear` is `scatter` with the offsets `step * i`, when the products fit an `int`. -/
theorem scatterLinear_spec (m : Mem M) (p step : Int) (v : Vec n α)
    (hs : ∀ i : Fin n, -2 ^ 31 ≤ step * (i : Nat) ∧ step * (i : Nat) < 2 ^ 31) :
    ((scatterLinear e m p step v).isSome ↔ ∀ i : Fin n, (m (p + step * (i : Nat))).isSome) ∧
    ∀ m', scatterLinear e m p step v = some m' →
      (step ≠ 0 → ∀ i : Fin n, m' (p + step * (i : Nat)) = some (e.enc (v i))) ∧
      ∀ a, (∀ i : Fin n, p + step * (i : Nat) ≠ a) → m' a = m a := by
  have hb : (Cpu.body fun i : Fin n => ITy.i32.prom (step * (i : Nat))) =
      some fun i : Fin n => step * ((i : Nat) : Int) := by
    rw [body_eq_some]
    intro i
    exact Arm.prom32 (hs i).1 (hs i).2
  have hsc := scatter_spec e m p (fun i : Fin n => step * ((i : Nat) : Int)) v
  have he : scatterLinear e m p step v = scatter e m p (fun i : Fin n => step * ((i : Nat) : Int)) v := by
    unfold scatterLinear scatter
    rw [hb]; rfl
  rw [he]
  refine ⟨hsc.1, fun m' h => ⟨fun h0 i => ?_, (hsc.2 m' h).2⟩⟩
  refine (hsc.2 m' h).1 i ?_
  intro j hj hc
  have : ((j : Nat) : Int) = ((i : Nat) : Int) := Int.eq_of_mul_eq_mul_left h0 hc
  have hlt : (i : Nat) < j := hj
  omega

/-- Masked loads: enabled lanes are read from memory, the others come from `o`; memory is only
accessed where the mask is true. -/
theorem maskozLoad_spec (l : Reg n w) (m : Mem M) (p : Int) (o r : Vec n α) :
    maskozLoad e l m p o = some r ↔
      ∀ i : Fin n, if truth (l i) then ∃ y, m (p + (i : Nat)) = some y ∧ e.dec y = some (r i)
        else r i = o i := by
  have hf : maskozLoad e l m p o = (List.finRange n).foldlM (fun v i =>
      (if l i ≠ 0#w then (m (p + (i : Nat))).bind e.dec else some (o i)).map fun x =>
        insertLane v i x) (fun _ => e.zero) := by
    unfold maskozLoad
    congr 1
    funext v i
    split <;> rfl
  rw [hf, foldlM_insert]
  simp only [List.mem_finRange, true_imp_iff, not_true_eq_false, false_imp_iff, implies_true,
    and_true]
  refine forall_congr' fun i => ?_
  by_cases h : l i = 0#w
  · simp [h, truth, eq_comm]
  · simp [h, truth, Option.bind_eq_some_iff]

/-- Masked loads of f16: eight lanes, the first four from the first member of the mask. -/
theorem maskozLoadF16_spec (l : Reg 4 w × Reg 4 w) (m : Mem M) (p : Int) (o r : Vec 4 α × Vec 4 α) :
    maskozLoadF16 e l m p o = some r ↔
      (∀ i : Fin 4, if truth (l.1 i) then
          ∃ y, m (p + (i : Nat)) = some y ∧ e.dec y = some (r.1 i) else r.1 i = o.1 i) ∧
      ∀ i : Fin 4, if truth (l.2 i) then
          ∃ y, m (p + 4 + (i : Nat)) = some y ∧ e.dec y = some (r.2 i) else r.2 i = o.2 i := by
  obtain ⟨r0, r1⟩ := r
  unfold maskozLoadF16
  simp only [Option.bind_eq_some_iff, Option.map_eq_some_iff, Prod.mk.injEq, foldlM_insert,
    List.mem_finRange, true_imp_iff, not_true_eq_false, false_imp_iff, implies_true, and_true]
  have key : ∀ (l : Reg 4 w) (o r : Vec 4 α) (q : Int) (f : Fin 4 → Int),
      (∀ i, f i = q + (i : Nat)) →
      ((∀ i : Fin 4, (if l i ≠ 0#w then (m (f i)).bind e.dec else some (o i)) = some (r i)) ↔
      ∀ i : Fin 4, if truth (l i) then ∃ y, m (q + (i : Nat)) = some y ∧ e.dec y = some (r i)
        else r i = o i) := by
    intro l o r q f hf
    refine forall_congr' fun i => ?_
    rw [hf]
    by_cases h : l i = 0#w
    · simp [h, truth, eq_comm]
    · simp [h, truth, Option.bind_eq_some_iff]
  have k1 := key l.1 o.1 r0 p (fun i => p + (i : Nat)) (fun _ => rfl)
  have k2 := key l.2 o.2 r1 (p + 4) (fun i => p + ((4 + i : Nat) : Int)) (fun i => by push_cast; ring)
  constructor
  · rintro ⟨a, ha, b, hb, rfl, rfl⟩
    exact ⟨k1.mp ha, k2.mp hb⟩
  · rintro ⟨ha, hb⟩
    exact ⟨r0, k1.mpr ha, r1, k2.mpr hb, rfl, rfl⟩

/-- Masked stores: defined when the enabled addresses are mapped; enabled lanes are written,
nothing else changes. -/
theorem maskStore_spec (l : Reg n w) (m : Mem M) (p : Int) (v : Vec n α) :
    ((maskStore e l m p v).isSome ↔ ∀ i, truth (l i) = true → (m (p + (i : Nat))).isSome) ∧
    ∀ m', maskStore e l m p v = some m' →
      (∀ i, truth (l i) = true → m' (p + (i : Nat)) = some (e.enc (v i))) ∧
      ∀ a, (∀ i, truth (l i) = true → p + (i : Nat) ≠ a) → m' a = m a := by
  have ht : ∀ i, truth (l i) = true ↔ l i ≠ 0#w := by intro i; simp [truth]
  simp only [ht]
  unfold maskStore
  refine ⟨?_, ?_⟩
  · rw [stores_isSome]
    constructor
    · intro h i hi; exact h i (List.mem_finRange i) _ _ (if_pos hi)
    · intro h i _ a u hu
      split at hu
      · rename_i hi; cases hu; exact h i hi
      · cases hu
  · intro m' h
    refine ⟨?_, ?_⟩
    · intro i hi
      refine stores_last (finRange_lt n) h (List.mem_finRange i) (if_pos hi) ?_
      intro j _ hj u hu
      split at hu
      · have := congrArg Prod.fst (Option.some.inj hu)
        simp only at this
        have hlt : (i : Nat) < j := hj
        omega
      · cases hu
    · intro a ha
      refine stores_frame h ?_
      intro j _ u hu
      split at hu
      · rename_i hj; exact ha j hj (congrArg Prod.fst (Option.some.inj hu))
      · cases hu

/-- Sixteen consecutive elements, `a ↦ 3 * a`. Test data. Test data or helper, not code of the repo. -/
def exMem : Mem (BitVec 16) := fun a => if 0 ≤ a ∧ a < 16 then some (BitVec.ofInt 16 (3 * a)) else none

example : ((gather (n := 1) (Cpu.intElem .i16) exMem 2 ![5, 1]).map fun v => [v 0, v 1]) =
    some [21#16, 9#16] := by decide
example : ((gatherLinear (Cpu.intElem .i16) 2 exMem 1 4).map fun v => [v 0, v 1, v 2]) =
    some [3#16, 15#16, 27#16] := by decide
example : ((scatter (n := 2) (Cpu.intElem .i16) exMem 2 ![5, 5] ![1#16, 2#16]).bind fun m => m 7) =
    some 2#16 := by decide
example : ((scatterLinear (n := 2) (Cpu.intElem .i16) exMem 9 (-4) ![1#16, 2#16]).bind fun m => m 5) =
    some 2#16 := by decide
example : ((maskozLoad (n := 2) (w := 16) (Cpu.intElem .i16) ![0#16, 0xffff#16] exMem (-1)
    ![8#16, 8#16]).map fun v => [v 0, v 1]) = some [8#16, 0#16] := by decide
example : ((maskozLoadF16 (w := 32) (Cpu.intElem .i16) (fun _ => 1#32, fun _ => 1#32) exMem 1
    (fun _ => 8#16, fun _ => 8#16)).map fun v => [v.1 3, v.2 3]) = some [12#16, 24#16] := by decide
example : ((maskStore (n := 2) (w := 16) (Cpu.intElem .i16) ![0#16, 0xffff#16] exMem (-1)
    ![8#16, 9#16]).bind fun m => m 0) = some 9#16 := by decide

end Mem
end Nsimd.Props.Ppc
