import Verif.Model.X86Rei
import Verif.Props.X86Cvt
import Verif.Props.X86Mask
import Verif.Props.Fp16Order
import Mathlib.Tactic.Choose
import Mathlib.Tactic.IntervalCases

/-!
# C92: reinterpretation on x86
-/

namespace Nsimd.Props.X86Rei

open Nsimd Nsimd.Cpu Nsimd.X86Cvt Nsimd.X86Rei Nsimd.Props.X86Cvt Nsimd.Props.X86
open Nsimd.X86 hiding lo hi
open Nsimd.Fp16 (u16ToF32 f32ToU16)
open Nsimd.Props.Fp16

variable {n : Nat}

/-- Lane `k` of the pair of registers: first those of `v0`, then those of `v1`.
Specification, not code of the repo. -/
def Lanes {α : Type} (v : Vec n α × Vec n α) (f : Vec (n + n) α) : Prop :=
  ∀ k : Fin n, v.1 k = f ⟨k, by omega⟩ ∧ v.2 k = f ⟨n + k, by omega⟩

/-- `NaN16` is decidable. Specification, not code of the repo. -/
instance (h : BitVec 16) : Decidable (NaN16 h) := inferInstanceAs (Decidable (_ ∧ _))

theorem nan16_iff (h : BitVec 16) : nan16 h = true ↔ NaN16 h := by
  unfold nan16 NaN16 e16 m16
  have e1 : ((h >>> 10) &&& 0x1f#16).toNat = h.toNat / 2 ^ 10 % 32 := by
    rw [BitVec.toNat_and, BitVec.toNat_ushiftRight, Nat.shiftRight_eq_div_pow]
    exact Nat.and_two_pow_sub_one_eq_mod _ 5
  have e2 : (h &&& 0x3ff#16).toNat = h.toNat % 2 ^ 10 := by
    rw [BitVec.toNat_and]
    exact Nat.and_two_pow_sub_one_eq_mod _ 10
  rw [decide_eq_true_iff, ← BitVec.toNat_inj, e1, ne_eq, ← BitVec.toNat_inj, e2]
  rfl

theorem nan32_iff (a : BitVec 32) : nan32 a = true ↔ NaN32 a := by
  unfold nan32 NaN32 e32 m32
  have e1 : ((a >>> 23) &&& 0xff#32).toNat = a.toNat / 2 ^ 23 % 256 := by
    rw [BitVec.toNat_and, BitVec.toNat_ushiftRight, Nat.shiftRight_eq_div_pow]
    exact Nat.and_two_pow_sub_one_eq_mod _ 8
  have e2 : (a &&& 0x7fffff#32).toNat = a.toNat % 2 ^ 23 := by
    rw [BitVec.toNat_and]
    exact Nat.and_two_pow_sub_one_eq_mod _ 23
  rw [decide_eq_true_iff, ← BitVec.toNat_inj, e1, ne_eq, ← BitVec.toNat_inj, e2]
  rfl

/-- The float that `vcvtph2ps` makes of a NaN. Specification, not code of the repo. -/
def upNaN (h : BitVec 16) : BitVec 32 :=
  ((h &&& 0x8000#16).setWidth 32 <<< 16) ||| 0x7fc00000#32 ||| ((h &&& 0x3ff#16).setWidth 32 <<< 13)

theorem upNaN_bit (h : BitVec 16) (i : Nat) (hi : i < 32) : (upNaN h).getLsbD i =
    if i = 31 then h.getLsbD 15 else if 22 ≤ i then true else if 13 ≤ i then h.getLsbD (i - 13) else false := by
  unfold upNaN
  interval_cases i <;> simp

theorem upNaN_nan (h : BitVec 16) : nan32 (upNaN h) = true := by
  unfold nan32
  rw [decide_eq_true_iff]
  constructor
  · apply BitVec.eq_of_getLsbD_eq
    intro i hi
    interval_cases i <;> simp [upNaN_bit, -BitVec.getLsbD_eq_getElem]
  · intro e
    have := congrArg (fun x => BitVec.getLsbD x 22) e
    simp [upNaN_bit, -BitVec.getLsbD_eq_getElem] at this

theorem upNaN_down (h : BitVec 16) (hn : nan16 h = true) : cvtps (upNaN h) = h ||| 0x200#16 := by
  unfold cvtps
  rw [if_pos (upNaN_nan h)]
  unfold nan16 at hn
  rw [decide_eq_true_iff] at hn
  have e : ∀ i, 10 ≤ i → i < 15 → h.getLsbD i = true := by
    intro i h1 h2
    have := congrArg (fun x => BitVec.getLsbD x (i - 10)) hn.1
    interval_cases i <;> simpa [-BitVec.getLsbD_eq_getElem] using this
  apply BitVec.eq_of_getLsbD_eq
  intro i hi
  interval_cases i <;> simp [upNaN_bit, e, -BitVec.getLsbD_eq_getElem]

/-- One lane through the F16C instructions: every half that is not a NaN comes back, a NaN comes back
quiet with its sign and payload. -/
theorem f16c_lane (h : BitVec 16) : ∃ x, cvtph h = some x ∧
    (¬ NaN16 h → cvtps x = h ∧ (Finite16 h → f32Value x = f16Value h)) ∧
    (NaN16 h → cvtps x = h ||| 0x200#16) := by
  unfold cvtph
  by_cases hn : nan16 h = true
  · rw [if_pos hn]
    exact ⟨upNaN h, rfl, fun h' => absurd ((nan16_iff h).mp hn) h', fun _ => upNaN_down h hn⟩
  · rw [if_neg hn]
    have hn' : ¬ NaN16 h := fun h' => hn ((nan16_iff h).mpr h')
    obtain ⟨x, hx, h1, -⟩ := f16_roundtrip h
    obtain ⟨x', hx', -, h2, h3, -⟩ := u16ToF32_exact h
    obtain rfl : x = x' := Option.some.inj (hx.symm.trans hx')
    refine ⟨x, hx, fun _ => ⟨?_, fun hf => (h2 hf).2⟩, fun h' => absurd h' hn'⟩
    have hx32 : ¬ NaN32 x := by
      intro hN
      have : f32ToU16 x = 0xffff#16 := (f32ToU16_special x).2 hN
      rw [h1 hn'] at this
      rw [this] at hn'
      exact hn' (by unfold NaN16 e16 m16; decide)
    unfold cvtps
    rw [if_neg (fun h' => hx32 ((nan32_iff x).mp h'))]
    exact h1 hn'

/-! ### `reinterpret` -/

section
variable {dec : BitVec 16 → Option (BitVec 32)} {enc : BitVec 32 → BitVec 16}

/-- The shuffled register of SSE holds the high lanes: the two ways to f16 agree. -/
theorem toF16Sse_eq (a : Reg (4 + 4) 16) : toF16Sse dec a = toF16 dec a := by
  have e : (fun i : Fin 4 => X86.shuffleEpi32 14 a ⟨i, by omega⟩) = hi (n := 4) a := by
    funext i
    unfold X86.shuffleEpi32 hi
    congr 1
    revert i; decide
  unfold toF16Sse toF16
  simp only [e]

theorem fromF16Sse_eq (v : Reg 4 32 × Reg 4 32) : fromF16Sse enc v = fromF16 enc v := by
  funext i
  unfold fromF16Sse fromF16 shufflePd0 setr
  by_cases h : i.val < 4
  · simp [h]
  · have h4 : i.val - 4 < 4 := by omega
    simp [h, h4]

theorem toF16_lanes (a : Reg (n + n) 16) (f : BitVec 16 → BitVec 32) (hf : ∀ k, dec (a k) = some (f (a k))) :
    ∃ v, toF16 dec a = some v ∧ Lanes v fun k => f (a k) := by
  refine ⟨(fun i => f (lo a i), fun i => f (hi a i)), ?_, fun k => ⟨rfl, rfl⟩⟩
  unfold toF16
  rw [(emulate_iff dec (lo a) fun i => f (lo a i)).mpr fun i => hf _,
    (emulate_iff dec (hi a) fun i => f (hi a i)).mpr fun i => hf _]
  rfl

theorem fromF16_lanes {v : Reg n 32 × Reg n 32} {f : Reg (n + n) 32} (hv : Lanes v f) (k : Fin (n + n)) :
    fromF16 enc v k = enc (f k) := by
  unfold fromF16 setr
  split
  · rename_i h; exact congrArg enc (hv ⟨k, h⟩).1
  · rename_i h
    refine (congrArg enc (hv ⟨k - n, by omega⟩).2).trans (congrArg (fun j => enc (f j)) (Fin.ext ?_))
    simp only; omega

/-- C92, `reinterpret` of i16, u16 to f16 and back with the F16C instructions, on SSE (`toF16Sse`,
`fromF16Sse`) and on AVX and AVX-512: it is defined; every lane holds the number of the half in that lane;
lanes that are not NaNs come back unchanged, NaNs come back quiet. -/
theorem reinterpret_f16c (a : Reg (n + n) 16) : ∃ v f, toF16 cvtph a = some v ∧ Lanes v f ∧ ∀ k,
    (Finite16 (a k) → f32Value (f k) = f16Value (a k)) ∧
    fromF16 cvtps v k = if NaN16 (a k) then a k ||| 0x200#16 else a k := by
  choose f hf using f16c_lane
  obtain ⟨v, hv, hl⟩ := toF16_lanes (dec := cvtph) a f fun k => (hf (a k)).1
  refine ⟨v, _, hv, hl, fun k => ⟨fun h => ?_, ?_⟩⟩
  · refine ((hf (a k)).2.1 fun hN => ?_).2 h
    unfold Finite16 at h; unfold NaN16 at hN
    omega
  · rw [fromF16_lanes hl]
    split
    · rename_i hN; exact (hf (a k)).2.2 hN
    · rename_i hN; exact ((hf (a k)).2.1 hN).1

theorem reinterpret_f16c_sse (a : Reg (4 + 4) 16) : ∃ v f, toF16Sse cvtph a = some v ∧ Lanes v f ∧ ∀ k,
    (Finite16 (a k) → f32Value (f k) = f16Value (a k)) ∧
    fromF16Sse cvtps v k = if NaN16 (a k) then a k ||| 0x200#16 else a k := by
  rw [toF16Sse_eq]
  obtain ⟨v, f, h⟩ := reinterpret_f16c (n := 4) a
  exact ⟨v, f, h.1, h.2.1, fun k => by rw [fromF16Sse_eq]; exact h.2.2 k⟩

/-- C92, the same without F16C (through memory): NaNs come back as `0xffff`. -/
theorem reinterpret_soft (a : Reg (n + n) 16) : ∃ v f, toF16 u16ToF32 a = some v ∧ Lanes v f ∧ ∀ k,
    (Finite16 (a k) → f32Value (f k) = f16Value (a k)) ∧
    fromF16 f32ToU16 v k = if NaN16 (a k) then 0xffff#16 else a k := by
  choose f hf using f16_roundtrip
  obtain ⟨v, hv, hl⟩ := toF16_lanes (dec := u16ToF32) a f fun k => (hf (a k)).1
  refine ⟨v, _, hv, hl, fun k => ⟨fun h => ?_, ?_⟩⟩
  · obtain ⟨x, hx, -, h2, -⟩ := u16ToF32_exact (a k)
    rw [show f (a k) = x from Option.some.inj ((hf (a k)).1.symm.trans hx)]
    exact (h2 h).2
  · rw [fromF16_lanes hl]
    split
    · rename_i hN; exact (hf (a k)).2.2 hN
    · rename_i hN; exact (hf (a k)).2.1 hN

/-- C92, so the claim that the bits come back fails exactly on NaNs that are signalling (F16C) or different
from `0xffff` (without). -/
theorem reinterpret_back_iff (h : BitVec 16) :
    ((if NaN16 h then h ||| 0x200#16 else h) = h ↔ ¬ (NaN16 h ∧ h.getLsbD 9 = false)) ∧
    ((if NaN16 h then 0xffff#16 else h) = h ↔ ¬ (NaN16 h ∧ h ≠ 0xffff#16)) := by
  constructor
  · split
    · rename_i hN
      refine ⟨fun e h' => ?_, fun h' => ?_⟩
      · have := congrArg (fun x => BitVec.getLsbD x 9) e
        simp [h'.2, -BitVec.getLsbD_eq_getElem] at this
      · have h9 : h.getLsbD 9 = true := by
          cases hc : h.getLsbD 9
          · exact absurd ⟨hN, hc⟩ h'
          · rfl
        apply BitVec.eq_of_getLsbD_eq
        intro i hi
        interval_cases i <;> simp [h9, -BitVec.getLsbD_eq_getElem]
    · rename_i hN
      exact ⟨fun _ h' => hN h'.1, fun _ => rfl⟩
  · split
    · rename_i hN
      exact ⟨fun e h' => h'.2 e.symm, fun h' => by_contra fun e => h' ⟨hN, fun e' => e e'.symm⟩⟩
    · rename_i hN
      exact ⟨fun _ h' => hN h'.1, fun _ => rfl⟩

-- the signalling NaN 0x7c01 comes back as 0x7e01, the subnormal 0x8001 unchanged
example : NaN16 0x7c01#16 ∧ (0x7c01#16).getLsbD 9 = false ∧ ¬ NaN16 0x8001#16 ∧ Finite16 0x8001#16 := by
  unfold NaN16 Finite16 e16 m16; decide

end

/-! ### `reinterpretl` -/

/-- The truth values of the two registers, one after the other. Specification, not code of the repo. -/
def Canon2 {w : Nat} (r : Reg n w × Reg n w) (p : Fin (n + n) → Bool) : Prop :=
  Canon r.1 (fun k => p ⟨k, by omega⟩) ∧ Canon r.2 fun k => p ⟨n + k, by omega⟩

theorem dup_lane (p : Bool) : (lane 16 (p = true) ++ lane 16 (p = true) : BitVec (16 + 16)) = lane 32 (p = true) := by
  cases p <;> decide

theorem ext_lane (p : Bool) : (lane 16 (p = true)).signExtend 32 = lane 32 (p = true) := by
  cases p <;> decide

theorem lToF16Sse_spec {l : Reg (n + n) 16} {p : Fin (n + n) → Bool} (h : Canon l p) :
    Canon2 (lToF16Sse l) p := by
  constructor
  · intro k
    show (l ⟨k, by omega⟩ ++ l ⟨k, by omega⟩ : BitVec (16 + 16)) = _
    rw [h]; exact dup_lane _
  · intro k
    show (l ⟨n + k, by omega⟩ ++ l ⟨n + k, by omega⟩ : BitVec (16 + 16)) = _
    rw [h]; exact dup_lane _

theorem setr_canon {w : Nat} {r : Reg n w × Reg n w} {p : Fin (n + n) → Bool} (h : Canon2 r p) :
    Canon (setr r.1 r.2) p := by
  intro i
  unfold setr
  split
  · rename_i hi; exact h.1 ⟨i, hi⟩
  · rename_i hi
    refine (h.2 ⟨i - n, by omega⟩).trans (congrArg (fun j => lane w (p j = true)) (Fin.ext ?_))
    simp only; omega

/-- C92, `reinterpretl` of i16, u16 to f16 on every x86 extension: the truth value of every lane, in lane
order, as all ones or all zeros (a mask bit on AVX-512). -/
theorem lToF16_spec {l : Reg (n + n) 16} {p : Fin (n + n) → Bool} (h : Canon l p) :
    Canon2 (lToF16Sse l) p ∧ Canon2 (lToF16Avx2 l) p := by
  refine ⟨lToF16Sse_spec h, fun k => ?_, fun k => ?_⟩
  · show BitVec.signExtend 32 (lo l k) = _
    unfold lo
    rw [h]; exact ext_lane _
  · show BitVec.signExtend 32 (hi l k) = _
    unfold hi
    rw [h]; exact ext_lane _

theorem lToF16Avx_spec {l : Reg (n + n + (n + n)) 16} {p : Fin (n + n + (n + n)) → Bool} (h : Canon l p) :
    Canon2 (lToF16Avx l) p :=
  ⟨setr_canon (lToF16Sse_spec (l := lo l) (p := fun k => p ⟨k, by omega⟩) fun k => h ⟨k, by omega⟩),
   setr_canon (lToF16Sse_spec (l := hi l) (p := fun k => p ⟨n + n + k, by omega⟩) fun k => h ⟨n + n + k, by omega⟩)⟩

theorem lToF16_512_spec {k : BitVec (16 + 16)} {p : Fin (16 + 16) → Bool} (h : Bits k p) :
    Bits (lToF16_512 k).1 (fun i => p ⟨i, by omega⟩) ∧ Bits (lToF16_512 k).2 fun i => p ⟨16 + i, by omega⟩ := by
  constructor
  · intro ⟨i, hi⟩
    refine Eq.trans ?_ (h ⟨i, by omega⟩)
    unfold lToF16_512
    interval_cases i <;> simp [-BitVec.getLsbD_eq_getElem]
  · intro ⟨i, hi⟩
    refine Eq.trans ?_ (h ⟨16 + i, by omega⟩)
    unfold lToF16_512
    interval_cases i <;> simp [-BitVec.getLsbD_eq_getElem]

/-- C92, `reinterpretl` of f16 to i16, u16: the same. An all-ones lane is a NaN, which is different from
zero. -/
theorem lFromF16_spec {l : Reg n 32 × Reg n 32} {p : Fin (n + n) → Bool} (h : Canon2 l p) :
    Canon (lFromF16 l) p := by
  intro i
  unfold lFromF16
  rw [setr_canon h i]
  cases p i <;> decide

theorem lFromF16_512_spec {k : BitVec 16 × BitVec 16} {p : Fin (16 + 16) → Bool}
    (h1 : Bits k.1 fun i => p ⟨i, by omega⟩) (h2 : Bits k.2 fun i => p ⟨16 + i, by omega⟩) :
    Bits (lFromF16_512 k) p := by
  intro ⟨i, hi⟩
  by_cases h16 : i < 16
  · have := h1 ⟨i, h16⟩
    refine Eq.trans ?_ this
    unfold lFromF16_512
    interval_cases i <;> simp [-BitVec.getLsbD_eq_getElem]
  · have := h2 ⟨i - 16, by omega⟩
    have e : (⟨i, hi⟩ : Fin (16 + 16)) = ⟨16 + (i - 16), by omega⟩ := Fin.ext (by simp only; omega)
    rw [e]
    refine Eq.trans ?_ this
    unfold lFromF16_512
    clear this e
    interval_cases i <;> simp [-BitVec.getLsbD_eq_getElem]

-- lanes 0 and 5 true, the others false
example : Canon (n := 4 + 4) (w := 16) (fun i => if i = 0 ∨ i = 5 then 0xffff#16 else 0#16)
      (fun i => decide (i = 0 ∨ i = 5)) ∧
    Bits 0x00010001#32 fun i => decide (i = 0 ∨ i = 16) := by
  refine ⟨fun i => ?_, fun i => ?_⟩ <;> revert i <;> decide

end Nsimd.Props.X86Rei
