import Verif.Props.CpuLogical
import Verif.Lemmas.ScalarInt

/-!
# C23, C24, C25: zip/unzip, conversions, reinterpretation and bitwise operators
-/

namespace Nsimd.Props.Cpu
open Nsimd.Cpu Nsimd.Fp16 Nsimd.Props.Fp16

variable {n h : Nat} {M α : Type}

/-- Lanes of a pair of vectors, one after the other. Specification, not code of the repo. -/
def concat (p : Vec n α × Vec n α) : Vec (2 * n) α :=
  fun k => if hk : k.val < n then p.1 ⟨k, hk⟩ else p.2 ⟨k - n, by omega⟩

/-! ## C23 -/

/-- `zip` interleaves: lanes `2i` and `2i+1` of its concatenated outputs are `a[i]` and
`b[i]`. -/
theorem zip_interleaves (a b : Vec (2 * h) α) (i : Fin (2 * h)) :
    concat (zip a b) ⟨2 * i, by omega⟩ = a i ∧ concat (zip a b) ⟨2 * i + 1, by omega⟩ = b i := by
  unfold concat zip
  simp only
  constructor
  · by_cases hk : 2 * i.val < 2 * h
    · rw [dif_pos hk]
      unfold ziplo
      simp only
      rw [if_pos (by omega)]
      congr 1; apply Fin.ext; simp
    · rw [dif_neg hk]
      unfold ziphi
      simp only
      rw [if_pos (by omega)]
      congr 1; apply Fin.ext; simp only; omega
  · by_cases hk : 2 * i.val + 1 < 2 * h
    · rw [dif_pos hk]
      unfold ziplo
      simp only
      rw [if_neg (by omega)]
      congr 1; apply Fin.ext; simp only; omega
    · rw [dif_neg hk]
      unfold ziphi
      simp only
      rw [if_neg (by omega)]
      congr 1; apply Fin.ext; simp only; omega

/-- `unzip` separates even from odd lanes of its concatenated inputs. -/
theorem unzip_separates (a b : Vec (2 * h) α) (i : Fin (2 * h)) :
    (unzip a b).1 i = concat (a, b) ⟨2 * i, by omega⟩ ∧
    (unzip a b).2 i = concat (a, b) ⟨2 * i + 1, by omega⟩ := by
  unfold concat unzip unziplo unziphi
  simp only
  constructor
  · by_cases hk : i.val < h
    · rw [dif_pos hk, dif_pos (by omega)]
    · rw [dif_neg hk, dif_neg (by omega)]
      congr 1; apply Fin.ext; simp only; omega
  · by_cases hk : i.val < h
    · rw [dif_pos hk, dif_pos (by omega)]
    · rw [dif_neg hk, dif_neg (by omega)]
      congr 1; apply Fin.ext; simp only; omega

theorem concat_inj {p q : Vec n α × Vec n α} (hpq : ∀ k, concat p k = concat q k) : p = q := by
  apply Prod.ext <;> funext i
  · have := hpq ⟨i, by omega⟩
    unfold concat at this
    simpa [i.2] using this
  · have := hpq ⟨i + n, by omega⟩
    unfold concat at this
    simpa using this

/-- C23: `unzip(zip(a, b)) = (a, b)` and `zip(unzip(a, b)) = (a, b)`. -/
theorem zip_unzip_inverse (a b : Vec (2 * h) α) :
    unzip (zip a b).1 (zip a b).2 = (a, b) ∧ zip (unzip a b).1 (unzip a b).2 = (a, b) := by
  constructor
  · apply Prod.ext <;> funext i
    · rw [(unzip_separates _ _ i).1]; exact (zip_interleaves a b i).1
    · rw [(unzip_separates _ _ i).2]; exact (zip_interleaves a b i).2
  · apply concat_inj
    intro k
    rcases Nat.mod_two_eq_zero_or_one k.val with hk | hk
    · have e : k = ⟨2 * (k.val / 2), by omega⟩ := Fin.ext (by simp only; omega)
      have h1 := (zip_interleaves (unzip a b).1 (unzip a b).2 ⟨k.val / 2, by omega⟩).1
      have h2 := (unzip_separates a b ⟨k.val / 2, by omega⟩).1
      rw [e, h1, h2]
    · have e : k = ⟨2 * (k.val / 2) + 1, by omega⟩ := Fin.ext (by simp only; omega)
      have h1 := (zip_interleaves (unzip a b).1 (unzip a b).2 ⟨k.val / 2, by omega⟩).2
      have h2 := (unzip_separates a b ⟨k.val / 2, by omega⟩).2
      rw [e, h1, h2]

example : zip (h := 2) ![0, 1, 2, 3] ![4, 5, 6, 7] = (![0, 4, 1, 5], ![2, 6, 3, 7]) := by decide

/-! ## C24 -/

/-- `upcvt` keeps lane order and preserves every value the target type can represent;
other values are reduced modulo `2^w'`. -/
theorem upcvt_values (t t' : ITy) (a : Vec (2 * n) (BitVec t.w)) (k : Fin (2 * n)) :
    (t'.minv ≤ t.val (a k) ∧ t.val (a k) ≤ t'.maxv →
      t'.val (concat (upcvt t t' a) k) = t.val (a k)) ∧
    (2 : Int) ^ t'.w ∣ t'.val (concat (upcvt t t' a) k) - t.val (a k) := by
  have e : concat (upcvt t t' a) k = t'.cast (t.val (a k)) := by
    unfold concat upcvt
    simp only
    split
    · rfl
    · rename_i hk
      have : (⟨k - n + n, by omega⟩ : Fin (2 * n)) = k := Fin.ext (by simp only; omega)
      rw [this]
  rw [e]
  generalize t.val (a k) = x
  constructor
  · intro hx
    revert hx
    cases t' <;> simp only [ITy.minv, ITy.maxv, ITy.val, ITy.cast, ITy.sgn, ITy.w, if_true,
      BitVec.toInt_ofInt, BitVec.toNat_ofInt] <;> intro hx <;>
      simp only [Int.bmod, Bool.false_eq_true, if_false] <;> omega
  · cases t' <;> simp only [ITy.val, ITy.cast, ITy.sgn, ITy.w, if_true,
      BitVec.toInt_ofInt, BitVec.toNat_ofInt, Int.bmod, Bool.false_eq_true, if_false] <;> omega

/-- Same signedness (or unsigned source), double width: every value is preserved. -/
theorem upcvt_preserves (t t' : ITy) (hw : t'.w = 2 * t.w) (hs : t.sgn = true → t'.sgn = true)
    (a : Vec (2 * n) (BitVec t.w)) (k : Fin (2 * n)) :
    t'.val (concat (upcvt t t' a) k) = t.val (a k) := by
  refine (upcvt_values t t' a k).1 ?_
  generalize a k = x
  have h1 := x.isLt
  have h2 := BitVec.le_toInt x
  have h3 := BitVec.toInt_lt (x := x)
  revert hw hs
  cases t <;> cases t' <;> simp_all [ITy.w, ITy.sgn, ITy.val, ITy.minv, ITy.maxv] <;> omega

/-- `cvt` between integer types, here of any sizes, keeps every value the target type can represent
and reduces the others modulo `2^w'`. -/
theorem cvt_values (t t' : ITy) (a : Vec n (BitVec t.w)) (k : Fin n) :
    (t'.minv ≤ t.val (a k) ∧ t.val (a k) ≤ t'.maxv → t'.val (cvt t t' a k) = t.val (a k)) ∧
    (2 : Int) ^ t'.w ∣ t'.val (cvt t t' a k) - t.val (a k) := by
  unfold cvt
  generalize t.val (a k) = x
  constructor
  · rintro ⟨h1, h2⟩; exact ITy.val_cast t' x h1 h2
  · exact Int.dvd_of_emod_eq_zero (Int.emod_eq_emod_iff_emod_sub_eq_zero.mp (ITy.val_cast_mod t' x))

example : cvt (n := 2) .i16 .u16 ![0xff00#16, 7#16] = ![0xff00#16, 7#16] := by decide

/-- `downcvt` keeps lane order and the low half of each lane. -/
theorem downcvt_low (t t' : ITy) (hw : t'.w ≤ t.w) (a b : Vec n (BitVec t.w)) (k : Fin (2 * n)) :
    (downcvt t t' a b k).toNat = (concat (a, b) k).toNat % 2 ^ t'.w := by
  have e : downcvt t t' a b k = t'.cast (t.val (concat (a, b) k)) := by
    unfold downcvt concat
    simp only
    split <;> rfl
  rw [e]
  generalize concat (a, b) k = x
  have h1 := x.isLt
  revert hw
  cases t <;> cases t' <;> simp only [ITy.w, ITy.sgn, ITy.val, ITy.cast, if_true, if_false,
    Bool.false_eq_true, BitVec.toNat_ofInt, BitVec.toInt_eq_toNat_cond] <;> intro hw <;>
    simp only [ITy.w] at * <;> first | omega | (split <;> omega)

/-- C24: narrowing a widened vector gives it back, for any pair of types with the target
at least as wide. -/
theorem downcvt_upcvt (t t' : ITy) (hw : t.w ≤ t'.w) (a : Vec (2 * n) (BitVec t.w)) :
    downcvt t' t (upcvt t t' a).1 (upcvt t t' a).2 = a := by
  funext k
  apply BitVec.eq_of_toNat_eq
  rw [downcvt_low t' t hw]
  have hd := (upcvt_values t t' a k).2
  generalize concat (upcvt t t' a) k = y at hd
  generalize a k = x at hd
  have h1 := x.isLt
  have h2 := y.isLt
  revert hw hd
  cases t <;> cases t' <;> simp only [ITy.w, ITy.sgn, ITy.val, if_true, if_false,
    Bool.false_eq_true, BitVec.toInt_eq_toNat_cond] <;> intro hw hd <;>
    simp only [ITy.w] at * <;> first | omega | (split at hd <;> omega) | (repeat' split at hd) <;> omega

example : upcvt (n := 1) .i8 .i16 ![0xff#8, 0x7f#8] = (![0xffff#16], ![0x7f#16]) := by decide

/-! ## C25 -/

/-- Reinterpretation between two types of one size keeps the stored bits, and
reinterpreting back is the identity. Every type but `f16`. -/
theorem reinterpret_bits {w : Nat} {β : Type} {e : Elem (BitVec w) α} {e' : Elem (BitVec w) β}
    (he : Exact e) (he' : Exact e') (hd : ∀ y, (e'.dec y).isSome) (a : Vec n α) :
    ∃ b, reinterpret e e' a = some b ∧ (∀ i, e'.enc (b i) = e.enc (a i)) ∧
      reinterpret e' e b = some a := by
  have hs : (reinterpret e e' a).isSome := by
    unfold reinterpret; rw [body_isSome]; intro i; exact hd _
  obtain ⟨b, hb⟩ := Option.isSome_iff_exists.mp hs
  have hb' := hb
  unfold reinterpret at hb'
  rw [body_eq_some] at hb'
  have he1 : ∀ i, e'.enc (b i) = e.enc (a i) := fun i => he'.enc_dec _ _ (hb' i)
  refine ⟨b, hb, he1, ?_⟩
  unfold reinterpret
  rw [body_eq_some]
  intro i
  rw [he1 i]; exact he.dec_enc _

/-- A half obtained by storing a lane survives decoding and storing again. -/
theorem enc_dec_enc (x : BitVec 32) :
    ∃ r, u16ToF32 (f32ToU16 x) = some r ∧ f32ToU16 r = f32ToU16 x := by
  obtain ⟨r, hr, h3, h4⟩ := f16_roundtrip (f32ToU16 x)
  refine ⟨r, hr, ?_⟩
  by_cases hn : NaN16 (f32ToU16 x)
  · rw [h4 hn]
    have hx := f32ToU16_special x
    by_cases hf : Finite32 x
    · exact absurd hn (f32ToU16_nearest _ hf).1.notNaN
    · by_cases hi : Inf32 x
      · exact absurd (hx.1 hi).1.2 hn.2
      · exact (hx.2 ⟨by unfold Finite32 at hf; omega,
          fun h => hi ⟨by unfold Finite32 at hf; omega, h⟩⟩).symm
  · exact h3 hn

/-- `f16`: reinterpreting to `u16` gives the bits a store would write, and going back
gives a vector that stores the same bits (the lane itself is rounded to half
precision). -/
theorem reinterpret_f16_u16 (a : Vec n (BitVec 32)) :
    ∃ b c, reinterpret f16Elem (intElem .u16) a = some b ∧ (∀ i, b i = f32ToU16 (a i)) ∧
      reinterpret (intElem .u16) f16Elem b = some c ∧ ∀ i, f32ToU16 (c i) = f32ToU16 (a i) := by
  refine ⟨fun i => f32ToU16 (a i), fun i => (enc_dec_enc (a i)).choose, ?_, fun _ => rfl, ?_, ?_⟩
  · unfold reinterpret; rw [body_eq_some]; intro i; rfl
  · unfold reinterpret; rw [body_eq_some]; intro i; exact (enc_dec_enc (a i)).choose_spec.1
  · intro i; exact (enc_dec_enc (a i)).choose_spec.2

/-- `u16` to `f16` and back is the identity on patterns that are not NaNs ... -/
theorem reinterpret_u16_f16_partial (b : Vec n (BitVec 16)) (hb : ∀ i, ¬ NaN16 (b i)) :
    ∃ c, reinterpret (intElem .u16) f16Elem b = some c ∧
      reinterpret f16Elem (intElem .u16) c = some b := by
  refine ⟨fun i => (f16_roundtrip (b i)).choose, ?_, ?_⟩
  · unfold reinterpret; rw [body_eq_some]; intro i; exact (f16_roundtrip (b i)).choose_spec.1
  · unfold reinterpret; rw [body_eq_some]; intro i
    exact congrArg some ((f16_roundtrip (b i)).choose_spec.2.1 (hb i))

/-- ... but not on NaN patterns: `0x7c01` comes back as `0xffff`. -/
theorem reinterpret_u16_f16_counterexample :
    ∃ c, reinterpret (n := 1) (intElem .u16) f16Elem ![0x7c01#16] = some c ∧
      reinterpret f16Elem (intElem .u16) c = some ![0xffff#16] := by
  refine ⟨fun i => (f16_roundtrip 0x7c01#16).choose, ?_, ?_⟩
  · unfold reinterpret; rw [body_eq_some]; intro i
    have : i = 0 := by omega
    subst this
    exact (f16_roundtrip 0x7c01#16).choose_spec.1
  · unfold reinterpret; rw [body_eq_some]; intro i
    have : i = 0 := by omega
    subst this
    exact congrArg some ((f16_roundtrip 0x7c01#16).choose_spec.2.2 (by unfold NaN16 e16 m16; decide))

/-- The bitwise operators act bit by bit on the stored pattern of each integer lane. -/
theorem bitwise_bits_partial (t : ITy) (a b : Vec n (BitVec t.w)) :
    ∃ o an x nn at', scalar2 (fun x y => some (Scalar.orb t x y)) a b = some o ∧
      scalar2 (fun x y => some (Scalar.andb t x y)) a b = some an ∧
      scalar2 (fun x y => some (Scalar.xorb t x y)) a b = some x ∧
      scalar1 (fun x => some (Scalar.notb t x)) a = some nn ∧
      scalar2 (fun x y => some (Scalar.andnotb t x y)) a b = some at' ∧
      ∀ i j, j < t.w →
        (o i).getLsbD j = ((a i).getLsbD j || (b i).getLsbD j) ∧
        (an i).getLsbD j = ((a i).getLsbD j && (b i).getLsbD j) ∧
        (x i).getLsbD j = ((a i).getLsbD j ^^ (b i).getLsbD j) ∧
        (nn i).getLsbD j = !(a i).getLsbD j ∧
        (at' i).getLsbD j = ((a i).getLsbD j && !(b i).getLsbD j) := by
  refine ⟨_, _, _, _, _, body_some _, body_some _, body_some _, body_some _, body_some _, ?_⟩
  intro i j hj
  simp only [Scalar.orb, Scalar.andb, Scalar.xorb, Scalar.notb, Scalar.andnotb, BitVec.getLsbD_or,
    BitVec.getLsbD_and, BitVec.getLsbD_xor, BitVec.getLsbD_not, hj, decide_true, Bool.true_and,
    and_self]

/-- On `f16` the CPU backend applies them to the `f32` lane (egg/platform_cpu.py:156-164),
so they do not act on the half-precision pattern: `notb(1.0)` is stored as `0xc400`
instead of `~0x3c00 = 0xc3ff`. -/
theorem bitwise_f16_counterexample :
    ∃ v w, load f16Elem 1 (fun _ => some 0x3c00#16) 0 = some v ∧
      scalar1 (fun x => some (Scalar.notb .u32 x)) v = some w ∧
      f16Elem.enc (w 0) = 0xc400#16 ∧ (0xc400#16 : BitVec 16) ≠ ~~~ 0x3c00#16 := by
  have h : f32ToU16 (~~~ 0x3f800000#32) = 0xc400#16 := by decide +kernel
  refine ⟨fun _ => 0x3f800000#32, fun _ => ~~~ 0x3f800000#32, ?_, body_some _, h, by decide⟩
  rw [load_reads]; intro i; exact ⟨_, rfl, by decide +kernel⟩

end Nsimd.Props.Cpu
