import Verif.Model.Gpu
import Verif.Lemmas.ScalarInt
import Verif.Props.ScalarArith
import Verif.Props.ScalarShift

/-!
# C75, C76: operators on GPUs
-/

namespace Nsimd.Props.Gpu
open Nsimd.Gpu
open Nsimd.ITy

/-! ### C75: integer operators on CUDA and ROCm -/

/-- Sums, differences, products, quotients and opposites of integers. -/
theorem arith_spec (t : ITy) (a b : BitVec t.w) :
    WrapsOrUB t (t.val a + t.val b) (Cuda.add t a b) ∧
    WrapsOrUB t (t.val a - t.val b) (Cuda.sub t a b) ∧
    WrapsOrUB t (- t.val a) (Cuda.neg t a) ∧
    (t ≠ .u16 → WrapsOrUB t (t.val a * t.val b) (Cuda.mul t a b)) ∧
    (t.val b = 0 → Cuda.div t a b = none) ∧
    (t.val b ≠ 0 → WrapsOrUB t (Int.tdiv (t.val a) (t.val b)) (Cuda.div t a b)) :=
  ⟨add_wraps_or_ub t a b, sub_wraps_or_ub t a b, neg_wraps_or_ub t a, fun h => mul_wraps_or_ub t h a b,
    (div_wraps_or_ub t a b).1, (div_wraps_or_ub t a b).2⟩

example : Cuda.mul .i8 100#8 3#8 = some 44#8 ∧ Cuda.div .i16 (-7#16) 2#16 = some (-3#16) := by decide

/-- Comparisons compare values. -/
theorem cmp_spec (t : ITy) (a b : BitVec t.w) :
    (Cuda.lt t a b = true ↔ t.val a < t.val b) ∧ (Cuda.gt t a b = true ↔ t.val a > t.val b) ∧
    (Cuda.le t a b = true ↔ t.val a ≤ t.val b) ∧ (Cuda.ge t a b = true ↔ t.val a ≥ t.val b) ∧
    (Cuda.ne t a b = true ↔ a ≠ b) ∧ (Cuda.eq t a b = true ↔ a = b) := by
  refine ⟨decide_eq_true_iff, decide_eq_true_iff, decide_eq_true_iff, decide_eq_true_iff, ?_, ?_⟩
  · exact decide_eq_true_iff.trans ⟨fun h e => h (by rw [e]), fun h e => h (val_inj t e)⟩
  · exact decide_eq_true_iff.trans ⟨fun h => val_inj t h, fun h => by rw [h]⟩

example : Cuda.lt .i8 0xff#8 1#8 = true ∧ Cuda.lt .u8 0xff#8 1#8 = false := by decide

theorem unsigned_shr (t : ITy) (a : BitVec t.w) (s : Int) (h : t.sgn = false) :
    t.shrP (t.val a) s = t.utyp.shrP (Scalar.uread t a) s := by
  have h1 : t.utyp.promW = t.promW := by cases t <;> simp at h ⊢
  unfold ITy.shrP Scalar.uread ITy.val
  rw [h1, h]
  rfl

theorem shr_eq (t : ITy) (a : BitVec t.w) (s : Int) : Cuda.shr t a s = Scalar.shr t a s := by
  unfold Cuda.shr Scalar.shr
  by_cases h : t.sgn = false
  · rw [if_pos h, unsigned_shr t a s h]
  · rw [if_neg h]; rfl

theorem shra_eq (t : ITy) (a : BitVec t.w) (s : Int) : Cuda.shra t a s = Scalar.shra t a s := by
  unfold Cuda.shra Scalar.shra
  by_cases h : t.sgn = false
  · rw [if_pos h, if_pos h, unsigned_shr t a s h]
  · rw [if_neg h, if_neg h]; rfl

/-- Shifts by counts below the width: `shr` divides the unsigned value, `shra` the value, rounding
down; `shl` multiplies modulo `2^w` whenever it is defined. -/
theorem shift_spec (t : ITy) (a : BitVec t.w) (s : Nat) (hs : s < t.w) :
    (∃ r, Cuda.shr t a s = some r ∧ unsignedValue r = unsignedValue a / 2 ^ s) ∧
    (∃ r, Cuda.shra t a s = some r ∧ t.val r = t.val a / 2 ^ s) ∧
    (∀ r, Cuda.shl t a s = some r → t.val r % 2 ^ t.w = (t.val a * 2 ^ s) % 2 ^ t.w) :=
  ⟨by rw [shr_eq]; exact shr_floor_div t a s hs, by rw [shra_eq]; exact shra_floor_div t a s hs,
    fun r h => shl_mul_pow t a r s h⟩

example : Cuda.shra .i8 0x81#8 1 = some 0xc0#8 ∧ Cuda.shr .i8 0x81#8 1 = some 0x40#8 := by decide

/-- Saturated sums; saturated differences are right exactly if the subtrahend is not the smallest
value of a signed type. -/
theorem saturate_partial (t : ITy) (a b : BitVec t.w) :
    (∃ r, Cuda.adds t a b = some r ∧ t.val r = clampTo t.minv t.maxv (t.val a + t.val b)) ∧
    ((∃ r, Cuda.subs t a b = some r ∧ t.val r = clampTo t.minv t.maxv (t.val a - t.val b)) ↔
      ¬ (t.sgn = true ∧ t.val b = t.minv)) := by
  refine ⟨adds_saturates t a b, ?_⟩
  have : Cuda.subs t a b = Scalar.subs t a b := by
    unfold Cuda.subs Cuda.adds
    by_cases h : t.sgn = false
    · rw [if_pos h]
    · have h' : t.sgn = true := by simpa using h
      rw [if_neg h]
      unfold Scalar.subs Scalar.adds
      simp only [if_pos h']
  rw [this]
  exact subs_correct_iff t a b

example : Cuda.subs .i8 1#8 0x80#8 = some 0x81#8 ∧ Cuda.subs .i8 100#8 (-100#8) = some 127#8 := by decide

/-- Minima, maxima and absolute values. -/
theorem minmax_spec (t : ITy) (a b : BitVec t.w) :
    t.val (Cuda.min t a b) = Min.min (t.val a) (t.val b) ∧
    t.val (Cuda.max t a b) = Max.max (t.val a) (t.val b) ∧
    Cuda.abs t a = Scalar.abs t a := by
  refine ⟨?_, ?_, ?_⟩
  · unfold Cuda.min
    split <;> rw [cast_val] <;> omega
  · unfold Cuda.max
    split <;> rw [cast_val] <;> omega
  · have hz : ∀ u : ITy, u.prom 0 = some 0 := by intro u; cases u <;> decide
    unfold Cuda.abs Scalar.abs
    by_cases h : t.val a > 0
    · rw [if_pos h, cast_val]
      by_cases hs : t.sgn = true
      · rw [if_pos hs, if_pos (by omega)]
      · rw [if_neg hs]
    · rw [if_neg h]
      by_cases hs : t.sgn = true
      · rw [if_pos hs]
        by_cases h0 : t.val a ≥ 0
        · have e : t.val a = 0 := by omega
          rw [if_pos h0, e, Int.neg_zero, hz]
          rfl
        · rw [if_neg h0]
      · rw [if_neg hs]
        have : t.val a = 0 := by
          have hv : t.val a = (a.toNat : Int) := by unfold ITy.val; rw [if_neg hs]
          omega
        rw [this, Int.neg_zero, hz]
        show some (t.cast 0) = some a
        rw [← this, cast_val]

example : Cuda.abs .i8 (-5#8) = some 5#8 ∧ Cuda.abs .i32 0x80000000#32 = none := by decide

/-- Bitwise and logical operators, masks. -/
theorem bits_spec (t : ITy) (a b : BitVec t.w) (k : Nat) (hk : k < t.w) (p q : Bool) :
    (Cuda.orb t a b)[k] = (a[k] || b[k]) ∧ (Cuda.andb t a b)[k] = (a[k] && b[k]) ∧
    (Cuda.andnotb t a b)[k] = (a[k] && !b[k]) ∧ (Cuda.xorb t a b)[k] = (a[k] ^^ b[k]) ∧
    (Cuda.notb t a)[k] = !a[k] ∧
    Cuda.andl p q = (p && q) ∧ Cuda.orl p q = (p || q) ∧ Cuda.xorl p q = (p != q) ∧
    Cuda.andnotl p q = (p && !q) ∧ Cuda.notl p = (!p) ∧
    (Cuda.toMask t p)[k] = p ∧ (Cuda.toLogical t a = true ↔ a ≠ 0#t.w) ∧
    Cuda.toLogical t (Cuda.toMask t p) = p := by
  have hm : t.cast (-1) = BitVec.allOnes t.w := by cases t <;> decide
  have h0 : t.cast 0 = 0#t.w := by cases t <;> decide
  refine ⟨by simp [Cuda.orb], by simp [Cuda.andb], by simp [Cuda.andnotb], by simp [Cuda.xorb],
    by simp [Cuda.notb], rfl, rfl, ?_, rfl, rfl, ?_, ?_, ?_⟩
  · cases p <;> cases q <;> rfl
  · unfold Cuda.toMask
    cases p
    · simp [h0]
    · simp [hm]
  · unfold Cuda.toLogical
    by_cases h : a = 0#t.w <;> simp [h]
  · cases p <;> cases t <;> decide

example : Cuda.toMask .i8 true = 0xff#8 := by decide

/-! ### C76: fused operators -/

/-- The names of the fused operators. Specification, not code of the repo. -/
inductive Fused | fma | fms | fnma | fnms
  deriving DecidableEq

/-- Their names in the API. Specification, not code of the repo. -/
def Fused.name : Fused → String
  | .fma => "fma" | .fms => "fms" | .fnma => "fnma" | .fnms => "fnms"

/-- Their exact values: `±(x * y) ± z`. Specification, not code of the repo. -/
def Fused.value : Fused → Int → Int → Int → Int
  | .fma, x, y, z => x * y + z
  | .fms, x, y, z => x * y - z
  | .fnma, x, y, z => -(x * y) + z
  | .fnms, x, y, z => -(x * y) - z

/-- By how much `x * y + z` exceeds them. Specification, not code of the repo. -/
def Fused.excess : Fused → Int → Int → Int → Int
  | .fma, _, _, _ => 0
  | .fms, _, _, z => 2 * z
  | .fnma, x, y, _ => 2 * (x * y)
  | .fnms, x, y, z => 2 * (x * y + z)

/-- Their meaning on floats, by the `fma` and the opposite of the device.
Specification, not code of the repo. -/
def Fused.meaning {F : Type} (fma : F → F → F → F) (neg : F → F) : Fused → F → F → F → F
  | .fma, x, y, z => fma x y z
  | .fms, x, y, z => fma x y (neg z)
  | .fnma, x, y, z => fma (neg x) y z
  | .fnms, x, y, z => fma (neg x) y (neg z)

/-- On CUDA and ROCm every fused operator computes `a * b + c`. -/
theorem cuda_fused_same (t : ITy) (o : Fused) (a b c : BitVec t.w) :
    Cuda.fused t o.name a b c = Scalar.fma t a b c := by
  have h1 : Cuda.negFirst o.name = false := by cases o <;> decide
  have h2 : Cuda.negLast o.name = false := by cases o <;> decide
  unfold Cuda.fused Scalar.fma
  rw [h1, h2]
  rfl

/-- The same on floats. -/
theorem cuda_fusedF_same {F : Type} (fma : F → F → F → F) (neg : F → F) (o : Fused) (a b c : F) :
    Cuda.fusedF fma neg o.name a b c = fma a b c := by
  have h1 : Cuda.negFirst o.name = false := by cases o <;> decide
  have h2 : Cuda.negLast o.name = false := by cases o <;> decide
  unfold Cuda.fusedF
  rw [h1, h2]
  rfl

/-- C76 on CUDA and ROCm as far as it holds: whenever the operator is defined it is right exactly if
twice the difference vanishes modulo `2^w`; hence `fma` is always right. -/
theorem cuda_fused_partial (t : ITy) (o : Fused) (a b c r : BitVec t.w)
    (h : Cuda.fused t o.name a b c = some r) :
    r = t.cast (o.value (t.val a) (t.val b) (t.val c)) ↔
      o.excess (t.val a) (t.val b) (t.val c) % 2 ^ t.w = 0 := by
  rw [cuda_fused_same] at h
  rw [(fma_mod t a b c r).1 h]
  have iff : ∀ x y : Int, t.cast x = t.cast y ↔ (x - y) % 2 ^ t.w = 0 := by
    intro x y
    constructor
    · intro e
      have := val_cast_mod t x
      rw [e, val_cast_mod] at this
      rw [Int.sub_emod, this]
      simp
    · intro e
      apply cast_eq_of_mod
      exact (Int.emod_emod_of_dvd x (dvd_refl _)).symm.trans
        ((Int.emod_emod_of_dvd x (dvd_refl _)).trans (Int.emod_eq_emod_iff_emod_sub_eq_zero.mpr e))
  rw [iff]
  have : t.val a * t.val b + t.val c - o.value (t.val a) (t.val b) (t.val c) =
      o.excess (t.val a) (t.val b) (t.val c) := by
    cases o <;> simp only [Fused.value, Fused.excess] <;> ring
  rw [this]

example : Cuda.fused .i32 Fused.fms.name 2#32 3#32 0#32 = some 6#32 := by decide

/-- C76 is false on CUDA and ROCm: `fms(2, 3, 1)` is 7, `fnma(2, 3, 1)` is 7, `fnms(2, 3, 1)` is 7. -/
theorem cuda_fused_counterexample :
    Cuda.fused .i32 "fms" 2#32 3#32 1#32 = some 7#32 ∧ Fused.fms.value 2 3 1 = 5 ∧
    Cuda.fused .i32 "fnma" 2#32 3#32 1#32 = some 7#32 ∧ Fused.fnma.value 2 3 1 = -5 ∧
    Cuda.fused .i32 "fnms" 2#32 3#32 1#32 = some 7#32 ∧ Fused.fnms.value 2 3 1 = -7 ∧
    Cuda.fusedF (fun x y z : Int => x * y + z) (fun x => -x) "fms" 2 3 1 = 7 := by decide

/-- On oneAPI the signs are right, on integers whenever the operator is defined, on floats, and on f16
through f32. -/
theorem oneapi_fused_spec (t : ITy) (o : Fused) (a b c r : BitVec t.w)
    {F H : Type} (fma : F → F → F → F) (neg : F → F) (widen : H → F) (narrow : F → H) (x y z : F)
    (u v w : H) :
    (OneApi.fused t o.name a b c = some r → r = t.cast (o.value (t.val a) (t.val b) (t.val c))) ∧
    OneApi.fusedF fma neg o.name x y z = o.meaning fma neg x y z ∧
    OneApi.fusedF16 widen narrow fma neg o.name u v w =
      narrow (o.meaning fma neg (widen u) (widen v) (widen w)) := by
  have hf : ∀ x y z : F, OneApi.fusedF fma neg o.name x y z = o.meaning fma neg x y z := by
    intro x y z
    cases o <;> rfl
  refine ⟨fun h => ?_, hf _ _ _, ?_⟩
  · cases o
    · exact (fma_mod t a b c r).1 h
    · exact (fma_mod t a b c r).2.1 h
    · exact (fma_mod t a b c r).2.2.1 h
    · exact (fma_mod t a b c r).2.2.2 h
  · unfold OneApi.fusedF16
    rw [hf]

example : OneApi.fused .i32 Fused.fnms.name 2#32 3#32 1#32 = some (-7#32) := by decide

/-- `min` and `max` of f16 on CUDA devices with f16 arithmetic return their first operand, whatever the
order: the minimum is right exactly when the first operand is a minimum. -/
theorem cuda_minmaxF16 {F : Type} (a b : F) (le : F → F → Prop) :
    Cuda.minmaxF16 a b = a ∧ (le (Cuda.minmaxF16 a b) b ↔ le a b) := ⟨rfl, Iff.rfl⟩

example : Cuda.minmaxF16 2 1 = 2 := rfl

/-- On other devices `min` is one of the operands and the minimum, as long as conversion to f32 and back
is the identity (numbers, C03). -/
theorem cuda_minmaxF16Emul {F : Type} [LinearOrder F] {H : Type} (widen : H → F) (narrow : F → H)
    (hn : ∀ h, narrow (widen h) = h) (a b : H) :
    (Cuda.minmaxF16Emul widen narrow min a b = a ∨ Cuda.minmaxF16Emul widen narrow min a b = b) ∧
    widen (Cuda.minmaxF16Emul widen narrow min a b) = min (widen a) (widen b) := by
  have hr : Cuda.minmaxF16Emul widen narrow min a b = narrow (min (widen a) (widen b)) := rfl
  rcases min_choice (widen a) (widen b) with e | e
  · have : Cuda.minmaxF16Emul widen narrow min a b = a := by rw [hr, e, hn]
    exact ⟨Or.inl this, by rw [this, e]⟩
  · have : Cuda.minmaxF16Emul widen narrow min a b = b := by rw [hr, e, hn]
    exact ⟨Or.inr this, by rw [this, e]⟩

example : Cuda.minmaxF16Emul (fun x : Nat => (x : Int)) Int.toNat min 3 2 = 2 := by decide

/-- Saturated sums, differences and absolute values on oneAPI. -/
theorem oneapi_saturate_spec (t : ITy) (a b : BitVec t.w) :
    t.val (OneApi.adds t a b) = clampTo t.minv t.maxv (t.val a + t.val b) ∧
    t.val (OneApi.subs t a b) = clampTo t.minv t.maxv (t.val a - t.val b) ∧
    (t.val a ≠ t.minv → t.val (OneApi.abs t a) = |t.val a|) := by
  have h0 : t.minv ≤ t.maxv := by cases t <;> decide
  have key : ∀ v, t.val (t.cast (max t.minv (min t.maxv v))) = clampTo t.minv t.maxv v := by
    intro v
    rw [val_cast t _ (by omega) (by omega)]
    unfold clampTo
    split
    · omega
    · split <;> omega
  refine ⟨key _, key _, fun hm => ?_⟩
  have h1 := val_lb t a; have h2 := val_ub t a
  unfold OneApi.abs
  split
  · rename_i hn
    rw [val_cast, abs_of_neg hn]
    · cases t <;> simp only [minv, maxv] at * <;> omega
    · cases t <;> simp only [minv, maxv] at * <;> omega
  · rw [cast_val, abs_of_nonneg (by omega)]

example : OneApi.subs .i8 1#8 0x80#8 = 127#8 ∧ OneApi.abs .i8 (-5#8) = 5#8 := by decide

end Nsimd.Props.Gpu
