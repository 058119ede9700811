import Verif.Props.Log2
import Verif.Props.MathF16Special

/-!
# `log2_u35` of f16
-/

namespace Nsimd.Props.Log2F16
open Nsimd.Hypot Nsimd.F16Arith Nsimd.Sleef Nsimd.Float Nsimd.MathCalls Nsimd.Round Nsimd.Fp16
open Nsimd.Props.Fp16 Nsimd.Props.F16Arith Nsimd.Props.MathCalls Nsimd.Props.Round Nsimd.Props.Hypot Nsimd.Props.Ulp
open Nsimd.Props.MathF16 Nsimd.Props.MathF16Special

variable {rnd rndd : ℚ → ℚ}

/-- **log2_u35, f16**, positive arguments. -/
theorem log2_f16 (h : Nearest 24 (-149) rnd) (hd : Nearest 53 (-1074) rndd) (simd fused : Bool) :
    AccurateF16 (fun q => 0 < q) (fun q => some (xlog2f35 rnd rndd simd fused (.fin q))) (Real.logb 2) :=
  accurate_of (c := 4.5) (by norm_num) fun q h0 hr hb => ⟨_, rfl, Or.inl (Log2.xlog2f35_within_partial h hd simd fused hr h0
    ((le_abs_self q).trans_lt (hb.trans (by norm_num))))⟩

/-- **log2_u35, f16**: minus infinity for both zeros, infinity for infinity, NaN for negative numbers, minus infinity and NaN. -/
theorem log2_f16_special (h : Nearest 24 (-149) rnd) (hd : Nearest 53 (-1074) rndd) (simd fused : Bool) :
    (∃ f, ComputesAll (fun v => some (xlog2f35 rnd rndd simd fused v)) f) ∧
    ∀ f, ComputesAll (fun v => some (xlog2f35 rnd rndd simd fused v)) f → ∀ a,
      (fl16 a = .fin 0 → Returns f a (.inf true)) ∧ (fl16 a = .inf false → Returns f a (.inf false)) ∧
      ((fl16 a = .nan ∨ fl16 a = .inf true ∨ ∃ d, fl16 a = .fin d ∧ d < 0) → Returns f a .nan) := by
  obtain ⟨l1, l2, l3, l4, l5⟩ := Log2.log2_special rnd rndd simd fused
  constructor
  · refine computes_exists fun v r hv hr => ?_
    cases hr
    cases v with
    | nan => rw [l4]; trivial
    | inf s => cases s; exacts [by rw [l2]; trivial, by rw [l3]; trivial]
    | fin d =>
      rcases lt_trichotomy d 0 with h0 | rfl | h0
      · rw [l5 d h0]; trivial
      · rw [l1]; trivial
      · exact ok_of_within (Log2.xlog2f35_within_partial h hd simd fused hv.1 h0 ((le_abs_self d).trans_lt (by exact_mod_cast hv.2)))
  · intro f hf a
    refine ⟨fun e => returns hf (by rw [e, l1]) (by simp), fun e => returns hf (by rw [e, l2]) (by simp), ?_⟩
    rintro (e | e | ⟨d, e, h0⟩)
    · exact returns hf (by rw [e, l4]) (by simp)
    · exact returns hf (by rw [e, l3]) (by simp)
    · exact returns hf (by rw [e, l5 d h0]) (by simp)

/-- A concrete case: the operator on the f16 with value 2. -/
example : ∃ f a, Finite16 a ∧ f16Value a = 2 ∧ Accurate f a 1 := by
  obtain ⟨r, hr⟩ := exists_nearest (p := 24) (by norm_num) (-149)
  obtain ⟨rd, hrd⟩ := exists_nearest (p := 53) (by norm_num) (-1074)
  obtain ⟨⟨f, hf⟩, hall⟩ := log2_f16 hr hrd false false
  have e : f16Value 0x4000#16 = 2 := by norm_num [f16Value, e16, m16, sgn, BitVec.msb_eq_decide]
  have ha : Finite16 0x4000#16 := by simp [Finite16, e16]
  have := hall f hf _ ha (by rw [e]; norm_num)
  rw [e, show ((2 : ℚ) : ℝ) = 2 by norm_num, Real.logb_self_eq_one (by norm_num)] at this
  exact ⟨f, _, ha, e, this⟩

end Nsimd.Props.Log2F16
