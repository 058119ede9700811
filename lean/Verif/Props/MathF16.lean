import Verif.Props.MathCalls
import Verif.Props.Cosh
import Verif.Props.Atan
import Verif.Props.Log
import Verif.Props.Cbrt
import Verif.Props.Asin
import Verif.Lemmas.LogCombine

/-!
# Accuracy of the mathematical functions on `f16`

The operators convert to f32, call the f32 function and round the result to f16.
-/

namespace Nsimd.Props.MathF16
open Nsimd.Hypot Nsimd.F16Arith Nsimd.Sleef Nsimd.Float Nsimd.MathCalls Nsimd.Round Nsimd.Fp16
open Nsimd.Props.Fp16 Nsimd.Props.F16Arith Nsimd.Props.MathCalls Nsimd.Props.Round Nsimd.Props.Hypot Nsimd.Props.Ulp

variable {rnd rndd sq : ℚ → ℚ} {m : Mode}

/-! ### Specification -/

/-- What a pattern of f16 denotes. Specification (IEEE-754). -/
def fl16 (h : BitVec 16) : Fl :=
  if e16 h = 31 then (if m16 h = 0 then .inf h.msb else .nan) else .fin (f16Value h)

/-- The pattern `x` of f32 denotes `r`. Specification (IEEE-754). -/
def Denotes (x : BitVec 32) : Fl → Prop
  | .nan => NaN32 x
  | .inf s => Inf32 x ∧ x.msb = s
  | .fin q => Finite32 x ∧ f32Value x = q

/-- The function `f` on patterns of f32 computes `g` on the numbers below `2^16` that meet `D`. Specification: the link between the functions
of SLEEF on numbers and the functions on patterns that the operators call. -/
def Computes1 (D : ℚ → Prop) (g : ℚ → Option Fl) (f : BitVec 32 → BitVec 32) : Prop :=
  ∀ x, Finite32 x → |f32Value x| < 2 ^ 16 → D (f32Value x) → ∀ r, g (f32Value x) = some r → Denotes (f x) r

/-- The operator on `f16` that calls `f` returns for `a` a result within 0.501 ulps of `y`: the scalar operator,
egg/scalar.py:434-443, and a lane of the CPU back end. Specification; the operators with one argument ignore the second one. -/
def Accurate (f : BitVec 32 → BitVec 32) (a : BitVec 16) (y : ℝ) : Prop :=
  ∃ h, scalarF16 (fun x _ => f x) a a = some h ∧ cpuLane2 (fun x _ => f x) a a = some h ∧
    Within 11 (-24) 16 0.501 y (fl16 h)

/-- Some function on patterns computes `g`, and with every such function the operator on `f16` is within 0.501 ulps of `Y` for all
finite arguments that meet `D`. Specification. -/
def AccurateF16 (D : ℚ → Prop) (g : ℚ → Option Fl) (Y : ℝ → ℝ) : Prop :=
  (∃ f, Computes1 D g f) ∧
    ∀ f, Computes1 D g f → ∀ a, Finite16 a → D (f16Value a) → Accurate f a (Y (f16Value a))

/-! ### The conversion to `f16` -/

theorem ulp_f32 {y w : ℝ} (hw : IsUlp 11 (-24) |y| w) : ∃ w', IsUlp 24 (-149) |y| w' ∧ w' ≤ w / 2 ^ 13 ∧ 0 < w' := by
  obtain ⟨e, he, rfl, hlt, -⟩ := hw
  have key : ∀ e' : ℤ, e' ≤ e - 13 → (2 : ℝ) ^ e' ≤ 2 ^ e / 2 ^ 13 := fun e' h => by
    have h1 : (2 : ℝ) ^ e' ≤ 2 ^ (e - 13) := zpow_le_zpow_right₀ (by norm_num) h
    rw [zpow_sub₀ (by norm_num)] at h1
    exact_mod_cast h1
  rcases (abs_nonneg y).eq_or_lt with h0 | h0
  · exact ⟨2 ^ (-149 : ℤ), ⟨-149, le_rfl, rfl, by rw [← h0]; positivity, Or.inl rfl⟩, key _ (by omega), by positivity⟩
  · obtain ⟨w', hw'⟩ := exists_ulp 24 (-149) h0
    refine ⟨w', hw', ?_, hw'.le.2.2⟩
    obtain ⟨e', he', rfl, -, h3⟩ := hw'
    refine key _ ?_
    rcases h3 with rfl | h3
    · omega
    · have h4 : (2 : ℝ) ^ (24 + e') < 2 ^ (12 + e) := by
        rw [zpow_add₀ (by norm_num), zpow_add₀ (by norm_num)]
        norm_num at h3 hlt ⊢
        linarith
      have := (zpow_lt_zpow_iff_right₀ (by norm_num : (1 : ℝ) < 2)).mp h4
      omega

theorem near_v {r : ℚ → ℚ} (h : Nearest 11 (-24) r) {v : ℚ} {y w : ℝ} (hw : IsUlp 11 (-24) |y| w) (hv : |(v : ℝ) - y| ≤ w / 2 ^ 10) :
    |((r v : ℚ) : ℝ) - v| ≤ w / 2 := by
  have hw0 := hw.le.2.2
  obtain ⟨e, he, rfl, hlt, -⟩ := hw
  rcases le_or_gt |(v : ℝ)| (2 ^ 11 * 2 ^ e) with h1 | h1
  · exact half_ulp_real h (by norm_num) he h1
  · have ht := abs_sub_abs_le_abs_sub (v : ℝ) y
    have hrep : Rep 11 (-24) ((2 : ℚ) ^ (e + 11)) := ⟨1, e + 11, by norm_num, by omega, by norm_num⟩
    have e1 : (((2 : ℚ) ^ (e + 11) : ℚ) : ℝ) = 2 ^ 11 * 2 ^ e := by
      push_cast; rw [zpow_add₀ (by norm_num), mul_comm]; norm_num
    have key : ∀ z : ℚ, Rep 11 (-24) z → |(v : ℝ) - z| ≤ |(v : ℝ)| - 2 ^ 11 * 2 ^ e → |((r v : ℚ) : ℝ) - v| ≤ 2 ^ e / 2 := by
      intro z hz hzv
      have h2 := h.near v z hz
      have h3 : ((|v - r v| : ℚ) : ℝ) ≤ ((|v - z| : ℚ) : ℝ) := by exact_mod_cast h2
      push_cast at h3
      rw [abs_sub_comm]
      have : (2 : ℝ) ^ e / 2 ^ 10 ≤ 2 ^ e / 2 := by
        rw [div_le_div_iff₀ (by norm_num) (by norm_num)]; nlinarith
      linarith
    rcases le_total 0 (v : ℝ) with h0 | h0
    · refine key _ hrep ?_
      rw [abs_of_nonneg h0] at h1 ⊢
      rw [e1, abs_of_nonneg (by linarith)]
    · refine key _ (rep_neg hrep) ?_
      rw [abs_of_nonpos h0] at h1 ⊢
      rw [Rat.cast_neg, e1, abs_of_nonpos (by linarith)]
      linarith

theorem fl16_fin {h : BitVec 16} (hh : Finite16 h) : fl16 h = .fin (f16Value h) := if_neg hh

theorem fl16_inf {h : BitVec 16} (hh : Inf16 h) : fl16 h = .inf h.msb := by
  unfold fl16; rw [if_pos hh.1, if_pos hh.2]

/-- Large values. -/
theorem over_le {y w : ℝ} (hw : IsUlp 11 (-24) |y| w) (h : 65520 ≤ y + w / 2 ^ 10) : 2 ^ (16 : ℤ) ≤ y + 0.501 * w := by
  have hw0 := hw.le.2.2
  by_contra hcon
  push Not at hcon
  norm_num at hcon h
  obtain ⟨e, he, rfl, hlt, -⟩ := hw
  have h1 : (2 : ℝ) ^ e < 2 ^ (5 : ℤ) := by norm_num; linarith
  have h2 := (zpow_lt_zpow_iff_right₀ (by norm_num : (1 : ℝ) < 2)).mp h1
  have h3 : (2 : ℝ) ^ e ≤ 2 ^ (4 : ℤ) := zpow_le_zpow_right₀ (by norm_num) (by omega)
  norm_num at h3
  have := le_abs_self y
  norm_num at hlt
  linarith

/-- A result of f32 within eight ulps becomes one of f16 within 0.501 ulps. -/
theorem cvt_within {x : BitVec 32} {r : Fl} {y c : ℝ} (hc : c ≤ 8) (hx : Denotes x r)
    (hw : Within 24 (-149) 128 c y r ∨ (r = .inf false ∧ 2 ^ (16 : ℤ) ≤ y)) : Within 11 (-24) 16 0.501 y (fl16 (f32ToU16 x)) := by
  have neg_ulp : ∀ {w}, IsUlp 11 (-24) |y| w → IsUlp 11 (-24) |(-y)| w := fun h => by rwa [abs_neg]
  cases r with
  | nan => rcases hw with hw | ⟨hw, -⟩; exacts [hw.elim, by cases hw]
  | inf s =>
    obtain ⟨h1, h2⟩ := (f32ToU16_special x).1 hx.1
    rw [fl16_inf h1, h2, hx.2]
    intro w hu
    have hw0 := hu.le.2.2
    rcases hw with hw | ⟨hs, hy⟩
    · obtain ⟨w', hu', hle, h0⟩ := ulp_f32 hu
      have h3 := hw w' hu'
      have h4 : c * w' ≤ 0.501 * w := by
        have := mul_le_mul_of_nonneg_right hc h0.le
        norm_num at hle
        linarith
      have h5 : (2 : ℝ) ^ (16 : ℤ) ≤ 2 ^ (128 : ℤ) := zpow_le_zpow_right₀ (by norm_num) (by norm_num)
      split <;> rename_i hs
      · rw [if_pos hs] at h3; linarith
      · rw [if_neg hs] at h3; linarith
    · cases hs
      simp only [Bool.false_eq_true, if_false]
      linarith
  | fin v =>
    obtain ⟨hf, rfl⟩ := hx
    rcases hw with ⟨hrep, hlt, hw⟩ | ⟨hw, -⟩
    swap
    · cases hw
    have hv : ∀ w, IsUlp 11 (-24) |y| w → |(f32Value x : ℝ) - y| ≤ w / 2 ^ 10 := fun w hu => by
      obtain ⟨w', hu', hle, h0⟩ := ulp_f32 hu
      have h1 := hw w' hu'
      have h2 := mul_le_mul_of_nonneg_right hc h0.le
      norm_num at hle ⊢
      linarith
    obtain ⟨hn, hmsb⟩ := f32ToU16_nearest x hf
    obtain ⟨ho, -⟩ := f32ToU16_thresholds x hf
    by_cases hi : Inf16 (f32ToU16 x)
    · rw [fl16_inf hi, hmsb]
      have hbig := ho.mp hi
      have hpos : 0 ≤ (mag 23 (x.toNat % 2 ^ 31) : ℚ) * (2 : ℚ) ^ (-149 : ℤ) := by positivity
      have hmag := f32Value_mag x
      intro w hu
      have h1 := _root_.abs_le.mp (hv w hu)
      split <;> rename_i hs
      · have e : f32Value x ≤ -65520 := by
          have : f32Value x ≤ 0 := by rw [hmag, sgn, if_pos hs]; linarith
          rw [abs_of_nonpos this] at hbig; linarith
        have e' : (f32Value x : ℝ) ≤ ((-65520 : ℚ) : ℝ) := by exact_mod_cast e
        push_cast at e'
        have := over_le (neg_ulp hu) (by linarith)
        linarith
      · have e : 65520 ≤ f32Value x := by
          have : 0 ≤ f32Value x := by rw [hmag, sgn, if_neg hs]; linarith
          rwa [abs_of_nonneg this] at hbig
        have e' : ((65520 : ℚ) : ℝ) ≤ (f32Value x : ℝ) := by exact_mod_cast e
        push_cast at e'
        exact over_le hu (by linarith)
    · have hlt2 : |f32Value x| < 65520 := by
        by_contra hcon
        exact hi (ho.mpr (not_lt.mp hcon))
      have hfin : Finite16 (f32ToU16 x) := fun he => by
        by_cases hm : m16 (f32ToU16 x) = 0
        · exact hi ⟨he, hm⟩
        · exact hn.notNaN ⟨he, hm⟩
      rw [fl16_fin hfin]
      refine ⟨rep_f16 hfin, by have := f16_bound _ hfin; norm_num at this ⊢; exact this, fun w hu => ?_⟩
      obtain ⟨r, hr⟩ := exists_nearest (p := 11) (by norm_num) (-24)
      have h1 := near_v hr hu (hv w hu)
      have hle : |f16Value (f32ToU16 x) - f32Value x| ≤ |r (f32Value x) - f32Value x| := by
        have r1 : Rep 11 (-24) ((2 : ℚ) ^ 16) := ⟨1, 16, by norm_num, by norm_num, by norm_num⟩
        have hv2 := _root_.abs_lt.mp hlt2
        have u1 := hr.mono (show f32Value x ≤ 2 ^ 16 by norm_num; linarith)
        have u2 := hr.mono (show -2 ^ 16 ≤ f32Value x by norm_num; linarith)
        rw [hr.fix r1] at u1
        rw [hr.fix (rep_neg r1)] at u2
        rcases u1.lt_or_eq with u1 | u1
        · rcases u2.lt_or_eq with u2 | u2
          · obtain ⟨h', f1, f2⟩ := f16_exists (hr.rep (f32Value x)) (_root_.abs_lt.mpr ⟨u2, u1⟩)
            have := hn.nearest h' (fun hnan => f1 hnan.1)
            rwa [f2] at this
          · have := hn.nearest 0xfc00#16 (by simp [NaN16, e16, m16])
            rwa [← u2, show (-2 ^ 16 : ℚ) = f16Value 0xfc00#16 by simp [f16Value, e16, m16, sgn, BitVec.msb_eq_decide]; norm_num]
        · have := hn.nearest 0x7c00#16 (by simp [NaN16, e16, m16])
          rwa [u1, show (2 ^ 16 : ℚ) = f16Value 0x7c00#16 by simp [f16Value, e16, m16, sgn, BitVec.msb_eq_decide]; norm_num]
      have hle' : ((|f16Value (f32ToU16 x) - f32Value x| : ℚ) : ℝ) ≤ ((|r (f32Value x) - f32Value x| : ℚ) : ℝ) := by exact_mod_cast hle
      push_cast at hle'
      have h2 := hv w hu
      have h3 := abs_sub_le (f16Value (f32ToU16 x) : ℝ) (f32Value x : ℝ) y
      have hw0 := hu.le.2.2
      norm_num at h2 ⊢
      linarith

/-- What the theorems about f32 say about `g`; `c` is the number of ulps. -/
def Good (c : ℝ) (D : ℚ → Prop) (g : ℚ → Option Fl) (Y : ℝ → ℝ) : Prop :=
  ∀ q, D q → Rep 24 (-149) q → |q| < 2 ^ 16 →
    ∃ r, g q = some r ∧ (Within 24 (-149) 128 c (Y q) r ∨ (r = .inf false ∧ 2 ^ (16 : ℤ) ≤ Y q))

theorem denotes_exists {r : Fl} {y c : ℝ} (h : Within 24 (-149) 128 c y r ∨ (r = .inf false ∧ 2 ^ (16 : ℤ) ≤ y)) : ∃ x, Denotes x r := by
  cases r with
  | nan => rcases h with h | ⟨h, -⟩; exacts [h.elim, by cases h]
  | inf s =>
    cases s
    · exact ⟨0x7f800000#32, ⟨by simp [e32], by simp [m32]⟩, by simp [BitVec.msb_eq_decide]⟩
    · exact ⟨0xff800000#32, ⟨by simp [e32], by simp [m32]⟩, by simp [BitVec.msb_eq_decide]⟩
  | fin q =>
    rcases h with ⟨h1, h2, -⟩ | ⟨h, -⟩
    · obtain ⟨x, hx⟩ := f32_exists' h1 (by exact_mod_cast h2)
      exact ⟨x, hx⟩
    · cases h

theorem accurate_of {c : ℝ} (hc : c ≤ 8) {D : ℚ → Prop} {g : ℚ → Option Fl} {Y : ℝ → ℝ} (hg : Good c D g Y) : AccurateF16 D g Y := by
  classical
  constructor
  · refine ⟨fun x => if h : ∃ z, ∀ r, g (f32Value x) = some r → Denotes z r then h.choose else 0, ?_⟩
    intro x hx hb hD r hr
    obtain ⟨r', h1, h2⟩ := hg _ hD (rep_f32 hx).1 hb
    obtain ⟨z, hz⟩ := denotes_exists h2
    have hex : ∃ z, ∀ r, g (f32Value x) = some r → Denotes z r := ⟨z, fun r hr => by
      rw [h1] at hr; cases hr; exact hz⟩
    simp only [dif_pos hex]
    exact hex.choose_spec r hr
  · intro f hf a ha hD
    obtain ⟨x, x1, x2, x3⟩ := dec_spec a ha
    have hb := f16_bound a ha
    obtain ⟨r, h1, h2⟩ := hg (f32Value x) (by rwa [x3]) (rep_f32 x2).1 (by rwa [x3])
    have hden := hf x x2 (by rwa [x3]) (by rwa [x3]) r h1
    have hs : scalarF16 (fun x _ => f x) a a = some (f32ToU16 (f x)) := by simp [scalarF16, x1]
    rw [x3] at h2
    exact ⟨_, hs, by simpa [cpuLane2, scalarF16, Cpu.f16Elem] using hs, cvt_within hc hden h2⟩

theorem accurate {D : ℚ → Prop} {g : ℚ → Option Fl} {Y : ℝ → ℝ} (hg : Good 3.5 D g Y) : AccurateF16 D g Y :=
  accurate_of (by norm_num) hg

/-! ### The functions -/

theorem le27 {q : ℚ} (h : |q| < 2 ^ 16) : |q| ≤ 2 ^ 27 := h.le.trans (by norm_num)

/-- **exp_u10, f16**. -/
theorem exp_f16 (h : Nearest 24 (-149) rnd) (hd : Nearest 53 (-1074) rndd) (fused : Bool) (hm : m.Ok) :
    AccurateF16 (fun _ => True) (fun q => xexpf rnd fused m rndd (.fin q)) Real.exp :=
  accurate fun q _ hr hb => by
    obtain ⟨r, h1, h2⟩ := Exp.xexpf_within_partial h hd fused hm hr (fun _ => le27 hb)
    exact ⟨r, h1, Or.inl (h2.mono (by norm_num))⟩

/-- **exp2_u35, f16**. -/
theorem exp2_f16 (h : Nearest 24 (-149) rnd) (hd : Nearest 53 (-1074) rndd) (fused : Bool) (hm : m.Ok) :
    AccurateF16 (fun _ => True) (fun q => xexp2f rnd fused m rndd (.fin q)) (fun x => 2 ^ x) :=
  accurate fun q _ _ hb => by
    obtain ⟨r, h1, h2⟩ := Exp.xexp2f_within (d := q) h hd fused hm (fun _ => le27 hb)
    exact ⟨r, h1, Or.inl h2⟩

/-- **exp10_u35, f16**. -/
theorem exp10_f16 (h : Nearest 24 (-149) rnd) (hd : Nearest 53 (-1074) rndd) (fused : Bool) (hm : m.Ok) :
    AccurateF16 (fun _ => True) (fun q => xexp10f rnd fused m rndd (.fin q)) (fun x => 10 ^ x) :=
  accurate fun q _ hr hb => by
    obtain ⟨r, h1, h2⟩ := Exp.xexp10f_within h hd fused hm hr (fun _ => le27 hb)
    exact ⟨r, h1, Or.inl h2⟩

theorem cosh_large {x : ℝ} (h : 88 ≤ |x|) : 2 ^ (16 : ℤ) ≤ Real.cosh x := by
  rw [← Real.cosh_abs, Real.cosh_eq]
  have h1 : Real.exp 88 ≤ Real.exp |x| := Real.exp_le_exp.mpr h
  have h2 : Real.exp 88 = Real.exp 8 ^ 11 := by rw [← Real.exp_nat_mul]; norm_num
  have h3 : (9 : ℝ) ≤ Real.exp 8 := by have := Real.add_one_le_exp (8 : ℝ); linarith
  have h4 : (9 : ℝ) ^ 11 ≤ Real.exp 8 ^ 11 := pow_le_pow_left₀ (by norm_num) h3 11
  have := Real.exp_pos (-|x|)
  norm_num at h4 ⊢
  linarith

/-- **cosh_u35, f16**; also where the function on f32 returns infinity too early. -/
theorem cosh_f16 (h : Nearest 24 (-149) rnd) (hd : Nearest 53 (-1074) rndd) (fused : Bool) (hm : m.Ok) :
    AccurateF16 (fun _ => True) (fun q => xcoshf35 rnd fused m rndd (.fin q)) Real.cosh :=
  accurate fun q _ hr hb => by
    rcases le_or_gt |q| 88 with h8 | h8
    · obtain ⟨r, h1, h2⟩ := Cosh.xcoshf35_within_partial h hd fused hm hr h8
      exact ⟨r, h1, Or.inl h2⟩
    · refine ⟨_, Cosh.xcoshf35_over h hd fused hm hr h8 (fun _ => le27 hb), Or.inr ⟨rfl, cosh_large ?_⟩⟩
      have : ((88 : ℚ) : ℝ) ≤ ((|q| : ℚ) : ℝ) := by exact_mod_cast h8.le
      push_cast at this
      exact this

/-- **atan_u35, f16**. -/
theorem atan_f16 (h : Nearest 24 (-149) rnd) (hd : Nearest 53 (-1074) rndd) (simd fused : Bool) :
    AccurateF16 (fun _ => True) (fun q => some (xatanf rnd simd fused rndd (.fin q))) Real.arctan :=
  accurate fun q _ _ _ => ⟨_, rfl, Or.inl (Atan.xatanf_within h hd simd fused q)⟩

/-- **log_u35, f16**, positive arguments. -/
theorem log_f16 (h : Nearest 24 (-149) rnd) (simd fused : Bool) :
    AccurateF16 (fun q => 0 < q) (fun q => some (xlogf rnd simd fused (.fin q))) Real.log :=
  accurate fun q h0 hr hb => ⟨_, rfl, Or.inl (Log.xlogf_within h simd fused hr h0
    ((le_abs_self q).trans_lt (hb.trans (by norm_num))))⟩

/-- **asin_u35, f16**, arguments from -1 to 1. -/
theorem asin_f16 (h : Nearest 24 (-149) rnd) (hd : Nearest 53 (-1074) rndd) (hq : Root 24 (-149) sq) (simd fused : Bool) :
    AccurateF16 (fun q => |q| ≤ 1) (fun q => some (xasinf rnd sq simd fused rndd (.fin q))) Real.arcsin :=
  accurate fun _ h1 hr _ => ⟨_, rfl, Or.inl (Asin.xasinf_within h hd hq simd fused hr h1)⟩

/-- **acos_u35, f16**, arguments from -1 to 1. -/
theorem acos_f16 (h : Nearest 24 (-149) rnd) (hd : Nearest 53 (-1074) rndd) (hq : Root 24 (-149) sq) (simd fused : Bool) :
    AccurateF16 (fun q => |q| ≤ 1) (fun q => some (xacosf rnd sq simd fused rndd (.fin q))) Real.arccos :=
  accurate fun _ h1 hr _ => ⟨_, rfl, Or.inl ((Asin.xacosf_within h hd hq simd fused hr h1).mono (by norm_num))⟩

/-- **cbrt_u35, f16**, for every function `Y` that is the cube root. -/
theorem cbrt_f16 (h : Nearest 24 (-149) rnd) (simd fused : Bool) {Y : ℝ → ℝ} (hY : ∀ x, Y x ^ 3 = x) :
    AccurateF16 (fun _ => True) (fun q => some (.fin (xcbrtf rnd simd fused q))) Y :=
  accurate fun q _ hr hb => ⟨_, rfl, Or.inl <| by
    rcases eq_or_ne q 0 with rfl | h0
    · have hy : Y ((0 : ℚ) : ℝ) = 0 := by
        have := hY ((0 : ℚ) : ℝ)
        rw [Rat.cast_zero] at this ⊢
        exact pow_eq_zero_iff (by norm_num) |>.mp this
      rw [(Cbrt.cbrt_zero h simd fused).2, hy]
      exact ⟨rep_zero _ _, by norm_num, fun w hw => by have := hw.le.2.2; norm_num; linarith⟩
    · exact (Cbrt.xcbrtf_within h simd fused hr h0 (hb.trans (by norm_num)) (hY q)).mono (by norm_num)⟩

/-- The cube root that `cbrt_f16` asks for exists. -/
example : ∃ Y : ℝ → ℝ, ∀ x, Y x ^ 3 = x := by
  have pos : ∀ x : ℝ, 0 ≤ x → ∃ y : ℝ, y ^ 3 = x := fun x hx => ⟨_, Real.rpow_inv_natCast_pow hx (by norm_num)⟩
  have : ∀ x : ℝ, ∃ y : ℝ, y ^ 3 = x := fun x => by
    rcases le_total 0 x with h | h
    · exact pos x h
    · obtain ⟨y, hy⟩ := pos (-x) (by linarith)
      exact ⟨-y, by rw [Odd.neg_pow (by decide), hy, neg_neg]⟩
  exact ⟨fun x => (this x).choose, fun x => (this x).choose_spec⟩

/-- A concrete case: the operator for `atan` on the f16 with value 1. -/
example : ∃ f a, Finite16 a ∧ f16Value a = 1 ∧ Accurate f a (Real.pi / 4) := by
  obtain ⟨r, hr⟩ := exists_nearest (p := 24) (by norm_num) (-149)
  obtain ⟨rd, hrd⟩ := exists_nearest (p := 53) (by norm_num) (-1074)
  obtain ⟨⟨f, hf⟩, hall⟩ := atan_f16 hr hrd false false
  have e : f16Value 0x3c00#16 = 1 := by simp [f16Value, e16, m16, sgn, BitVec.msb_eq_decide]
  have ha : Finite16 0x3c00#16 := by simp [Finite16, e16]
  have := hall f hf _ ha trivial
  rw [e, Rat.cast_one, Real.arctan_one] at this
  exact ⟨f, _, ha, e, this⟩

end Nsimd.Props.MathF16
