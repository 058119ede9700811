import Verif.Model.MathCalls
import Verif.Props.Fmod
import Verif.Props.Remainder
import Verif.Props.F16Arith
import Verif.Props.X86Cvt
import Verif.Props.ArmCvt

/-!
# C96: the operators apply the mathematical functions to every lane; `fmod` and `remainder` of `f16` are exact
-/

namespace Nsimd.Props.MathCalls
open Nsimd Nsimd.Float Nsimd.MathCalls Nsimd.Cpu
open Nsimd.Props Nsimd.Props.Fp16 Nsimd.Fp16 Nsimd.Props.F16Arith Nsimd.F16Arith
open Nsimd.Props.Round (Rep)
open Nsimd.Props.Ieee (rq)
open Nsimd.Props.Fmod (IsFmod)
open Nsimd.Props.Remainder (IsRemainder)
open Nsimd.Fmod (xfmodf)
open Nsimd.Remainder (xremainderf)

/-! ### Representable remainders -/

/-- What is left of `x` after multiples of `y` is a number of the format, if it is not larger than either. -/
theorem rep_left {p : Nat} {emin : ℤ} (hp : 1 ≤ p) {x y r : ℚ} {n : ℤ} (hx : Rep p emin x) (hy : Rep p emin y)
    (e : r = x - n * y) (h1 : |r| ≤ |x|) (h2 : |r| ≤ |y|) : Rep p emin r := by
  obtain ⟨e1, he1, m1, b1⟩ := rep_exp hx
  obtain ⟨e2, he2, m2, b2⟩ := rep_exp hy
  have hm : ∀ f, f ≤ e1 → f ≤ e2 → Mult f r := by
    intro f f1 f2
    rw [e]
    refine (m1.le f1).sub ?_
    have : Mult 0 (n : ℚ) := ⟨n, by simp⟩
    have := this.mul (m2.le f2)
    rwa [zero_add] at this
  rcases le_total e1 e2 with h | h
  · exact rep_of_mult hp he1 (hm e1 le_rfl h) (h1.trans b1.le)
  · exact rep_of_mult hp he2 (hm e2 h le_rfl) (h2.trans b2.le)

theorem isFmod_le {x y r : ℚ} (h : IsFmod x y r) : |r| ≤ |x| ∧ |r| ≤ |y| := by
  obtain ⟨⟨n, e⟩, h1, h2⟩ := h
  refine ⟨?_, h1.le⟩
  by_contra hc
  push Not at hc
  have hn : |x - r| < |y| := by
    refine lt_of_le_of_lt ?_ h1
    rcases le_total 0 x with hx | hx <;> rcases le_total 0 r with hr | hr
    · rw [abs_of_nonneg hx, abs_of_nonneg hr] at hc
      rw [abs_of_nonneg hr, _root_.abs_le]; constructor <;> linarith
    · have : r * x = 0 := le_antisymm (mul_nonpos_of_nonpos_of_nonneg hr hx) h2
      rcases mul_eq_zero.mp this with h | h <;> rw [h] at hc ⊢ <;> simp at hc ⊢
      exact absurd hc (not_lt.mpr (abs_nonneg x))
    · have : r * x = 0 := le_antisymm (mul_nonpos_of_nonneg_of_nonpos hr hx) h2
      rcases mul_eq_zero.mp this with h | h <;> rw [h] at hc ⊢ <;> simp at hc ⊢
      exact absurd hc (not_lt.mpr (abs_nonneg x))
    · rw [abs_of_nonpos hx, abs_of_nonpos hr] at hc
      rw [abs_of_nonpos hr, _root_.abs_le]; constructor <;> linarith
  rw [show x - r = n * y by rw [e]; ring, abs_mul] at hn
  have hy : 0 < |y| := lt_of_le_of_lt (abs_nonneg _) h1
  have : |(n : ℚ)| < 1 := by by_contra hh; push Not at hh; nlinarith
  have : |n| < 1 := by exact_mod_cast this
  have : n = 0 := by rw [abs_lt] at this; omega
  rw [this] at e
  simp at e
  rw [e] at hc
  exact lt_irrefl _ hc

theorem isRemainder_le {x y r : ℚ} (hy : y ≠ 0) (h : IsRemainder x y r) : (∃ n : ℤ, r = x - n * y) ∧ |r| ≤ |x| ∧ |r| ≤ |y| := by
  obtain ⟨n, e, h1, -⟩ := h
  have hya : 0 < |y| := abs_pos.mpr hy
  have key : ∀ m : ℤ, |x / y - m| = |x - m * y| / |y| := by
    intro m
    rw [← abs_div]; congr 1; field_simp
  refine ⟨⟨n, e⟩, ?_, ?_⟩
  · have := h1 0
    rw [key, key, ← e] at this
    simpa using (div_le_div_iff_of_pos_right hya).mp this
  · have h2 := h1 ⌊x / y⌋
    have h3 : |x / y - ⌊x / y⌋| ≤ 1 := by
      rw [_root_.abs_le]
      constructor <;> linarith [Int.floor_le (x / y), Int.lt_floor_add_one (x / y)]
    have h4 := h2.trans h3
    rw [key, ← e, div_le_one hya] at h4
    exact h4

/-! ### Numbers and patterns -/

theorem rep_f32 {x : BitVec 32} (hx : Finite32 x) : Rep 24 (-149) (f32Value x) ∧ |f32Value x| < 2 ^ 128 := by
  refine ⟨?_, ?_⟩
  · obtain ⟨K, e, h1, h2, h3⟩ := f32_form x
    exact ⟨K, e, h1, h2, h3⟩
  · have hs : |(sgn x : ℚ)| = 1 := by unfold sgn; split <;> simp
    have hm : (m32 x : ℚ) < 2 ^ 23 := by
      have : m32 x < 2 ^ 23 := by unfold m32; omega
      exact_mod_cast this
    have he : e32 x ≤ 254 := by
      have : e32 x < 256 := by have := x.isLt; unfold e32; omega
      unfold Finite32 at hx; omega
    have hm0 : (0 : ℚ) ≤ m32 x := by positivity
    unfold f32Value
    split
    · rw [abs_mul, abs_mul, hs, one_mul, abs_of_nonneg hm0, abs_of_pos (by positivity)]
      calc (m32 x : ℚ) * 2 ^ (-149 : ℤ) ≤ 2 ^ 23 * 2 ^ (-149 : ℤ) := by gcongr
        _ < 2 ^ 128 := by norm_num
    · rw [abs_mul, abs_mul, hs, one_mul, abs_of_nonneg (by positivity), abs_of_pos (by positivity)]
      calc ((2 : ℚ) ^ 23 + m32 x) * 2 ^ ((e32 x : ℤ) - 150) < 2 ^ 24 * 2 ^ ((e32 x : ℤ) - 150) := by
            apply mul_lt_mul_of_pos_right _ (by positivity); linarith
        _ ≤ 2 ^ 24 * 2 ^ (104 : ℤ) := by
            apply mul_le_mul_of_nonneg_left _ (by positivity)
            exact zpow_le_zpow_right₀ (by norm_num) (by omega)
        _ = 2 ^ 128 := by norm_num

theorem rep_f16 {a : BitVec 16} (ha : Finite16 a) : Rep 11 (-24) (f16Value a) := by
  obtain ⟨A, e, h1, -, h3⟩ := f16_form a ha
  refine ⟨A, e - 24, h1, by omega, ?_⟩
  rw [h3, sub_eq_add_neg, zpow_add₀ (by norm_num)]
  push_cast
  rw [zpow_natCast]; ring

/-- A number of the format below `2^(p + E)` has an exponent of at most `E`. -/
theorem rep_below {p : Nat} {emin E : ℤ} {v : ℚ} (hv : Rep p emin v) (hE : emin ≤ E) (hb : |v| < 2 ^ p * 2 ^ E) :
    ∃ K j : ℤ, |K| < 2 ^ p ∧ emin ≤ j ∧ j ≤ E ∧ v = K * 2 ^ j := by
  obtain ⟨m, e, hm, he, rfl⟩ := hv
  by_cases h : e ≤ E
  · exact ⟨m, e, hm, he, h, rfl⟩
  · have ev : (m : ℚ) * 2 ^ e = ((m * 2 ^ (e - E).toNat : ℤ) : ℚ) * 2 ^ E := by
      push_cast
      rw [mul_assoc, ← zpow_natCast, ← zpow_add₀ (by norm_num), Int.toNat_of_nonneg (by omega), sub_add_cancel]
    rw [ev] at hb ⊢
    refine ⟨_, E, ?_, hE, le_rfl, rfl⟩
    rw [abs_mul, abs_of_pos (two_zpow_pos E)] at hb
    have := lt_of_mul_lt_mul_right hb (two_zpow_pos E).le
    exact_mod_cast this

/-- Every number of the format below `2^16` has a finite pattern. -/
theorem f16_exists {v : ℚ} (hv : Rep 11 (-24) v) (hb : |v| < 2 ^ 16) : ∃ h, Finite16 h ∧ f16Value h = v := by
  obtain ⟨K, j, hK, hj1, hj2, rfl⟩ := rep_below (E := 5) hv (by norm_num) (by convert hb using 1; norm_num)
  obtain ⟨i, rfl⟩ : ∃ i : Nat, j = i - 24 := ⟨(j + 24).toNat, by omega⟩
  obtain ⟨u, hu, hm⟩ := mag10_surj K.natAbs (by rw [abs_lt] at hK; omega) i (by omega)
  have hmq : (mag 10 u : ℤ) = |K| * 2 ^ i := by rw [hm]; push_cast; rfl
  have fin : ∀ {h : BitVec 16}, ¬ NaN16 h → |pos h| < 31 * 2 ^ 10 → Finite16 h := by
    intro h h1 h2
    unfold Finite16 e16
    unfold pos at h2
    have := h.isLt
    split at h2 <;> rw [abs_lt] at h2 <;> omega
  have ev : ((K : ℚ) * 2 ^ ((i : ℤ) - 24)) = ((K * 2 ^ i : ℤ) : ℚ) * 2 ^ (-24 : ℤ) := by
    rw [sub_eq_add_neg, zpow_add₀ (by norm_num), zpow_natCast]; push_cast; ring
  by_cases hs : K < 0
  · obtain ⟨h, h1, h2⟩ := pos_surj (-(u : ℤ)) (by omega) (by omega)
    refine ⟨h, fin h1 (by rw [h2, abs_lt]; omega), ?_⟩
    have hu0 : u ≠ 0 := by
      rintro rfl
      rw [show mag 10 0 = 0 by decide] at hm
      have : K.natAbs * 2 ^ i ≠ 0 := mul_ne_zero (by omega) (by positivity)
      omega
    rw [f16Value_val, h2, ev]
    congr 2
    unfold val
    rw [if_pos (by omega), show (-(u : ℤ)).natAbs = u by omega, hmq, abs_of_neg hs]; ring
  · obtain ⟨h, h1, h2⟩ := pos_surj (u : ℤ) (by omega) (by omega)
    refine ⟨h, fin h1 (by rw [h2, abs_lt]; omega), ?_⟩
    rw [f16Value_val, h2, ev]
    congr 2
    unfold val
    rw [if_neg (by omega), show ((u : ℤ)).natAbs = u by omega, hmq, abs_of_nonneg (by omega)]

/-- Every number of the format below `2^128` has a finite pattern. -/
theorem f32_exists' {v : ℚ} (hv : Rep 24 (-149) v) (hb : |v| < 2 ^ 128) : ∃ h, Finite32 h ∧ f32Value h = v := by
  obtain ⟨K, j, hK, hj1, hj2, rfl⟩ := rep_below (E := 104) hv (by norm_num) (by convert hb using 1; norm_num)
  exact f32_exists_lt K hK j hj1 hj2

/-- The conversion to `f16` of a number that is one. -/
theorem f32ToU16_exact {y : BitVec 32} (hy : Finite32 y) {h : BitVec 16} (hh : Finite16 h)
    (e : f16Value h = f32Value y) : Finite16 (f32ToU16 y) ∧ f16Value (f32ToU16 y) = f32Value y := by
  have hN := (f32ToU16_nearest y hy).1
  have := hN.nearest h (by unfold Finite16 at hh; unfold NaN16; tauto)
  rw [e, sub_self, abs_zero, abs_nonpos_iff, sub_eq_zero] at this
  refine ⟨?_, this⟩
  by_contra hc
  have hi := hN.notNaN
  unfold Finite16 at hc
  unfold NaN16 at hi
  have he : e16 (f32ToU16 y) = 31 := by omega
  have hm : m16 (f32ToU16 y) = 0 := by tauto
  have hb := f16_bound h hh
  have hs : |(sgn (f32ToU16 y) : ℚ)| = 1 := by unfold sgn; split <;> simp
  rw [e, ← this] at hb
  unfold f16Value at hb
  rw [if_neg (by omega), he, hm, abs_mul, abs_mul, hs] at hb
  norm_num at hb

/-! ### C96 -/

/-- The function `f` on patterns computes `g` on the finite numbers with a divisor that is not zero and a quotient of
at most `2^128`. Specification: the link between SLEEF's functions on numbers, `Model.Fmod` and `Model.Remainder`, and
the function on patterns that the operators call. -/
def Computes (g : ℚ → ℚ → Option ℚ) (f : BitVec 32 → BitVec 32 → BitVec 32) : Prop :=
  ∀ x y, Finite32 x → Finite32 y → f32Value y ≠ 0 → |f32Value x| ≤ 2 ^ 128 * |f32Value y| →
    ∀ r, g (f32Value x) (f32Value y) = some r → Finite32 (f x y) ∧ f32Value (f x y) = r

theorem ratio_f16 {a b : BitVec 16} (ha : Finite16 a) (hb : Finite16 b) (h0 : f16Value b ≠ 0) :
    |f16Value a| ≤ 2 ^ 128 * |f16Value b| := by
  obtain ⟨B, e, -, -, h3⟩ := f16_form b hb
  have hB : B * 2 ^ e ≠ 0 := by
    intro h
    rw [h] at h3
    simp at h3
    exact h0 h3
  have h1 : (1 : ℚ) ≤ |((B * 2 ^ e : ℤ) : ℚ)| := by
    have : 1 ≤ |B * 2 ^ e| := Int.one_le_abs hB
    exact_mod_cast this
  have hp : (0 : ℚ) < 2 ^ (-24 : ℤ) := by positivity
  rw [h3, abs_mul, abs_of_pos hp]
  calc |f16Value a| ≤ 2 ^ 16 := (f16_bound a ha).le
    _ ≤ 2 ^ 128 * (1 * 2 ^ (-24 : ℤ)) := by norm_num
    _ ≤ _ := by gcongr

/-- The rest of the computation on `f16`: a remainder in `f32` is one in `f16`. -/
theorem result_f16 {g : ℚ → ℚ → Option ℚ} {f : BitVec 32 → BitVec 32 → BitVec 32} (hf : Computes g f)
    {a b : BitVec 16} (ha : Finite16 a) (hb : Finite16 b) (h0 : f16Value b ≠ 0) {r : ℚ} {n : ℤ}
    (hg : g (f16Value a) (f16Value b) = some r) (e : r = f16Value a - n * f16Value b) (h1 : |r| ≤ |f16Value a|)
    (h2 : |r| ≤ |f16Value b|) :
    ∃ h, scalarF16 f a b = some h ∧ cpuLane2 f a b = some h ∧ Finite16 h ∧ f16Value h = r := by
  obtain ⟨x, x1, x2, x3⟩ := dec_spec a ha
  obtain ⟨y, y1, y2, y3⟩ := dec_spec b hb
  obtain ⟨f1, f2⟩ := hf x y x2 y2 (by rw [y3]; exact h0) (by rw [x3, y3]; exact ratio_f16 ha hb h0) r
    (by rw [x3, y3]; exact hg)
  obtain ⟨h, hh, he⟩ := f16_exists (rep_left (by norm_num) (rep_f16 ha) (rep_f16 hb) e h1 h2)
    (lt_of_le_of_lt h1 (f16_bound a ha))
  obtain ⟨k1, k2⟩ := f32ToU16_exact f1 hh (he.trans f2.symm)
  have hs : scalarF16 f a b = some (f32ToU16 (f x y)) := by simp [scalarF16, x1, y1]
  refine ⟨_, hs, ?_, k1, k2.trans f2⟩
  simpa [cpuLane2, scalarF16, Cpu.f16Elem] using hs

/-- `fmod` of finite `f16` is exact for every divisor that is not zero, in the scalar operator and in a lane of the CPU
back end, which converts at the load and the store. -/
theorem fmod_f16_exact (junk : ℚ → ℤ) {f : BitVec 32 → BitVec 32 → BitVec 32}
    (hf : Computes (xfmodf (rq .f32) junk) f) {a b : BitVec 16} (ha : Finite16 a) (hb : Finite16 b)
    (h0 : f16Value b ≠ 0) :
    ∃ h, scalarF16 f a b = some h ∧ cpuLane2 f a b = some h ∧ Finite16 h ∧
      IsFmod (f16Value a) (f16Value b) (f16Value h) := by
  obtain ⟨x, x1, x2, x3⟩ := dec_spec a ha
  obtain ⟨y, y1, y2, y3⟩ := dec_spec b hb
  obtain ⟨r, hr, hs⟩ := Fmod.xfmodf_exact_partial junk (x := f16Value a) (y := f16Value b)
    ⟨x3 ▸ (rep_f32 x2).1, y3 ▸ (rep_f32 y2).1, h0, x3 ▸ (rep_f32 x2).2, ratio_f16 ha hb h0⟩
  obtain ⟨n, e⟩ := hs.1
  obtain ⟨h, k1, k2, k3, k4⟩ := result_f16 hf ha hb h0 hr e (isFmod_le hs).1 (isFmod_le hs).2
  exact ⟨h, k1, k2, k3, k4 ▸ hs⟩

/-- `remainder` of finite `f16` is exact for every divisor that is not zero. -/
theorem remainder_f16_exact (junk : ℚ → ℤ) {f : BitVec 32 → BitVec 32 → BitVec 32}
    (hf : Computes (xremainderf (rq .f32) junk) f) {a b : BitVec 16} (ha : Finite16 a) (hb : Finite16 b)
    (h0 : f16Value b ≠ 0) :
    ∃ h, scalarF16 f a b = some h ∧ cpuLane2 f a b = some h ∧ Finite16 h ∧
      IsRemainder (f16Value a) (f16Value b) (f16Value h) := by
  obtain ⟨x, x1, x2, x3⟩ := dec_spec a ha
  obtain ⟨y, y1, y2, y3⟩ := dec_spec b hb
  obtain ⟨r, hr, hs⟩ := Remainder.xremainderf_exact_partial junk (x := f16Value a) (y := f16Value b)
    ⟨x3 ▸ (rep_f32 x2).1, y3 ▸ (rep_f32 y2).1, h0, x3 ▸ (rep_f32 x2).2, y3 ▸ (rep_f32 y2).2, ratio_f16 ha hb h0⟩
  obtain ⟨⟨n, e⟩, h1, h2⟩ := isRemainder_le h0 hs
  obtain ⟨h, k1, k2, k3, k4⟩ := result_f16 hf ha hb h0 hr e h1 h2
  exact ⟨h, k1, k2, k3, k4 ▸ hs⟩

/-- There are functions on patterns that compute `xfmodf` and `xremainderf`: the results are numbers of the format. -/
theorem computes_exists (junk : ℚ → ℤ) :
    (∃ f, Computes (xfmodf (rq .f32) junk) f) ∧ ∃ f, Computes (xremainderf (rq .f32) junk) f := by
  have key : ∀ g : ℚ → ℚ → Option ℚ, (∀ x y, Finite32 x → Finite32 y → f32Value y ≠ 0 →
      |f32Value x| ≤ 2 ^ 128 * |f32Value y| → ∀ r, g (f32Value x) (f32Value y) = some r →
      (∃ n : ℤ, r = f32Value x - n * f32Value y) ∧ |r| ≤ |f32Value x| ∧ |r| ≤ |f32Value y|) →
      ∃ f, Computes g f := by
    intro g hg
    have hz : ∀ x y : BitVec 32, ∃ z : BitVec 32, Finite32 x → Finite32 y → f32Value y ≠ 0 →
        |f32Value x| ≤ 2 ^ 128 * |f32Value y| → ∀ r, g (f32Value x) (f32Value y) = some r →
        Finite32 z ∧ f32Value z = r := by
      intro x y
      by_cases h : Finite32 x ∧ Finite32 y ∧ f32Value y ≠ 0 ∧ |f32Value x| ≤ 2 ^ 128 * |f32Value y| ∧
          ∃ r, g (f32Value x) (f32Value y) = some r
      · obtain ⟨h1, h2, h3, h4, r, h5⟩ := h
        obtain ⟨⟨n, e⟩, b1, b2⟩ := hg x y h1 h2 h3 h4 r h5
        obtain ⟨z, z1, z2⟩ := f32_exists' (rep_left (by norm_num) (rep_f32 h1).1 (rep_f32 h2).1 e b1 b2)
          (lt_of_le_of_lt b1 (rep_f32 h1).2)
        refine ⟨z, fun _ _ _ _ r' h' => ⟨z1, ?_⟩⟩
        rw [z2]; exact Option.some.inj (h5.symm.trans h')
      · exact ⟨0, fun h1 h2 h3 h4 r h5 => absurd ⟨h1, h2, h3, h4, r, h5⟩ h⟩
    choose f hf using hz
    exact ⟨f, hf⟩
  constructor
  · refine key _ fun x y hx hy h0 hr r h => ?_
    obtain ⟨r', e', hs⟩ := Fmod.xfmodf_exact_partial junk (x := f32Value x) (y := f32Value y)
      ⟨(rep_f32 hx).1, (rep_f32 hy).1, h0, (rep_f32 hx).2, hr⟩
    rw [e'] at h
    cases h
    exact ⟨hs.1, isFmod_le hs⟩
  · refine key _ fun x y hx hy h0 hr r h => ?_
    obtain ⟨r', e', hs⟩ := Remainder.xremainderf_exact_partial junk (x := f32Value x) (y := f32Value y)
      ⟨(rep_f32 hx).1, (rep_f32 hy).1, h0, (rep_f32 hx).2, (rep_f32 hy).2, hr⟩
    rw [e'] at h
    cases h
    exact isRemainder_le h0 hs

/-- The operands 65504 and 2^-24, the largest and the smallest number of the format. -/
example : ∃ f : BitVec 32 → BitVec 32 → BitVec 32, ∃ h, scalarF16 f 0x7bff 0x0001 = some h ∧
    IsFmod (f16Value 0x7bff) (f16Value 0x0001) (f16Value h) := by
  obtain ⟨f, hf⟩ := (computes_exists fun _ => 0).1
  obtain ⟨h, h1, -, -, h2⟩ := fmod_f16_exact (fun _ => 0) hf (a := 0x7bff) (b := 0x0001)
    (by unfold Finite16 e16; decide) (by unfold Finite16 e16; decide) (by
      rw [f16Value, if_pos (by unfold e16; decide), show m16 (0x0001 : BitVec 16) = 1 by unfold m16; decide,
        show sgn (0x0001 : BitVec 16) = 1 by unfold sgn; rw [if_neg (by decide)]]
      norm_num)
  exact ⟨f, h, h1, h2⟩

/-! ### Lanes -/

variable {n : Nat} {α : Type}

/-- The vector function `g` applies `f` to the lanes. Specification. -/
def Lanewise (f : α → α → α) (g : Vec n α → Vec n α → Vec n α) : Prop := ∀ x y i, g x y i = f (x i) (y i)

/-- Operators on `f16` of x86 and POWER: the lanes of both halves, not rounded. -/
theorem x86_ppc_f16_lanes {f : Round.Fl → Round.Fl → Round.Fl} {g : Vec n Round.Fl → Vec n Round.Fl → Vec n Round.Fl}
    (hg : Lanewise f g) (a b : Vec n Round.Fl × Vec n Round.Fl) (i : Fin n) :
    ((x86F16 g a b).1 i = f (a.1 i) (b.1 i) ∧ (x86F16 g a b).2 i = f (a.2 i) (b.2 i)) ∧
    ((ppcF16 g a b).1 i = f (a.1 i) (b.1 i) ∧ (ppcF16 g a b).2 i = f (a.2 i) (b.2 i)) :=
  ⟨⟨hg _ _ i, hg _ _ i⟩, ⟨hg _ _ i, hg _ _ i⟩⟩

/-- Operators on `f16` of Arm with half precision instructions: lane `k` of the result is the function of the lanes
`k` of the operands, rounded to `f16`. -/
theorem arm_f16_lanes (x : ArmCvt.Ext) (r : ℚ → Round.Fl) (junk junk' : Vec (n + n) Round.Fl)
    {f : Round.Fl → Round.Fl → Round.Fl} {g : Vec n Round.Fl → Vec n Round.Fl → Vec n Round.Fl} (hg : Lanewise f g)
    (a b : Vec (n + n) Round.Fl) (k : Fin (n + n)) :
    armF16 x r junk junk' g a b k = ArmCvt.narrow r (f (a k) (b k)) := by
  have ha := ArmCvt.upcvtFF_spec x a
  have hb := ArmCvt.upcvtFF_spec x b
  have hd := ArmCvt.downcvtFF_spec x r junk junk' (g (Nsimd.ArmCvt.upcvtFF x a).1 (Nsimd.ArmCvt.upcvtFF x b).1)
    (g (Nsimd.ArmCvt.upcvtFF x a).2 (Nsimd.ArmCvt.upcvtFF x b).2)
  by_cases h : k.val < n
  · have := (hd ⟨k, h⟩).1
    rw [hg, (ha ⟨k, h⟩).1, (hb ⟨k, h⟩).1] at this
    exact this
  · have := (hd ⟨k - n, by omega⟩).2
    rw [hg, (ha ⟨k - n, by omega⟩).2, (hb ⟨k - n, by omega⟩).2] at this
    have e : (⟨n + (k.val - n), by omega⟩ : Fin (n + n)) = k := Fin.ext (by simp; omega)
    simp only [e] at this
    exact this

/-- The emulations of vectors of two `f64` and of four `f32` apply the scalar function to every lane. -/
theorem emulation_lanes (f : α → α → α) (a b : V2 α) (c d : Vec 4 α) (i : Fin 4) :
    (emu64 f a b).v0 = f a.v0 b.v0 ∧ (emu64 f a b).v1 = f a.v1 b.v1 ∧ emu32 f c d i = f (c i) (d i) := by
  refine ⟨rfl, rfl, ?_⟩
  fin_cases i <;> rfl

/-- The CPU back end applies the scalar function to every lane. -/
theorem cpu_lanes (f : α → α → α) : Lanewise f (cpuOp (n := n) f) := fun _ _ _ => rfl

example : emu32 (fun x y : Nat => 10 * x + y) ![1, 2, 3, 4] ![5, 6, 7, 8] 2 = 37 := by decide

end Nsimd.Props.MathCalls
