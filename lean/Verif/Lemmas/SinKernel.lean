import Verif.Lemmas.SinPoly
import Verif.Lemmas.SinReduce
import Verif.Lemmas.UlpTools
import Verif.Lemmas.ExpFinish

/-!
# Error of the kernel of `sin` and `cos`
-/

namespace Nsimd.Sleef
open Nsimd.DoubleDouble Nsimd.Float Nsimd.Props.Round Nsimd.Props.Hypot Nsimd.Round Nsimd.Hypot Nsimd.Props.Ulp

variable {rnd : ℚ → ℚ}

/-- The number that is rounded last. Proof helper. -/
def sinZ (rnd : ℚ → ℚ) (fused : Bool) (x : ℚ) : ℚ :=
  rnd (rnd (x * x) * rnd (sinPoly64 (flAlg rnd rnd fused) (rnd (x * x)) * x)) + x

theorem sinFinish_eq (rnd : ℚ → ℚ) (fused : Bool) (d : ℚ) (neg : Bool) :
    sinFinish rnd fused d neg = rnd (sinZ rnd fused (if neg then -d else d)) := by
  cases neg <;> simp [sinFinish, sinZ, add, mul]

/-- The polynomial with its rounding errors. -/
theorem sin_poly_fl (h : Nearest 53 (-1074) rnd) (fused : Bool) {s : ℚ} (h0 : 0 ≤ s) (h1 : s ≤ 5 / 2) :
    |((sinPoly64 (flAlg rnd rnd fused) s : ℚ) : ℝ) - Poly.eval sinF s| ≤ 0.201 * (1 / 2 ^ 53) := by
  have h0' : (0 : ℝ) ≤ s := by exact_mod_cast h0
  have h1' : (s : ℝ) ≤ ((5 / 2 : ℚ) : ℝ) := by exact_mod_cast h1
  have E : Env 53 (-1074) rnd rnd (s : ℝ) ((0 : ℚ)) ((5 / 2 : ℚ)) :=
    ⟨by norm_num, by norm_num, h, lit_one h (by norm_num), by push_cast; exact h0', h1'⟩
  have hf := sin_fl fused
  simp only [Bool.and_eq_true, decide_eq_true_eq] at hf
  obtain ⟨⟨hok, hk⟩, hB⟩ := hf
  obtain ⟨-, b0, e1, -⟩ := E.naturalI sin_natural fused hok
  set B := sinPoly64 (bdAlg 53 0 (5 / 2) fused) (Bd.argI 0 (5 / 2)) with hBd
  rw [hk, pow_zero, mul_one, sin_eval] at e1
  have b0' : (0 : ℝ) ≤ B.b := by exact_mod_cast b0
  refine e1.trans ?_
  have h1 := mul_le_mul_of_nonneg_left E.eta_le b0'
  have h2 : ((B.a + B.b / 2 ^ 100 : ℚ) : ℝ) ≤ ((0.201 / 2 ^ 53 : ℚ) : ℝ) := by exact_mod_cast hB
  push_cast at h2
  rw [mul_one_div] at h1 ⊢
  linarith

/-- The product for small arguments is negligible. -/
theorem sin_tiny (h : Nearest 53 (-1074) rnd) (fused : Bool) {x : ℚ} (hx : |x| ≤ 2 ^ (-30 : ℤ)) :
    |((sinZ rnd fused x : ℚ) : ℝ) - Real.sin x| ≤ 0.1 * (1 / 2 ^ 53) * |(x : ℝ)| := by
  have dbl : ∀ v : ℚ, |rnd v| ≤ 2 * |v| := fun v => by
    have h1 := h.near v 0 (rep_zero _ _)
    rw [sub_zero, abs_sub_comm] at h1
    have h2 := abs_add_le (rnd v - v) v
    rw [sub_add_cancel] at h2
    linarith
  have hx1 : |x| ≤ 1 := hx.trans (by norm_num)
  have hs0 : 0 ≤ rnd (x * x) := by have := h.mono (mul_self_nonneg x); rwa [h.zero] at this
  have hs1 : rnd (x * x) ≤ 2 * (|x| * |x|) := by
    have := dbl (x * x)
    rw [abs_mul, abs_of_nonneg hs0] at this
    exact this
  have hs2 : rnd (x * x) ≤ 5 / 2 := by nlinarith [abs_nonneg x]
  set s := rnd (x * x) with hs
  set P := sinPoly64 (flAlg rnd rnd fused) s with hP
  have hP1 : |P| ≤ 1 / 4 := by
    have h1 := sin_poly_fl h fused hs0 hs2
    have h2 := sin_mag (t := (s : ℝ)) (by exact_mod_cast hs0) (by
      have : (s : ℝ) ≤ ((5 / 2 : ℚ) : ℝ) := by exact_mod_cast hs2
      norm_num at this ⊢; exact this)
    have h3 := abs_add_le ((P : ℝ) - Poly.eval sinF s) (Poly.eval sinF s)
    rw [sub_add_cancel] at h3
    have h4 : ((|P| : ℚ) : ℝ) ≤ ((1 / 4 : ℚ) : ℝ) := by
      rw [Rat.cast_abs]; push_cast
      have : (0.201 : ℝ) * (1 / 2 ^ 53) ≤ 0.001 := by norm_num
      linarith
    exact_mod_cast h4
  have hv : |rnd (P * x)| ≤ |x| / 2 := by
    have := dbl (P * x)
    rw [abs_mul] at this
    have h1 := mul_le_mul_of_nonneg_right hP1 (abs_nonneg x)
    linarith
  have hm : |rnd (s * rnd (P * x))| ≤ 2 * (|x| * |x|) * |x| := by
    have h1 := dbl (s * rnd (P * x))
    rw [abs_mul, abs_of_nonneg hs0] at h1
    have h2 := mul_le_mul hs1 hv (abs_nonneg _) (by positivity)
    linarith
  have hxx : |x| * |x| ≤ 2 ^ (-60 : ℤ) := by
    have := mul_le_mul hx hx (abs_nonneg _) (by positivity)
    refine this.trans (by norm_num)
  have hm2 : |rnd (s * rnd (P * x))| ≤ 2 ^ (-59 : ℤ) * |x| := by
    have := mul_le_mul_of_nonneg_right hxx (abs_nonneg x)
    have e : (2 : ℚ) ^ (-59 : ℤ) = 2 * 2 ^ (-60 : ℤ) := by norm_num
    rw [e]; linarith
  have hm3 : ((|rnd (s * rnd (P * x))| : ℚ) : ℝ) ≤ ((2 ^ (-59 : ℤ) * |x| : ℚ) : ℝ) := by exact_mod_cast hm2
  have hxx' : ((|x| * |x| : ℚ) : ℝ) ≤ ((2 ^ (-60 : ℤ) : ℚ) : ℝ) := by exact_mod_cast hxx
  push_cast at hm3 hxx'
  have hn := sin_near (x := (x : ℝ)) (by
    have : ((|x| : ℚ) : ℝ) ≤ ((1 : ℚ) : ℝ) := by exact_mod_cast hx1
    push_cast at this; linarith)
  have hx1' : |(x : ℝ)| ≤ 1 := by
    have : ((|x| : ℚ) : ℝ) ≤ ((1 : ℚ) : ℝ) := by exact_mod_cast hx1
    push_cast at this; exact this
  have hF := sin_mag (t := (x : ℝ) ^ 2) (sq_nonneg _) (by rw [← sq_abs]; nlinarith [abs_nonneg (x : ℝ)])
  have hc : |(x : ℝ) * ((x : ℝ) ^ 2 * Poly.eval sinF ((x : ℝ) ^ 2))| ≤ 2 ^ (-60 : ℤ) * |(x : ℝ)| := by
    rw [abs_mul, abs_mul, abs_pow, pow_two, mul_comm]
    refine mul_le_mul_of_nonneg_right ?_ (abs_nonneg _)
    have := mul_le_mul hxx' hF (abs_nonneg _) (by positivity)
    refine this.trans (by norm_num)
  have e : ((sinZ rnd fused x : ℚ) : ℝ) - Real.sin x = ((rnd (s * rnd (P * x)) : ℚ) : ℝ) - x * (x ^ 2 * Poly.eval sinF (x ^ 2)) +
      (x + x * (x ^ 2 * Poly.eval sinF (x ^ 2)) - Real.sin x) := by
    simp only [sinZ]; push_cast; ring
  rw [e]
  have h1 := abs_add_le (((rnd (s * rnd (P * x)) : ℚ) : ℝ) - x * (x ^ 2 * Poly.eval sinF ((x : ℝ) ^ 2))) (x + x * (x ^ 2 * Poly.eval sinF ((x : ℝ) ^ 2)) - Real.sin x)
  have h2 := abs_sub ((rnd (s * rnd (P * x)) : ℚ) : ℝ) (x * (x ^ 2 * Poly.eval sinF ((x : ℝ) ^ 2)))
  have h3 := abs_nonneg (x : ℝ)
  have e59 : (2 : ℝ) ^ (-59 : ℤ) * |(x : ℝ)| ≤ 0.016 * (1 / 2 ^ 53) * |(x : ℝ)| := mul_le_mul_of_nonneg_right (by norm_num) h3
  have e60 : (2 : ℝ) ^ (-60 : ℤ) * |(x : ℝ)| ≤ 0.008 * (1 / 2 ^ 53) * |(x : ℝ)| := mul_le_mul_of_nonneg_right (by norm_num) h3
  have h4 : 0 ≤ 1 / 2 ^ 53 * |(x : ℝ)| := by positivity
  refine (h1.trans (add_le_add (h2.trans (add_le_add (hm3.trans e59) (hc.trans e60))) hn)).trans ?_
  linarith

/-- The product, with a bound for each rounding. -/
theorem sin_split (h : Nearest 53 (-1074) rnd) (fused : Bool) {x : ℚ} (hx : |(x : ℝ)| ≤ 1.5712) (hx0 : 2 ^ (-30 : ℤ) ≤ |x|) {e1 e2 : ℝ}
    (hv : |((rnd (sinPoly64 (flAlg rnd rnd fused) (rnd (x * x)) * x) : ℚ) : ℝ) -
      (sinPoly64 (flAlg rnd rnd fused) (rnd (x * x)) : ℚ) * x| ≤ e1)
    (hm : |((rnd (rnd (x * x) * rnd (sinPoly64 (flAlg rnd rnd fused) (rnd (x * x)) * x)) : ℚ) : ℝ) -
      (rnd (x * x) : ℚ) * (rnd (sinPoly64 (flAlg rnd rnd fused) (rnd (x * x)) * x) : ℚ)| ≤ e2) :
    |((sinZ rnd fused x : ℚ) : ℝ) - Real.sin x| ≤
      e2 + 1.0001 * |(x : ℝ)| ^ 2 * e1 + 0.3679 * (1 / 2 ^ 53) * |(x : ℝ)| ^ 3 + 0.07 * (1 / 2 ^ 53) * |(x : ℝ)| := by
  have hX0 : (0 : ℝ) < |(x : ℝ)| := by
    have : ((2 ^ (-30 : ℤ) : ℚ) : ℝ) ≤ ((|x| : ℚ) : ℝ) := by exact_mod_cast hx0
    rw [Rat.cast_abs] at this
    refine lt_of_lt_of_le (by push_cast; positivity) this
  have hs0 : 0 ≤ rnd (x * x) := by have := h.mono (mul_self_nonneg x); rwa [h.zero] at this
  have hserr : |rnd (x * x) - x * x| ≤ |x * x| / 2 ^ 53 := by
    refine h.rel (by norm_num) ?_
    have h1 : (2 : ℚ) ^ 53 * 2 ^ (-1074 : ℤ) ≤ 2 ^ (-60 : ℤ) := by
      have : (2 : ℚ) ^ (-1074 : ℤ) ≤ 2 ^ (-200 : ℤ) := zpow_le_zpow_right₀ (by norm_num) (by norm_num)
      refine (mul_le_mul_of_nonneg_left this (by norm_num)).trans (by norm_num)
    have h2 := mul_le_mul hx0 hx0 (by positivity) (abs_nonneg _)
    rw [abs_mul]
    have e : (2 : ℚ) ^ (-30 : ℤ) * 2 ^ (-30 : ℤ) = 2 ^ (-60 : ℤ) := by norm_num
    rw [e] at h2
    have := abs_nonneg x
    nlinarith
  have hserr' : ((|rnd (x * x) - x * x| : ℚ) : ℝ) ≤ ((|x * x| / 2 ^ 53 : ℚ) : ℝ) := by exact_mod_cast hserr
  push_cast at hserr'
  set s := rnd (x * x) with hs
  set P := sinPoly64 (flAlg rnd rnd fused) s with hP
  set v := rnd (P * x) with hvd
  set X := |(x : ℝ)| with hX
  have hxx : (x : ℝ) * x = X ^ 2 := by rw [hX, sq_abs, pow_two]
  rw [hxx, abs_of_nonneg (by positivity : (0 : ℝ) ≤ X ^ 2)] at hserr'
  have hX2 : X ^ 2 ≤ 2.46869 := by nlinarith
  have hX20 : 0 ≤ X ^ 2 := by positivity
  have hsb := _root_.abs_le.mp hserr'
  have hs25 : (s : ℝ) ≤ 2.5 := by linarith
  have hs2 : s ≤ 5 / 2 := by
    have : (s : ℝ) ≤ ((5 / 2 : ℚ) : ℝ) := by push_cast; linarith
    exact_mod_cast this
  have hs0' : (0 : ℝ) ≤ s := by exact_mod_cast hs0
  have hPf := sin_poly_fl h fused hs0 hs2
  rw [← hP] at hPf
  have hlip := sin_lip hs0' hs25 hX20 (by linarith)
  have hn := sin_near (x := (x : ℝ)) (by rw [← hX]; linarith)
  rw [show (x : ℝ) ^ 2 = X ^ 2 by rw [hX, sq_abs]] at hn
  set F1 := Poly.eval sinF (s : ℝ) with hF1
  set F2 := Poly.eval sinF (X ^ 2) with hF2
  have e : ((sinZ rnd fused x : ℚ) : ℝ) - Real.sin x = (((rnd (s * v) : ℚ) : ℝ) - s * v) + s * (v - P * x) + s * ((P - F1) * x) +
      (s * F1 - X ^ 2 * F2) * x + (x + x * (X ^ 2 * F2) - Real.sin x) := by
    simp only [sinZ, ← hs, ← hP, ← hvd]; push_cast; ring
  rw [e]
  have a1 : |(s : ℝ) * (v - P * x)| ≤ 1.0001 * X ^ 2 * e1 := by
    rw [abs_mul, abs_of_nonneg hs0']
    exact mul_le_mul (by linarith) hv (abs_nonneg _) (by positivity)
  have a2 : |(s : ℝ) * ((P - F1) * x)| ≤ 1.0001 * X ^ 2 * (0.201 * (1 / 2 ^ 53) * X) := by
    rw [abs_mul, abs_of_nonneg hs0', abs_mul, ← hX]
    exact mul_le_mul (by linarith) (mul_le_mul_of_nonneg_right hPf hX0.le) (by positivity) (by positivity)
  have a3 : |((s : ℝ) * F1 - X ^ 2 * F2) * x| ≤ 0.1667 * (X ^ 2 / 2 ^ 53) * X := by
    rw [abs_mul, ← hX]
    refine mul_le_mul_of_nonneg_right (hlip.trans ?_) hX0.le
    exact mul_le_mul_of_nonneg_left hserr' (by norm_num)
  have b1 := abs_add_le ((((rnd (s * v) : ℚ) : ℝ) - s * v) + s * (v - P * x) + s * ((P - F1) * x) +
      (s * F1 - X ^ 2 * F2) * x) (x + x * (X ^ 2 * F2) - Real.sin x)
  have b2 := abs_add_le ((((rnd (s * v) : ℚ) : ℝ) - s * v) + s * (v - P * x) + s * ((P - F1) * x)) ((s * F1 - X ^ 2 * F2) * x)
  have b3 := abs_add_le ((((rnd (s * v) : ℚ) : ℝ) - s * v) + s * (v - P * x)) (s * ((P - F1) * x))
  have b4 := abs_add_le (((rnd (s * v) : ℚ) : ℝ) - s * v) (s * (v - P * x))
  have c1 : 1.0001 * X ^ 2 * (0.201 * (1 / 2 ^ 53) * X) + 0.1667 * (X ^ 2 / 2 ^ 53) * X ≤ 0.3679 * (1 / 2 ^ 53) * X ^ 3 := by
    have e3 : 1.0001 * X ^ 2 * (0.201 * (1 / 2 ^ 53) * X) + 0.1667 * (X ^ 2 / 2 ^ 53) * X =
        (1.0001 * 0.201 + 0.1667) * (1 / 2 ^ 53) * X ^ 3 := by ring
    rw [e3]
    exact mul_le_mul_of_nonneg_right (by norm_num) (by positivity)
  linarith

/-- The size of the factors. -/
theorem sin_sizes (h : Nearest 53 (-1074) rnd) (fused : Bool) {x : ℚ} (hx : |(x : ℝ)| ≤ 1.5712) (hx0 : 2 ^ (-30 : ℤ) ≤ |x|) :
    |((sinPoly64 (flAlg rnd rnd fused) (rnd (x * x)) * x : ℚ) : ℝ)| ≤ 0.16671 * |(x : ℝ)| ∧
    (0.99 ≤ |(x : ℝ)| → |((sinPoly64 (flAlg rnd rnd fused) (rnd (x * x)) * x : ℚ) : ℝ)| ≤ 2 ^ (-2 : ℤ)) ∧
    0 ≤ ((rnd (x * x) : ℚ) : ℝ) ∧ ((rnd (x * x) : ℚ) : ℝ) ≤ 1.0001 * |(x : ℝ)| ^ 2 := by
  have hs0 : 0 ≤ rnd (x * x) := by have := h.mono (mul_self_nonneg x); rwa [h.zero] at this
  have hserr : |rnd (x * x) - x * x| ≤ |x * x| / 2 ^ 53 := by
    refine h.rel (by norm_num) ?_
    have h1 : (2 : ℚ) ^ 53 * 2 ^ (-1074 : ℤ) ≤ 2 ^ (-60 : ℤ) := by
      have : (2 : ℚ) ^ (-1074 : ℤ) ≤ 2 ^ (-200 : ℤ) := zpow_le_zpow_right₀ (by norm_num) (by norm_num)
      refine (mul_le_mul_of_nonneg_left this (by norm_num)).trans (by norm_num)
    have h2 := mul_le_mul hx0 hx0 (by positivity) (abs_nonneg _)
    rw [abs_mul]
    have e : (2 : ℚ) ^ (-30 : ℤ) * 2 ^ (-30 : ℤ) = 2 ^ (-60 : ℤ) := by norm_num
    rw [e] at h2
    have := abs_nonneg x
    nlinarith
  have hserr' : ((|rnd (x * x) - x * x| : ℚ) : ℝ) ≤ ((|x * x| / 2 ^ 53 : ℚ) : ℝ) := by exact_mod_cast hserr
  push_cast at hserr'
  set s := rnd (x * x) with hs
  set P := sinPoly64 (flAlg rnd rnd fused) s with hP
  set X := |(x : ℝ)| with hX
  have hX0 : 0 ≤ X := abs_nonneg _
  have hxx : (x : ℝ) * x = X ^ 2 := by rw [hX, sq_abs, pow_two]
  rw [hxx, abs_of_nonneg (by positivity : (0 : ℝ) ≤ X ^ 2)] at hserr'
  have hX2 : X ^ 2 ≤ 2.46869 := by nlinarith
  have hX20 : 0 ≤ X ^ 2 := by positivity
  have hsb := _root_.abs_le.mp hserr'
  have hs25 : (s : ℝ) ≤ 2.5 := by linarith
  have hs2 : s ≤ 5 / 2 := by
    have : (s : ℝ) ≤ ((5 / 2 : ℚ) : ℝ) := by push_cast; linarith
    exact_mod_cast this
  have hs0' : (0 : ℝ) ≤ s := by exact_mod_cast hs0
  have hPf := sin_poly_fl h fused hs0 hs2
  rw [← hP] at hPf
  have h3 := abs_add_le ((P : ℝ) - Poly.eval sinF s) (Poly.eval sinF s)
  rw [sub_add_cancel] at h3
  have hu : (0.201 : ℝ) * (1 / 2 ^ 53) ≤ 0.000001 := by norm_num
  refine ⟨?_, fun h99 => ?_, hs0', by linarith⟩
  · have := sin_mag hs0' hs25
    push_cast
    rw [abs_mul]
    exact mul_le_mul_of_nonneg_right (by linarith) hX0
  · have h9 : (0.9801 : ℝ) ≤ X ^ 2 := by nlinarith
    have := sin_mag' (t := (s : ℝ)) (by linarith) hs25
    push_cast
    rw [abs_mul]
    have h10 : |(P : ℝ)| ≤ 0.1590001 := by linarith
    have h11 := mul_le_mul h10 hx hX0 (by norm_num)
    refine h11.trans (by norm_num)

/-- The kernel in general. -/
theorem sin_kernel (h : Nearest 53 (-1074) rnd) (fused : Bool) {x : ℚ} (hx : |(x : ℝ)| ≤ 1.5712) :
    |((sinZ rnd fused x : ℚ) : ℝ) - Real.sin x| ≤ 0.702 * (1 / 2 ^ 53) * |(x : ℝ)| ^ 3 + 0.1 * (1 / 2 ^ 53) * |(x : ℝ)| := by
  have hX0 := abs_nonneg (x : ℝ)
  rcases le_or_gt |x| (2 ^ (-30 : ℤ)) with hx0 | hx0
  · have := sin_tiny h fused hx0
    have h3 : 0 ≤ |(x : ℝ)| ^ 3 := by positivity
    linarith
  · obtain ⟨s1, -, s3, s4⟩ := sin_sizes h fused hx hx0.le
    have hxR : (2 : ℝ) ^ (-30 : ℤ) ≤ |(x : ℝ)| := by
      have : ((2 ^ (-30 : ℤ) : ℚ) : ℝ) ≤ ((|x| : ℚ) : ℝ) := by exact_mod_cast hx0.le
      push_cast at this; exact this
    have err : ∀ v : ℚ, |((rnd v : ℚ) : ℝ) - v| ≤ 1 / 2 ^ 53 * |(v : ℝ)| + 2 ^ (-1000 : ℤ) := fun v => by
      have := h.err (by norm_num) v
      have h1 : ((|rnd v - v| : ℚ) : ℝ) ≤ ((|v| / 2 ^ 53 + 2 ^ (-1074 : ℤ) / 2 : ℚ) : ℝ) := by exact_mod_cast this
      push_cast at h1
      have h2 : (2 : ℝ) ^ (-1074 : ℤ) ≤ 2 ^ (-1000 : ℤ) := zpow_le_zpow_right₀ (by norm_num) (by norm_num)
      have h3 : (0 : ℝ) < 2 ^ (-1074 : ℤ) := by positivity
      rw [one_div_mul_eq_div]
      linarith
    have hv := err (sinPoly64 (flAlg rnd rnd fused) (rnd (x * x)) * x)
    have hm := err (rnd (x * x) * rnd (sinPoly64 (flAlg rnd rnd fused) (rnd (x * x)) * x))
    have hη : (2 : ℝ) ^ (-1000 : ℤ) ≤ 0.00001 * (1 / 2 ^ 53) * |(x : ℝ)| ^ 3 := by
      have h1 : (2 : ℝ) ^ (-1000 : ℤ) ≤ 2 ^ (-200 : ℤ) := zpow_le_zpow_right₀ (by norm_num) (by norm_num)
      have h2 := pow_le_pow_left₀ (by positivity) hxR 3
      refine h1.trans (le_trans ?_ (mul_le_mul_of_nonneg_left h2 (by norm_num)))
      norm_num
    rw [Rat.cast_mul] at hv hm
    have := sin_split h fused hx hx0.le hv hm
    refine this.trans ?_
    set X := |(x : ℝ)| with hX
    set η := (2 : ℝ) ^ (-1000 : ℤ) with hηd
    have hη0 : 0 < η := by rw [hηd]; positivity
    rw [Rat.cast_mul] at s1
    set g := ((sinPoly64 (flAlg rnd rnd fused) (rnd (x * x)) : ℚ) : ℝ) * x with hg
    set v := ((rnd (sinPoly64 (flAlg rnd rnd fused) (rnd (x * x)) * x) : ℚ) : ℝ) with hvd
    set s := ((rnd (x * x) : ℚ) : ℝ) with hsd
    have hX3 : X ^ 3 ≤ 4 * X := by
      have : X ^ 2 ≤ 4 := by nlinarith
      nlinarith
    have hvb : |v| ≤ 0.16672 * X := by
      have h1 := abs_add_le (v - g) g
      rw [sub_add_cancel] at h1
      have h2 : (1 : ℝ) / 2 ^ 53 * |g| ≤ 1 / 2 ^ 53 * (0.16671 * X) := mul_le_mul_of_nonneg_left s1 (by norm_num)
      have h3 : (1 : ℝ) / 2 ^ 53 * (0.16671 * X) ≤ 0.000001 * X := by
        have : (1 : ℝ) / 2 ^ 53 * 0.16671 ≤ 0.000001 := by norm_num
        nlinarith
      have h4 : (0.00001 : ℝ) * (1 / 2 ^ 53) * X ^ 3 ≤ 0.000001 * X := by
        have : (0.00001 : ℝ) * (1 / 2 ^ 53) * X ^ 3 ≤ 0.00001 * (1 / 2 ^ 53) * (4 * X) := mul_le_mul_of_nonneg_left hX3 (by norm_num)
        have : (0.00001 : ℝ) * (1 / 2 ^ 53) * 4 ≤ 0.000001 := by norm_num
        nlinarith
      linarith
    have hsv : |s * v| ≤ 0.16675 * X ^ 3 := by
      rw [abs_mul, abs_of_nonneg s3]
      have := mul_le_mul s4 hvb (abs_nonneg _) (by positivity)
      have e : 1.0001 * X ^ 2 * (0.16672 * X) = 1.0001 * 0.16672 * X ^ 3 := by ring
      rw [e] at this
      have h3 : 0 ≤ X ^ 3 := by positivity
      norm_num at this ⊢
      linarith
    have t1 : (1 : ℝ) / 2 ^ 53 * |s * v| ≤ 1 / 2 ^ 53 * (0.16675 * X ^ 3) := mul_le_mul_of_nonneg_left hsv (by norm_num)
    have t2 : 1.0001 * X ^ 2 * (1 / 2 ^ 53 * |g| + η) ≤ 1.0001 * X ^ 2 * (1 / 2 ^ 53 * (0.16671 * X)) + 4 * η := by
      have h2 : (1 : ℝ) / 2 ^ 53 * |g| ≤ 1 / 2 ^ 53 * (0.16671 * X) := mul_le_mul_of_nonneg_left s1 (by norm_num)
      have h3 := mul_le_mul_of_nonneg_left h2 (by positivity : 0 ≤ 1.0001 * X ^ 2)
      have h4 : 1.0001 * X ^ 2 ≤ 4 := by nlinarith
      have h5 := mul_le_mul_of_nonneg_right h4 hη0.le
      rw [mul_add]
      linarith
    have e1 : 1.0001 * X ^ 2 * (1 / 2 ^ 53 * (0.16671 * X)) = 1.0001 * 0.16671 * (1 / 2 ^ 53) * X ^ 3 := by ring
    rw [e1] at t2
    have h3 : 0 ≤ (1 : ℝ) / 2 ^ 53 * X ^ 3 := by positivity
    have h1 : 0 ≤ (1 : ℝ) / 2 ^ 53 * X := by positivity
    linarith

/-- The kernel for arguments close to a half of pi. -/
theorem sin_kernel_big (h : Nearest 53 (-1074) rnd) (fused : Bool) {x : ℚ} (hx : |(x : ℝ)| ≤ 1.5712) (h99 : 0.99 ≤ |(x : ℝ)|) :
    |((sinZ rnd fused x : ℚ) : ℝ) - Real.sin x| ≤ 2.36 * (1 / 2 ^ 53) := by
  have hx0 : 2 ^ (-30 : ℤ) ≤ |x| := by
    have : ((2 ^ (-30 : ℤ) : ℚ) : ℝ) ≤ ((|x| : ℚ) : ℝ) := by
      rw [Rat.cast_abs]; refine le_trans ?_ h99; norm_num
    exact_mod_cast this
  obtain ⟨-, s2, s3, s4⟩ := sin_sizes h fused hx hx0
  have hv := half_pow h (by norm_num) (-2) (by norm_num) (s2 h99)
  have hvb : |((rnd (sinPoly64 (flAlg rnd rnd fused) (rnd (x * x)) * x) : ℚ) : ℝ)| ≤ 0.26 := by
    have h1 := abs_add_le (((rnd (sinPoly64 (flAlg rnd rnd fused) (rnd (x * x)) * x) : ℚ) : ℝ) -
      ((sinPoly64 (flAlg rnd rnd fused) (rnd (x * x)) * x : ℚ) : ℝ)) ((sinPoly64 (flAlg rnd rnd fused) (rnd (x * x)) * x : ℚ) : ℝ)
    rw [sub_add_cancel] at h1
    have h2 := s2 h99
    norm_num1 at hv h2
    linarith
  have hX0 := abs_nonneg (x : ℝ)
  have hX2 : |(x : ℝ)| ^ 2 ≤ 2.46869 := by nlinarith
  have hm := half_pow h (by norm_num) 0 (by norm_num)
    (x := rnd (x * x) * rnd (sinPoly64 (flAlg rnd rnd fused) (rnd (x * x)) * x)) (by
      rw [Rat.cast_mul, abs_mul, abs_of_nonneg s3, zpow_zero]
      have := mul_le_mul (s4.trans (by linarith : _ ≤ (2.47 : ℝ))) hvb (abs_nonneg _) (by norm_num)
      linarith)
  rw [Rat.cast_mul] at hv hm
  have := sin_split h fused hx hx0 hv hm
  refine this.trans ?_
  have hX3 : |(x : ℝ)| ^ 3 ≤ 3.879 := by nlinarith
  norm_num1 at *
  linarith

end Nsimd.Sleef
