import Verif.Lemmas.CbrtStep
import Verif.Lemmas.Fmod
import Verif.Lemmas.ExpReduce

/-!
# Exponents in `cbrt`
-/

namespace Nsimd.Sleef
open Nsimd.DoubleDouble Nsimd.Float Nsimd.Props.Round Nsimd.Props.Hypot Nsimd.Round Nsimd.Hypot Nsimd.Props.Ulp Nsimd.Fmod

variable {p : ℕ} {emin emax : ℤ} {rnd : ℚ → ℚ}

/-- The exponent of a positive number. -/
theorem ilogbk_spec (h : Nearest p emin rnd) (s : ℕ) {d : ℚ} (hr : Rep p emin d) (h0 : 0 < d) :
    2 ^ ilogbk rnd emax s d ≤ d ∧ d < 2 ^ (ilogbk rnd emax s d + 1) := by
  unfold ilogbk
  by_cases hm : d < 2 ^ (-(s : ℤ))
  · have hrep : Rep p emin (2 ^ s * d) := by
      obtain ⟨k, j, hk, hj, rfl⟩ := hr
      exact ⟨k, j + s, hk, by omega, by rw [zpow_add₀ (by norm_num), zpow_natCast]; ring⟩
    have h1 : 0 < 2 ^ s * d := by positivity
    simp only [hm, decide_true, if_true, h.fix hrep, if_neg h1.ne', expField]
    have h2 := Int.zpow_log_le_self (b := 2) (by norm_num) h1
    have h3 := Int.lt_zpow_succ_log_self (b := 2) (by norm_num) (2 ^ s * d)
    generalize Int.log 2 (2 ^ s * d) = L at *
    have hs : (0 : ℚ) < 2 ^ s := by positivity
    push_cast at h2 h3
    constructor
    · rw [zpow_sub₀ (by norm_num), zpow_natCast, div_le_iff₀ hs]; linarith
    · rw [show L - (s : ℤ) + 1 = L + 1 - s by ring, zpow_sub₀ (by norm_num), zpow_natCast, lt_div_iff₀ hs]; linarith
  · simp only [hm, decide_false, Bool.false_eq_true, if_false, if_neg h0.ne', expField]
    have h2 := Int.zpow_log_le_self (b := 2) (by norm_num) h0
    have h3 := Int.lt_zpow_succ_log_self (b := 2) (by norm_num) d
    exact ⟨h2, h3⟩

/-- Scaling without rounding. -/
theorem cbrtLdexp_exact (h : Nearest p emin rnd) (hp : 1 ≤ p) {d : ℚ} {E k : ℤ} (hm : Mult E d) (hd : |d| ≤ 2 ^ p * 2 ^ E)
    (h1 : emin ≤ E + k / 2) (h2 : emin ≤ E + k) : cbrtLdexp rnd d k = d * 2 ^ k := by
  have key : ∀ j : ℤ, emin ≤ E + j → rnd (d * 2 ^ j) = d * 2 ^ j := fun j hj => by
    refine h.fix (rep_of_mult hp hj ?_ ?_)
    · obtain ⟨n, rfl⟩ := hm
      exact ⟨n, by rw [zpow_add₀ (by norm_num)]; ring⟩
    · rw [abs_mul, abs_of_pos (two_zpow_pos j), zpow_add₀ (by norm_num), ← mul_assoc]
      exact mul_le_mul_of_nonneg_right hd (two_zpow_pos j).le
  rw [cbrtLdexp, key _ h1, mul_assoc, ← zpow_add₀ (by norm_num), show k / 2 + (k - k / 2) = k by ring, key k h2]

/-- The argument between one half and one. -/
theorem cbrtLdexp_arg (h : Nearest p emin rnd) (hp : 1 ≤ p) (hmin : emin ≤ -100 - p) {d : ℚ} (hr : Rep p emin d) {e : ℤ}
    (h1 : 2 ^ (e - 1) ≤ |d|) : cbrtLdexp rnd d (-e) = d * 2 ^ (-e) := by
  obtain ⟨E, hE, hm, hlt, -⟩ := rep_canon hr
  have h2 : e - 1 < p + E := by
    have := h1.trans_lt hlt
    rwa [pow_eq_zpow, zpow_lt_iff] at this
  refine cbrtLdexp_exact h hp hm hlt.le ?_ ?_ <;> omega

theorem rep_int (hmin : emin ≤ 0) {n : ℤ} (hn : |n| < 2 ^ p) : Rep p emin (n : ℚ) := ⟨n, 0, hn, hmin, by simp⟩

theorem truncQ_of {x : ℚ} {n : ℤ} (h0 : 0 ≤ n) (h1 : (n : ℚ) ≤ x) (h2 : x < n + 1) : truncQ x = n := by
  have : (0 : ℚ) ≤ n := by exact_mod_cast h0
  rw [truncQ, if_neg (by linarith), Int.floor_eq_iff]
  exact ⟨h1, h2⟩

/-- The third in the SIMD code if the product with the rounded third is not rounded below the integer. -/
theorem third_core (h : Nearest p emin rnd) (hp : 20 ≤ p) (hmin : emin ≤ -100 - p) {e n r : ℤ} (h1 : -1400 ≤ e) (h2 : e ≤ 1100)
    (he : e + 6144 = 3 * n + r) (hr0 : 0 ≤ r) (hr2 : r ≤ 2) (hC : |rnd (1 / 3) - 1 / 3| ≤ 1 / 2 ^ 20)
    (hlo : r = 0 → (n : ℚ) ≤ rnd (3 * n * rnd (1 / 3))) : cbrtThirdSimd rnd e = (n, r) := by
  have h2p : (2 : ℤ) ^ 20 ≤ 2 ^ p := pow_le_pow_right₀ (by norm_num) hp
  have hint : ∀ i : ℤ, |i| < 2 ^ 20 → rnd i = i := fun i hi => h.fix (rep_int (by omega) (by omega))
  have ht : rnd ((e : ℚ) + 6144) = ((3 * n + r : ℤ) : ℚ) := by
    rw [← he]
    have := hint (e + 6144) (by rw [abs_lt]; constructor <;> omega)
    push_cast at this ⊢; exact this
  have hn0 : 0 ≤ n := by omega
  have hn1 : n ≤ 2500 := by omega
  have hC' := _root_.abs_le.mp hC
  have hnq : (n : ℚ) ≤ 2500 := by exact_mod_cast hn1
  have hnq0 : (0 : ℚ) ≤ n := by exact_mod_cast hn0
  have hrq0 : (0 : ℚ) ≤ r := by exact_mod_cast hr0
  have hrq2 : (r : ℚ) ≤ 2 := by exact_mod_cast hr2
  have hq : truncQ (mul rnd (add rnd e 6144) (rnd (1 / 3))) = n := by
    simp only [mul, add, ht]
    push_cast
    refine truncQ_of hn0 ?_ ?_
    · by_cases hr : r = 0
      · rw [hr]; push_cast; rw [add_zero]; exact hlo hr
      · have hr1 : (1 : ℚ) ≤ r := by exact_mod_cast (by omega : 1 ≤ r)
        rw [← hint n (by rw [abs_lt]; constructor <;> omega)]
        refine h.mono ?_
        rw [hint n (by rw [abs_lt]; constructor <;> omega)]
        generalize rnd (1 / 3) = C at *
        norm_num at hC'
        nlinarith [hC'.1]
    · have hrep : Rep p emin ((n : ℚ) + 3 / 4) := ⟨4 * n + 3, -2, by rw [abs_lt]; constructor <;> omega, by omega, by
        push_cast; norm_num; ring⟩
      have : rnd ((3 * n + r) * rnd (1 / 3)) ≤ (n : ℚ) + 3 / 4 := by
        rw [← h.fix hrep]
        refine h.mono ?_
        generalize rnd (1 / 3) = C at *
        norm_num at hC'
        nlinarith [hC'.2]
      linarith
  unfold cbrtThirdSimd
  simp only [hq]
  refine Prod.ext rfl ?_
  simp only [mul, sub, add, ht]
  have h3 : rnd ((n : ℚ) * 3) = ((n * 3 : ℤ) : ℚ) := by
    have := hint (n * 3) (by rw [abs_lt]; constructor <;> omega)
    push_cast at this ⊢; exact this
  have h4 : rnd (((3 * n + r : ℤ) : ℚ) - ((n * 3 : ℤ) : ℚ)) = r := by
    have := hint r (by rw [abs_lt]; constructor <;> omega)
    rw [← this]; congr 1; push_cast; ring
  rw [h3, h4]
  exact truncQ_of hr0 le_rfl (by linarith)

/-- One third in f64. -/
theorem third64 (h : Nearest 53 (-1074) rnd) : rnd (1 / 3) = 6004799503160661 * 2 ^ (-54 : ℤ) := by
  have := rnd_lit h (c := 1 / 3) (k := 6004799503160661) (e := -54) (by norm_num) (by norm_num) (by norm_num) (by norm_num [abs_lt])
  push_cast at this; exact this

/-- One third in f32. -/
theorem third32 (h : Nearest 24 (-149) rnd) : rnd (1 / 3) = 11184811 * 2 ^ (-25 : ℤ) := by
  have := rnd_lit h (c := 1 / 3) (k := 11184811) (e := -25) (by norm_num) (by norm_num) (by norm_num) (by norm_num [abs_lt])
  push_cast at this; exact this

theorem thirdSimd32 (h : Nearest 24 (-149) rnd) {e n r : ℤ} (h1 : -1400 ≤ e) (h2 : e ≤ 1100)
    (he : e + 6144 = 3 * n + r) (hr0 : 0 ≤ r) (hr2 : r ≤ 2) : cbrtThirdSimd rnd e = (n, r) := by
  refine third_core h (by norm_num) (by norm_num) h1 h2 he hr0 hr2 (by rw [third32 h]; norm_num [abs_le]) fun _ => ?_
  have hn : rnd (n : ℚ) = n := h.fix (rep_int (by norm_num) (by rw [abs_lt]; constructor <;> omega))
  have hn0 : (0 : ℚ) ≤ n := by exact_mod_cast (by omega : 0 ≤ n)
  conv_lhs => rw [← hn]
  refine h.mono ?_
  rw [third32 h]
  norm_num
  linarith

/-- In f64 the product is exactly between two numbers for `e = 0`: the result is right because ties are rounded to even. -/
theorem thirdSimd64 (h : Nearest 53 (-1074) rnd) (ht : TiesEven 53 (-1074) rnd) {e n r : ℤ} (h1 : -1400 ≤ e) (h2 : e ≤ 1100)
    (he : e + 6144 = 3 * n + r) (hr0 : 0 ≤ r) (hr2 : r ≤ 2) : cbrtThirdSimd rnd e = (n, r) := by
  refine third_core h (by norm_num) (by norm_num) h1 h2 he hr0 hr2 (by rw [third64 h]; norm_num [abs_le]) fun _ => ?_
  have hn0 : (1500 : ℚ) ≤ n := by exact_mod_cast (by omega : 1500 ≤ n)
  have hn1 : (n : ℚ) ≤ 2500 := by exact_mod_cast (by omega : n ≤ 2500)
  have hx : 3 * (n : ℚ) * rnd (1 / 3) = n - n / 2 ^ 54 := by
    rw [third64 h]; norm_num; ring
  rw [hx]
  have hrepn : Rep 53 (-1074) (n : ℚ) := rep_int (by norm_num) (by rw [abs_lt]; constructor <;> omega)
  have hd : |rnd ((n : ℚ) - n / 2 ^ 54) - n| ≤ 2 * ((n : ℚ) / 2 ^ 54) := by
    have h3 := h.near ((n : ℚ) - n / 2 ^ 54) n hrepn
    have h4 : |rnd ((n : ℚ) - n / 2 ^ 54) - n| ≤ |rnd ((n : ℚ) - n / 2 ^ 54) - (n - n / 2 ^ 54)| + |((n : ℚ) - n / 2 ^ 54) - n| := abs_sub_le _ _ _
    rw [abs_sub_comm] at h3
    have h5 : |((n : ℚ) - n / 2 ^ 54) - n| = (n : ℚ) / 2 ^ 54 := by
      rw [show (n : ℚ) - n / 2 ^ 54 - n = -((n : ℚ) / 2 ^ 54) by ring, abs_neg, abs_of_pos (by positivity)]
    linarith
  have hd' := _root_.abs_le.mp hd
  rcases lt_trichotomy n 2048 with hlt | heq | hgt
  · -- multiples of `2 ^ (-42)`
    have hm : Mult (-42) (rnd ((n : ℚ) - n / 2 ^ 54)) := mult_of_ge (h.rep _) (by
      have : (1024 : ℚ) ≤ rnd ((n : ℚ) - n / 2 ^ 54) := by norm_num at hd' ⊢; linarith [hd'.1]
      refine le_trans ?_ (le_abs_self _)
      norm_num at this ⊢; exact this)
    obtain ⟨j, hj⟩ := hm
    rw [hj] at hd' ⊢
    have hnl : (n : ℚ) ≤ 2047 := by exact_mod_cast (by omega : n ≤ 2047)
    have : (n * 2 ^ 42 - 1 : ℤ) < j := by
      have : ((n * 2 ^ 42 - 1 : ℤ) : ℚ) < j := by
        push_cast; norm_num at hd' ⊢; linarith [hd'.1]
      exact_mod_cast this
    have h6 : ((n * 2 ^ 42 : ℤ) : ℚ) ≤ j := by exact_mod_cast (by omega : n * 2 ^ 42 ≤ j)
    push_cast at h6; norm_num at h6 ⊢; linarith
  · subst heq
    have hne : rnd (((2048 : ℤ) : ℚ) - ((2048 : ℤ) : ℚ) / 2 ^ 54) ≠ ((2048 : ℤ) : ℚ) - ((2048 : ℤ) : ℚ) / 2 ^ 54 := by
      intro hc
      have hrep := h.rep (((2048 : ℤ) : ℚ) - ((2048 : ℤ) : ℚ) / 2 ^ 54)
      rw [hc] at hrep
      have hm : Mult (-42) (((2048 : ℤ) : ℚ) - ((2048 : ℤ) : ℚ) / 2 ^ 54) := mult_of_ge hrep (by norm_num [abs_of_pos])
      obtain ⟨j, hj⟩ := hm
      have : ((j * 2 : ℤ) : ℚ) = ((2 ^ 54 - 1 : ℤ) : ℚ) := by push_cast; norm_num at hj ⊢; linarith
      have : j * 2 = 2 ^ 54 - 1 := by exact_mod_cast this
      omega
    have hm := ht (((2048 : ℤ) : ℚ) - ((2048 : ℤ) : ℚ) / 2 ^ 54) (-43) (by norm_num) ⟨2 ^ 54 - 1, by push_cast; norm_num⟩ (by norm_num [abs_of_pos])
      (by norm_num [abs_of_pos]) hne
    obtain ⟨j, hj⟩ := hm
    rw [hj] at hd' ⊢
    have : (2048 * 2 ^ 41 - 1 : ℤ) < j := by
      have : ((2048 * 2 ^ 41 - 1 : ℤ) : ℚ) < j := by
        push_cast; norm_num at hd' ⊢; linarith [hd'.1]
      exact_mod_cast this
    have h6 : ((2048 * 2 ^ 41 : ℤ) : ℚ) ≤ j := by exact_mod_cast (by omega : 2048 * 2 ^ 41 ≤ j)
    push_cast at h6; norm_num at h6 ⊢; linarith
  · have hm : Mult (-41) (rnd ((n : ℚ) - n / 2 ^ 54)) := mult_of_ge (h.rep _) (by
      have hnl : (2049 : ℚ) ≤ n := by exact_mod_cast (by omega : 2049 ≤ n)
      have : (2048 : ℚ) ≤ rnd ((n : ℚ) - n / 2 ^ 54) := by norm_num at hd' ⊢; linarith [hd'.1]
      refine le_trans ?_ (le_abs_self _)
      norm_num at this ⊢; exact this)
    obtain ⟨j, hj⟩ := hm
    rw [hj] at hd' ⊢
    have : (n * 2 ^ 41 - 1 : ℤ) < j := by
      have : ((n * 2 ^ 41 - 1 : ℤ) : ℚ) < j := by
        push_cast; norm_num at hd' ⊢; linarith [hd'.1]
      exact_mod_cast this
    have h6 : ((n * 2 ^ 41 : ℤ) : ℚ) ≤ j := by exact_mod_cast (by omega : n * 2 ^ 41 ≤ j)
    push_cast at h6; norm_num at h6 ⊢; linarith

/-- The third in the scalar code. -/
theorem third_scalar {e n r : ℤ} (h1 : -1400 ≤ e) (he : e + 6144 = 3 * n + r) (hr0 : 0 ≤ r) (hr2 : r ≤ 2) :
    cbrtThird e = (n, r) := by
  unfold cbrtThird
  rw [Int.tdiv_eq_ediv_of_nonneg (by omega), Int.tmod_eq_emod_of_nonneg (by omega)]
  refine Prod.ext ?_ ?_ <;> simp only <;> omega

end Nsimd.Sleef
