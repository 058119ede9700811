import Verif.Lemmas.AtanFinish

/-!
# Error of `atan2`: the kernel at a rounded quotient
-/

namespace Nsimd.Sleef
open Nsimd.DoubleDouble Nsimd.Float Nsimd.Props.Round Nsimd.Props.Hypot Nsimd.Round Nsimd.Hypot Nsimd.Props.Ulp

variable {p : ℕ} {emin emax : ℤ} {rnd lt : ℚ → ℚ}

theorem arctan_sub {r m : ℝ} (h0 : 0 ≤ r) (h1 : r ≤ m) : |Real.arctan r - r| ≤ m ^ 2 * r := by
  have h8 := (convex_Icc (0 : ℝ) m).norm_image_sub_le_of_norm_hasDerivWithin_le (f := fun y => Real.arctan y - y)
    (f' := fun y => 1 / (1 + y ^ 2) - 1) (C := m ^ 2)
    (fun z _ => ((Real.hasDerivAt_arctan z).sub (hasDerivAt_id z)).hasDerivWithinAt) (fun z hz => by
      have h9 : z ^ 2 ≤ m ^ 2 := pow_le_pow_left₀ hz.1 hz.2 2
      have h10 : (0 : ℝ) < 1 + z ^ 2 := by positivity
      have h11 : 1 / (1 + z ^ 2) - 1 = -(z ^ 2 / (1 + z ^ 2)) := by field_simp; ring
      rw [h11, Real.norm_eq_abs, abs_neg, abs_of_nonneg (by positivity), div_le_iff₀ h10]
      nlinarith [sq_nonneg z, sq_nonneg m]) (Set.mem_Icc.mpr ⟨le_refl _, h0.trans h1⟩) (Set.mem_Icc.mpr ⟨h0, h1⟩)
  simpa only [Real.arctan_zero, sub_zero, Real.norm_eq_abs, abs_of_nonneg h0] using h8

/-- The product `t * u` of the kernel for small arguments. -/
theorem atan_V (h : Nearest p emin rnd) (hp : 20 ≤ p) (hmin : emin ≤ -100 - p) {fused : Bool} {poly : {α : Type} → Alg α → α → α}
    {F : List ℚ} {εa εb : ℚ} (P : AtanPoly p poly F εa εb) (hok : atanTiny p fused poly = true) {s : ℚ} (h0 : 0 ≤ s) (h1 : s ≤ 1 / 4) :
    |((atanTU poly (flAlg rnd rnd fused) (rnd (s * s)) : ℚ) : ℝ)| ≤ 0.36 * s ^ 2 + 10 * eta emin := by
  simp only [atanTiny, Bool.and_eq_true, decide_eq_true_eq] at hok
  obtain ⟨⟨⟨hB, hk⟩, ha⟩, hb⟩ := hok
  set B := atanTU poly (bdAlg p 0 (1 / 15) fused) Bd.arg with hBd
  have h2p : (2 : ℝ) ^ 20 ≤ 2 ^ p := pow_le_pow_right₀ (by norm_num) hp
  have hU0 : (0 : ℝ) < 1 / 2 ^ p := by positivity
  have hU1 : (1 : ℝ) / 2 ^ p ≤ 1 / 2 ^ 20 := one_div_le_one_div_of_le (by norm_num) h2p
  have hs0 : (0 : ℝ) ≤ s := by exact_mod_cast h0
  have hs1 : (s : ℝ) ≤ 1 / 4 := by have : (s : ℝ) ≤ ((1 / 4 : ℚ) : ℝ) := by exact_mod_cast h1
                                   push_cast at this; exact this
  have hη : (0 : ℝ) < eta emin := by unfold eta; positivity
  have hη1 : eta emin ≤ 1 / 2 ^ 20 := by
    have h1 : (2 : ℝ) ^ emin ≤ 2 ^ (-100 : ℤ) := zpow_le_zpow_right₀ (by norm_num) (by omega)
    unfold eta
    norm_num at h1 ⊢; linarith
  have hss : (s : ℝ) * s ≤ 1 / 16 := by nlinarith
  have hrt : |((rnd (s * s) : ℚ) : ℝ) - s * s| ≤ s * s * (1 / 2 ^ p) + eta emin := by
    have := h.err (by omega : 1 ≤ p) (s * s)
    have h3 : ((|rnd (s * s) - s * s| : ℚ) : ℝ) ≤ ((|s * s| / 2 ^ p + 2 ^ emin / 2 : ℚ) : ℝ) := by exact_mod_cast this
    push_cast at h3
    rw [abs_of_nonneg (by positivity : (0 : ℝ) ≤ s * s)] at h3
    unfold eta
    rw [mul_one_div]; exact h3
  have ht0 : 0 ≤ rnd (s * s) := by have := h.mono (show (0 : ℚ) ≤ s * s by positivity); rwa [h.zero] at this
  set t := rnd (s * s) with ht
  have ht0' : (0 : ℝ) ≤ t := by exact_mod_cast ht0
  have hrt' := _root_.abs_le.mp hrt
  have hsU : (s : ℝ) * s * (1 / 2 ^ p) ≤ s * s * (1 / 2 ^ 20) := mul_le_mul_of_nonneg_left hU1 (by positivity)
  have ht1 : (t : ℝ) ≤ 0.0626 := by norm_num at *; linarith
  have E : Env p emin rnd rnd (t : ℝ) 0 (1 / 15) := by
    refine ⟨by omega, hmin, h, lit_one h (by omega), by exact_mod_cast ht0, ?_⟩
    push_cast; norm_num at *; linarith
  obtain ⟨a0, b0, e1, -⟩ := E.natural P.nat fused hB
  rw [← hBd] at a0 b0 e1
  rw [hk, pow_one, abs_of_nonneg ht0'] at e1
  have haR : (B.a : ℝ) ≤ 1.6 * (1 / 2 ^ 20) := by
    have : (B.a : ℝ) ≤ ((1.6 / 2 ^ p : ℚ) : ℝ) := by exact_mod_cast ha
    push_cast at this
    rw [div_eq_mul_one_div] at this
    exact this.trans (mul_le_mul_of_nonneg_left hU1 (by norm_num))
  have hbR : (B.b : ℝ) ≤ 8.8 := by
    have : (B.b : ℝ) ≤ ((8.8 : ℚ) : ℝ) := by exact_mod_cast hb
    push_cast at this; exact this
  set V := atanTU poly (flAlg rnd rnd fused) t with hV
  have h3 : (B.a : ℝ) * t ≤ 1.6 * (1 / 2 ^ 20) * t := mul_le_mul_of_nonneg_right haR ht0'
  have h4 : (B.b : ℝ) * eta emin ≤ 8.8 * eta emin := mul_le_mul_of_nonneg_right hbR hη.le
  have h5 := P.mag t ht0' (by linarith)
  rw [← P.eval] at h5
  have h6 := abs_add_le (atanTU poly reAlg (t : ℝ)) ((V : ℝ) - atanTU poly reAlg (t : ℝ))
  rw [add_sub_cancel] at h6
  rw [pow_two]
  have h7 : 0 ≤ (s : ℝ) * s := by positivity
  norm_num at *
  linarith

/-- The kernel before its last rounding does not have the opposite sign. -/
theorem atanZ_nonneg (h : Nearest p emin rnd) (hp : 20 ≤ p) (hmin : emin ≤ -100 - p) {fused : Bool} {poly : {α : Type} → Alg α → α → α}
    {F : List ℚ} {εa εb : ℚ} (P : AtanPoly p poly F εa εb) (hok : atanTiny p fused poly = true) {s : ℚ} (hr : Rep p emin s) (h0 : 0 ≤ s)
    (h1 : s ≤ 1 / 4) : 0 ≤ atanZ rnd fused poly s := by
  have hV := atan_V h hp hmin P hok h0 h1
  have hs0 : (0 : ℝ) ≤ s := by exact_mod_cast h0
  have hs1 : (s : ℝ) ≤ 1 / 4 := by have : (s : ℝ) ≤ ((1 / 4 : ℚ) : ℝ) := by exact_mod_cast h1
                                   push_cast at this; exact this
  have hη1 : eta emin ≤ 1 / 2 ^ 20 := by
    have h1 : (2 : ℝ) ^ emin ≤ 2 ^ (-100 : ℤ) := zpow_le_zpow_right₀ (by norm_num) (by omega)
    unfold eta
    norm_num at h1 ⊢; linarith
  have hV1 : |atanTU poly (flAlg rnd rnd fused) (rnd (s * s))| ≤ 1 := by
    have : ((|atanTU poly (flAlg rnd rnd fused) (rnd (s * s))| : ℚ) : ℝ) ≤ ((1 : ℚ) : ℝ) := by
      push_cast
      norm_num at hη1
      nlinarith
    exact_mod_cast this
  unfold atanZ
  simp only
  set V := atanTU poly (flAlg rnd rnd fused) (rnd (s * s))
  have hV' := (_root_.abs_le.mp hV1).1
  have h2 : -s ≤ s * V := by nlinarith
  cases fused
  · have := h.mono h2
    rw [h.fix (rep_neg hr)] at this
    simp only [Bool.false_eq_true, if_false]
    linarith
  · simp only [if_true]
    linarith

/-- Near zero. -/
theorem atan_near_zero (h : Nearest p emin rnd) (hp : 20 ≤ p) (hp53 : p ≤ 53) (hmin : emin ≤ -100 - p) {fused : Bool}
    {poly : {α : Type} → Alg α → α → α} {F : List ℚ} {εa εb : ℚ} (P : AtanPoly p poly F εa εb) (hok : atanTiny p fused poly = true) {s : ℚ}
    (h0 : 0 ≤ s) (h1 : s ≤ 1 / 2 ^ 30) : |((atanZ rnd fused poly s : ℚ) : ℝ) - s| ≤ 0.01 * (1 / 2 ^ p) * s + 1.01 * eta emin := by
  have hV := atan_V h hp hmin P hok h0 (h1.trans (by norm_num))
  have hs0 : (0 : ℝ) ≤ s := by exact_mod_cast h0
  have hs1 : (s : ℝ) ≤ 1 / 2 ^ 30 := by have : (s : ℝ) ≤ ((1 / 2 ^ 30 : ℚ) : ℝ) := by exact_mod_cast h1
                                        push_cast at this; exact this
  have hU0 : (0 : ℝ) < 1 / 2 ^ p := by positivity
  have hU1 : (1 : ℝ) / 2 ^ 60 ≤ 1 / 2 ^ p * (1 / 2 ^ 7) := by
    have : (2 : ℝ) ^ p ≤ 2 ^ 53 := pow_le_pow_right₀ (by norm_num) hp53
    have : (1 : ℝ) / 2 ^ 53 ≤ 1 / 2 ^ p := one_div_le_one_div_of_le (by positivity) this
    norm_num at this ⊢; linarith
  have hU2 : (1 : ℝ) / 2 ^ p ≤ 1 / 2 ^ 20 := one_div_le_one_div_of_le (by norm_num) (pow_le_pow_right₀ (by norm_num) hp)
  have hη : (0 : ℝ) < eta emin := by unfold eta; positivity
  have hη1 : eta emin ≤ 1 / 2 ^ 100 * (1 / 2 ^ p) := by
    unfold eta
    have h1 : (2 : ℝ) ^ emin ≤ 2 ^ (-100 - (p : ℤ)) := zpow_le_zpow_right₀ (by norm_num) (by omega)
    rw [zpow_sub₀ (by norm_num), zpow_natCast, div_eq_mul_one_div] at h1
    have h3 : (2 : ℝ) ^ (-100 : ℤ) = 1 / 2 ^ 100 := by norm_num
    rw [h3] at h1
    have : (0 : ℝ) < 1 / 2 ^ 100 * (1 / 2 ^ p) := by positivity
    linarith
  have hs2 : (s : ℝ) ^ 2 ≤ 1 / 2 ^ 60 := by
    have := pow_le_pow_left₀ hs0 hs1 2
    norm_num at this ⊢; exact this
  unfold atanZ
  simp only
  set V := atanTU poly (flAlg rnd rnd fused) (rnd (s * s))
  have hV1 : |(V : ℝ)| ≤ 0.004 * (1 / 2 ^ p) := by
    have h3 : (1 : ℝ) / 2 ^ 100 * (1 / 2 ^ p) ≤ 0.00001 * (1 / 2 ^ p) := mul_le_mul_of_nonneg_right (by norm_num) hU0.le
    norm_num at h3 hU1 hη1 hs2 hV ⊢; linarith
  have hsV : |(s : ℝ) * V| ≤ 0.004 * (1 / 2 ^ p) * s := by
    rw [abs_mul, abs_of_nonneg hs0, mul_comm]; exact mul_le_mul_of_nonneg_right hV1 hs0
  have hsU : 0 ≤ 1 / 2 ^ p * (s : ℝ) := by positivity
  cases fused
  · simp only [Bool.false_eq_true, if_false]
    have := h.err (by omega : 1 ≤ p) (s * V)
    have h3 : ((|rnd (s * V) - s * V| : ℚ) : ℝ) ≤ ((|s * V| / 2 ^ p + 2 ^ emin / 2 : ℚ) : ℝ) := by exact_mod_cast this
    push_cast at h3 ⊢
    rw [div_eq_mul_one_div] at h3
    have h4 : |(s : ℝ) * V| * (1 / 2 ^ p) ≤ 0.004 * (1 / 2 ^ p) * s * (1 / 2 ^ 20) := mul_le_mul hsV hU2 hU0.le (by positivity)
    have h5 := abs_add_le (((rnd (s * V) : ℚ) : ℝ) - s * V) (s * V)
    rw [add_sub_cancel_right, sub_add_cancel] at *
    unfold eta at *
    linarith
  · simp only [if_true]
    push_cast
    rw [add_sub_cancel_right]
    linarith

/-- The first part of the interval above a quarter. Proof helper. -/
def atanQ (p : ℕ) (fused : Bool) (poly : {α : Type} → Alg α → α → α) (εa εb : ℚ) : Bool := atanOk p fused poly εa εb 0.35 0.25 0.26

set_option maxRecDepth 100000 in
theorem atanQ64_false : atanQ 53 false atanPoly64 0.58 0.29 = true := by decide +kernel

set_option maxRecDepth 100000 in
theorem atanQ64_true : atanQ 53 true atanPoly64 0.58 0.29 = true := by decide +kernel

set_option maxRecDepth 100000 in
theorem atanQ32_false : atanQ 24 false atanPoly32 0.45 0.76 = true := by decide +kernel

set_option maxRecDepth 100000 in
theorem atanQ32_true : atanQ 24 true atanPoly32 0.45 0.76 = true := by decide +kernel

/-- Everything about one kernel. Proof helper. -/
structure Atan2Env (p : ℕ) (emin : ℤ) (rnd : ℚ → ℚ) (fused : Bool) (poly : {α : Type} → Alg α → α → α) (F : List ℚ) (εa εb k : ℚ) : Prop where
  near : Nearest p emin rnd
  odd : ∀ x, rnd (-x) = -rnd x
  hp : 20 ≤ p
  hp53 : p ≤ 53
  hmin : emin ≤ -100 - p
  hk : 0.55 ≤ k
  hk1 : k ≤ 0.8
  coef : AtanPoly p poly F εa εb
  tiny : atanTiny p fused poly = true
  quarter : atanQ p fused poly εa εb = true
  z : AtanZ p emin rnd fused poly k

variable {fused : Bool} {poly : {α : Type} → Alg α → α → α} {F : List ℚ} {εa εb k : ℚ}

/-- The rounded quotient. -/
theorem Atan2Env.quot (S : Atan2Env p emin rnd fused poly F εa εb k) {r : ℚ} (h0 : 0 ≤ r) (h1 : r ≤ 1) :
    0 ≤ rnd r ∧ rnd r ≤ 1 ∧ |((rnd r : ℚ) : ℝ) - r| ≤ 1 / 2 ^ p / 2 ∧ |((rnd r : ℚ) : ℝ) - r| ≤ 1 / 2 ^ p * r + eta emin ∧
    (r ≤ 1 / 2 → |((rnd r : ℚ) : ℝ) - r| ≤ 1 / 2 ^ p / 4) := by
  have h := S.near
  have hp := S.hp
  have hmin := S.hmin
  have hr0 : (0 : ℝ) ≤ r := by exact_mod_cast h0
  have hr1 : (r : ℝ) ≤ 1 := by exact_mod_cast h1
  have hone : rnd 1 = 1 := h.fix ⟨1, 0, by simp; exact one_lt_pow₀ (by norm_num) (by omega), by omega, by norm_num⟩
  have hpz : (2 : ℝ) ^ (-(p : ℤ)) = 1 / 2 ^ p := by rw [zpow_neg, zpow_natCast, one_div]
  have hpe : (2 : ℝ) ^ p * 2 ^ (-(p : ℤ)) = 1 := by rw [zpow_neg, zpow_natCast, mul_inv_cancel₀ (by positivity)]
  refine ⟨?_, ?_, ?_, ?_, fun h2 => ?_⟩
  · have := h.mono h0; rwa [h.zero] at this
  · rw [← hone]; exact h.mono h1
  · have := half_ulp_real h (by omega) (e := -(p : ℤ)) (by omega) (x := r) (by rw [hpe, abs_of_nonneg hr0]; exact hr1)
    rwa [hpz] at this
  · have := h.err (by omega : 1 ≤ p) r
    have h3 : ((|rnd r - r| : ℚ) : ℝ) ≤ ((|r| / 2 ^ p + 2 ^ emin / 2 : ℚ) : ℝ) := by exact_mod_cast this
    push_cast at h3
    rw [abs_of_nonneg hr0] at h3
    unfold eta
    rw [mul_comm, mul_one_div]; exact h3
  · have h2' : (r : ℝ) ≤ 1 / 2 := by have : (r : ℝ) ≤ ((1 / 2 : ℚ) : ℝ) := by exact_mod_cast h2
                                     push_cast at this; exact this
    have := half_ulp_real h (by omega) (e := -(p : ℤ) - 1) (by omega) (x := r) (by
      rw [zpow_sub₀ (by norm_num), zpow_one, mul_div_assoc', hpe, abs_of_nonneg hr0]; exact h2')
    rw [zpow_sub₀ (by norm_num), zpow_one, hpz] at this
    linarith

/-- The kernel before its last rounding anywhere. -/
theorem Atan2Env.all (S : Atan2Env p emin rnd fused poly F εa εb k) {s : ℚ} (h0 : 0 ≤ s) (h1 : s ≤ 1) :
    |((atanZ rnd fused poly s : ℚ) : ℝ) - Real.arctan s| ≤ 2.2 * (1 / 2 ^ p) := by
  have hU0 : (0 : ℝ) < 1 / 2 ^ p := by positivity
  have hkR : (0.55 : ℝ) ≤ k := by have : ((0.55 : ℚ) : ℝ) ≤ k := by exact_mod_cast S.hk
                                  push_cast at this; exact this
  have hs1 : (s : ℝ) ≤ 1 := by exact_mod_cast h1
  have hη1 : eta emin ≤ 0.001 * (1 / 2 ^ p) := by
    unfold eta
    have h1 : (2 : ℝ) ^ emin ≤ 2 ^ (-100 - (p : ℤ)) := zpow_le_zpow_right₀ (by norm_num) S.hmin
    rw [zpow_sub₀ (by norm_num), zpow_natCast, div_eq_mul_one_div] at h1
    have h2 : (2 : ℝ) ^ (-100 : ℤ) ≤ 0.001 := by norm_num
    have h3 := mul_le_mul_of_nonneg_right h2 hU0.le
    linarith
  have key : ∀ c : ℝ, c ≤ 2.2 → c * (1 / 2 ^ p) ≤ 2.2 * (1 / 2 ^ p) := fun c hc => mul_le_mul_of_nonneg_right hc hU0.le
  rcases le_total s (1 / 4) with h4 | h4
  · refine (S.z.tiny s h0 h4).trans ?_
    have h6 : (1 / 2 ^ p) * (s : ℝ) ≤ 1 / 2 ^ p * 1 := mul_le_mul_of_nonneg_left hs1 hU0.le
    linarith
  rcases le_total s 0.3 with h5 | h5
  · exact (S.z.a s h4 h5).trans (key _ (by norm_num))
  rcases le_total s 0.55 with h6 | h6
  · exact (S.z.b s h5 h6).trans (key _ (by norm_num))
  rcases le_total s 0.6 with h9 | h9
  · exact (S.z.c s h6 h9).trans (key _ (by norm_num))
  rcases le_total s 0.65 with h10 | h10
  · exact (S.z.d s h9 h10).trans (key _ (by linarith))
  rcases le_total s 0.95 with h11 | h11
  · exact (S.z.e s h10 h11).trans (key _ (by linarith))
  · exact (S.z.f s h11 h1).trans (key _ (by linarith))

theorem arctan_26 : (0.254 : ℝ) ≤ Real.arctan 0.26 := by
  have := (arctan_num 0.26 (a := 0.254) (b := 0.3) (by norm_num) (by norm_num) (by decide +kernel) (by decide +kernel)).1
  norm_num at this ⊢; exact this

theorem arctan_549 : (0.501 : ℝ) ≤ Real.arctan 0.549 := by
  have := (arctan_num 0.549 (a := 0.501) (b := 0.6) (by norm_num) (by norm_num) (by decide +kernel) (by decide +kernel)).1
  norm_num at this ⊢; exact this

/-- The kernel at a rounded quotient. -/
theorem Atan2Env.le_one (S : Atan2Env p emin rnd fused poly F εa εb k) {r : ℚ} (h0 : 0 ≤ r) (h1 : r ≤ 1) {w : ℝ}
    (hw : IsUlp p emin |Real.arctan r| w) : |((rnd (atanZ rnd fused poly (rnd r)) : ℚ) : ℝ) - Real.arctan r| ≤ 3.5 * w := by
  have h := S.near
  have hp := S.hp
  have hr0 : (0 : ℝ) ≤ r := by exact_mod_cast h0
  have hr1 : (r : ℝ) ≤ 1 := by exact_mod_cast h1
  have hy0 : 0 ≤ Real.arctan r := by rw [Real.arctan_nonneg]; exact hr0
  have hkR : (0.55 : ℝ) ≤ k := by have : ((0.55 : ℚ) : ℝ) ≤ k := by exact_mod_cast S.hk
                                  push_cast at this; exact this
  have hU0 : (0 : ℝ) < 1 / 2 ^ p := by positivity
  have hU2 : (1 : ℝ) / 2 ^ p ≤ 0.000001 :=
    (one_div_le_one_div_of_le (by norm_num) (pow_le_pow_right₀ (by norm_num) hp : (2 : ℝ) ^ 20 ≤ 2 ^ p)).trans (by norm_num)
  have hη : (0 : ℝ) < eta emin := by unfold eta; positivity
  have hη1 : eta emin ≤ 1 / 2 ^ 100 * (1 / 2 ^ p) := by
    unfold eta
    have h1 : (2 : ℝ) ^ emin ≤ 2 ^ (-100 - (p : ℤ)) := zpow_le_zpow_right₀ (by norm_num) S.hmin
    rw [zpow_sub₀ (by norm_num), zpow_natCast, div_eq_mul_one_div] at h1
    have h3 : (2 : ℝ) ^ (-100 : ℤ) = 1 / 2 ^ 100 := by norm_num
    rw [h3] at h1
    have : (0 : ℝ) < 1 / 2 ^ 100 * (1 / 2 ^ p) := by positivity
    linarith
  obtain ⟨q1, q2, q3, q4, q5⟩ := S.quot h0 h1
  have hw' := hw
  rw [abs_of_nonneg hy0] at hw'
  have hw0 := hw.le.2.2
  set s := rnd r with hs
  have hsR0 : (0 : ℝ) ≤ s := by exact_mod_cast q1
  have q3' := _root_.abs_le.mp q3
  have q4' := _root_.abs_le.mp q4
  have cast : ∀ {a : ℚ}, a ≤ s → ((a : ℚ) : ℝ) ≤ s := fun h => by exact_mod_cast h
  have cast' : ∀ {a : ℚ}, s ≤ a → (s : ℝ) ≤ ((a : ℚ) : ℝ) := fun h => by exact_mod_cast h
  suffices hs : |((atanZ rnd fused poly s : ℚ) : ℝ) - Real.arctan r| ≤ 2.5 * w by
    refine (round_err' h (by omega) hw hs (by norm_num)).trans ?_
    linarith
  -- the distance of the two arctangents is that of the quotients at most
  have tri : ∀ (a m d : ℝ), |((atanZ rnd fused poly s : ℚ) : ℝ) - Real.arctan s| ≤ a → 0 ≤ m → m ≤ s → m ≤ r → |(s : ℝ) - r| ≤ d →
      |((atanZ rnd fused poly s : ℚ) : ℝ) - Real.arctan r| ≤ a + 1 / (1 + m ^ 2) * d := by
    intro a m d h1 h2 h3 h4 h5
    have h6 := (arctan_lip h2 h3 h4).trans (mul_le_mul_of_nonneg_left h5 (by positivity))
    have h7 := abs_add_le (((atanZ rnd fused poly s : ℚ) : ℝ) - Real.arctan s) (Real.arctan s - Real.arctan r)
    rw [sub_add_sub_cancel] at h7
    linarith
  rcases le_total s (1 / 4) with h4 | h4
  · have hs4 := cast' h4
    push_cast at hs4
    have hr26 : (r : ℝ) ≤ 0.26 := by linarith
    have h6 : 1 / 2 ^ p * Real.arctan r ≤ w := hw'.le.2.1
    have h5 : eta emin ≤ w / 2 := by have := hw.le.1; unfold eta; linarith
    have hUr : 0 ≤ 1 / 2 ^ p * (r : ℝ) := by positivity
    have hsU : 1 / 2 ^ p * (s : ℝ) ≤ 1.000001 * (1 / 2 ^ p * r) + 0.000001 * eta emin := by
      have h7 : (s : ℝ) ≤ 1.000001 * r + eta emin := by
        have : 1 / 2 ^ p * (r : ℝ) ≤ 0.000001 * r := mul_le_mul_of_nonneg_right hU2 hr0
        linarith
      have h8 := mul_le_mul_of_nonneg_left h7 hU0.le
      have h9 := mul_le_mul_of_nonneg_right hU2 hη.le
      linarith
    rcases le_total s (1 / 2 ^ 30) with h7 | h7
    · have hz := atan_near_zero h hp S.hp53 S.hmin S.coef S.tiny q1 h7
      have hs7 := cast' h7
      push_cast at hs7
      have hη2 : eta emin ≤ 1 / 2 ^ 100 := hη1.trans (by
        have : (1 : ℝ) / 2 ^ 100 * (1 / 2 ^ p) ≤ 1 / 2 ^ 100 * 1 := mul_le_mul_of_nonneg_left (by linarith) (by positivity)
        linarith)
      have hr29 : (r : ℝ) ≤ 1 / 2 ^ 29 := by
        have h8 : 1 / 2 ^ p * (r : ℝ) ≤ 0.000001 * r := mul_le_mul_of_nonneg_right hU2 hr0
        norm_num at hs7 hη2 h8 q4' ⊢; linarith
      have h8 := arctan_sub hr0 hr29
      have h9 : ((1 : ℝ) / 2 ^ 29) ^ 2 * r ≤ 0.05 * (1 / 2 ^ p) * r := by
        refine mul_le_mul_of_nonneg_right ?_ hr0
        have : (2 : ℝ) ^ p ≤ 2 ^ 53 := pow_le_pow_right₀ (by norm_num) S.hp53
        have : (1 : ℝ) / 2 ^ 53 ≤ 1 / 2 ^ p := one_div_le_one_div_of_le (by positivity) this
        norm_num at this ⊢; linarith
      have h10 : ((1 : ℝ) / 2 ^ 29) ^ 2 * r ≤ 0.001 * r := mul_le_mul_of_nonneg_right (by norm_num) hr0
      have h8' := _root_.abs_le.mp (h8.trans h9)
      have h11 : 1 / 2 ^ p * (0.999 * (r : ℝ)) ≤ 1 / 2 ^ p * Real.arctan r := by
        refine mul_le_mul_of_nonneg_left ?_ hU0.le
        have := _root_.abs_le.mp (h8.trans h10)
        linarith
      have hz' := _root_.abs_le.mp hz
      rw [_root_.abs_le]
      generalize (1 : ℝ) / 2 ^ p = U at *
      constructor <;> linarith
    · have hs7 := cast h7
      push_cast at hs7
      have hr31 : (1 : ℝ) / 2 ^ 31 ≤ r := by
        have h8 : 1 / 2 ^ p * (r : ℝ) ≤ 0.000001 * r := mul_le_mul_of_nonneg_right hU2 hr0
        have hη2 : eta emin ≤ 1 / 2 ^ 100 := hη1.trans (by
          have : (1 : ℝ) / 2 ^ 100 * (1 / 2 ^ p) ≤ 1 / 2 ^ 100 * 1 := mul_le_mul_of_nonneg_left (by linarith) (by positivity)
          linarith)
        norm_num at hs7 hη2 h8 q4' ⊢; linarith
      have hη3 : eta emin ≤ 0.0001 * (1 / 2 ^ p * r) := by
        have h8 := mul_le_mul_of_nonneg_left hr31 hU0.le
        have h9 : (1 : ℝ) / 2 ^ 100 * (1 / 2 ^ p) ≤ 0.0001 * (1 / 2 ^ p * (1 / 2 ^ 31)) := by
          have : (1 : ℝ) / 2 ^ 100 * (1 / 2 ^ p) ≤ (0.0001 * (1 / 2 ^ 31)) * (1 / 2 ^ p) := mul_le_mul_of_nonneg_right (by norm_num) hU0.le
          linarith
        linarith
      have h8 := tri _ 0 _ (S.z.tiny s q1 h4) le_rfl hsR0 hr0 q4
      have h9 := arctan_sub hr0 hr26
      have h10 := (_root_.abs_le.mp h9).1
      have h11 : 1 / 2 ^ p * (0.93 * (r : ℝ)) ≤ 1 / 2 ^ p * Real.arctan r := by
        refine mul_le_mul_of_nonneg_left ?_ hU0.le
        norm_num at h10 ⊢; linarith
      refine h8.trans ?_
      generalize (1 : ℝ) / 2 ^ p = U at *
      norm_num at h11 hη3 hsU ⊢
      linarith
  have hs4 := cast h4
  push_cast at hs4
  rcases le_total s 0.26 with h5 | h5
  · have hz := atan_mid (rnd := rnd) h hp S.hmin S.coef S.quarter (by norm_num at h4 ⊢; exact h4) h5
    rw [div_eq_mul_one_div] at hz
    push_cast at hz
    have hs5 := cast' h5
    norm_num at hs5
    have h6 := tri _ 0.24 _ hz (by norm_num) (by linarith) (by linarith) (q5 (by
      have : (r : ℝ) ≤ ((1 / 2 : ℚ) : ℝ) := by push_cast; linarith
      exact_mod_cast this))
    have h7 : (0.125 : ℝ) ≤ Real.arctan r := by
      have := (_root_.abs_le.mp (arctan_sub hr0 (show (r : ℝ) ≤ 0.3 by linarith))).1
      norm_num at this ⊢; linarith
    have h8 := ulp_ge_of hw' (-2) (by norm_num at h7 ⊢; linarith)
    refine h6.trans ?_
    norm_num at h8 hU0 ⊢
    linarith
  rcases le_total s 0.3 with h6 | h6
  · have hs5 := cast h5
    have hs6 := cast' h6
    norm_num at hs5 hs6
    have h7 := tri _ 0 _ (S.z.a s h4 h6) le_rfl hsR0 hr0 (q5 (by
      have : (r : ℝ) ≤ ((1 / 2 : ℚ) : ℝ) := by push_cast; linarith
      exact_mod_cast this))
    have h8 : (0.25 : ℝ) ≤ Real.arctan r := by
      have h9 := (arctan_lip (m := 0) le_rfl hsR0 hr0)
      have h10 := arctan_mono (show (0.26 : ℝ) ≤ s by norm_num; linarith)
      have h11 := arctan_26
      have h12 := (_root_.abs_le.mp h9).2
      rw [zero_pow (by norm_num), add_zero, div_one, one_mul] at h12
      linarith
    have h9 := ulp_ge_of hw' (-1) (by norm_num at h8 ⊢; linarith)
    refine h7.trans ?_
    norm_num at h9 hU0 ⊢
    linarith
  rcases le_total s 0.55 with h7 | h7
  · have hs6 := cast h6
    norm_num at hs6
    have h8 : (0.25 : ℝ) ≤ Real.arctan r := by
      have h9 := (arctan_lip (m := 0) le_rfl hsR0 hr0)
      have h10 := arctan_mono (show (0.3 : ℝ) ≤ s by norm_num; linarith)
      have h11 := arctan_30
      have h12 := (_root_.abs_le.mp h9).2
      rw [zero_pow (by norm_num), add_zero, div_one, one_mul] at h12
      linarith
    have h9 := ulp_ge_of hw' (-1) (by norm_num at h8 ⊢; linarith)
    rcases le_total r (1 / 2) with hr2 | hr2
    · refine (tri _ 0 _ (S.z.b s h6 h7) le_rfl hsR0 hr0 (q5 hr2)).trans ?_
      norm_num at h9 hU0 ⊢
      linarith
    · have hr2' : (1 : ℝ) / 2 ≤ r := by
        have : ((1 / 2 : ℚ) : ℝ) ≤ r := by exact_mod_cast hr2
        push_cast at this; exact this
      refine (tri _ 0.49 _ (S.z.b s h6 h7) (by norm_num) (by linarith) (by linarith) q3).trans ?_
      norm_num at h9 hU0 ⊢
      linarith
  have hs7 := cast h7
  have hr549 : (0.549 : ℝ) ≤ r := by norm_num at hs7 hU2 q3' ⊢; linarith
  have h8 : (0.5 : ℝ) ≤ Real.arctan r := by
    have := arctan_549.trans (arctan_mono hr549)
    linarith
  have h9 := ulp_ge_of hw' 0 (by norm_num at h8 ⊢; linarith)
  rw [zpow_zero, one_mul] at h9
  rcases le_total s 0.6 with h10 | h10
  · refine (tri _ 0 _ (S.z.c s h7 h10) le_rfl hsR0 hr0 q3).trans ?_
    norm_num at h9 hU0 ⊢
    linarith
  rcases le_total s 0.65 with h11 | h11
  · refine (tri _ 0 _ (S.z.d s h10 h11) le_rfl hsR0 hr0 q3).trans ?_
    have := mul_le_mul_of_nonneg_right hkR hU0.le
    generalize (1 : ℝ) / 2 ^ p = U at *
    norm_num1
    linarith
  rcases le_total s 0.95 with h12 | h12
  · have hs11 := cast h11
    refine (tri _ 0.64 _ (S.z.e s h11 h12) (by norm_num) (by norm_num at hs11 ⊢; linarith) (by norm_num at hs11 hU2 q3' ⊢; linarith) q3).trans ?_
    have := mul_le_mul_of_nonneg_right hkR hU0.le
    generalize (1 : ℝ) / 2 ^ p = U at *
    norm_num1
    linarith
  · have hs12 := cast h12
    refine (tri _ 0.94 _ (S.z.f s h12 q2) (by norm_num) (by norm_num at hs12 ⊢; linarith) (by norm_num at hs12 hU2 q3' ⊢; linarith) q3).trans ?_
    have := mul_le_mul_of_nonneg_right hkR hU0.le
    generalize (1 : ℝ) / 2 ^ p = U at *
    norm_num1
    linarith

end Nsimd.Sleef
