import Verif.Lemmas.AtanKernels
import Mathlib.Analysis.Real.Pi.Bounds

/-!
# Error of `atan`: tiny arguments, and the reconstruction for arguments above one
-/

namespace Nsimd.Sleef
open Nsimd.DoubleDouble Nsimd.Float Nsimd.Props.Round Nsimd.Props.Hypot Nsimd.Round Nsimd.Hypot Nsimd.Props.Ulp

variable {p : ℕ} {emin emax : ℤ} {rnd lt : ℚ → ℚ}

theorem arctan_mono {a b : ℝ} (h : a ≤ b) : Real.arctan a ≤ Real.arctan b := Real.arctan_strictMono.monotone h

/-- Numbers for the arctangent. -/
theorem arctan_num (s : ℚ) {a b : ℚ} (h0 : 0 ≤ s) (h1 : s ≤ 1) (ha : a + 1 / 2 ^ 60 ≤ s * atanCert.foldr (fun c v => c + s ^ 2 * v) 0)
    (hb : s * atanCert.foldr (fun c v => c + s ^ 2 * v) 0 ≤ b - 1 / 2 ^ 60) : (a : ℝ) ≤ Real.arctan s ∧ Real.arctan s ≤ b := by
  have h0' : (0 : ℝ) ≤ s := by exact_mod_cast h0
  have h1' : (s : ℝ) ≤ 1 := by exact_mod_cast h1
  have h2 := _root_.abs_le.mp (arctan_cert h0' h1')
  have h3 : ∀ l : List ℚ, Poly.eval l ((s : ℝ) ^ 2) = ((l.foldr (fun c v => c + s ^ 2 * v) 0 : ℚ) : ℝ) := by
    intro l
    induction l with
    | nil => simp
    | cons c l ih => rw [Poly.eval_cons, ih]; push_cast [List.foldr_cons]; ring
  rw [h3] at h2
  have h4 : ((a + 1 / 2 ^ 60 : ℚ) : ℝ) ≤ ((s * atanCert.foldr (fun c v => c + s ^ 2 * v) 0 : ℚ) : ℝ) := by exact_mod_cast ha
  have h5 : ((s * atanCert.foldr (fun c v => c + s ^ 2 * v) 0 : ℚ) : ℝ) ≤ ((b - 1 / 2 ^ 60 : ℚ) : ℝ) := by exact_mod_cast hb
  push_cast at h4 h5
  norm_num at h2 h4 h5 ⊢
  constructor <;> linarith

set_option maxRecDepth 100000 in
theorem arctan_25 : (0.24 : ℝ) ≤ Real.arctan 0.25 := by
  have := (arctan_num 0.25 (a := 0.24) (b := 0.25) (by norm_num) (by norm_num) (by decide +kernel) (by decide +kernel)).1
  norm_num at this ⊢; exact this

set_option maxRecDepth 100000 in
theorem arctan_30 : (0.29 : ℝ) ≤ Real.arctan 0.3 := by
  have := (arctan_num 0.3 (a := 0.29) (b := 0.3) (by norm_num) (by norm_num) (by decide +kernel) (by decide +kernel)).1
  norm_num at this ⊢; exact this

set_option maxRecDepth 100000 in
theorem arctan_55 : (0.5 : ℝ) ≤ Real.arctan 0.55 := by
  have := (arctan_num 0.55 (a := 0.5) (b := 0.55) (by norm_num) (by norm_num) (by decide +kernel) (by decide +kernel)).1
  norm_num at this ⊢; exact this

set_option maxRecDepth 100000 in
theorem arctan_60 : Real.arctan 0.6 ≤ (0.5405 : ℝ) := by
  have := (arctan_num 0.6 (a := 0.5) (b := 0.5405) (by norm_num) (by norm_num) (by decide +kernel) (by decide +kernel)).2
  norm_num at this ⊢; exact this

set_option maxRecDepth 100000 in
theorem arctan_65 : (0.576 : ℝ) ≤ Real.arctan 0.65 := by
  have := (arctan_num 0.65 (a := 0.576) (b := 0.6) (by norm_num) (by norm_num) (by decide +kernel) (by decide +kernel)).1
  norm_num at this ⊢; exact this

/-- The arctangent does not increase distances, and decreases them away from zero. -/
theorem arctan_lip {a b m : ℝ} (hm : 0 ≤ m) (ha : m ≤ a) (hb : m ≤ b) :
    |Real.arctan a - Real.arctan b| ≤ 1 / (1 + m ^ 2) * |a - b| := by
  have := Convex.norm_image_sub_le_of_norm_hasDerivWithin_le (f := Real.arctan) (f' := fun y => 1 / (1 + y ^ 2)) (s := Set.Ici m)
    (C := 1 / (1 + m ^ 2)) (fun z _ => (Real.hasDerivAt_arctan z).hasDerivWithinAt) (fun z hz => by
      rw [Real.norm_eq_abs, abs_of_pos (by positivity)]
      refine one_div_le_one_div_of_le (by positivity) ?_
      have : m ≤ z := hz
      nlinarith) (convex_Ici m) (Set.mem_Ici.mpr hb) (Set.mem_Ici.mpr ha)
  simpa [Real.norm_eq_abs] using this

/-- The kernel before its last rounding for tiny arguments. -/
theorem atan_tiny (h : Nearest p emin rnd) (hp : 20 ≤ p) (hmin : emin ≤ -100 - p) {fused : Bool} {poly : {α : Type} → Alg α → α → α}
    {F : List ℚ} {εa εb : ℚ} (P : AtanPoly p poly F εa εb) (hεa : εa ≤ 0.58) (hok : atanTiny p fused poly = true) {s : ℚ} (h0 : 0 ≤ s) (h1 : s ≤ 1 / 4) :
    |((atanZ rnd fused poly s : ℚ) : ℝ) - Real.arctan s| ≤ 0.73 * (1 / 2 ^ p) * s + 3.3 * eta emin := by
  simp only [atanTiny, Bool.and_eq_true, decide_eq_true_eq] at hok
  obtain ⟨⟨⟨hB, hk⟩, ha⟩, hb⟩ := hok
  set B := atanTU poly (bdAlg p 0 (1 / 15) fused) Bd.arg with hBd
  have h2p : (2 : ℝ) ^ 20 ≤ 2 ^ p := pow_le_pow_right₀ (by norm_num) hp
  have hU0 : (0 : ℝ) < 1 / 2 ^ p := by positivity
  have hU1 : (1 : ℝ) / 2 ^ p ≤ 1 / 2 ^ 20 := one_div_le_one_div_of_le (by norm_num) h2p
  have hs0 : (0 : ℝ) ≤ s := by exact_mod_cast h0
  have hs1 : (s : ℝ) ≤ 1 / 4 := by have : (s : ℝ) ≤ ((1 / 4 : ℚ) : ℝ) := by exact_mod_cast h1
                                   push_cast at this; exact this
  have hη : (0 : ℝ) < eta emin := by unfold eta; positivity
  have hη1 : eta emin ≤ 1 / 2 ^ 20 := by
    have h1 : (2 : ℝ) ^ emin ≤ 2 ^ (-100 : ℤ) := zpow_le_zpow_right₀ (by norm_num) (by omega)
    unfold eta
    norm_num at h1 ⊢; linarith
  have hss : (s : ℝ) * s ≤ 1 / 16 := by nlinarith
  have hrt : |((rnd (s * s) : ℚ) : ℝ) - s * s| ≤ s * s * (1 / 2 ^ p) + eta emin := by
    have := h.err (by omega : 1 ≤ p) (s * s)
    have h3 : ((|rnd (s * s) - s * s| : ℚ) : ℝ) ≤ ((|s * s| / 2 ^ p + 2 ^ emin / 2 : ℚ) : ℝ) := by exact_mod_cast this
    push_cast at h3
    rw [abs_of_nonneg (by positivity : (0 : ℝ) ≤ s * s)] at h3
    unfold eta
    rw [mul_one_div]; exact h3
  have ht0 : 0 ≤ rnd (s * s) := by have := h.mono (show (0 : ℚ) ≤ s * s by positivity); rwa [h.zero] at this
  set t := rnd (s * s) with ht
  have ht0' : (0 : ℝ) ≤ t := by exact_mod_cast ht0
  have hrt' := _root_.abs_le.mp hrt
  have hsU : (s : ℝ) * s * (1 / 2 ^ p) ≤ 1 / 16 * (1 / 2 ^ 20) := mul_le_mul hss hU1 hU0.le (by norm_num)
  have ht1 : (t : ℝ) ≤ 0.0626 := by norm_num at *; linarith
  have E : Env p emin rnd rnd (t : ℝ) 0 (1 / 15) := by
    refine ⟨by omega, hmin, h, lit_one h (by omega), by exact_mod_cast ht0, ?_⟩
    push_cast; norm_num at *; linarith
  obtain ⟨a0, b0, e1, -⟩ := E.natural P.nat fused hB
  rw [← hBd] at a0 b0 e1
  rw [hk, pow_one, abs_of_nonneg ht0'] at e1
  have haR : (B.a : ℝ) ≤ 1.6 * (1 / 2 ^ p) := by
    have : (B.a : ℝ) ≤ ((1.6 / 2 ^ p : ℚ) : ℝ) := by exact_mod_cast ha
    push_cast at this; rw [mul_one_div]; exact this
  have hbR : (B.b : ℝ) ≤ 8.8 := by
    have : (B.b : ℝ) ≤ ((8.8 : ℚ) : ℝ) := by exact_mod_cast hb
    push_cast at this; exact this
  set V := atanTU poly (flAlg rnd rnd fused) t with hV
  have heV : |(V : ℝ) - atanTU poly reAlg (t : ℝ)| ≤ 0.1002 * (1 / 2 ^ p) + 8.8 * eta emin := by
    refine e1.trans ?_
    have h3 : (B.a : ℝ) * t ≤ 1.6 * (1 / 2 ^ p) * 0.0626 := mul_le_mul haR ht1 ht0' (by positivity)
    have h4 : (B.b : ℝ) * eta emin ≤ 8.8 * eta emin := mul_le_mul_of_nonneg_right hbR hη.le
    have h5 : 1.6 * (1 / 2 ^ p) * (0.0626 : ℝ) ≤ 0.1002 * (1 / 2 ^ p) := by nlinarith
    linarith
  have hL : |atanTU poly reAlg (t : ℝ) - atanTU poly reAlg ((s : ℝ) ^ 2)| ≤ 0.34 * (s * s * (1 / 2 ^ p) + eta emin) := by
    rw [P.eval, P.eval]
    refine (Poly.lipschitz (a := 0) (b := 1) P.der ht0' (by linarith) (by positivity) (by nlinarith)).trans ?_
    rw [sq]
    exact mul_le_mul_of_nonneg_left hrt (by norm_num)
  have hε : |(s : ℝ) * (1 + atanTU poly reAlg ((s : ℝ) ^ 2)) - Real.arctan s| ≤ 0.58 * (1 / 2 ^ p) * s := by
    rw [P.eval]
    refine (P.near s hs0 (by linarith)).trans ?_
    have : (εa : ℝ) ≤ ((0.58 : ℚ) : ℝ) := by exact_mod_cast hεa
    push_cast at this
    rw [div_eq_mul_one_div]
    exact mul_le_mul_of_nonneg_right (mul_le_mul_of_nonneg_right this hU0.le) hs0
  have hVm : |(V : ℝ)| ≤ 0.022 := by
    have h4 := P.mag t ht0' (by linarith)
    rw [← P.eval] at h4
    have h5 : |(V : ℝ)| ≤ |atanTU poly reAlg (t : ℝ)| + |(V : ℝ) - atanTU poly reAlg (t : ℝ)| := by
      have := abs_add_le (atanTU poly reAlg (t : ℝ)) ((V : ℝ) - atanTU poly reAlg (t : ℝ)); rwa [add_sub_cancel] at this
    norm_num at *
    linarith
  have hm : |((rnd (s * V) : ℚ) : ℝ) - s * V| ≤ s * 0.022 * (1 / 2 ^ p) + eta emin := by
    have := h.err (by omega : 1 ≤ p) (s * V)
    have h3 : ((|rnd (s * V) - s * V| : ℚ) : ℝ) ≤ ((|s * V| / 2 ^ p + 2 ^ emin / 2 : ℚ) : ℝ) := by exact_mod_cast this
    push_cast at h3
    rw [abs_mul, abs_of_nonneg hs0] at h3
    have h4 : (s : ℝ) * |(V : ℝ)| / 2 ^ p ≤ s * 0.022 * (1 / 2 ^ p) := by
      rw [div_eq_mul_one_div]
      exact mul_le_mul_of_nonneg_right (mul_le_mul_of_nonneg_left hVm hs0) hU0.le
    unfold eta
    linarith
  have hfin := atan_core (rnd := rnd) fused poly (L := 0.34) (et := s * s * (1 / 2 ^ p) + eta emin) (em := s * 0.022 * (1 / 2 ^ p) + eta emin) h0 heV hL hε (by positivity) (fun _ => hm)
  refine hfin.trans ?_
  have h6 : (s : ℝ) * (0.34 * (s * s * (1 / 2 ^ p))) ≤ s * (0.34 * (1 / 16 * (1 / 2 ^ p))) := by
    refine mul_le_mul_of_nonneg_left (mul_le_mul_of_nonneg_left (mul_le_mul_of_nonneg_right hss hU0.le) (by norm_num)) hs0
  have h7 : (s : ℝ) * eta emin ≤ 1 / 4 * eta emin := mul_le_mul_of_nonneg_right hs1 hη.le
  have h8 : 0 ≤ (s : ℝ) * (1 / 2 ^ p) := by positivity
  generalize (1 : ℝ) / 2 ^ p = U at *
  nlinarith

/-- Everything that is needed about the kernel before its last rounding. Proof helper. -/
structure AtanZ (p : ℕ) (emin : ℤ) (rnd : ℚ → ℚ) (fused : Bool) (poly : {α : Type} → Alg α → α → α) (h : ℚ) : Prop where
  tiny : ∀ s : ℚ, 0 ≤ s → s ≤ 1 / 4 → |((atanZ rnd fused poly s : ℚ) : ℝ) - Real.arctan s| ≤ 0.73 * (1 / 2 ^ p) * s + 3.3 * eta emin
  a : ∀ s : ℚ, 1 / 4 ≤ s → s ≤ 0.3 → |((atanZ rnd fused poly s : ℚ) : ℝ) - Real.arctan s| ≤ 0.4 * (1 / 2 ^ p)
  b : ∀ s : ℚ, 0.3 ≤ s → s ≤ 0.55 → |((atanZ rnd fused poly s : ℚ) : ℝ) - Real.arctan s| ≤ 0.8 * (1 / 2 ^ p)
  c : ∀ s : ℚ, 0.55 ≤ s → s ≤ 0.6 → |((atanZ rnd fused poly s : ℚ) : ℝ) - Real.arctan s| ≤ 0.95 * (1 / 2 ^ p)
  d : ∀ s : ℚ, 0.6 ≤ s → s ≤ 0.65 → |((atanZ rnd fused poly s : ℚ) : ℝ) - Real.arctan s| ≤ (1.62 - h) * (1 / 2 ^ p)
  e : ∀ s : ℚ, 0.65 ≤ s → s ≤ 0.95 → |((atanZ rnd fused poly s : ℚ) : ℝ) - Real.arctan s| ≤ (2.64 - h) * (1 / 2 ^ p)
  f : ∀ s : ℚ, 0.95 ≤ s → s ≤ 1 → |((atanZ rnd fused poly s : ℚ) : ℝ) - Real.arctan s| ≤ (2.73 - h) * (1 / 2 ^ p)

theorem atanZ_of (h : Nearest p emin rnd) (hp : 20 ≤ p) (hmin : emin ≤ -100 - p) {fused : Bool} {poly : {α : Type} → Alg α → α → α}
    {F : List ℚ} {εa εb k : ℚ} (P : AtanPoly p poly F εa εb) (hεa : εa ≤ 0.58) (hok : atanTiny p fused poly = true)
    (hall : atanAll p fused poly εa εb k = true) : AtanZ p emin rnd fused poly k := by
  simp only [atanAll, Bool.and_eq_true] at hall
  obtain ⟨⟨⟨⟨⟨ha, hb⟩, hc⟩, hd⟩, he⟩, hf⟩ := hall
  have key : ∀ (c a : ℚ) (l : List ℚ), chain (atanOk p fused poly εa εb c) a l = true → l ≠ [] → ∀ s : ℚ, a ≤ s → s ≤ lastD a l →
      |((atanZ rnd fused poly s : ℚ) : ℝ) - Real.arctan s| ≤ c * (1 / 2 ^ p) := by
    intro c a l hl hl' s h1 h2
    obtain ⟨b, c', h3, h4, h5⟩ := chain_sound hl hl' (x := (s : ℝ)) (by exact_mod_cast h1) (by exact_mod_cast h2)
    have := atan_mid (rnd := rnd) h hp hmin P h3 (by exact_mod_cast h4) (by exact_mod_cast h5)
    rwa [mul_one_div]
  have one : ∀ c a b : ℚ, atanOk p fused poly εa εb c a b = true → chain (atanOk p fused poly εa εb c) a [b] = true := by
    intro c a b hab; simp [chain, hab]
  have n : ∀ q : ℚ, ((q : ℚ) : ℝ) = q := fun _ => rfl
  refine ⟨fun s => atan_tiny h hp hmin P hεa hok, fun s h1 h2 => ?_, fun s h1 h2 => ?_, fun s h1 h2 => ?_, fun s h1 h2 => ?_, fun s h1 h2 => ?_,
    fun s h1 h2 => ?_⟩
  · have := key _ _ _ (one _ _ _ ha) (by simp) s (by norm_num at *; linarith) h2
    push_cast at this; exact this
  · have := key _ _ _ hb (by simp) s h1 h2
    push_cast at this; exact this
  · have := key _ _ _ (one _ _ _ hc) (by simp) s h1 h2
    push_cast at this; exact this
  · have := key _ _ _ hd (by simp) s h1 h2
    push_cast at this; exact this
  · have := key _ _ _ he (by simp) s h1 h2
    push_cast at this; exact this
  · have := key _ _ _ hf (by simp) s h1 h2
    push_cast at this; exact this

/-- Ulp of a number from a power of two on. -/
theorem ulp_ge_of {y w : ℝ} (hw : IsUlp p emin y w) (k : ℤ) (hy : (2 : ℝ) ^ k ≤ 2 * y) : (2 : ℝ) ^ k * (1 / 2 ^ p) ≤ w := by
  have h1 : (2 : ℝ) ^ k * (1 / 2 ^ p) = 2 ^ (k - (p : ℤ)) := by rw [zpow_sub₀ (by norm_num), zpow_natCast, mul_one_div]
  rw [h1]
  refine hw.ge ?_
  rw [← h1, mul_left_comm, mul_one_div, div_self (by positivity), mul_one]
  exact hy

/-- Up to one. -/
theorem atan_le_one (h : Nearest p emin rnd) (hp : 20 ≤ p) {fused : Bool} {poly : {α : Type} → Alg α → α → α}
    {k : ℚ} (Z : AtanZ p emin rnd fused poly k) (hk : 0.5 ≤ k) {s : ℚ} (h0 : 0 ≤ s) (h1 : s ≤ 1) {w : ℝ} (hw : IsUlp p emin |Real.arctan s| w) :
    |((rnd (atanZ rnd fused poly s) : ℚ) : ℝ) - Real.arctan s| ≤ 3.5 * w := by
  have hs0 : (0 : ℝ) ≤ s := by exact_mod_cast h0
  have hy0 : 0 ≤ Real.arctan s := by rw [Real.arctan_nonneg]; exact hs0
  have hkR : (0.5 : ℝ) ≤ k := by have : ((0.5 : ℚ) : ℝ) ≤ k := by exact_mod_cast hk
                                 push_cast at this; exact this
  have hw' := hw
  rw [abs_of_nonneg hy0] at hw'
  have hw0 := hw.le.2.2
  have hU0 : (0 : ℝ) < 1 / 2 ^ p := by positivity
  have cast : ∀ {a : ℚ}, a ≤ s → ((a : ℚ) : ℝ) ≤ s := fun h => by exact_mod_cast h
  suffices hs : |((atanZ rnd fused poly s : ℚ) : ℝ) - Real.arctan s| ≤ 2.5 * w by
    refine (round_err' h (by omega) hw hs (by norm_num)).trans ?_
    linarith
  rcases le_total s (1 / 4) with h4 | h4
  · refine (Z.tiny s h0 h4).trans ?_
    have h5 : eta emin ≤ w / 2 := by have := hw.le.1; unfold eta; linarith
    have h6 : 1 / 2 ^ p * Real.arctan s ≤ w := hw'.le.2.1
    have h7 : 0.94 * (s : ℝ) ≤ Real.arctan s := by
      have hs4 : (s : ℝ) ≤ 1 / 4 := by have : (s : ℝ) ≤ ((1 / 4 : ℚ) : ℝ) := by exact_mod_cast h4
                                       push_cast at this; exact this
      have h8 := (convex_Icc (0 : ℝ) (1 / 4)).norm_image_sub_le_of_norm_hasDerivWithin_le (f := fun y => Real.arctan y - y)
        (f' := fun y => 1 / (1 + y ^ 2) - 1) (C := 0.06)
        (fun z _ => ((Real.hasDerivAt_arctan z).sub (hasDerivAt_id z)).hasDerivWithinAt) (fun z hz => by
          have h9 : z ^ 2 ≤ 1 / 16 := by nlinarith [hz.1, hz.2]
          have h10 : (0 : ℝ) < 1 + z ^ 2 := by positivity
          have h11 : 1 / (1 + z ^ 2) - 1 = -(z ^ 2 / (1 + z ^ 2)) := by field_simp; ring
          rw [h11, Real.norm_eq_abs, abs_neg, abs_of_nonneg (by positivity), div_le_iff₀ h10]
          nlinarith) (Set.mem_Icc.mpr ⟨le_refl _, by norm_num⟩) (Set.mem_Icc.mpr ⟨hs0, hs4⟩)
      simp only [Real.arctan_zero, sub_zero, Real.norm_eq_abs, abs_of_nonneg hs0] at h8
      have := (_root_.abs_le.mp h8).1
      linarith
    have h8 : (1 : ℝ) / 2 ^ p * (0.94 * s) ≤ 1 / 2 ^ p * Real.arctan s := mul_le_mul_of_nonneg_left h7 hU0.le
    generalize (1 : ℝ) / 2 ^ p = U at *
    nlinarith
  rcases le_total s 0.3 with h5 | h5
  · refine (Z.a s h4 h5).trans ?_
    have h6 : (0.24 : ℝ) ≤ Real.arctan s := arctan_25.trans (arctan_mono (by have := cast h4; norm_num at this ⊢; linarith))
    have h7 := ulp_ge_of hw' (-2) (by norm_num; linarith)
    norm_num at h7 ⊢; linarith
  rcases le_total s 0.55 with h6 | h6
  · refine (Z.b s h5 h6).trans ?_
    have h6 : (0.29 : ℝ) ≤ Real.arctan s := arctan_30.trans (arctan_mono (by have := cast h5; norm_num at this ⊢; linarith))
    have h7 := ulp_ge_of hw' (-1) (by norm_num; linarith)
    norm_num at h7 ⊢; linarith
  have h7 : (0.5 : ℝ) ≤ Real.arctan s := arctan_55.trans (arctan_mono (by have := cast h6; norm_num at this ⊢; linarith))
  have h8 := ulp_ge_of hw' 0 (by norm_num; linarith)
  rw [zpow_zero, one_mul] at h8
  have key : ∀ c : ℝ, c ≤ 2.5 → c * (1 / 2 ^ p) ≤ 2.5 * w := fun c hc => mul_le_mul hc h8 hU0.le (by norm_num)
  rcases le_total s 0.6 with h9 | h9
  · exact (Z.c s h6 h9).trans (key _ (by norm_num))
  rcases le_total s 0.65 with h10 | h10
  · exact (Z.d s h9 h10).trans (key _ (by linarith))
  rcases le_total s 0.95 with h11 | h11
  · exact (Z.e s h10 h11).trans (key _ (by linarith))
  · exact (Z.f s h11 h1).trans (key _ (by linarith))

set_option maxHeartbeats 1000000 in
/-- Above one: `H` is the constant for a half of pi, and the kernel is taken at the rounded reciprocal. -/
theorem atan_gt_one (h : Nearest p emin rnd) (hp : 20 ≤ p) (hmin : emin ≤ -100 - p) {fused : Bool} {poly : {α : Type} → Alg α → α → α}
    {k H : ℚ} (Z : AtanZ p emin rnd fused poly k) (hk : 0.5 ≤ k) (hk1 : k ≤ 0.8) (hH : |(H : ℝ) - Real.pi / 2| ≤ k * (1 / 2 ^ p))
    (hHm : Mult (-(p : ℤ)) H) {r : ℚ} (h0 : 0 ≤ r) (h1 : r ≤ 1) {w : ℝ}
    (hw : IsUlp p emin |Real.pi / 2 - Real.arctan r| w) :
    |((rnd (H - rnd (atanZ rnd fused poly (rnd r))) : ℚ) : ℝ) - (Real.pi / 2 - Real.arctan r)| ≤ 3.5 * w := by
  have hU0 : (0 : ℝ) < 1 / 2 ^ p := by positivity
  have h2p : (2 : ℝ) ^ 20 ≤ 2 ^ p := pow_le_pow_right₀ (by norm_num) hp
  have hU1 : (1 : ℝ) / 2 ^ p ≤ 1 / 2 ^ 20 := one_div_le_one_div_of_le (by norm_num) h2p
  have hkR : (0.5 : ℝ) ≤ k := by have : ((0.5 : ℚ) : ℝ) ≤ k := by exact_mod_cast hk
                                 push_cast at this; exact this
  have hkR1 : (k : ℝ) ≤ 0.8 := by have : (k : ℝ) ≤ ((0.8 : ℚ) : ℝ) := by exact_mod_cast hk1
                                  push_cast at this; exact this
  have hpi1 := Real.pi_gt_d6
  have hpi2 := Real.pi_lt_d6
  have hr0 : (0 : ℝ) ≤ r := by exact_mod_cast h0
  have hr1 : (r : ℝ) ≤ 1 := by exact_mod_cast h1
  have hone : rnd 1 = 1 := h.fix ⟨1, 0, by simp; exact one_lt_pow₀ (by norm_num) (by omega), by omega, by norm_num⟩
  have hs1 : rnd r ≤ 1 := by rw [← hone]; exact h.mono h1
  have hs0 : 0 ≤ rnd r := by have := h.mono h0; rwa [h.zero] at this
  have hpe : (2 : ℝ) ^ p * 2 ^ (-(p : ℤ)) = 1 := by rw [zpow_neg, zpow_natCast, mul_inv_cancel₀ (by positivity)]
  have hpz : (2 : ℝ) ^ (-(p : ℤ)) = 1 / 2 ^ p := by rw [zpow_neg, zpow_natCast, one_div]
  have hsr : |((rnd r : ℚ) : ℝ) - r| ≤ 1 / 2 ^ p / 2 := by
    have := half_ulp_real h (by omega) (e := -(p : ℤ)) (by omega) (x := r) (by rw [hpe, abs_of_nonneg hr0]; exact hr1)
    rwa [hpz] at this
  set s := rnd r with hs
  have hsR0 : (0 : ℝ) ≤ s := by exact_mod_cast hs0
  have hsR1 : (s : ℝ) ≤ 1 := by exact_mod_cast hs1
  have hq4 : Real.arctan 1 = Real.pi / 4 := Real.arctan_one
  have hys : Real.arctan s ≤ Real.pi / 4 := by rw [← hq4]; exact arctan_mono hsR1
  have hys0 : 0 ≤ Real.arctan s := by rw [Real.arctan_nonneg]; exact hsR0
  have hyr : Real.arctan r ≤ Real.pi / 4 := by rw [← hq4]; exact arctan_mono hr1
  have hyr0 : 0 ≤ Real.arctan r := by rw [Real.arctan_nonneg]; exact hr0
  have hypos : 0 < Real.pi / 2 - Real.arctan r := by linarith
  rw [abs_of_pos hypos] at hw
  have hwU : 1 / 2 ^ p ≤ w := by
    have := ulp_ge_of hw 0 (by norm_num; linarith)
    rwa [zpow_zero, one_mul] at this
  have hsr' := _root_.abs_le.mp hsr
  -- distance of the two arctangents
  have hlip : ∀ m : ℝ, 0 ≤ m → m ≤ s - 1 / 2 ^ 20 → |Real.arctan r - Real.arctan s| ≤ 1 / (1 + m ^ 2) * (1 / 2 ^ p / 2) := by
    intro m hm hms
    refine (arctan_lip hm ?_ ?_).trans (mul_le_mul_of_nonneg_left (by rwa [abs_sub_comm]) (by positivity))
    · linarith
    · have : (0 : ℝ) < 1 / 2 ^ 20 := by positivity
      linarith
  have hlip0 : |Real.arctan r - Real.arctan s| ≤ 1 / 2 ^ p / 2 := by
    refine (arctan_lip (le_refl 0) hr0 hsR0).trans ?_
    rw [abs_sub_comm]; norm_num at hsr ⊢; linarith
  -- the last rounding of the kernel
  set z := atanZ rnd fused poly s with hz
  have hη1 : eta emin ≤ 0.001 * (1 / 2 ^ p) := by
    unfold eta
    have h1 : (2 : ℝ) ^ emin ≤ 2 ^ (-100 - (p : ℤ)) := zpow_le_zpow_right₀ (by norm_num) (by omega)
    rw [zpow_sub₀ (by norm_num), zpow_natCast, div_eq_mul_one_div] at h1
    have h2 : (2 : ℝ) ^ (-100 : ℤ) ≤ 0.001 := by norm_num
    have h3 := mul_le_mul_of_nonneg_right h2 hU0.le
    linarith
  have hzall : |(z : ℝ) - Real.arctan s| ≤ (if s < 0.6 then (0.95 : ℝ) else if s < 0.65 then 1.62 - (k : ℝ) else if s < 0.95 then 2.64 - (k : ℝ) else 2.73 - (k : ℝ)) * (1 / 2 ^ p) := by
    split_ifs with c1 c2 c3
    · rcases le_total s (1 / 4) with h4 | h4
      · refine (Z.tiny s hs0 h4).trans ?_
        have h6 : (1 / 2 ^ p) * (s : ℝ) ≤ 1 / 2 ^ p * 1 := mul_le_mul_of_nonneg_left hsR1 hU0.le
        linarith
      rcases le_total s 0.3 with h5 | h5
      · exact (Z.a s h4 h5).trans (mul_le_mul_of_nonneg_right (by norm_num) hU0.le)
      rcases le_total s 0.55 with h6 | h6
      · exact (Z.b s h5 h6).trans (mul_le_mul_of_nonneg_right (by norm_num) hU0.le)
      · exact Z.c s h6 c1.le
    · exact Z.d s (not_lt.mp c1) c2.le
    · exact Z.e s (not_lt.mp c2) c3.le
    · exact Z.f s (not_lt.mp c3) hs1
  set D : ℝ := (if s < 0.6 then (0.95 : ℝ) else if s < 0.65 then 1.62 - (k : ℝ) else if s < 0.95 then 2.64 - (k : ℝ) else 2.73 - (k : ℝ)) with hD
  have hD1 : D ≤ 3 := by rw [hD]; split_ifs <;> linarith
  have hDU : D * (1 / 2 ^ p) ≤ 3 * (1 / 2 ^ 20) := by
    have := mul_le_mul_of_nonneg_right hD1 hU0.le
    linarith
  have hz' := _root_.abs_le.mp (hzall.trans hDU)
  have hz1 : |(z : ℝ)| ≤ 1 := by rw [_root_.abs_le]; constructor <;> linarith
  have hT : |((rnd z : ℚ) : ℝ) - z| ≤ 1 / 2 ^ p / 2 := by
    have := half_ulp_real h (by omega) (e := -(p : ℤ)) (by omega) (x := z) (by rw [hpe]; exact hz1)
    rwa [hpz] at this
  set T := rnd z with hTd
  have hT' := _root_.abs_le.mp hT
  have hH' := _root_.abs_le.mp hH
  have hkU : (k : ℝ) * (1 / 2 ^ p) ≤ 0.8 * (1 / 2 ^ 20) := mul_le_mul hkR1 hU1 hU0.le (by norm_num)
  have cast : ∀ {a : ℚ}, a ≤ s → ((a : ℚ) : ℝ) ≤ s := fun h => by exact_mod_cast h
  have cast' : ∀ {a : ℚ}, s ≤ a → (s : ℝ) ≤ ((a : ℚ) : ℝ) := fun h => by exact_mod_cast h
  -- sum of the errors before the last rounding
  have hsum : |((H - T : ℚ) : ℝ) - (Real.pi / 2 - Real.arctan r)| ≤ k * (1 / 2 ^ p) + 1 / 2 ^ p / 2 + D * (1 / 2 ^ p) + |Real.arctan r - Real.arctan s| := by
    have e1 : ((H - T : ℚ) : ℝ) - (Real.pi / 2 - Real.arctan r) = ((H : ℝ) - Real.pi / 2) + -((T : ℝ) - z) + -((z : ℝ) - Real.arctan s) +
      (Real.arctan r - Real.arctan s) := by push_cast; ring
    rw [e1]
    refine (abs_add_le _ _).trans (add_le_add_left ?_ _)
    refine (abs_add_three _ _ _).trans ?_
    rw [abs_neg, abs_neg]
    linarith
  have hHT2 : |((H - T : ℚ) : ℝ)| ≤ 2 := by
    push_cast; rw [_root_.abs_le]; constructor <;> linarith
  have hlast : |((rnd (H - T) : ℚ) : ℝ) - ((H - T : ℚ) : ℝ)| ≤ 1 / 2 ^ p := by
    have := half_ulp_real h (by omega) (e := 1 - (p : ℤ)) (by omega) (x := H - T) (by
      rw [sub_eq_add_neg (1 : ℤ), zpow_add₀ (by norm_num), zpow_one, mul_left_comm, hpe, mul_one]; exact hHT2)
    rw [sub_eq_add_neg (1 : ℤ), zpow_add₀ (by norm_num), zpow_one, hpz] at this
    linarith
  have htri : |((rnd (H - T) : ℚ) : ℝ) - (Real.pi / 2 - Real.arctan r)| ≤ |((rnd (H - T) : ℚ) : ℝ) - ((H - T : ℚ) : ℝ)| +
      |((H - T : ℚ) : ℝ) - (Real.pi / 2 - Real.arctan r)| := abs_sub_le _ _ _
  by_cases c1 : s < 0.6
  · -- the result is at least one
    have hDv : D = 0.95 := by rw [hD, if_pos c1]
    have h6 : (s : ℝ) ≤ 0.6 := by have := cast' c1.le; push_cast at this; exact this
    have h7 : Real.arctan s ≤ 0.5405 := (arctan_mono h6).trans arctan_60
    have h8 := (_root_.abs_le.mp hlip0).2
    have h9 : 2 * (1 / 2 ^ p) ≤ w := by
      have := ulp_ge_of hw 1 (by rw [zpow_one]; linarith)
      rwa [zpow_one] at this
    rw [hDv] at hsum
    have h10 : (k : ℝ) * (1 / 2 ^ p) ≤ 0.8 * (1 / 2 ^ p) := mul_le_mul_of_nonneg_right hkR1 hU0.le
    linarith
  have c6 : (0.6 : ℝ) ≤ s := by have := cast (not_lt.mp c1); push_cast at this; exact this
  by_cases c2 : s < 0.65
  · have hDv : D = 1.62 - k := by rw [hD, if_neg c1, if_pos c2]
    have h8 := hlip 0.599 (by norm_num) (by linarith)
    have h9 : 1 / (1 + (0.599 : ℝ) ^ 2) * (1 / 2 ^ p / 2) ≤ 0.37 * (1 / 2 ^ p) := by
      rw [show 1 / (1 + (0.599 : ℝ) ^ 2) * (1 / 2 ^ p / 2) = (1 / (1 + (0.599 : ℝ) ^ 2) / 2) * (1 / 2 ^ p) by ring]
      exact mul_le_mul_of_nonneg_right (by norm_num) hU0.le
    rw [hDv] at hsum
    linarith
  -- the subtraction is exact
  have c65 : (0.65 : ℝ) ≤ s := by have := cast (not_lt.mp c2); push_cast at this; exact this
  have h7 : (0.576 : ℝ) ≤ Real.arctan s := arctan_65.trans (arctan_mono c65)
  have hTl : (1 / 2 : ℝ) ≤ T := by linarith
  have hTq : 1 / 2 ≤ T := by
    have : ((1 / 2 : ℚ) : ℝ) ≤ T := by push_cast; exact hTl
    exact_mod_cast this
  have hTm : Mult (-(p : ℤ)) T := mult_of_ge (h.rep z) (by
    rw [abs_of_nonneg (by linarith), pow_eq_zpow]
    have : (p : ℤ) + (-p - 1) = -1 := by ring
    rw [this]; norm_num; norm_num at hTq; exact hTq)
  have hex : rnd (H - T) = H - T := by
    refine h.fix (rep_of_mult (by omega : 1 ≤ p) (e := -(p : ℤ)) (by omega) ?_ ?_)
    · obtain ⟨a, ha⟩ := hHm; obtain ⟨b, hb⟩ := hTm
      exact ⟨a - b, by rw [ha, hb]; push_cast; ring⟩
    · have : ((|H - T| : ℚ) : ℝ) ≤ ((2 ^ p * 2 ^ (-(p : ℤ)) : ℚ) : ℝ) := by
        push_cast
        rw [hpe, _root_.abs_le]; constructor <;> linarith
      exact_mod_cast this
  rw [hex]
  refine hsum.trans ?_
  by_cases c3 : s < 0.95
  · have hDv : D = 2.64 - k := by rw [hD, if_neg c1, if_neg c2, if_pos c3]
    have h8 := hlip 0.649 (by norm_num) (by linarith)
    have h9 : 1 / (1 + (0.649 : ℝ) ^ 2) * (1 / 2 ^ p / 2) ≤ 0.355 * (1 / 2 ^ p) := by
      rw [show 1 / (1 + (0.649 : ℝ) ^ 2) * (1 / 2 ^ p / 2) = (1 / (1 + (0.649 : ℝ) ^ 2) / 2) * (1 / 2 ^ p) by ring]
      exact mul_le_mul_of_nonneg_right (by norm_num) hU0.le
    rw [hDv]
    linarith
  · have c95 : (0.95 : ℝ) ≤ s := by have := cast (not_lt.mp c3); push_cast at this; exact this
    have hDv : D = 2.73 - k := by rw [hD, if_neg c1, if_neg c2, if_neg c3]
    have h8 := hlip 0.949 (by norm_num) (by linarith)
    have h9 : 1 / (1 + (0.949 : ℝ) ^ 2) * (1 / 2 ^ p / 2) ≤ 0.265 * (1 / 2 ^ p) := by
      rw [show 1 / (1 + (0.949 : ℝ) ^ 2) * (1 / 2 ^ p / 2) = (1 / (1 + (0.949 : ℝ) ^ 2) / 2) * (1 / 2 ^ p) by ring]
      exact mul_le_mul_of_nonneg_right (by norm_num) hU0.le
    rw [hDv]
    linarith

end Nsimd.Sleef
