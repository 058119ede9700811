import Verif.Lemmas.CbrtPoly
import Verif.Lemmas.CbrtSplit
import Verif.Lemmas.AtanFinish
import Verif.Props.Fmod

/-!
# Accuracy of `cbrt_u35`
-/

namespace Nsimd.Props.Cbrt
open Nsimd.Sleef Nsimd.DoubleDouble Nsimd.Float Nsimd.Props.Round Nsimd.Props.Hypot Nsimd.Round Nsimd.Hypot Nsimd.Props.Ulp Nsimd.Fmod

variable {p : ℕ} {emin emax : ℤ} {rnd : ℚ → ℚ} {d : ℚ}

/-! ### Parts of the proofs -/

theorem cube_inj {a b : ℝ} (h : a ^ 3 = b ^ 3) : a = b := (Odd.strictMono_pow (by decide : Odd 3)).injective h

theorem exists_cube {a : ℝ} (h : 0 < a) : ∃ c : ℝ, 0 < c ∧ c ^ 3 = a :=
  ⟨a ^ (1 / 3 : ℝ), by positivity, by rw [← Real.rpow_natCast, ← Real.rpow_mul h.le]; norm_num⟩

/-- A number whose cube is close. -/
theorem cube_between {a b q s : ℝ} (h1 : a ^ 3 ≤ s) (h2 : s ≤ b ^ 3) (hq : q ^ 3 = s) : a ≤ q ∧ q ≤ b := by
  rw [← hq] at h1 h2
  exact ⟨(Odd.strictMono_pow (by decide : Odd 3)).le_iff_le.mp h1, (Odd.strictMono_pow (by decide : Odd 3)).le_iff_le.mp h2⟩

/-- The product with `q`, with its error: `z` is the result of the last step, `Q` the rounded cube root of `2 ^ r`. -/
theorem cbrt_product (h : Nearest p emin rnd) (hp : 20 ≤ p) {K : ℤ} (hK : emin ≤ -K - p - 2) {z Q σ : ℚ} {c q : ℝ} {k : ℤ} {r : ℕ}
    (hk : |k| ≤ K) (hσ : σ = 1 ∨ σ = -1) (hz : Rep p emin z) (hc0 : 0 < c) (hc1 : c ≤ 1) (hcd : 1 / 2 ≤ c ^ 3)
    (hzc : |(z : ℝ) - c| ≤ c * (2.5 * (1 / 2 ^ p))) (hq0 : 0 < q) (hq : q ^ 3 = 2 ^ r) (hr : r ≤ 2) (hQ0 : r = 0 → Q = 1)
    (hQ : |(Q : ℝ) - q| ≤ 0.98 * (1 / 2 ^ p)) (hKe : K + 1 < emax) :
    Within p emin emax 3 (σ * (c * q * 2 ^ k)) (.fin (rnd (z * (σ * (Q * 2 ^ k))))) := by
  have hp1 : 1 ≤ p := by omega
  have hkk := abs_le.mp hk
  have hu : (1 : ℝ) / 2 ^ p ≤ 0.000001 :=
    (one_div_le_one_div_of_le (by norm_num) (pow_le_pow_right₀ (by norm_num) hp)).trans (by norm_num : (1 : ℝ) / 2 ^ 20 ≤ 0.000001)
  have hu0 : (0 : ℝ) < 1 / 2 ^ p := by positivity
  have hσa : |(σ : ℝ)| = 1 := by rcases hσ with rfl | rfl <;> simp
  have hpk : (0 : ℝ) < 2 ^ k := by positivity
  obtain ⟨hc2, -⟩ := cube_between (a := 0.7937) (b := 1) (s := c ^ 3) (by norm_num at hcd ⊢; linarith) (by
    rw [one_pow]; exact pow_le_one₀ hc0.le hc1) rfl
  have hq2 : q ≤ 1.5875 := by
    have : q ^ 3 ≤ 1.5875 ^ 3 := by
      rw [hq]
      have : (2 : ℝ) ^ r ≤ 2 ^ 2 := pow_le_pow_right₀ (by norm_num) hr
      norm_num at this ⊢; linarith
    exact (Odd.strictMono_pow (by decide : Odd 3)).le_iff_le.mp this
  have hq1 : 1 ≤ q := by
    have : (1 : ℝ) ^ 3 ≤ q ^ 3 := by rw [hq, one_pow]; exact one_le_pow₀ (by norm_num)
    exact (Odd.strictMono_pow (by decide : Odd 3)).le_iff_le.mp this
  have hQb := abs_le.mp hQ
  have hzb := abs_le.mp hzc
  have hcu : c * (2.5 * (1 / 2 ^ p)) ≤ 2.5 * (1 / 2 ^ p) := by
    have := mul_le_mul_of_nonneg_right hc1 (show (0 : ℝ) ≤ 2.5 * (1 / 2 ^ p) by positivity)
    linarith
  have hz1 : 0.79 ≤ (z : ℝ) := by linarith
  have hz2 : (z : ℝ) ≤ 1.00001 := by linarith
  have hQ1 : 0.999 ≤ (Q : ℝ) := by linarith
  have hQ2 : (Q : ℝ) ≤ 1.58751 := by linarith
  have hzQ := prodB (lo := 0.78) (hi := 1.6) hz1 hz2 hQ1 hQ2 (by norm_num) (by norm_num) (by norm_num) (by norm_num)
  have hx : |((z * (σ * (Q * 2 ^ k)) : ℚ) : ℝ)| ≤ 2 ^ (k + 1) := by
    push_cast
    rw [abs_mul, abs_mul, hσa, one_mul, ← abs_mul, ← mul_assoc, abs_of_pos (mul_pos (by linarith [hzQ.1]) hpk), zpow_add_one₀ (by norm_num), mul_comm _ (2 : ℝ)]
    exact mul_le_mul_of_nonneg_right (by linarith [hzQ.2]) hpk.le
  refine ⟨h.rep _, ?_, fun w hw => ?_⟩
  · have hrep : Rep p emin ((2 : ℚ) ^ (k + 1)) := ⟨1, k + 1, by rw [abs_one]; exact one_lt_pow₀ (by norm_num) (by omega), by omega, by simp⟩
    have h1 := h.abs_ge hrep (x := z * (σ * (Q * 2 ^ k))) (by
      rw [abs_of_pos (two_zpow_pos _)]
      have : ((|z * (σ * (Q * 2 ^ k))| : ℚ) : ℝ) ≤ (((2 : ℚ) ^ (k + 1) : ℚ) : ℝ) := by
        rw [Rat.cast_abs]; push_cast at hx ⊢; exact hx
      exact_mod_cast this)
    rw [abs_of_pos (two_zpow_pos _)] at h1
    exact h1.trans_lt (zpow_lt_zpow_right₀ (by norm_num) (by omega))
  · rw [abs_mul, hσa, one_mul, abs_of_pos (by positivity)] at hw
    -- the error before the last rounding
    have hpre : |((z * (σ * (Q * 2 ^ k)) : ℚ) : ℝ) - σ * (c * q * 2 ^ k)| = |(z : ℝ) * Q - c * q| * 2 ^ k := by
      push_cast
      rw [show (z : ℝ) * (σ * (Q * 2 ^ k)) - σ * (c * q * 2 ^ k) = σ * ((z * Q - c * q) * 2 ^ k) by ring, abs_mul, hσa, one_mul, abs_mul,
        abs_of_pos hpk]
    rcases Nat.eq_zero_or_pos r with h0 | h0
    · have hQe := hQ0 h0
      have hqe : q = 1 := cube_inj (by rw [hq, h0]; norm_num)
      have hex : rnd (z * (σ * (Q * 2 ^ k))) = z * (σ * (Q * 2 ^ k)) := by
        rw [hQe, one_mul]
        refine h.fix ?_
        obtain ⟨E, hE, ⟨m, hm⟩, hlt, -⟩ := rep_canon hz
        have hEp : -(p : ℤ) ≤ E := by
          have hz' : (1 / 2 : ℚ) ≤ |z| := by
            have : ((1 / 2 : ℚ) : ℝ) ≤ ((|z| : ℚ) : ℝ) := by
              rw [Rat.cast_abs, abs_of_pos (by linarith)]; push_cast; linarith
            exact_mod_cast this
          have h3 : (2 : ℚ) ^ (-1 : ℤ) < 2 ^ ((p : ℤ) + E) := by
            rw [← pow_eq_zpow]; refine lt_of_le_of_lt ?_ hlt; norm_num; linarith
          have := zpow_lt_iff.mp h3
          omega
        refine rep_of_mult hp1 (e := E + k) (by omega) ?_ ?_
        · rcases hσ with rfl | rfl
          · exact ⟨m, by rw [hm, zpow_add₀ (by norm_num)]; ring⟩
          · exact ⟨-m, by rw [hm, zpow_add₀ (by norm_num)]; push_cast; ring⟩
        · have hσq : |σ| = 1 := by rcases hσ with rfl | rfl <;> simp
          rw [abs_mul, abs_mul, hσq, one_mul, abs_of_pos (two_zpow_pos k), zpow_add₀ (by norm_num), ← mul_assoc]
          exact mul_le_mul_of_nonneg_right hlt.le (two_zpow_pos k).le
      rw [hex, hpre, hQe, hqe]
      have hwk := ulp_ge_of hw k (by rw [hqe, mul_one]; nlinarith)
      push_cast
      rw [mul_one, mul_one]
      calc |(z : ℝ) - c| * 2 ^ k ≤ (2.5 * (1 / 2 ^ p)) * 2 ^ k := mul_le_mul_of_nonneg_right (hzc.trans hcu) hpk.le
        _ = 2.5 * (2 ^ k * (1 / 2 ^ p)) := by ring
        _ ≤ 3 * w := by
          have : 0 < (2 : ℝ) ^ k * (1 / 2 ^ p) := by positivity
          linarith
    · have hcq : 1 ≤ c * q := by
        have : (1 : ℝ) ^ 3 ≤ (c * q) ^ 3 := by
          rw [mul_pow, hq, one_pow]
          have : (2 : ℝ) ^ 1 ≤ 2 ^ r := pow_le_pow_right₀ (by norm_num) h0
          nlinarith
        exact (Odd.strictMono_pow (by decide : Odd 3)).le_iff_le.mp this
      have hwk := ulp_ge_of hw (k + 1) (by rw [zpow_add_one₀ (by norm_num)]; nlinarith)
      rw [zpow_add_one₀ (by norm_num)] at hwk
      have h1 := half_pow h hp1 (k + 1) (by omega) hx
      rw [zpow_add_one₀ (by norm_num)] at h1
      have h2 : |(z : ℝ) * Q - c * q| ≤ 4.95 * (1 / 2 ^ p) := by
        rw [show (z : ℝ) * Q - c * q = (z - c) * Q + c * (Q - q) by ring]
        have a1 : |((z : ℝ) - c) * Q| ≤ 2.5 * (1 / 2 ^ p) * 1.58751 := by
          rw [abs_mul, abs_of_pos (show (0 : ℝ) < Q by linarith)]
          exact mul_le_mul (hzc.trans hcu) hQ2 (by linarith) (by positivity)
        have a2 : |c * ((Q : ℝ) - q)| ≤ 1 * (0.98 * (1 / 2 ^ p)) := by
          rw [abs_mul, abs_of_pos hc0]
          exact mul_le_mul hc1 hQ (abs_nonneg _) (by norm_num)
        have := abs_add_le (((z : ℝ) - c) * Q) (c * (Q - q))
        linarith
      have h3 : |((rnd (z * (σ * (Q * 2 ^ k))) : ℚ) : ℝ) - σ * (c * q * 2 ^ k)| ≤
          |((rnd (z * (σ * (Q * 2 ^ k))) : ℚ) : ℝ) - ((z * (σ * (Q * 2 ^ k)) : ℚ) : ℝ)| +
            |((z * (σ * (Q * 2 ^ k)) : ℚ) : ℝ) - σ * (c * q * 2 ^ k)| := abs_sub_le _ _ _
      rw [hpre] at h3
      have h4 := mul_le_mul_of_nonneg_right h2 hpk.le
      have h5 : 4.95 * (1 / 2 ^ p) * (2 : ℝ) ^ k = 4.95 * (2 ^ k * (1 / 2 ^ p)) := by ring
      have h6 : (2 : ℝ) ^ k * 2 * (1 / 2 ^ p) = 2 * (2 ^ k * (1 / 2 ^ p)) := by ring
      have h7 : 0 < (2 : ℝ) ^ k * (1 / 2 ^ p) := by positivity
      rw [h6] at h1 hwk
      linarith

/-- What is used of the parts of the two functions. Proof helper. -/
structure Parts (p : ℕ) (emin emax K : ℤ) (rnd : ℚ → ℚ) (simd fused : Bool) (recip : ℚ → ℚ) (H : ℝ) : Prop where
  near : Nearest p emin rnd
  hp : 20 ≤ p
  hmin : emin ≤ -100 - p
  hK : emin ≤ -K - p - 2
  hKe : K + 1 < emax
  hKm : -3 * K < emin
  hKx : emax + 2 < 3 * K
  hK4 : K ≤ 400
  hemin : -1300 < emin
  hemax : emax < 1100
  recip : ∀ (d : ℚ) (c : ℝ), 0 < c → c ^ 3 = d → 1 / 2 ≤ d → d ≤ 1 → |(recip d : ℝ) * c - 1| ≤ H
  hH : H ≤ 1 / 20000
  hHu : 6 * H ^ 2 ≤ 0.1 * (1 / 2 ^ p)
  third : ∀ e n r : ℤ, -1400 ≤ e → e ≤ 1100 → e + 6144 = 3 * n + r → 0 ≤ r → r ≤ 2 →
    (if simd then cbrtThirdSimd rnd e else cbrtThird e) = (n, r)
  q1 : ∀ q : ℝ, q ^ 3 = 2 → |((rnd 1.2599210498948731647672106 : ℚ) : ℝ) - q| ≤ 0.98 * (1 / 2 ^ p)
  q2 : ∀ q : ℝ, q ^ 3 = 4 → |((rnd 1.5874010519681994747517056 : ℚ) : ℝ) - q| ≤ 0.98 * (1 / 2 ^ p)

theorem Parts.main {K : ℤ} {simd fused : Bool} {recip : ℚ → ℚ} {H : ℝ} (P : Parts p emin emax K rnd simd fused recip H) (s : ℕ)
    (hr : Rep p emin d) (h0 : d ≠ 0) (h1 : |d| < 2 ^ emax) {y : ℝ} (hy : y ^ 3 = d) :
    Within p emin emax 3 y (.fin (cbrtWith rnd emax s simd fused recip d)) := by
  have h := P.near
  have hp := P.hp
  have hp1 : 1 ≤ p := by omega
  have hmin := P.hmin
  have hd0 : 0 < |d| := abs_pos.mpr h0
  obtain ⟨e1, e2⟩ := ilogbk_spec (emax := emax) h s (rep_absq hr) hd0
  unfold cbrtWith
  simp only
  generalize ilogbk rnd emax s |d| = L at *
  have hL1 : L < emax := by
    have := lt_of_le_of_lt e1 h1
    exact zpow_lt_iff.mp this
  have hL2 : emin < L + 1 := by
    have : (2 : ℚ) ^ emin ≤ |d| := by
      obtain ⟨k, j, hk, hj, hkj⟩ := rep_absq hr
      rw [hkj] at hd0 ⊢
      have hk0 : (0 : ℚ) < k := pos_of_mul_pos_left hd0 (two_zpow_pos j).le
      have hk1 : (1 : ℚ) ≤ k := by exact_mod_cast (by exact_mod_cast hk0 : (0 : ℤ) < k)
      have h3 : (2 : ℚ) ^ emin ≤ 2 ^ j := zpow_le_zpow_right₀ (by norm_num) hj
      have := two_zpow_pos j
      nlinarith
    exact zpow_lt_iff.mp (lt_of_le_of_lt this e2)
  have hx := cbrtLdexp_arg h hp1 hmin hr (e := L + 1) (by simpa using e1)
  obtain ⟨n, r, hnr, hr0, hr2⟩ : ∃ n r : ℤ, L + 1 + 6144 = 3 * n + r ∧ 0 ≤ r ∧ r ≤ 2 :=
    ⟨(L + 1 + 6144) / 3, (L + 1 + 6144) % 3, by omega, by omega, by omega⟩
  have hem := P.hemin
  have hex := P.hemax
  have hKm := P.hKm
  have hKx := P.hKx
  have hK4 := P.hK4
  have hK := P.hK
  rw [hx, P.third (L + 1) n r (by omega) (by omega) hnr hr0 hr2]
  simp only
  -- the argument between 1/2 and 1
  obtain ⟨σ, hσ, hσd⟩ : ∃ σ : ℚ, (σ = 1 ∨ σ = -1) ∧ d = σ * |d| := by
    rcases lt_or_gt_of_ne h0 with hneg | hpos
    · exact ⟨-1, Or.inr rfl, by rw [abs_of_neg hneg]; ring⟩
    · exact ⟨1, Or.inl rfl, by rw [abs_of_pos hpos]; ring⟩
  have hE := two_zpow_pos (-(L + 1))
  have habs : |d * 2 ^ (-(L + 1))| = |d| * 2 ^ (-(L + 1)) := by rw [abs_mul, abs_of_pos hE]
  have hEE : (2 : ℚ) ^ (L + 1) * 2 ^ (-(L + 1)) = 1 := by rw [← zpow_add₀ (by norm_num)]; simp
  have hD2 : |d| * 2 ^ (-(L + 1)) ≤ 1 := by
    rw [← hEE]; exact mul_le_mul_of_nonneg_right e2.le hE.le
  have hD1 : 1 / 2 ≤ |d| * 2 ^ (-(L + 1)) := by
    have h3 := mul_le_mul_of_nonneg_right e1 hE.le
    have h4 : (2 : ℚ) ^ L * 2 ^ (-(L + 1)) = 1 / 2 := by rw [← zpow_add₀ (by norm_num), show L + -(L + 1) = -1 by ring]; norm_num
    linarith
  rw [habs]
  set D := |d| * 2 ^ (-(L + 1)) with hD
  have hDd : |d| = D * 2 ^ (L + 1) := by
    rw [hD, mul_assoc, mul_comm ((2 : ℚ) ^ (-(L + 1))), hEE, mul_one]
  obtain ⟨c, hc0, hc⟩ := exists_cube (a := (D : ℝ)) (by
    have : (0 : ℚ) < D := by linarith
    exact_mod_cast this)
  have hcd : 1 / 2 ≤ c ^ 3 := by
    rw [hc]
    have : ((1 / 2 : ℚ) : ℝ) ≤ D := by exact_mod_cast hD1
    push_cast at this; exact this
  have hc1 : c ≤ 1 := by
    have hD2' : (D : ℝ) ≤ 1 := by exact_mod_cast hD2
    refine (Odd.strictMono_pow (by decide : Odd 3)).le_iff_le.mp ?_
    rw [hc, one_pow]; exact hD2'
  have hstep := cbrtStep_err h hp hmin (simd && fused) hc0 hc hD1 hD2 (P.recip D c hc0 hc hD1 hD2) P.hH P.hHu
  have hzrep : Rep p emin (cbrtStep (flAlg rnd rnd (simd && fused)) D (recip D)) := h.rep _
  generalize cbrtStep (flAlg rnd rnd (simd && fused)) D (recip D) = z at *
  -- the factor
  obtain ⟨q, hq0, hq⟩ := exists_cube (a := (2 : ℝ) ^ r.toNat) (by positivity)
  have hsign : ∀ t : ℚ, (if d * 2 ^ (-(L + 1)) < 0 then -t else t) = σ * t := fun t => by
    rcases hσ with rfl | rfl
    · have : 0 < d := by rw [hσd]; linarith
      rw [if_neg (not_lt.mpr (by positivity))]; ring
    · have : d < 0 := by rw [hσd]; linarith
      rw [if_pos (by nlinarith)]; ring
  rw [hsign]
  have hyk : y = σ * (c * q * 2 ^ (n - 2048)) := by
    refine cube_inj ?_
    rw [hy, mul_pow, mul_pow, mul_pow, hc, hq, hσd, hDd]
    have hσ3 : (σ : ℝ) ^ 3 = σ := by rcases hσ with rfl | rfl <;> norm_num
    push_cast
    rw [hσ3]
    have : (2 : ℝ) ^ r.toNat * (2 ^ (n - 2048)) ^ 3 = 2 ^ (L + 1) := by
      rw [← zpow_natCast (2 : ℝ) r.toNat, ← zpow_natCast, ← zpow_mul, ← zpow_add₀ (by norm_num)]
      congr 1
      rw [Int.toNat_of_nonneg hr0]; push_cast; omega
    rw [mul_assoc (D : ℝ), this]
  rw [hyk]
  have hqq : ∃ Q : ℚ, (if r = 2 then rnd 1.5874010519681994747517056 else if r = 1 then rnd 1.2599210498948731647672106 else 1) = Q ∧
      Rep p emin Q ∧ (r.toNat = 0 → Q = 1) ∧ |(Q : ℝ) - q| ≤ 0.98 * (1 / 2 ^ p) := by
    rcases (by omega : r = 0 ∨ r = 1 ∨ r = 2) with rfl | rfl | rfl
    · refine ⟨1, by simp, ⟨1, 0, by rw [abs_one]; exact one_lt_pow₀ (by norm_num) (by omega), by omega, by norm_num⟩, fun _ => rfl, ?_⟩
      have : q = 1 := cube_inj (by rw [hq]; norm_num)
      rw [this]; push_cast; rw [sub_self, abs_zero]; positivity
    · exact ⟨_, by simp, h.rep _, fun hh => absurd hh (by decide), P.q1 q (by rw [hq]; norm_num)⟩
    · exact ⟨_, by simp, h.rep _, fun hh => absurd hh (by decide), P.q2 q (by rw [hq, show (2 : ℤ).toNat = 2 from rfl]; norm_num)⟩
  obtain ⟨Q, hQ, hQrep, hQ0, hQe⟩ := hqq
  rw [hQ]
  have hu : (1 : ℝ) / 2 ^ p ≤ 0.000001 :=
    (one_div_le_one_div_of_le (by norm_num) (pow_le_pow_right₀ (by norm_num) hp)).trans (by norm_num : (1 : ℝ) / 2 ^ 20 ≤ 0.000001)
  have hq1 : 1 ≤ q := by
    have : (1 : ℝ) ^ 3 ≤ q ^ 3 := by rw [hq, one_pow]; exact one_le_pow₀ (by norm_num)
    exact (Odd.strictMono_pow (by decide : Odd 3)).le_iff_le.mp this
  have hQh : (1 / 2 : ℚ) ≤ |Q| := by
    have h5 : (1 / 2 : ℝ) ≤ Q := by have := _root_.abs_le.mp hQe; linarith
    have : ((1 / 2 : ℚ) : ℝ) ≤ ((|Q| : ℚ) : ℝ) := by
      rw [Rat.cast_abs, abs_of_pos (by linarith)]; push_cast; exact h5
    exact_mod_cast this
  have hQl : cbrtLdexp rnd Q (n - 2048) = Q * 2 ^ (n - 2048) := by
    obtain ⟨E, hE', hm, hlt, -⟩ := rep_canon hQrep
    have hEp : -(p : ℤ) ≤ E := by
      have h3 : (2 : ℚ) ^ (-1 : ℤ) < 2 ^ ((p : ℤ) + E) := by
        rw [← pow_eq_zpow]; refine lt_of_le_of_lt ?_ hlt; norm_num; linarith
      have := zpow_lt_iff.mp h3
      omega
    exact cbrtLdexp_exact h hp1 hm hlt.le (by omega) (by omega)
  rw [hQl]
  exact cbrt_product h hp hK (by rw [abs_le]; constructor <;> omega) hσ hzrep hc0 hc1 hcd hstep hq0 hq (by omega) hQ0 hQe P.hKe

theorem cube_const {K t q s : ℝ} (h1 : (K - t) ^ 3 ≤ s) (h2 : s ≤ (K + t) ^ 3) (hq : q ^ 3 = s) : |K - q| ≤ t := by
  obtain ⟨a, b⟩ := cube_between h1 h2 hq
  rw [abs_le]; constructor <;> linarith

theorem parts64 (h : Nearest 53 (-1074) rnd) (ht : TiesEven 53 (-1074) rnd) (simd fused : Bool) :
    Parts 53 (-1074) 1024 400 rnd simd fused (cbrtNewton64 (flAlg rnd rnd (simd && fused))) (1.12 / 10 ^ 9) where
  near := h
  hp := by norm_num
  hmin := by norm_num
  hK := by norm_num
  hKe := by norm_num
  hKm := by norm_num
  hKx := by norm_num
  hK4 := le_rfl
  hemin := by norm_num
  hemax := by norm_num
  recip := fun d c => cbrtNewton64_err h (simd && fused)
  hH := by norm_num
  hHu := by norm_num
  third := fun e n r h1 h2 h3 h4 h5 => by
    cases simd
    · exact third_scalar h1 h3 h4 h5
    · exact thirdSimd64 h ht h1 h2 h3 h4 h5
  q1 := fun q hq => by
    rw [rnd_lit h (k := 5674179970822795) (e := -52) (by norm_num) (by norm_num) (by norm_num) (by norm_num [abs_lt])]
    push_cast
    exact cube_const (by norm_num) (by norm_num) hq
  q2 := fun q hq => by
    rw [rnd_lit h (k := 7149018786131517) (e := -52) (by norm_num) (by norm_num) (by norm_num) (by norm_num [abs_lt])]
    push_cast
    exact cube_const (by norm_num) (by norm_num) hq

theorem parts32 (h : Nearest 24 (-149) rnd) (simd fused : Bool) :
    Parts 24 (-149) 128 60 rnd simd fused (cbrtPoly32 (flAlg rnd rnd (simd && fused))) 0.0000154 where
  near := h
  hp := by norm_num
  hmin := by norm_num
  hK := by norm_num
  hKe := by norm_num
  hKm := by norm_num
  hKx := by norm_num
  hK4 := by norm_num
  hemin := by norm_num
  hemax := by norm_num
  recip := fun d c => cbrtPoly32_err h (simd && fused)
  hH := by norm_num
  hHu := by norm_num
  third := fun e n r h1 h2 h3 h4 h5 => by
    cases simd
    · exact third_scalar h1 h3 h4 h5
    · exact thirdSimd32 h h1 h2 h3 h4 h5
  q1 := fun q hq => by
    rw [rnd_lit h (k := 10568984) (e := -23) (by norm_num) (by norm_num) (by norm_num) (by norm_num [abs_lt])]
    push_cast
    exact cube_const (by norm_num) (by norm_num) hq
  q2 := fun q hq => by
    rw [rnd_lit h (k := 13316085) (e := -23) (by norm_num) (by norm_num) (by norm_num) (by norm_num [abs_lt])]
    push_cast
    exact cube_const (by norm_num) (by norm_num) hq

/-! ### The functions -/

/-- **cbrt_u35, f64**: 3 ulps for all finite numbers except zero, subnormal and negative ones included. -/
theorem xcbrt_within (h : Nearest 53 (-1074) rnd) (ht : TiesEven 53 (-1074) rnd) (simd fused : Bool) (hr : Rep 53 (-1074) d) (h0 : d ≠ 0)
    (h1 : |d| < 2 ^ (1024 : ℤ)) {y : ℝ} (hy : y ^ 3 = d) : Within 53 (-1074) 1024 3 y (.fin (xcbrt rnd simd fused d)) :=
  (parts64 h ht simd fused).main 300 hr h0 h1 hy

/-- **cbrt_u35, f32**: 3 ulps for all finite numbers except zero, subnormal and negative ones included. -/
theorem xcbrtf_within (h : Nearest 24 (-149) rnd) (simd fused : Bool) (hr : Rep 24 (-149) d) (h0 : d ≠ 0)
    (h1 : |d| < 2 ^ (128 : ℤ)) {y : ℝ} (hy : y ^ 3 = d) : Within 24 (-149) 128 3 y (.fin (xcbrtf rnd simd fused d)) :=
  (parts32 h simd fused).main 64 hr h0 h1 hy

/-- The cube root of zero is zero without any error. -/
theorem cbrt_zero (h : Nearest p emin rnd) (simd fused : Bool) : xcbrt rnd simd fused 0 = 0 ∧ xcbrtf rnd simd fused 0 = 0 := by
  have hl : ∀ e, cbrtLdexp rnd 0 e = 0 := fun e => by simp [cbrtLdexp, h.zero]
  constructor
  · simp [xcbrt, cbrtWith, hl, cbrtStep, flAlg, mul, sub, add, fma, h.zero]
  · simp [xcbrtf, cbrtWith, hl, cbrtStep, flAlg, mul, sub, add, fma, h.zero]

/-- If the tie in the product of 6144 and the rounded third were rounded down, the SIMD code would divide 6144 by 3 as 2047 with a rest of 3,
and the result for arguments between one half and one would be half of the cube root. The hypothesis about ties is needed. -/
theorem cbrt_tie (h : Nearest 53 (-1074) rnd) (hdown : rnd (6144 * rnd (1 / 3)) < 2048) : cbrtThirdSimd rnd 0 = (2047, 3) := by
  have hrep : ∀ n : ℤ, |n| < 2 ^ 53 → rnd n = n := fun n hn => h.fix (Nsimd.Props.Round.rep_int (by norm_num) hn)
  have e1 : rnd ((0 : ℤ) + 6144 : ℚ) = 6144 := by have := hrep 6144 (by norm_num); push_cast at this ⊢; rw [zero_add]; exact this
  have h2 : (2047 : ℚ) ≤ rnd (6144 * rnd (1 / 3)) := by
    have := hrep 2047 (by norm_num)
    push_cast at this
    rw [← this]
    refine h.mono ?_
    rw [third64 h]; norm_num
  have hq : truncQ (mul rnd (add rnd (0 : ℤ) 6144) (rnd (1 / 3))) = 2047 := by
    simp only [mul, add, e1]
    exact truncQ_of (by norm_num) (by exact_mod_cast h2) (by push_cast; linarith)
  unfold cbrtThirdSimd
  simp only [hq]
  refine Prod.ext rfl ?_
  have e2 : rnd (((2047 : ℤ) : ℚ) * 3) = 6141 := by have := hrep 6141 (by norm_num); push_cast at this ⊢; norm_num; exact this
  have e3 : rnd ((6144 : ℚ) - 6141) = 3 := by have := hrep 3 (by norm_num); push_cast at this ⊢; norm_num; exact this
  simp only [mul, add, sub, e1, e2, e3]
  exact truncQ_of (by norm_num) (by norm_num) (by norm_num)

/-- There is a rounding, and the cube root of the negative of the least subnormal number is within 3 ulps. -/
example : ∃ rnd, Nearest 53 (-1074) rnd ∧ TiesEven 53 (-1074) rnd ∧
    Within 53 (-1074) 1024 3 (-2 ^ (-358 : ℤ)) (.fin (xcbrt rnd true true (-2 ^ (-1074 : ℤ)))) :=
  ⟨_, Nsimd.Props.Fmod.nearest64, Nsimd.Props.Fmod.ties64,
    xcbrt_within Nsimd.Props.Fmod.nearest64 Nsimd.Props.Fmod.ties64 true true ⟨-1, -1074, by norm_num, le_rfl, by norm_num⟩
      (neg_ne_zero.mpr (two_zpow_pos _).ne') (by rw [abs_neg, abs_of_pos (two_zpow_pos _)]; exact zpow_lt_zpow_right₀ (by norm_num) (by norm_num))
      (by push_cast; rw [Odd.neg_pow (by decide), ← zpow_natCast, ← zpow_mul]; rfl)⟩

end Nsimd.Props.Cbrt
