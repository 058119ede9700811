import Verif.Lemmas.Remainder

/-!
Helper lemmas: the quotients of `remainder` of a positive number.
-/

namespace Nsimd.Float
open Nsimd.Props.Round Nsimd.DoubleDouble

variable {p : Nat} {emin : ℤ} {rnd : ℚ → ℚ} {d R : ℚ} {f : ℤ}

/-- `q` is an integer near `v`. Proof helper, not code of the repo. -/
def Guess (p : Nat) (v q : ℚ) : Prop :=
  ∃ z : ℤ, |(z : ℚ) - v| ≤ 1 ∧ (2 ^ p ≤ 2 * v → (z : ℚ) = v) ∧ (q = z ∨ Lsb p z q)

/-- The low parts of a number and of a multiple of the divisor, when both have `2p` bits. -/
theorem Nearest.low_fine' (h : Nearest p emin rnd) (hp : 1 ≤ p) {R Q : ℚ} {g : ℤ} (hg : emin ≤ g) (hRm : Mult g R)
    (hQm : Mult g Q) (hQ : |Q| ≤ 2 ^ p * 2 ^ (p + g)) (hR : |R| ≤ 2 ^ p * 2 ^ (p + g)) :
    Rep p emin (R - rnd R - (Q - rnd Q)) := by
  refine rep_of_mult hp hg ((hRm.sub (h.mult hp hg hRm)).sub (hQm.sub (h.mult hp hg hQm))) ?_
  have h1 := h.half_ulp hp (e := p + g) (by omega) (x := R) hR
  have h2 := h.half_ulp hp (e := p + g) (by omega) (x := Q) hQ
  have := abs_sub (R - rnd R) (Q - rnd Q)
  rw [pow_eq_zpow]; linarith

/-- A number below the middle of the largest number and the next power of two does not overflow. -/
theorem Nearest.lt_top (h : Nearest p emin rnd) (hp : 1 ≤ p) {E : ℤ} (hE : emin ≤ E - p) {y : ℚ}
    (hy : y < 2 ^ E * (1 - 1 / 2 ^ p / 2)) : rnd y < 2 ^ E := by
  have hpp : (0 : ℚ) < 2 ^ p := by positivity
  have hX : Rep p emin (2 ^ E * (1 - 1 / 2 ^ p)) := by
    have hz : (2 : ℚ) ^ (E - p) = 2 ^ E / 2 ^ p := by rw [zpow_sub₀ (by norm_num), zpow_natCast]
    refine rep_of_mult hp hE ⟨2 ^ p - 1, ?_⟩ ?_
    · rw [hz]; push_cast; field_simp
    · have h1 : (1 : ℚ) / 2 ^ p ≤ 1 := by
        rw [div_le_one hpp]; exact one_le_pow₀ (by norm_num)
      have := two_zpow_pos E
      rw [abs_of_nonneg (mul_nonneg this.le (by linarith)), hz]
      have e : (2 : ℚ) ^ p * (2 ^ E / 2 ^ p) = 2 ^ E := by field_simp
      rw [e]
      have : (0 : ℚ) < 1 / 2 ^ p := by positivity
      nlinarith
  by_contra hc
  rw [not_lt] at hc
  have hB := two_zpow_pos E
  have hε : (0 : ℚ) < 1 / 2 ^ p := by positivity
  generalize (1 : ℚ) / 2 ^ p = ε at *
  generalize (2 : ℚ) ^ E = B at *
  have hn := h.near y _ hX
  have hBε := mul_pos hB hε
  rcases le_or_gt (B * (1 - ε)) y with h1 | h1
  · rw [abs_of_nonneg (by linarith : 0 ≤ y - B * (1 - ε)), abs_of_neg (by linarith)] at hn
    linarith
  · have := h.mono h1.le
    rw [h.fix hX] at this
    linarith

/-- The product of a large quotient and the divisor does not overflow. -/
theorem Nearest.no_overflow (h : Nearest p emin rnd) (hp : 8 ≤ p) {E : ℤ} (hE : E = 3 - p - emin)
    (hmin : emin ≤ -(p : ℤ)) (hd : 0 < d) {x : ℚ} (hxr : Rep p emin x) (hx0 : 0 < x) (hx : x < 2 ^ E)
    (hv : 2 ^ p ≤ 2 * rnd (x * rnd (1 / d))) : rnd (rnd (x * rnd (1 / d)) * d) < 2 ^ E := by
  have hp1 : 1 ≤ p := by omega
  refine h.lt_top hp1 (by omega) ?_
  have hB := two_zpow_pos E
  have hpp : (256 : ℚ) ≤ 2 ^ p := by
    calc (256 : ℚ) = 2 ^ 8 := by norm_num
      _ ≤ 2 ^ p := pow_le_pow_right₀ (by norm_num) hp
  have h1d : 0 < 1 / d := by positivity
  have hrd0 : 0 ≤ rnd (1 / d) := by rw [← h.zero]; exact h.mono h1d.le
  -- the largest number
  have hX : x ≤ 2 ^ E * (1 - 1 / 2 ^ p) := by
    have hz : (2 : ℚ) ^ (E - p) = 2 ^ E / 2 ^ p := by rw [zpow_sub₀ (by norm_num), zpow_natCast]
    rcases le_or_gt x (2 ^ E / 2) with hc | hc
    · have : (1 : ℚ) / 2 ^ p ≤ 1 / 256 := one_div_le_one_div_of_le (by norm_num) hpp
      nlinarith
    · obtain ⟨k, hk⟩ := mult_of_ge (e := E - p) hxr (by
        rw [abs_of_pos hx0, zpow_sub_one₀ (by norm_num), hz]
        have : (2 : ℚ) ^ p * (2 ^ E / 2 ^ p * 2⁻¹) = 2 ^ E / 2 := by field_simp
        rw [this]; exact hc.le)
      have hz0 : (0 : ℚ) < 2 ^ E / 2 ^ p := by positivity
      have e : (2 : ℚ) ^ E = 2 ^ p * (2 ^ E / 2 ^ p) := by field_simp
      rw [hz] at hk
      have hkl : k < 2 ^ p := by
        have : (k : ℚ) * (2 ^ E / 2 ^ p) < 2 ^ p * (2 ^ E / 2 ^ p) := by rw [← e, ← hk]; exact hx
        have := lt_of_mul_lt_mul_right this hz0.le
        exact_mod_cast this
      have hkl' : (k : ℚ) ≤ 2 ^ p - 1 := by
        have : k ≤ 2 ^ p - 1 := by omega
        have : ((k : ℤ) : ℚ) ≤ ((2 ^ p - 1 : ℤ) : ℚ) := Int.cast_le.mpr this
        push_cast at this; exact this
      rw [hk]
      calc (k : ℚ) * (2 ^ E / 2 ^ p) ≤ (2 ^ p - 1) * (2 ^ E / 2 ^ p) := by gcongr
        _ = _ := by field_simp
  have hXr : Rep p emin (2 ^ E * (1 - 1 / 2 ^ p)) := by
    have hz : (2 : ℚ) ^ (E - p) = 2 ^ E / 2 ^ p := by rw [zpow_sub₀ (by norm_num), zpow_natCast]
    refine rep_of_mult hp1 (e := E - p) (by omega) ⟨2 ^ p - 1, ?_⟩ ?_
    · rw [hz]; push_cast; field_simp
    · rw [abs_of_pos (hx0.trans_le hX), hz]
      have e : (2 : ℚ) ^ p * (2 ^ E / 2 ^ p) = 2 ^ E := by field_simp
      rw [e]
      have : (0 : ℚ) < 1 / 2 ^ p := by positivity
      nlinarith
  -- the reciprocal is normal
  have hnorm : (2 : ℚ) ^ ((p : ℤ) - 2 - E) < rnd (1 / d) := by
    by_contra hc
    rw [not_lt] at hc
    have h1 : x * rnd (1 / d) ≤ 2 ^ E * 2 ^ ((p : ℤ) - 2 - E) := mul_le_mul hx.le hc hrd0 hB.le
    rw [← zpow_add₀ (by norm_num), show E + ((p : ℤ) - 2 - E) = (p : ℤ) - 2 by ring] at h1
    have h2 := h.mono h1
    rw [h.fix (rep_pow hp1 (by omega)), zpow_sub₀ (by norm_num), zpow_natCast] at h2
    have h4 : (2 : ℚ) ^ (2 : ℤ) = 4 := by norm_num
    rw [h4] at h2
    linarith
  obtain ⟨g, hg, hm, hlt, hcan⟩ := rep_canon (h.rep (1 / d))
  rw [abs_of_nonneg hrd0] at hlt hcan
  have hG := two_zpow_pos g
  have hgg : emin < g := by
    by_contra hc
    have : g = emin := by omega
    rw [this, pow_eq_zpow] at hlt
    have := zpow_lt_iff.mp (hnorm.trans hlt)
    omega
  have hlo : 2 ^ p * 2 ^ g / 2 ≤ rnd (1 / d) := by
    rcases hcan with hc | hc
    · omega
    · rw [zpow_sub_one₀ (by norm_num)] at hc; linarith
  set rd := rnd (1 / d) with hrd
  have hle : rnd (x * rd) ≤ rnd (2 ^ E * (1 - 1 / 2 ^ p) * rd) := h.mono (by gcongr)
  have hκ : (1 : ℚ) / 2 ^ p * 2 ^ p = 1 := by field_simp
  have hκ0 : (0 : ℚ) < 1 / 2 ^ p := by positivity
  -- it is enough to bound by the reciprocal
  suffices hs : ∃ w, rnd (x * rd) ≤ 2 ^ E * w ∧ w < 1 / d * (1 - 1 / 2 ^ p / 2) by
    obtain ⟨w, h1, h2⟩ := hs
    have h3 : w * d < 1 - 1 / 2 ^ p / 2 := by
      calc w * d < 1 / d * (1 - 1 / 2 ^ p / 2) * d := by gcongr
        _ = _ := by field_simp
    calc rnd (x * rd) * d ≤ 2 ^ E * w * d := by gcongr
      _ = 2 ^ E * (w * d) := by ring
      _ < _ := by gcongr
  rcases hlo.eq_or_lt with heq | hgt
  · -- a power of two
    refine ⟨(1 - 1 / 2 ^ p) * rd, ?_, ?_⟩
    · refine hle.trans (le_of_eq ?_)
      rw [h.fix]
      · ring
      have hz : (2 : ℚ) ^ (E + g - 1) = 2 ^ E * 2 ^ g / 2 := by
        rw [zpow_sub_one₀ (by norm_num), zpow_add₀ (by norm_num)]; rfl
      refine rep_of_mult (e := E + g - 1) hp1 (by omega) ⟨2 ^ p - 1, ?_⟩ ?_
      · rw [← heq, hz]; push_cast; field_simp
      · rw [abs_of_nonneg (mul_nonneg (hx0.le.trans hX) hrd0), ← heq, hz]
        have : 0 < 2 ^ E * (2 ^ g : ℚ) := by positivity
        have e : 2 ^ E * (1 - 1 / 2 ^ p) * (2 ^ p * 2 ^ g / 2) = (2 ^ p - 1) * (2 ^ E * 2 ^ g / 2 : ℚ) := by field_simp
        rw [e]
        gcongr
        linarith
    · have hs : Rep p emin (rd - 2 ^ (g - 1)) := by
        refine rep_of_mult hp1 (e := g - 1) (by omega) ((hm.le (by omega)).sub ⟨1, by push_cast; ring⟩) ?_
        rw [zpow_sub_one₀ (by norm_num)]
        rw [abs_of_nonneg (by rw [← heq]; nlinarith), ← heq]
        linarith
      have hn := h.near (1 / d) _ hs
      rw [← hrd, zpow_sub_one₀ (by norm_num)] at hn
      have h1 : rd - 2 ^ g / 4 ≤ 1 / d := by
        by_contra hc
        rw [not_le] at hc
        rw [abs_of_neg (by linarith)] at hn
        rcases abs_cases (1 / d - (rd - 2 ^ g * 2⁻¹)) with ⟨e, _⟩ | ⟨e, _⟩ <;> linarith
      have h2 : (2 : ℚ) ^ g / 4 = rd * (1 / 2 ^ p / 2) := by rw [← heq]; field_simp; norm_num
      rw [h2] at h1
      have hrpos : 0 < rd := by rw [← heq]; positivity
      have hκ1 : (1 : ℚ) / 2 ^ p ≤ 1 / 256 := one_div_le_one_div_of_le (by norm_num) hpp
      generalize (1 : ℚ) / 2 ^ p = ε at *
      have : rd * (1 - ε / 2) * (1 - ε / 2) ≤ 1 / d * (1 - ε / 2) := by
        gcongr
        · linarith
        · linarith
      nlinarith [mul_pos hrpos (mul_pos hκ0 hκ0)]
  · refine ⟨rd - 2 ^ g, ?_, ?_⟩
    · refine hle.trans (le_of_not_gt fun hc => ?_)
      have hwm : Mult (g + E) (2 ^ E * (rd - 2 ^ g)) := by
        obtain ⟨k, hk⟩ := hm
        exact ⟨k - 1, by rw [hk, zpow_add₀ (by norm_num)]; push_cast; ring⟩
      have hge : 2 ^ p * 2 ^ g / 2 ≤ rd - 2 ^ g := by
        obtain ⟨k, hk⟩ := hm
        have hp2 : (2 : ℚ) ^ p = 2 * 2 ^ (p - 1) := by rw [← pow_succ']; congr 1; omega
        rw [hk, hp2] at hgt ⊢
        have h1 : (2 : ℚ) ^ (p - 1) < k := by
          have : (2 : ℚ) ^ (p - 1) * 2 ^ g < k * 2 ^ g := by linarith
          exact lt_of_mul_lt_mul_right this hG.le
        have h1' : 2 ^ (p - 1) < k := by exact_mod_cast h1
        have h2 : 2 ^ (p - 1) + 1 ≤ k := by omega
        have h3 : (2 : ℚ) ^ (p - 1) + 1 ≤ k := by exact_mod_cast h2
        nlinarith
      have hwr : Rep p emin (2 ^ E * (rd - 2 ^ g)) := by
        refine rep_of_mult hp1 (by omega) hwm ?_
        rw [abs_of_nonneg (mul_nonneg hB.le (le_trans (by positivity) hge)), zpow_add₀ (by norm_num)]
        nlinarith
      have hw0 : 0 ≤ 2 ^ E * (rd - 2 ^ g) := mul_nonneg hB.le (le_trans (by positivity) hge)
      have hvm : Mult (g + E) (rnd (2 ^ E * (1 - 1 / 2 ^ p) * rd)) := by
        refine mult_of_ge (h.rep _) ?_
        rw [abs_of_pos (hw0.trans_lt hc)]
        refine le_trans ?_ hc.le
        rw [zpow_sub_one₀ (by norm_num), zpow_add₀ (by norm_num)]
        nlinarith
      obtain ⟨j, hj⟩ := hvm.sub hwm
      have hGE := two_zpow_pos (g + E)
      have hj1 : (1 : ℚ) ≤ j := by
        have : (0 : ℚ) < j := by
          by_contra hcon
          have : (j : ℚ) * 2 ^ (g + E) ≤ 0 := mul_nonpos_of_nonpos_of_nonneg (by linarith) hGE.le
          linarith
        have : 0 < j := by exact_mod_cast this
        exact_mod_cast this
      have hgap : 2 ^ (g + E) ≤ rnd (2 ^ E * (1 - 1 / 2 ^ p) * rd) - 2 ^ E * (rd - 2 ^ g) := by rw [hj]; nlinarith
      have hn := h.near (2 ^ E * (1 - 1 / 2 ^ p) * rd) _ hwr
      have e1 : 2 ^ E * (1 - 1 / 2 ^ p) * rd - 2 ^ E * (rd - 2 ^ g) = 2 ^ E * (2 ^ g - 1 / 2 ^ p * rd) := by ring
      rw [zpow_add₀ (by norm_num)] at hgap
      have e2 : 1 / 2 ^ p * rd < 2 ^ g := by
        calc 1 / 2 ^ p * rd < 1 / 2 ^ p * (2 ^ p * 2 ^ g) := by gcongr
          _ = 2 ^ g := by field_simp
      have e3 : 2 ^ g / 2 < 1 / 2 ^ p * rd := by
        calc (2 : ℚ) ^ g / 2 = 1 / 2 ^ p * (2 ^ p * 2 ^ g / 2) := by field_simp
          _ < _ := by gcongr
      have e4 : 2 ^ E * (2 ^ g - 1 / 2 ^ p * rd) < 2 ^ E * (2 ^ g / 2) := by gcongr; linarith
      rw [e1, abs_of_nonneg (mul_nonneg hB.le (by linarith))] at hn
      have e5 := neg_abs_le (2 ^ E * (1 - 1 / 2 ^ p) * rd - rnd (2 ^ E * (1 - 1 / 2 ^ p) * rd))
      nlinarith
    · have hbd : |1 / d - rd| ≤ 2 ^ g / 2 := by
        refine h.half_ulp hp1 hg ?_
        rw [abs_of_pos h1d]
        by_contra hc
        rw [not_le] at hc
        have hr : Rep p emin (2 ^ p * 2 ^ g) :=
          rep_of_mult hp1 hg ⟨2 ^ p, by push_cast; ring⟩ (by rw [abs_of_pos (by positivity)])
        have := h.mono hc.le
        rw [h.fix hr] at this
        linarith
      have h1 := neg_abs_le (1 / d - rd)
      have e2 : 1 / 2 ^ p * rd < 2 ^ g := by
        calc 1 / 2 ^ p * rd < 1 / 2 ^ p * (2 ^ p * 2 ^ g) := by gcongr
          _ = 2 ^ g := by field_simp
      have hκ1 : (1 : ℚ) / 2 ^ p ≤ 1 / 256 := one_div_le_one_div_of_le (by norm_num) hpp
      have h2 : (rd - 2 ^ g / 2) * (1 - 1 / 2 ^ p / 2) ≤ 1 / d * (1 - 1 / 2 ^ p / 2) := by
        gcongr
        · linarith
        · linarith
      generalize (1 : ℚ) / 2 ^ p = ε at *
      nlinarith [mul_pos hG hκ0]

theorem Guess.spec (hp : 1 ≤ p) (hme : emin ≤ 0) {v q : ℚ} (hv : Rep p emin v) (h1 : 1 ≤ v) (g : Guess p v q) :
    Mult 0 q ∧ Rep p emin q ∧ 0 ≤ q ∧ (2 * v < 2 ^ p → 2 * q ≤ 2 ^ p ∧ |q - v| ≤ 1) ∧
    (2 ^ p ≤ 2 * v → q ≤ v ∧ (q = v ∨ ∃ e : ℤ, 0 ≤ e ∧ Mult (e + 1) q ∧ 2 ^ p * 2 ^ e ≤ 2 * q ∧ q < 2 ^ p * 2 ^ e ∧
      v ≤ q + 2 ^ e)) := by
  obtain ⟨z, hz, hzv, hq⟩ := g
  have hz' := _root_.abs_le.mp hz
  have hz0 : (0 : ℚ) ≤ z := by linarith
  have hp2 : (2 : ℚ) ^ p = 2 * 2 ^ (p - 1) := by rw [← pow_succ']; congr 1; omega
  have small : 2 * v < 2 ^ p → 2 * (z : ℚ) ≤ 2 ^ p := by
    intro hs
    have : (z : ℚ) < 2 ^ (p - 1) + 1 := by linarith
    have : z < 2 ^ (p - 1) + 1 := by exact_mod_cast this
    have : z ≤ 2 ^ (p - 1) := by omega
    have : (z : ℚ) ≤ 2 ^ (p - 1) := by exact_mod_cast this
    linarith
  have hzr : Rep p emin (z : ℚ) := by
    rcases lt_or_ge (2 * v) (2 ^ p) with hs | hs
    · exact rep_of_int hp hme (by rw [abs_of_nonneg hz0]; have := small hs; linarith)
    · rw [hzv hs]; exact hv
  have same : q = z → Mult 0 q ∧ Rep p emin q ∧ 0 ≤ q ∧ (2 * v < 2 ^ p → 2 * q ≤ 2 ^ p ∧ |q - v| ≤ 1) ∧
    (2 ^ p ≤ 2 * v → q ≤ v ∧ (q = v ∨ ∃ e : ℤ, 0 ≤ e ∧ Mult (e + 1) q ∧ 2 ^ p * 2 ^ e ≤ 2 * q ∧ q < 2 ^ p * 2 ^ e ∧
      v ≤ q + 2 ^ e)) := by
    rintro rfl
    exact ⟨⟨z, by simp⟩, hzr, hz0, fun hs => ⟨small hs, hz⟩, fun hs => ⟨(hzv hs).le, .inl (hzv hs)⟩⟩
  rcases hq with hq | ⟨hq, -⟩ | ⟨e, he, hm, hlo, hhi, hle, hge⟩
  · exact same hq
  · exact same hq
  · have he1 : (1 : ℚ) ≤ 2 ^ e := by
      rw [show (1 : ℚ) = 2 ^ (0 : ℤ) by norm_num, zpow_le_iff]; exact he
    have hpp : (0 : ℚ) < 2 ^ p := by positivity
    rcases lt_or_ge (2 * v) (2 ^ p) with hs | hs
    · refine same (le_antisymm hle ?_)
      have := small hs
      nlinarith
    · have hq0 : 0 ≤ q := by nlinarith
      refine ⟨hm.le (by omega), rep_of_mult (e := e) hp (by omega) (hm.le (by omega)) (by
        rw [abs_of_nonneg hq0]; exact hhi.le), hq0, fun hs' => by linarith, fun _ => ?_⟩
      rw [hzv hs] at hle hge
      exact ⟨hle, .inr ⟨e, he, hm, hlo, hhi, hge⟩⟩

theorem rel_mul {a b c ε δ : ℚ} (ha : |a| ≤ ε) (hb : |b| ≤ δ) (hc : |c| ≤ ε) (hε : ε ≤ 1 / 256) (hδ : δ ≤ 1 / 32) :
    |(1 + a) * (1 + b) * (1 + c) - 1| ≤ 9 / 4 * ε + δ := by
  have hε0 := (abs_nonneg a).trans ha
  have hδ0 := (abs_nonneg b).trans hb
  have h1 : |a + c + a * c| ≤ 2 * ε + ε * ε := by
    have := abs_add_le (a + c) (a * c)
    have := abs_add_le a c
    rw [abs_mul] at *
    have : |a| * |c| ≤ ε * ε := mul_le_mul ha hc (abs_nonneg _) hε0
    linarith
  have h2 : |(a + c + a * c) * b| ≤ (2 * ε + ε * ε) * δ := by
    rw [abs_mul]
    exact mul_le_mul h1 hb (abs_nonneg _) (by positivity)
  have e : (1 + a) * (1 + b) * (1 + c) - 1 = (a + c + a * c) + b + (a + c + a * c) * b := by ring
  rw [e]
  have h3 := abs_add_le ((a + c + a * c) + b) ((a + c + a * c) * b)
  have h4 := abs_add_le (a + c + a * c) b
  have h5 : ε * ε ≤ ε * (1 / 256) := by gcongr
  have h6 : (2 * ε + ε * ε) * δ ≤ (2 * ε + ε * ε) * (1 / 32) := by gcongr
  linarith

set_option maxHeartbeats 1000000 in
/-- The quotient of a positive remainder. -/
theorem Grid.quot_pos (h : Nearest p emin rnd) (hp : 8 ≤ p) (hmin : emin ≤ -(p : ℤ)) (D : Divisor p emin d f)
    (G : Grid p emin rnd d f R) (hR0 : 0 < R) {E : ℤ} (hE : E = 3 - p - emin) (hmax : rnd R < 2 ^ E)
    (hbig : rnd (3 / 2 * d) ≤ rnd R) {δ : ℚ} (hδ : |rnd (1 / d) * d - 1| ≤ δ) (hδ2 : δ ≤ 1 / 32)
    {q0 q : ℚ} (g : Guess p (rnd (rnd R * rnd (1 / d))) q0)
    (hq : q = if 2 ^ E ≤ |rnd (q0 * d)| then rnd (q0 - 1) else q0) :
    RQuot p emin rnd d R (5 * (1 / 2 ^ p) + δ) q ∧ 0 ≤ q ∧ (q = q0 ∨ 2 * q < 2 ^ p) := by
  have hp1 : 1 ≤ p := by omega
  have hme : emin ≤ 0 := by omega
  have hd := D.pos
  have hlo := D.lo
  have hhi := D.hi
  have hpp : (256 : ℚ) ≤ 2 ^ p := by
    calc (256 : ℚ) = 2 ^ 8 := by norm_num
      _ ≤ 2 ^ p := pow_le_pow_right₀ (by norm_num) hp
  have hε : (1 : ℚ) / 2 ^ p ≤ 1 / 256 := one_div_le_one_div_of_le (by norm_num) hpp
  have hε0 : (0 : ℚ) < 1 / 2 ^ p := by positivity
  have hδ0 := (abs_nonneg _).trans hδ
  have hpe : (2 : ℚ) ^ p * 2 ^ emin ≤ 2 ^ p * 2 ^ f := by
    gcongr
    · norm_num
    · exact D.hf
  have hpe1 : (2 : ℚ) ^ p * 2 ^ emin ≤ 1 := by
    rw [pow_eq_zpow, show (1 : ℚ) = 2 ^ (0 : ℤ) by norm_num, zpow_le_iff]; omega
  have rel : ∀ y : ℚ, 0 < y → 2 ^ p * 2 ^ emin ≤ 2 * y → |rnd y - y| ≤ 1 / 2 ^ p * y := by
    intro y hy hy'
    have := h.rel hp1 (x := y) (by rwa [abs_of_pos hy])
    rw [abs_of_pos hy] at this
    calc _ ≤ y / 2 ^ p := this
      _ = _ := by ring
  have rel' : ∀ y : ℚ, 0 < y → 2 ^ p * 2 ^ emin ≤ 2 * y → ∃ a, rnd y = y * (1 + a) ∧ |a| ≤ 1 / 2 ^ p := by
    intro y hy hy'
    refine ⟨(rnd y - y) / y, by field_simp; ring, ?_⟩
    rw [abs_div, abs_of_pos hy, div_le_iff₀ hy]
    exact rel y hy hy'
  -- the remainder is large
  have h15 : 49 / 33 * d ≤ rnd R := by
    have h1 := neg_abs_le (rnd (3 / 2 * d) - 3 / 2 * d)
    have h2 := rel (3 / 2 * d) (by linarith) (by linarith)
    nlinarith
  have hRd : d ≤ R := by
    by_contra hc
    rw [not_le] at hc
    have := h.mono hc.le
    rw [h.fix (rep_of_mult hp1 D.hf D.hm (by rw [abs_of_pos hd]; exact hhi.le))] at this
    linarith
  obtain ⟨a, ha, ha'⟩ := rel' R hR0 (by linarith)
  have hx0 : 0 < rnd R := by linarith
  obtain ⟨b, hb, hb'⟩ : ∃ b, rnd (1 / d) = (1 + b) / d ∧ |b| ≤ δ := ⟨rnd (1 / d) * d - 1, by field_simp; ring, hδ⟩
  have ht1 : 1 ≤ rnd R * rnd (1 / d) := by
    rw [hb, mul_div_assoc', le_div_iff₀ hd]
    have := neg_abs_le b
    nlinarith
  obtain ⟨c, hc, hc'⟩ := rel' (rnd R * rnd (1 / d)) (by linarith) (by linarith)
  have hv1 : 1 ≤ rnd (rnd R * rnd (1 / d)) := by
    have := h.mono ht1
    rwa [h.fix (by simpa using rep_pow (e := 0) hp1 hme)] at this
  have hvd : |rnd (rnd R * rnd (1 / d)) * d - R| ≤ (9 / 4 * (1 / 2 ^ p) + δ) * R := by
    have e : rnd (rnd R * rnd (1 / d)) * d - R = ((1 + a) * (1 + b) * (1 + c) - 1) * R := by
      rw [hc, ha, hb]; field_simp
    rw [e, abs_mul, abs_of_pos hR0]
    have := rel_mul ha' hb' hc' hε hδ2
    gcongr
  have hvr := h.rep (rnd R * rnd (1 / d))
  have hno := h.no_overflow hp hE hmin hd (h.rep R) hx0 hmax
  obtain ⟨gi, gr, g0, gs, gl⟩ := g.spec hp1 hme hvr hv1
  rw [abs_of_nonneg (by rw [← h.zero]; exact h.mono (by positivity))] at hq
  -- the estimate is too large only if the remainder is
  have hexc : ∀ e : ℤ, 0 ≤ e → rnd (rnd R * rnd (1 / d)) < 2 ^ p * 2 ^ e → R ≤ 2 ^ p * 2 ^ (p + (e + f)) := by
    intro e he hlt
    by_contra hcon
    rw [not_le] at hcon
    have hf := D.hf
    have h1 := h.mono hcon.le
    rw [h.fix (rep_of_mult hp1 (e := p + (e + f)) (by omega) ⟨2 ^ p, by push_cast; ring⟩
      (by rw [abs_of_pos (by positivity)]))] at h1
    have h2 := h1.trans_lt hmax
    rw [pow_eq_zpow] at h2
    have h3 := zpow_lt_iff.mp h2
    have h4 : (2 : ℚ) ^ (-(p : ℤ) - f) ≤ rnd (1 / d) := by
      rw [← h.fix (rep_pow hp1 (show emin ≤ -(p : ℤ) - f by omega))]
      refine h.mono ?_
      rw [le_div_iff₀ hd]
      calc (2 : ℚ) ^ (-(p : ℤ) - f) * d ≤ 2 ^ (-(p : ℤ) - f) * (2 ^ p * 2 ^ f) := by gcongr
        _ = 1 := by
          rw [pow_eq_zpow, ← zpow_add₀ (by norm_num)]
          rw [show -(p : ℤ) - f + (p + f) = 0 by ring, zpow_zero]
    have h5 : (2 : ℚ) ^ p * 2 ^ e ≤ rnd R * rnd (1 / d) := by
      calc (2 : ℚ) ^ p * 2 ^ e = 2 ^ p * 2 ^ ((p : ℤ) + (e + f)) * 2 ^ (-(p : ℤ) - f) := by
            rw [mul_assoc, ← zpow_add₀ (by norm_num)]; congr 2; ring
        _ ≤ _ := mul_le_mul h1 h4 (two_zpow_pos _).le hx0.le
    have h6 := h.mono h5
    rw [h.fix (rep_of_mult hp1 (e := e) (by omega) ⟨2 ^ p, by push_cast; ring⟩
      (by rw [abs_of_pos (by positivity)]))] at h6
    linarith
  set v := rnd (rnd R * rnd (1 / d)) with hv
  have hvd' := _root_.abs_le.mp hvd
  -- small quotients have exact low parts
  have lowS : ∀ q : ℚ, Mult 0 q → 0 ≤ q → 2 * q ≤ 2 ^ p → |R - q * d| ≤ |R| / 8 →
      Rep p emin (R - rnd R - (q * d - rnd (q * d))) := by
    intro q hi h0 hs hc
    rw [abs_of_pos hR0] at hc
    have hc' := _root_.abs_le.mp hc
    have hm : Mult f (q * d) := by have := hi.mul D.hm; rwa [zero_add] at this
    have hq1 : 2 * (q * d) ≤ 2 ^ p * (2 ^ p * 2 ^ f) := by
      calc 2 * (q * d) = 2 * q * d := by ring
        _ ≤ 2 ^ p * (2 ^ p * 2 ^ f) := mul_le_mul hs hhi.le hd.le (by positivity)
    have h2 : (0 : ℚ) < 2 ^ p * (2 ^ p * 2 ^ f) := by positivity
    refine h.low_fine' hp1 D.hf G.mult hm ?_ ?_
    · rw [abs_of_nonneg (by positivity), ← pow_eq_zpow]; linarith
    · rw [abs_of_pos hR0, ← pow_eq_zpow]; linarith
  rcases lt_or_ge (2 * v) (2 ^ p) with hs | hs
  · obtain ⟨g1, g2⟩ := gs hs
    have g2' := _root_.abs_le.mp g2
    split_ifs at hq with hov
    · -- the product overflows
      have hgt : R < q0 * d := by
        by_contra hcon
        rw [not_lt] at hcon
        have := h.mono hcon
        linarith
      have hq1 : 1 ≤ q0 := by
        obtain ⟨j, hj⟩ := gi
        rw [zpow_zero, mul_one] at hj
        have : 0 < q0 := by
          by_contra hcon
          have := mul_nonpos_of_nonpos_of_nonneg (not_lt.mp hcon) hd.le
          linarith
        rw [hj] at this ⊢
        have : 0 < j := by exact_mod_cast this
        exact_mod_cast this
      have hi : Mult 0 (q0 - 1) := gi.sub ⟨1, by simp⟩
      have hr : Rep p emin (q0 - 1) := rep_of_mult hp1 hme hi (by
        rw [zpow_zero, mul_one, abs_of_nonneg (by linarith)]; linarith)
      rw [h.fix hr] at hq
      subst hq
      refine ⟨⟨hi, hr, ?_, lowS _ hi (by linarith) (by linarith)⟩, by linarith, .inr (by linarith)⟩
      rw [abs_of_pos hR0, _root_.abs_le]
      have : q0 * d ≤ v * d + d := by nlinarith
      have h3 : 0 ≤ (1 / 2 ^ p) * R := by positivity
      have h4 : 0 ≤ δ * R := by positivity
      constructor <;> nlinarith
    · subst hq
      refine ⟨⟨gi, gr, ?_, lowS _ gi g0 g1⟩, g0, .inl rfl⟩
      rw [abs_of_pos hR0, _root_.abs_le]
      have h1 : q * d ≤ v * d + d := by nlinarith
      have h2 : v * d - d ≤ q * d := by nlinarith
      have h3 : 0 ≤ (1 / 2 ^ p) * R := by positivity
      have h4 : 0 ≤ δ * R := by positivity
      constructor <;> nlinarith
  · obtain ⟨g1, g2⟩ := gl hs
    have hov : ¬ 2 ^ E ≤ rnd (q0 * d) := by
      rw [not_le]
      exact lt_of_le_of_lt (h.mono (by gcongr)) (hno hs)
    rw [if_neg hov] at hq
    subst hq
    have h3 : 0 ≤ (1 / 2 ^ p) * R := by positivity
    have h4 : 0 ≤ δ * R := by positivity
    have hpz : ∀ e : ℤ, (2 : ℚ) ^ ((p : ℤ) - 2 + e) = 2 ^ p * 2 ^ e / 4 := by
      intro e
      rw [zpow_add₀ (by norm_num), zpow_sub₀ (by norm_num), zpow_natCast]; norm_num; ring
    have hef : ∀ e : ℤ, (2 : ℚ) ^ p * 2 ^ ((p : ℤ) + (e + f)) = 2 ^ p * 2 ^ e * (2 ^ p * 2 ^ f) := by
      intro e
      rw [zpow_add₀ (by norm_num), zpow_add₀ (by norm_num), zpow_natCast]; ring
    have contr : |R - q * d| ≤ (5 * (1 / 2 ^ p) + δ) * |R| + d := by
      rw [abs_of_pos hR0, _root_.abs_le]
      rcases g2 with rfl | ⟨e, he, -, hlo', -, hge⟩
      · constructor <;> nlinarith
      · have h5 : (2 : ℚ) ^ e ≤ 2 * (1 / 2 ^ p) * q := by
          have : (2 : ℚ) ^ e ≤ 2 * q / 2 ^ p := by rw [le_div_iff₀ (by positivity)]; linarith
          calc (2 : ℚ) ^ e ≤ 2 * q / 2 ^ p := this
            _ = _ := by ring
        have h6 : q * d ≤ v * d := by gcongr
        have h7 : v * d ≤ q * d + 2 ^ e * d := by nlinarith
        have h8 : 2 ^ e * d ≤ 2 * (1 / 2 ^ p) * (9 / 8 * R) := by
          calc 2 ^ e * d ≤ 2 * (1 / 2 ^ p) * q * d := by gcongr
            _ = 2 * (1 / 2 ^ p) * (q * d) := by ring
            _ ≤ _ := by
              refine mul_le_mul_of_nonneg_left ?_ (by positivity)
              have : (9 / 4 * (1 / 2 ^ p) + δ) * R ≤ 1 / 8 * R := by gcongr; linarith
              linarith
        constructor <;> nlinarith
    refine ⟨⟨gi, gr, contr, fun hc => ?_⟩, g0, .inl rfl⟩
    rw [abs_of_pos hR0] at hc
    have hc' := _root_.abs_le.mp hc
    have hqd0 : 0 ≤ q * d := by positivity
    rcases g2 with hqv | ⟨e, he, hm, hlo', hhi', -⟩
    · by_cases hsm : 2 * q ≤ 2 ^ p
      · exact lowS q gi g0 hsm (by rwa [abs_of_pos hR0])
      rw [not_le] at hsm
      obtain ⟨e, he, hqm, hlt, hcan⟩ := rep_canon (rep_lift (emin := 0) hp1 gr gi)
      rw [abs_of_nonneg g0] at hlt hcan
      have he2 : 2 ^ p * 2 ^ e ≤ 2 * q := by
        rcases hcan with rfl | hc'
        · rw [zpow_zero, mul_one]; exact hsm.le
        · rw [zpow_sub_one₀ (by norm_num)] at hc'; linarith
      have hqd : 2 ^ p * 2 ^ e * d ≤ 2 * (q * d) := by nlinarith
      have hRm := G.fine e he (by rw [hpz, abs_of_pos hR0]; linarith)
      refine h.low_fine' hp1 (g := e + f) (by have := D.hf; omega) hRm (hqm.mul D.hm) ?_ ?_
      · rw [abs_of_nonneg hqd0, hef]
        exact mul_le_mul hlt.le hhi.le hd.le (by positivity)
      · rw [abs_of_pos hR0]
        exact hexc e he (by rw [← hqv]; exact hlt)
    · have hqd : 2 ^ p * 2 ^ e * d ≤ 2 * (q * d) := by nlinarith
      have hqd2 : q * d ≤ 2 ^ p * 2 ^ e * (2 ^ p * 2 ^ f) := mul_le_mul hhi'.le hhi.le hd.le (by positivity)
      have hpos : (0 : ℚ) < 2 ^ p * 2 ^ e * (2 ^ p * 2 ^ f) := by positivity
      rcases le_or_gt (2 ^ p * 2 ^ e * d / 2) R with hR | hR
      · have e1 : (2 : ℚ) ^ (e + 1) = 2 * 2 ^ e := by rw [zpow_add_one₀ (by norm_num)]; ring
        have hRm := G.fine (e + 1) (by omega) (by rw [hpz, abs_of_pos hR0, e1]; linarith)
        refine h.low_fine' hp1 (g := e + 1 + f) (by have := D.hf; omega) hRm (hm.mul D.hm) ?_ ?_
        · rw [abs_of_nonneg hqd0, hef, e1]; linarith
        · rw [abs_of_pos hR0, hef, e1]; linarith
      · have hRm := G.fine e he (by rw [hpz, abs_of_pos hR0]; linarith)
        refine h.low_fine' hp1 (g := e + f) (by have := D.hf; omega) hRm ((hm.le (by omega)).mul D.hm) ?_ ?_
        · rw [abs_of_nonneg hqd0, hef]; linarith
        · rw [abs_of_pos hR0, hef]
          have : 2 ^ p * 2 ^ e * d ≤ 2 ^ p * 2 ^ e * (2 ^ p * 2 ^ f) := by gcongr
          linarith

end Nsimd.Float
