import Verif.Lemmas.AsinPoly
import Verif.Lemmas.Hypot

/-!
# Error of the kernel of `asin` and `acos`
-/

namespace Nsimd.Sleef
open Nsimd.DoubleDouble Nsimd.Float Nsimd.Props.Round Nsimd.Props.Hypot Nsimd.Round Nsimd.Hypot Nsimd.Props.Ulp

variable {p : ℕ} {emin emax : ℤ} {rnd lt sq : ℚ → ℚ}

/-- A product of two numbers with errors. -/
theorem mul_near {a b A B α β : ℝ} (ha : |a - A| ≤ α) (hb : |b - B| ≤ β) : |a * b - A * B| ≤ |A| * β + α * |B| + α * β := by
  have e : a * b - A * B = A * (b - B) + (a - A) * B + (a - A) * (b - B) := by ring
  have hα := (abs_nonneg _).trans ha
  have h1 : |A * (b - B)| ≤ |A| * β := by rw [abs_mul]; exact mul_le_mul_of_nonneg_left hb (abs_nonneg _)
  have h2 : |(a - A) * B| ≤ α * |B| := by rw [abs_mul]; exact mul_le_mul_of_nonneg_right ha (abs_nonneg _)
  have h3 : |(a - A) * (b - B)| ≤ α * β := by rw [abs_mul]; exact mul_le_mul ha hb (abs_nonneg _) hα
  rw [e]
  have := abs_add_le (A * (b - B) + (a - A) * B) ((a - A) * (b - B))
  have := abs_add_le (A * (b - B)) ((a - A) * B)
  linarith

/-- The rounding of a number that has an error already. -/
theorem round_near {g v V δ u η : ℝ} (hg : |g - v| ≤ u * |v| + η) (hv : |v - V| ≤ δ) (hu : 0 ≤ u) : |g - V| ≤ u * (|V| + δ) + η + δ := by
  have h1 : |v| ≤ |V| + δ := by have := abs_add_le V (v - V); rw [add_sub_cancel] at this; linarith
  have h2 := mul_le_mul_of_nonneg_left h1 hu
  have h3 := abs_sub_le g v V
  linarith

/-- The product of the kernel with all its errors. -/
theorem asin_real {X u η a t g q P m : ℝ} (hX0 : 0 ≤ X) (hX : X ≤ 1 / 2) (hu0 : 0 ≤ u) (hu : u ≤ 0.000001) (hη0 : 0 ≤ η) (hη : η ≤ 0.000001)
    (ha : |a - X| ≤ u * X) (ht : |t - X ^ 2| ≤ u * X ^ 2 + η) (hg : |g - a * t| ≤ u * |a * t| + η) (hP : |P| ≤ 0.19)
    (hq : |q - P| ≤ 0.56 * u + 0.12 * η) (hm : |m - q * g| ≤ u * |q * g| + η) : |m - P * X ^ 3| ≤ 0.34 * u * X + 1.35 * η := by
  have h1 := mul_near ha ht
  rw [abs_of_nonneg hX0, abs_of_nonneg (by positivity : (0 : ℝ) ≤ X ^ 2), show X * X ^ 2 = X ^ 3 by ring] at h1
  set B := X ^ 3 with hB
  have hB0 : 0 ≤ B := by positivity
  have hBX : B ≤ X / 4 := by rw [hB]; nlinarith [mul_nonneg hX0 hX0]
  have huB : 0 ≤ u * B := by positivity
  have e1 : X * η ≤ 0.5 * η := by nlinarith
  have e2 : u * X * η ≤ 0.000001 * η := by
    have : u * X ≤ 0.000001 := by nlinarith
    nlinarith
  have e3 : u * (u * B) ≤ 0.000001 * (u * B) := mul_le_mul_of_nonneg_right hu huB
  have h2 : |a * t - B| ≤ 2.001 * (u * B) + 0.501 * η := by
    have e : X * (u * X ^ 2 + η) + u * X * X ^ 2 + u * X * (u * X ^ 2 + η) = 2 * (u * B) + X * η + u * (u * B) + u * X * η := by rw [hB]; ring
    rw [e] at h1
    linarith
  have h3 := round_near hg h2 hu0
  rw [abs_of_nonneg hB0] at h3
  have e4 : u * η ≤ 0.000001 * η := mul_le_mul_of_nonneg_right hu hη0
  have h4 : |g - B| ≤ 3.002 * (u * B) + 1.502 * η := by
    have e : u * (B + (2.001 * (u * B) + 0.501 * η)) = u * B + 2.001 * (u * (u * B)) + 0.501 * (u * η) := by ring
    rw [e] at h3
    linarith
  have h5 := mul_near hq h4
  rw [abs_of_nonneg hB0] at h5
  have e5 : η * B ≤ 0.126 * η := by
    have : B ≤ 0.126 := by linarith
    nlinarith
  have e6 : η * (u * B) ≤ 0.000001 * (u * B) := mul_le_mul_of_nonneg_right hη huB
  have e7 : η * η ≤ 0.000001 * η := mul_le_mul_of_nonneg_right hη hη0
  have e8 : |P| * (3.002 * (u * B) + 1.502 * η) ≤ 0.19 * (3.002 * (u * B) + 1.502 * η) := mul_le_mul_of_nonneg_right hP (by positivity)
  have h6 : |q * g - P * B| ≤ 1.132 * (u * B) + 0.31 * η := by
    have e : (0.56 * u + 0.12 * η) * B + (0.56 * u + 0.12 * η) * (3.002 * (u * B) + 1.502 * η) =
        0.56 * (u * B) + 0.12 * (η * B) + 0.56 * 3.002 * (u * (u * B)) + 0.56 * 1.502 * (u * η) + 0.12 * 3.002 * (η * (u * B)) +
          0.12 * 1.502 * (η * η) := by ring
    linarith
  have h7 := round_near hm h6 hu0
  have e9 : |P * B| ≤ 0.19 * B := by rw [abs_mul, abs_of_nonneg hB0]; exact mul_le_mul_of_nonneg_right hP hB0
  have e10 : u * (|P * B| + (1.132 * (u * B) + 0.31 * η)) ≤ 0.19 * (u * B) + 1.132 * (u * (u * B)) + 0.31 * (u * η) := by
    have := mul_le_mul_of_nonneg_left e9 hu0
    have e : u * (|P * B| + (1.132 * (u * B) + 0.31 * η)) = u * |P * B| + 1.132 * (u * (u * B)) + 0.31 * (u * η) := by ring
    linarith
  have e11 : u * B ≤ u * (X / 4) := mul_le_mul_of_nonneg_left hBX hu0
  have e12 : 0.34 * u * X = 1.36 * (u * (X / 4)) := by ring
  rw [e12]
  linarith

/-- What is assumed of the format, the rounding and the polynomial. Proof helper. -/
structure AsinEnv (p : ℕ) (emin : ℤ) (rnd lt sq : ℚ → ℚ) (poly : {α : Type} → Alg α → α → α) (F : List ℚ) : Prop where
  near : Nearest p emin rnd
  lits : Lit p emin lt
  root : Root p emin sq
  hp : 20 ≤ p
  hmin : emin ≤ -100 - p
  hmin2 : emin ≤ -2 * p - 20
  poly : AsinPoly p poly F 0.32

variable {poly : {α : Type} → Alg α → α → α} {F : List ℚ}

theorem AsinEnv.u_le (S : AsinEnv p emin rnd lt sq poly F) : (1 : ℝ) / 2 ^ p ≤ 0.000001 :=
  (one_div_le_one_div_of_le (by norm_num) (pow_le_pow_right₀ (by norm_num) S.hp)).trans (by norm_num : (1 : ℝ) / 2 ^ 20 ≤ 0.000001)

theorem AsinEnv.eta_le (S : AsinEnv p emin rnd lt sq poly F) : eta emin ≤ 1 / 2 ^ 100 * (1 / 2 ^ p) := by
  have h1 : (2 : ℝ) ^ emin ≤ 2 ^ (-(100 : ℤ) - p) := zpow_le_zpow_right₀ (by norm_num) S.hmin
  rw [zpow_sub₀ (by norm_num), zpow_neg, zpow_natCast] at h1
  have h2 : (0 : ℝ) < 2 ^ emin := by positivity
  have e : ((2 : ℝ) ^ (100 : ℤ))⁻¹ / 2 ^ p = 1 / 2 ^ 100 * (1 / 2 ^ p) := by norm_cast; ring
  rw [e] at h1
  unfold eta
  linarith

theorem AsinEnv.err (S : AsinEnv p emin rnd lt sq poly F) (v : ℚ) : |((rnd v : ℚ) : ℝ) - v| ≤ 1 / 2 ^ p * |(v : ℝ)| + eta emin := by
  have := S.near.err (by have := S.hp; omega) v
  have h1 : ((|rnd v - v| : ℚ) : ℝ) ≤ ((|v| / 2 ^ p + 2 ^ emin / 2 : ℚ) : ℝ) := by exact_mod_cast this
  push_cast at h1
  unfold eta
  rw [one_div_mul_eq_div]; exact h1

/-- The number that is rounded last, `x` plus the product, compared with the arcsine of `X`. -/
theorem AsinEnv.kernel (S : AsinEnv p emin rnd lt sq poly F) (fused : Bool) {x t m : ℚ} {X : ℝ} (hX0 : 0 ≤ X) (hX : X ≤ 1 / 2)
    (ha : |(x : ℝ) - X| ≤ 1 / 2 ^ p * X) (ht : |(t : ℝ) - X ^ 2| ≤ 1 / 2 ^ p * X ^ 2 + eta emin) (ht0 : 0 ≤ t) (ht1 : t ≤ 1 / 4)
    (hm : m = poly (flAlg rnd lt fused) t * rnd (x * t) ∨ m = rnd (poly (flAlg rnd lt fused) t * rnd (x * t))) :
    |((x + m : ℚ) : ℝ) - Real.arcsin X| ≤ |(x : ℝ) - X| + 0.66 * (1 / 2 ^ p) * X + 1.35 * eta emin := by
  have P := S.poly
  have hη := S.eta_le
  have hu := S.u_le
  have hη0 := eta_pos (emin := emin)
  have hu0 : (0 : ℝ) < 1 / 2 ^ p := by positivity
  have hη' : eta emin ≤ 0.000001 := by
    refine hη.trans ?_
    have : (1 : ℝ) / 2 ^ 100 * (1 / 2 ^ p) ≤ 1 * (1 / 2 ^ p) := mul_le_mul_of_nonneg_right (by norm_num) hu0.le
    linarith
  have ht0' : (0 : ℝ) ≤ t := by exact_mod_cast ht0
  have ht1' : (t : ℝ) ≤ 1 / 4 := by
    have : (t : ℝ) ≤ ((1 / 4 : ℚ) : ℝ) := by exact_mod_cast ht1
    push_cast at this; exact this
  have hX2 : X ^ 2 ≤ 1 / 4 := by nlinarith
  have E : Env p emin rnd lt (t : ℝ) ((0 : ℚ)) ((1 / 4 : ℚ)) :=
    ⟨by have := S.hp; omega, S.hmin, S.near, S.lits, by push_cast; exact ht0', by push_cast; exact ht1'⟩
  have hf := P.fl fused
  simp only [Bool.and_eq_true, decide_eq_true_eq] at hf
  obtain ⟨⟨hok, hk⟩, hB⟩ := hf
  obtain ⟨-, b0, e1, -⟩ := E.naturalI P.nat fused hok
  set B := poly (bdAlg p 0 (1 / 4) fused) (Bd.argI 0 (1 / 4)) with hBd
  rw [hk, pow_zero, mul_one, P.eval] at e1
  have b0' : (0 : ℝ) ≤ B.b := by exact_mod_cast b0
  set q := poly (flAlg rnd lt fused) t with hqd
  have hq1 : |(q : ℝ) - Poly.eval F t| ≤ 0.53 * (1 / 2 ^ p) := by
    refine e1.trans ?_
    have h1 := mul_le_mul_of_nonneg_left E.eta_le b0'
    have h2 : ((B.a + B.b / 2 ^ 100 : ℚ) : ℝ) ≤ ((0.53 / 2 ^ p : ℚ) : ℝ) := by exact_mod_cast hB
    push_cast at h2
    rw [mul_one_div] at h1 ⊢
    linarith
  have hq2 := Poly.lipschitz (a := 0) (b := 1 / 4) P.der ht0' ht1' (by positivity) hX2
  have hq : |(q : ℝ) - Poly.eval F (X ^ 2)| ≤ 0.56 * (1 / 2 ^ p) + 0.12 * eta emin := by
    have h1 := abs_sub_le (q : ℝ) (Poly.eval F t) (Poly.eval F (X ^ 2))
    have h2 : (1 : ℝ) / 2 ^ p * X ^ 2 ≤ 1 / 2 ^ p * (1 / 4) := mul_le_mul_of_nonneg_left hX2 hu0.le
    linarith
  have hg := S.err (x * t)
  push_cast at hg
  have hm' : |(m : ℝ) - q * ((rnd (x * t) : ℚ) : ℝ)| ≤ 1 / 2 ^ p * |(q : ℝ) * ((rnd (x * t) : ℚ) : ℝ)| + eta emin := by
    rcases hm with rfl | rfl
    · push_cast; rw [sub_self, abs_zero]; positivity
    · have := S.err (q * rnd (x * t)); push_cast at this; exact this
  have h1 := asin_real hX0 hX hu0.le hu hη0.le hη' ha ht hg (P.mag _ (by positivity) hX2) hq hm'
  have h2 := P.near X hX0 hX
  have e : ((x + m : ℚ) : ℝ) - Real.arcsin X = (x - X) + (m - Poly.eval F (X ^ 2) * X ^ 3) +
      (X + Poly.eval F (X ^ 2) * X ^ 3 - Real.arcsin X) := by push_cast; ring
  rw [e]
  have h3 := abs_add_le (((x : ℝ) - X) + (m - Poly.eval F (X ^ 2) * X ^ 3)) (X + Poly.eval F (X ^ 2) * X ^ 3 - Real.arcsin X)
  have h4 := abs_add_le ((x : ℝ) - X) (m - Poly.eval F (X ^ 2) * X ^ 3)
  linarith

/-- The error of a nearest square root is at most half a unit. -/
theorem Root.half (h : Root p emin sq) (hp : 1 ≤ p) {s : ℚ} (hs : 0 ≤ s) {e : ℤ} (he : emin ≤ e) (hb : √(s : ℝ) ≤ 2 ^ p * 2 ^ e) :
    |(sq s : ℝ) - √(s : ℝ)| ≤ 2 ^ e / 2 := by
  have hE : (0 : ℝ) < 2 ^ e := by positivity
  set k := round (√(s : ℝ) / 2 ^ e) with hk
  have h1 := abs_sub_round (√(s : ℝ) / 2 ^ e)
  have hk2 : |k| ≤ 2 ^ p := by
    have h2 : √(s : ℝ) / 2 ^ e ≤ 2 ^ p := by rw [div_le_iff₀ hE]; exact hb
    have h3 : 0 ≤ √(s : ℝ) / 2 ^ e := by positivity
    have h4 := _root_.abs_le.mp h1
    rw [← hk] at h4
    rw [_root_.abs_le]
    constructor
    · have : (-1 : ℝ) < k := by linarith
      have : (-1 : ℤ) < k := by exact_mod_cast this
      have : (0 : ℤ) < 2 ^ p := by positivity
      omega
    · have : (k : ℝ) < 2 ^ p + 1 := by linarith
      have : k < 2 ^ p + 1 := by exact_mod_cast this
      omega
  have h2 := h.near s (k * 2 ^ e) hs (rep_int_mul hp he hk2)
  refine h2.trans ?_
  push_cast
  have e1 : (k : ℝ) * 2 ^ e - √(s : ℝ) = -((√(s : ℝ) / 2 ^ e - k) * 2 ^ e) := by field_simp; ring
  rw [e1, abs_neg, abs_mul, abs_of_pos hE]
  have := mul_le_mul_of_nonneg_right h1 hE.le
  linarith

/-- The reduced argument of an argument of at least one half. -/
theorem AsinEnv.large (S : AsinEnv p emin rnd lt sq poly F) {d : ℚ} (hr : Rep p emin d) (h1 : 1 / 2 ≤ |d|) (h2 : |d| ≤ 1) :
    asinX2 rnd d = (1 - |d|) / 2 ∧ |((asinX rnd sq d : ℚ) : ℝ) - √(((1 - |d|) / 2 : ℚ) : ℝ)| ≤ 1 / 2 ^ p * √(((1 - |d|) / 2 : ℚ) : ℝ) ∧
      |((asinX rnd sq d : ℚ) : ℝ) - √(((1 - |d|) / 2 : ℚ) : ℝ)| ≤ 1 / 2 ^ p / 4 ∧
      (|d| < 1 → 1 / 2 ^ p / 2 ≤ √(((1 - |d|) / 2 : ℚ) : ℝ)) := by
  have hp := S.hp
  have hp1 : 1 ≤ p := by omega
  have hmin := S.hmin
  have hmin2 := S.hmin2
  have h := S.near
  obtain ⟨k, hk⟩ := mult_of_ge (e := -(p : ℤ)) (rep_absq hr) (by
    rw [pow_eq_zpow, show (p : ℤ) + (-p - 1) = -1 by ring, abs_abs]; norm_num; linarith)
  have hz : (2 : ℚ) ^ (-(p : ℤ)) = 1 / 2 ^ p := by rw [zpow_neg, zpow_natCast, one_div]
  have hpp : (0 : ℚ) < 2 ^ p := by positivity
  have hone : (1 : ℚ) = (2 ^ p : ℤ) * 2 ^ (-(p : ℤ)) := by rw [hz]; push_cast; field_simp
  have hr1 : Rep p emin (1 - |d|) := by
    refine rep_of_mult hp1 (e := -(p : ℤ)) (by omega) ⟨2 ^ p - k, ?_⟩ ?_
    · rw [hk, Int.cast_sub, sub_mul, ← hone]
    · rw [hz, mul_one_div, div_self hpp.ne', abs_of_nonneg (by linarith)]; linarith
  have hr2 : Rep p emin ((1 - |d|) * (1 / 2)) := by
    refine rep_of_mult hp1 (e := -(p : ℤ) - 1) (by omega) ⟨2 ^ p - k, ?_⟩ ?_
    · have e : (1 - |d|) * (1 / 2) = ((2 ^ p : ℤ) * 2 ^ (-(p : ℤ)) - k * 2 ^ (-(p : ℤ))) * (1 / 2) := by rw [← hone, ← hk]
      rw [e, zpow_sub_one₀ (by norm_num), Int.cast_sub]; ring
    · have e : (2 : ℚ) ^ p * 2 ^ (-(p : ℤ) - 1) = 1 / 2 := by
        rw [zpow_sub_one₀ (by norm_num), hz]; field_simp
      rw [e, abs_of_nonneg (by linarith)]; linarith
  have hx2 : asinX2 rnd d = (1 - |d|) / 2 := by
    rw [asinX2, if_neg (not_lt.mpr h1)]
    simp only [mul, sub]
    rw [h.fix hr1, h.fix hr2]; ring
  have hx : asinX rnd sq d = sq ((1 - |d|) / 2) := by rw [asinX, if_neg (not_lt.mpr h1), hx2]
  set s := (1 - |d|) / 2 with hs
  have hs0 : 0 ≤ s := by rw [hs]; linarith
  have hs1 : s ≤ 1 / 4 := by rw [hs]; linarith
  have hsR : (s : ℝ) ≤ (1 / 2) ^ 2 := by
    have : (s : ℝ) ≤ ((1 / 4 : ℚ) : ℝ) := by exact_mod_cast hs1
    push_cast at this; linarith
  have hX1 : √(s : ℝ) ≤ 1 / 2 := Real.sqrt_le_iff.mpr ⟨by norm_num, hsR⟩
  have hX0 : 0 ≤ √(s : ℝ) := Real.sqrt_nonneg _
  have hu0 : (0 : ℝ) < 1 / 2 ^ p := by positivity
  have habs : |((sq s : ℚ) : ℝ) - √(s : ℝ)| ≤ 1 / 2 ^ p / 4 := by
    have := Root.half S.root hp1 hs0 (e := -(p : ℤ) - 1) (by omega) (by
      rw [zpow_sub_one₀ (by norm_num), zpow_neg, zpow_natCast, ← mul_assoc, mul_inv_cancel₀ (by positivity)]; norm_num; linarith)
    rw [zpow_sub_one₀ (by norm_num), zpow_neg, zpow_natCast] at this
    refine this.trans (le_of_eq ?_)
    rw [one_div]; ring
  have hlow : |d| < 1 → 1 / 2 ^ p / 2 ≤ √(s : ℝ) := fun hlt => by
    have hk1 : (1 : ℚ) / 2 ^ p ≤ 1 - |d| := by
      have h3 : k < 2 ^ p := by
        have : (k : ℚ) * (1 / 2 ^ p) < 1 := by rw [← hz, ← hk]; exact hlt
        rw [mul_one_div, div_lt_one hpp] at this
        exact_mod_cast this
      have h4 : (k : ℚ) + 1 ≤ 2 ^ p := by exact_mod_cast h3
      have h5 : 1 - |d| = (2 ^ p - k) * (1 / 2 ^ p) := by rw [hk, hz, sub_mul]; field_simp
      rw [h5]
      have : (0 : ℚ) ≤ 1 / 2 ^ p := by positivity
      nlinarith
    have hs2 : ((1 / 2 ^ p / 2 : ℚ) : ℝ) ≤ s := by
      have : (1 : ℚ) / 2 ^ p / 2 ≤ s := by rw [hs]; linarith
      exact_mod_cast this
    push_cast at hs2
    have hu := S.u_le
    refine Real.le_sqrt_of_sq_le ?_
    nlinarith
  refine ⟨hx2, ?_, by rw [hx]; exact habs, hlow⟩
  rw [hx]
  rcases lt_or_eq_of_le h2 with hlt | heq
  · have hl := hlow hlt
    obtain ⟨w, hw⟩ := exists_ulp p emin (lt_of_lt_of_le (by positivity) hl : 0 < √(s : ℝ))
    obtain ⟨e, he, rfl, hb, hc⟩ := hw
    have h3 := Root.half S.root hp1 hs0 he hb.le
    rcases hc with rfl | hc
    · refine h3.trans ?_
      have h4 : (2 : ℝ) ^ e ≤ 2 ^ (-(p : ℤ) * 2 - 1) := zpow_le_zpow_right₀ (by norm_num) (by omega)
      have h5 : (2 : ℝ) ^ (-(p : ℤ) * 2 - 1) = 1 / 2 ^ p * (1 / 2 ^ p / 2) := by
        rw [zpow_sub_one₀ (by norm_num), mul_two, zpow_add₀ (by norm_num), zpow_neg, zpow_natCast, one_div]; ring
      have h6 := mul_le_mul_of_nonneg_left hl hu0.le
      have : (0 : ℝ) < 2 ^ e := by positivity
      linarith
    · refine h3.trans ?_
      rw [one_div_mul_eq_div, le_div_iff₀ (by positivity)]
      linarith
  · have hs00 : s = 0 := by rw [hs, heq]; norm_num
    have := S.root.near 0 0 le_rfl (rep_zero p emin)
    simp only [hs00, Rat.cast_zero, Real.sqrt_zero, sub_zero, abs_zero, mul_zero] at this ⊢
    exact this

end Nsimd.Sleef
