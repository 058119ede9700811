import Verif.Lemmas.ExpBound

/-!
# Argument reduction of the exponential functions

The numbers of one function are collected in `Red`, and a check on them implies the accuracy of the reduced argument.
-/

namespace Nsimd.Sleef
open Nsimd.DoubleDouble Nsimd.Float Nsimd.Props.Round Nsimd.Props.Hypot Nsimd.Round Nsimd.Hypot

variable {p : ℕ} {emin emax : ℤ} {rnd : ℚ → ℚ}

/-- The nearest floating-point number of a decimal literal. -/
theorem rnd_lit (h : Nearest p emin rnd) {c : ℚ} {k e : ℤ} (he : emin ≤ e) (h1 : 2 ^ p + 2 ≤ 2 * |k|)
    (h2 : |k| < 2 ^ p) (h3 : |c - k * 2 ^ e| < 2 ^ e / 2) : rnd c = k * 2 ^ e := by
  have hrep : Rep p emin ((k : ℚ) * 2 ^ e) := ⟨k, e, by exact_mod_cast h2, he, rfl⟩
  have hnear := h.near c _ hrep
  have hpos := two_zpow_pos e
  have hdist : |rnd c - k * 2 ^ e| < 2 ^ e := by
    have h4 : |rnd c - k * 2 ^ e| ≤ |rnd c - c| + |c - k * 2 ^ e| := abs_sub_le _ _ _
    rw [abs_sub_comm c (rnd c)] at hnear
    linarith
  have hm : Mult e (rnd c) := mult_of_ge (h.rep c) (by
    have h4 : |(k : ℚ) * 2 ^ e| - |rnd c - k * 2 ^ e| ≤ |rnd c| := by
      have := abs_sub_abs_le_abs_sub ((k : ℚ) * 2 ^ e) (rnd c)
      rw [abs_sub_comm] at this; linarith
    rw [abs_mul, abs_of_pos hpos] at h4
    have h5 : ((2 : ℚ) ^ p + 2) ≤ 2 * |(k : ℚ)| := by exact_mod_cast h1
    rw [zpow_sub_one₀ (by norm_num)]
    nlinarith)
  obtain ⟨n, hn⟩ := hm
  rw [hn, ← sub_mul, abs_mul, abs_of_pos hpos] at hdist
  have h6 : |(n : ℚ) - k| < 1 := by
    by_contra hc
    push Not at hc
    nlinarith
  have h7 : |n - k| < 1 := by exact_mod_cast h6
  have h8 : n = k := by have := Int.abs_lt_one_iff.mp h7; omega
  rw [hn, h8]

/-- The numbers of an argument reduction: `R` is the factor before the conversion to an integer, `u` and `l` are the two
parts of the constant, `lam` the factor of the argument in the exponent, `Dm` the largest argument, `S` the largest reduced
argument and `εs` its error. Proof helper. -/
structure Red where
  p : ℕ
  emin : ℤ
  R : ℚ
  u : ℚ
  l : ℚ
  eu : ℤ
  e : ℤ
  j : ℕ
  lam : ℚ
  Dm : ℚ
  S : ℚ
  εs : ℚ

namespace Red

/-- Largest integer multiple. Proof helper. -/
def qm (C : Red) : ℚ := C.Dm * C.R + 1

/-- Largest reduced argument before its rounding. Proof helper. -/
def gm (C : Red) : ℚ :=
  C.Dm * |1 - C.R * (C.u + C.l)| + (C.Dm * C.R / 2 ^ C.p + 2 ^ C.emin / 2) * (C.u + C.l) +
    (1 / 2 + 2 ^ C.j / 2 ^ C.p / 2) * (C.u + C.l)

/-- Error of the small product. Proof helper. -/
def small (C : Red) : ℚ := C.qm * |C.l| / 2 ^ C.p + 2 ^ C.emin / 2

/-- The check. Proof helper. -/
def ok (C : Red) : Bool :=
  decide (4 ≤ C.p) && decide (C.emin ≤ -C.p - 1) && decide (C.emin ≤ C.e) && decide (C.e ≤ C.eu) && decide (C.j ≤ 20) &&
  decide (0 < C.R) && decide (0 < C.u + C.l) && decide (0 ≤ C.Dm) && decide (0 < C.lam) && decide (0 ≤ C.u) &&
  decide (C.Dm * C.R * (1 + 1 / 2 ^ C.p) + 2 ^ C.emin / 2 + 1 / 2 ≤ 2 ^ C.j) &&
  decide (1 / 2 + 2 ^ C.j / 2 ^ C.p / 2 + C.Dm * C.R / 2 ^ C.p + 2 ^ C.emin / 2 ≤ 1) &&
  decide (C.qm * C.u ≤ 2 ^ C.p * 2 ^ C.eu) &&
  decide ((2 ^ C.p * 2 ^ (C.e - 1)) * C.R * (1 + 1 / 2 ^ C.p) + 2 ^ C.emin / 2 < 1 / 2 - 2 ^ C.j / 2 ^ C.p / 2) &&
  decide (C.gm + C.qm * |C.l| ≤ 2 ^ C.p * 2 ^ C.e) && decide (C.gm + C.small ≤ 2 ^ C.p * 2 ^ C.e) &&
  decide (C.gm + (2 ^ C.e / 2 + C.small) ≤ C.S) &&
  decide (C.lam * (2 ^ C.e / 2 + C.small) + C.Dm / 10 ^ 36 + C.qm * (|C.lam * (C.u + C.l) - ln2| + 1 / 10 ^ 38) ≤ C.εs) &&
  decide (2 * (C.emin + C.p) ≤ -C.qm)

theorem sound {C : Red} (hC : C.ok = true) (h : Nearest C.p C.emin rnd) (fused : Bool) {m : Mode} (hm : m.Ok) {d : ℚ}
    (hd : Rep C.p C.emin d) (hD : |d| ≤ C.Dm) (hu : Mult C.eu C.u) {lam : ℝ} (hlam : |lam - C.lam| ≤ 1 / 10 ^ 36) :
    ∃ q : ℤ, ∃ s : ℚ, rintk rnd m (rnd (d * C.R)) = some q ∧
      (flAlg rnd rnd fused).mla q (-C.l) ((flAlg rnd rnd fused).mla q (-C.u) d) = s ∧ |s| ≤ C.S ∧
      |(C.lam : ℝ) * s - (lam * d - q * Real.log 2)| ≤ C.εs ∧ 2 * (C.emin + C.p) ≤ q := by
  obtain ⟨p, emin, R, u, l, eu, e, j, L, Dm, S, εs⟩ := C
  simp only [ok, Bool.and_eq_true, decide_eq_true_eq] at hC
  obtain ⟨⟨⟨⟨⟨⟨⟨⟨⟨⟨⟨⟨⟨⟨⟨⟨⟨⟨c1, c2⟩, c3⟩, c4⟩, c5⟩, c6⟩, c7⟩, c8⟩, c9⟩, c10⟩, c11⟩, c12⟩, c13⟩, c14⟩, c15⟩, c16⟩, c17⟩, c18⟩,
    c19⟩ := hC
  simp only at *
  have hp1 : 1 ≤ p := by omega
  set v := (1 : ℚ) / 2 ^ p with hv
  have hv0 : 0 < v := by positivity
  have hη : (0 : ℚ) < 2 ^ emin / 2 := by positivity
  set τ := (2 : ℚ) ^ j / 2 ^ p / 2 with hτ
  have hdR : |d * R| ≤ Dm * R := by rw [abs_mul, abs_of_pos c6]; exact mul_le_mul_of_nonneg_right hD c6.le
  have hy := h.err hp1 (d * R)
  have hdiv : ∀ x : ℚ, x / 2 ^ p = x * v := fun x => by rw [hv]; ring
  rw [hdiv] at hy c12
  have hy1 : |rnd (d * R) - d * R| ≤ Dm * R * v + 2 ^ emin / 2 := by nlinarith
  have hyabs : |rnd (d * R)| ≤ Dm * R * (1 + v) + 2 ^ emin / 2 := by
    have := abs_add_le (d * R) (rnd (d * R) - d * R)
    rw [add_sub_cancel] at this
    nlinarith
  obtain ⟨q, hq, hqn⟩ := rintk_near h hp1 c2 hm c5 (y := rnd (d * R)) (by linarith)
  have hqd : |(q : ℚ) - d * R| ≤ 1 / 2 + τ + (Dm * R * v + 2 ^ emin / 2) :=
    (abs_sub_le _ (rnd (d * R)) _).trans (add_le_add hqn hy1)
  have hqm : |(q : ℚ)| ≤ Dm * R + 1 := by
    have := abs_add_le (d * R) ((q : ℚ) - d * R)
    rw [add_sub_cancel] at this
    linarith
  set L0 := u + l with hL0
  -- the exact reduced argument
  have hg : |d - q * L0| ≤ gm ⟨p, emin, R, u, l, eu, e, j, L, Dm, S, εs⟩ := by
    have h1 : d - q * L0 = d * (1 - R * L0) + (d * R - rnd (d * R)) * L0 + (rnd (d * R) - q) * L0 := by ring
    rw [h1]
    refine (abs_add_three _ _ _).trans ?_
    simp only [gm]
    rw [abs_mul, abs_mul, abs_mul, abs_of_pos c7, hdiv, ← hL0]
    rw [abs_sub_comm] at hy1 hqn
    have k1 := mul_le_mul_of_nonneg_right hD (abs_nonneg (1 - R * L0))
    have k2 := mul_le_mul_of_nonneg_right hy1 c7.le
    have k3 := mul_le_mul_of_nonneg_right hqn c7.le
    linarith
  simp only [qm, small] at *
  have hql : |(q : ℚ) * l| ≤ (Dm * R + 1) * |l| := by
    rw [abs_mul]; exact mul_le_mul_of_nonneg_right hqm (abs_nonneg _)
  have hsmall : |(q : ℚ) * l| / 2 ^ p + 2 ^ emin / 2 ≤ (Dm * R + 1) * |l| / 2 ^ p + 2 ^ emin / 2 := by
    have := div_le_div_of_nonneg_right hql (show (0 : ℚ) ≤ 2 ^ p by positivity); linarith
  have hgu : |d - q * u| ≤ 2 ^ p * 2 ^ e := by
    have h1 : d - q * u = (d - q * L0) + q * l := by rw [hL0]; ring
    rw [h1]
    exact (abs_add_le _ _).trans (by linarith)
  have hq0 : q = 0 ∨ 2 ^ p * 2 ^ (e - 1) ≤ |d| := by
    by_cases hz : q = 0
    · exact Or.inl hz
    · right
      by_contra hc
      push Not at hc
      have h1 : (1 : ℚ) ≤ |(q : ℚ)| := by exact_mod_cast Int.one_le_abs hz
      have h2 : |rnd (d * R)| ≤ (2 ^ p * 2 ^ (e - 1)) * R * (1 + v) + 2 ^ emin / 2 := by
        have := abs_add_le (d * R) (rnd (d * R) - d * R)
        rw [add_sub_cancel, abs_mul d R, abs_of_pos c6] at this
        rw [abs_mul, abs_of_pos c6] at hy
        have h3 : |d| * R ≤ (2 ^ p * 2 ^ (e - 1)) * R := mul_le_mul_of_nonneg_right hc.le c6.le
        nlinarith
      have h4 : |(q : ℚ)| ≤ |rnd (d * R)| + |(q : ℚ) - rnd (d * R)| := by
        have := abs_add_le (rnd (d * R)) ((q : ℚ) - rnd (d * R)); rwa [add_sub_cancel] at this
      linarith
  have hexact := reduce_exact h hp1 fused (q := q) hd hu c4 c3 (by
    rw [abs_mul, abs_of_nonneg c10]
    exact (mul_le_mul_of_nonneg_right hqm c10).trans c13) hq0 hgu
  have hg' : d - q * u - q * l = d - q * L0 := by rw [hL0]; ring
  have hstep := reduce_step h hp1 fused (d := d - q * u) (l0 := l) (q := q) c3 (by rw [hg']; linarith)
  rw [hg'] at hstep
  refine ⟨q, _, hq, rfl, ?_, ?_, ?_⟩
  · rw [hexact.1]
    have h1 := abs_add_le (d - q * L0) ((flAlg rnd rnd fused).mla (q : ℚ) (-l) (d - q * u) - (d - q * L0))
    rw [add_sub_cancel] at h1
    linarith
  · rw [hexact.1]
    set s := (flAlg rnd rnd fused).mla (q : ℚ) (-l) (d - q * u) with hs
    have h1 : |(s : ℝ) - (d - q * L0)| ≤ ((2 ^ e / 2 + ((Dm * R + 1) * |l| / 2 ^ p + 2 ^ emin / 2) : ℚ) : ℝ) := by
      have : ((|s - (d - q * L0)| : ℚ) : ℝ) ≤ ((2 ^ e / 2 + ((Dm * R + 1) * |l| / 2 ^ p + 2 ^ emin / 2) : ℚ) : ℝ) := by
        have h0 : |s - (d - q * L0)| ≤ 2 ^ e / 2 + ((Dm * R + 1) * |l| / 2 ^ p + 2 ^ emin / 2) := by
          rw [hs]; linarith
        exact_mod_cast h0
      push_cast at this ⊢
      exact this
    have h2 : (L : ℝ) * s - (lam * d - q * Real.log 2) =
        L * (s - (d - q * L0)) + -((lam - L) * d) + -(q * ((L * L0 - ln2) - (Real.log 2 - ln2))) := by ring
    rw [h2]
    refine (abs_add_three _ _ _).trans ?_
    rw [abs_neg, abs_neg, abs_mul, abs_mul, abs_mul]
    have hL : (0 : ℝ) < L := by exact_mod_cast c9
    have k1 : |(L : ℝ)| * |(s : ℝ) - (d - q * L0)| ≤
        L * ((2 ^ e / 2 + ((Dm * R + 1) * |l| / 2 ^ p + 2 ^ emin / 2) : ℚ) : ℝ) := by
      rw [abs_of_pos hL]; exact mul_le_mul_of_nonneg_left h1 hL.le
    have hD' : |(d : ℝ)| ≤ Dm := by
      have : ((|d| : ℚ) : ℝ) ≤ Dm := by exact_mod_cast hD
      push_cast at this; exact this
    have k2 : |lam - L| * |(d : ℝ)| ≤ 1 / 10 ^ 36 * Dm := mul_le_mul hlam hD' (abs_nonneg _) (by norm_num)
    have hqm' : |(q : ℝ)| ≤ ((Dm * R + 1 : ℚ) : ℝ) := by
      have : ((|(q : ℚ)| : ℚ) : ℝ) ≤ ((Dm * R + 1 : ℚ) : ℝ) := by exact_mod_cast hqm
      push_cast at this ⊢; exact this
    have k3 : |((L : ℝ) * L0 - ln2) - (Real.log 2 - ln2)| ≤ ((|L * L0 - ln2| + 1 / 10 ^ 38 : ℚ) : ℝ) := by
      refine (abs_sub _ _).trans ?_
      push_cast
      exact add_le_add_right log_two _
    have k4 : |(q : ℝ)| * |((L : ℝ) * L0 - ln2) - (Real.log 2 - ln2)| ≤
        ((Dm * R + 1 : ℚ) : ℝ) * ((|L * L0 - ln2| + 1 / 10 ^ 38 : ℚ) : ℝ) :=
      mul_le_mul hqm' k3 (abs_nonneg _) ((abs_nonneg _).trans hqm')
    have k5 : ((L * (2 ^ e / 2 + ((Dm * R + 1) * |l| / 2 ^ p + 2 ^ emin / 2)) + Dm / 10 ^ 36 +
        (Dm * R + 1) * (|L * L0 - ln2| + 1 / 10 ^ 38) : ℚ) : ℝ) ≤ εs := by exact_mod_cast c18
    push_cast at k1 k4 k5
    have k6 : (1 : ℝ) / 10 ^ 36 * Dm = Dm / 10 ^ 36 := by ring
    linarith
  · have h1 := (_root_.abs_le.mp hqm).1
    have h2 : ((2 * (emin + p) : ℤ) : ℚ) ≤ q := by push_cast; linarith
    exact_mod_cast h2

end Red
end Nsimd.Sleef
