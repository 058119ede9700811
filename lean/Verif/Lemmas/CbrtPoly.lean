import Verif.Lemmas.CbrtStep
import Verif.Lemmas.AtanBound

/-!
# The reciprocal cube root in `cbrt`
-/

set_option linter.unusedSimpArgs false

namespace Nsimd.Sleef
open Nsimd.DoubleDouble Nsimd.Float Nsimd.Props.Round Nsimd.Props.Hypot Nsimd.Round Nsimd.Hypot Nsimd.Props.Ulp

variable {p : ℕ} {emin emax : ℤ} {rnd lt : ℚ → ℚ}

theorem cbrtNewton64_natural : Natural cbrtNewton64 := by natural [cbrtNewton64, cbrtPoly64]
theorem cbrtPoly32_natural : Natural cbrtPoly32 := by natural [cbrtPoly32]

end Nsimd.Sleef

namespace Nsimd.Poly

/-- Product of polynomials. Proof helper. -/
def mulQ : List ℚ → List ℚ → List ℚ
  | [], _ => []
  | a :: l, m => addQ (m.map (a * ·)) (0 :: mulQ l m)

theorem eval_mulQ (l m : List ℚ) (x : ℝ) : eval (mulQ l m) x = eval l x * eval m x := by
  have hs : ∀ (a : ℚ) (m : List ℚ), eval (m.map (a * ·)) x = a * eval m x := fun a m => by
    induction m with
    | nil => simp [eval_nil]
    | cons b m ih => rw [List.map_cons, eval_cons, ih, eval_cons]; push_cast; ring
  induction l with
  | nil => simp [mulQ, eval_nil]
  | cons a l ih =>
    rw [mulQ, eval_addQ, hs, eval_cons, eval_cons, ih]; push_cast; ring

end Nsimd.Poly

namespace Nsimd.Sleef
open Nsimd.DoubleDouble Nsimd.Float Nsimd.Props.Round Nsimd.Props.Hypot Nsimd.Round Nsimd.Hypot Nsimd.Props.Ulp

variable {p : ℕ} {emin emax : ℤ} {rnd lt : ℚ → ℚ}

/-- The polynomial of `xcbrt`, lowest power first. Proof helper. -/
def cbrtL64 : List ℚ := [2.2307275302496609725722, -3.85841935510444988821632, 6.03990368989458747961407, -5.73353060922947843636166,
  2.96155103020039511818595, -0.640245898480692909870982]

/-- The polynomial of `xcbrtf`, lowest power first. Proof helper. -/
def cbrtL32 : List ℚ := [2.2241256237030029296875, -3.8095417022705078125, 5.898262500762939453125, -5.532182216644287109375,
  2.8208892345428466796875, -0.601564466953277587890625]

/-- `d P³ - 1`. Proof helper. -/
def cbrtRes (l : List ℚ) : List ℚ := Poly.addQ [-1] (0 :: Poly.mulQ l (Poly.mulQ l l))

theorem eval_cbrtRes (l : List ℚ) (d : ℝ) : Poly.eval (cbrtRes l) d = d * Poly.eval l d ^ 3 - 1 := by
  rw [cbrtRes, Poly.eval_addQ, Poly.eval_cons, Poly.eval_cons, Poly.eval_nil, Poly.eval_mulQ, Poly.eval_mulQ]; push_cast; ring

set_option maxRecDepth 100000 in
theorem cbrtRes64 : Poly.check (cbrtRes cbrtL64) 0.0000702 512 (10 ^ 72 * 512 ^ 16) 256 1 128 = true := by decide +kernel

set_option maxRecDepth 100000 in
theorem cbrtRes32 : Poly.check (cbrtRes cbrtL32) 0.0000408 512 (10 ^ 72 * 512 ^ 16) 256 1 128 = true := by decide +kernel

/-- A bound with a constant error. Proof helper. -/
def cbrtOk (B : Bd) (tol : ℚ) : Bool := B.ok && decide (B.k = 0) && decide (B.a + B.b / 2 ^ 100 ≤ tol)

theorem cbrtOk_sound {η x v r : ℝ} {B : Bd} {tol : ℚ} (hη0 : 0 ≤ η) (hη : η ≤ 1 / 2 ^ 100) (h : Ap η x v r B) (ho : cbrtOk B tol = true) :
    |v - r| ≤ tol := by
  simp only [cbrtOk, Bool.and_eq_true, decide_eq_true_eq] at ho
  obtain ⟨⟨h1, h2⟩, h3⟩ := ho
  obtain ⟨-, hb, h4, -⟩ := h h1
  rw [h2, pow_zero, mul_one] at h4
  have h5 : (B.b : ℝ) * η ≤ B.b * (1 / 2 ^ 100) := mul_le_mul_of_nonneg_left hη (by exact_mod_cast hb)
  have h6 : ((B.a + B.b / 2 ^ 100 : ℚ) : ℝ) ≤ tol := by exact_mod_cast h3
  push_cast at h6
  rw [div_eq_mul_one_div] at h6
  linarith

set_option maxRecDepth 100000 in
theorem cbrtRound64 : ∀ fused, cbrtOk (cbrtNewton64 (bdAlg 53 (1 / 2) 1 fused) (Bd.argI (1 / 2) 1)) (1.2 / 10 ^ 13) = true := by decide +kernel

set_option maxRecDepth 100000 in
theorem cbrtRound32 : ∀ fused, cbrtOk (cbrtPoly32 (bdAlg 24 (1 / 2) 1 fused) (Bd.argI (1 / 2) 1)) (1.6 / 10 ^ 6) = true := by decide +kernel

theorem cube_near {s ε : ℝ} (hε : ε ≤ 0.001) (h : |s ^ 3 - 1| ≤ ε) : |s - 1| ≤ ε / 2.97 := by
  have h1 := abs_le.mp h
  have hs : 0.99 ≤ s := by
    by_contra hc; push Not at hc
    have : s ^ 3 < 0.99 ^ 3 := (Odd.strictMono_pow (by decide : Odd 3)) hc
    norm_num at this; linarith
  rw [le_div_iff₀ (by norm_num)]
  have e : s ^ 3 - 1 = (s - 1) * (s ^ 2 + s + 1) := by ring
  rw [e, abs_mul, abs_of_pos (by positivity : 0 < s ^ 2 + s + 1)] at h
  refine le_trans (mul_le_mul_of_nonneg_left ?_ (abs_nonneg _)) h
  nlinarith

/-- The reciprocal cube root in `xcbrtf`. -/
theorem cbrtPoly32_err (h : Nearest 24 (-149) rnd) (fused : Bool) {d : ℚ} {c : ℝ} (hc0 : 0 < c) (hc : c ^ 3 = d) (hd1 : 1 / 2 ≤ d) (hd2 : d ≤ 1) :
    |((cbrtPoly32 (flAlg rnd rnd fused) d : ℚ) : ℝ) * c - 1| ≤ 0.0000154 := by
  have hd1' : ((1 / 2 : ℚ) : ℝ) ≤ d := by exact_mod_cast hd1
  have hd2' : (d : ℝ) ≤ ((1 : ℚ) : ℝ) := by exact_mod_cast hd2
  have E : Env 24 (-149) rnd rnd (d : ℝ) (1 / 2) 1 := ⟨by norm_num, by norm_num, h, lit_one h (by norm_num), hd1', hd2'⟩
  have h1 := cbrtOk_sound eta_pos.le E.eta_le (E.naturalI cbrtPoly32_natural fused) (cbrtRound32 fused)
  push_cast at hd1' hd2' h1
  have h2 := Poly.check_sound cbrtRes32 (x := (d : ℝ)) (by push_cast; linarith) (by push_cast; linarith)
  have e : cbrtPoly32 reAlg (d : ℝ) = Poly.eval cbrtL32 d := by
    simp only [cbrtPoly32, reAlg, cbrtL32, Poly.eval_cons, Poly.eval_nil]; ring
  rw [e] at h1
  rw [eval_cbrtRes, ← hc, ← mul_pow] at h2
  have h3 := cube_near (by push_cast; norm_num) h2
  have hc1 : c ≤ 1 := by
    by_contra hcon; push Not at hcon
    have := one_lt_pow₀ hcon (show (3 : ℕ) ≠ 0 by norm_num)
    linarith
  generalize ((cbrtPoly32 (flAlg rnd rnd fused) d : ℚ) : ℝ) = v at *
  rw [hc] at h3
  generalize Poly.eval cbrtL32 d = r at *
  have e2 : v * c - 1 = (v - r) * c + (c * r - 1) := by ring
  have h4 : |(v - r) * c| ≤ 1.6 / 10 ^ 6 := by
    rw [abs_mul, abs_of_pos hc0]
    calc |v - r| * c ≤ |v - r| * 1 := mul_le_mul_of_nonneg_left hc1 (abs_nonneg _)
      _ ≤ 1.6 / 10 ^ 6 := by rw [mul_one]; norm_num at h1 ⊢; exact h1
  rw [e2]
  have := abs_add_le ((v - r) * c) (c * r - 1)
  norm_num at h3 h4 this ⊢
  linarith

/-- The reciprocal cube root in `xcbrt`. -/
theorem cbrtNewton64_err (h : Nearest 53 (-1074) rnd) (fused : Bool) {d : ℚ} {c : ℝ} (hc0 : 0 < c) (hc : c ^ 3 = d) (hd1 : 1 / 2 ≤ d) (hd2 : d ≤ 1) :
    |((cbrtNewton64 (flAlg rnd rnd fused) d : ℚ) : ℝ) * c - 1| ≤ 1.12 / 10 ^ 9 := by
  have hd1' : ((1 / 2 : ℚ) : ℝ) ≤ d := by exact_mod_cast hd1
  have hd2' : (d : ℝ) ≤ ((1 : ℚ) : ℝ) := by exact_mod_cast hd2
  have E : Env 53 (-1074) rnd rnd (d : ℝ) (1 / 2) 1 := ⟨by norm_num, by norm_num, h, lit_one h (by norm_num), hd1', hd2'⟩
  have h1 := cbrtOk_sound eta_pos.le E.eta_le (E.naturalI cbrtNewton64_natural fused) (cbrtRound64 fused)
  push_cast at hd1' hd2' h1
  have h2 := Poly.check_sound cbrtRes64 (x := (d : ℝ)) (by push_cast; linarith) (by push_cast; linarith)
  have e : cbrtNewton64 reAlg (d : ℝ) =
      Poly.eval cbrtL64 d - (d * Poly.eval cbrtL64 d ^ 4 - Poly.eval cbrtL64 d) * (1 / 3) := by
    simp only [cbrtNewton64, cbrtPoly64, reAlg, cbrtL64, Poly.eval_cons, Poly.eval_nil]; push_cast; ring
  rw [e] at h1
  rw [eval_cbrtRes, ← hc, ← mul_pow] at h2
  have h3 := cube_near (by push_cast; norm_num) h2
  have hc1 : c ≤ 1 := by
    by_contra hcon; push Not at hcon
    have := one_lt_pow₀ hcon (show (3 : ℕ) ≠ 0 by norm_num)
    linarith
  generalize ((cbrtNewton64 (flAlg rnd rnd fused) d : ℚ) : ℝ) = v at *
  rw [hc] at h3
  generalize Poly.eval cbrtL64 d = r at *
  rw [← hc] at h1
  obtain ⟨η, hη⟩ : ∃ η, c * r = 1 + η := ⟨c * r - 1, by ring⟩
  have h3' : |η| ≤ 0.00002364 := by
    rw [hη] at h3; norm_num at h3 ⊢; linarith
  have e2 : v * c - 1 = (v - (r - (c ^ 3 * r ^ 4 - r) * (1 / 3))) * c + η ^ 2 * (-2 - 4 / 3 * η - 1 / 3 * η ^ 2) := by
    have : (r - (c ^ 3 * r ^ 4 - r) * (1 / 3)) * c = (c * r) - ((c * r) ^ 4 - c * r) * (1 / 3) := by ring
    rw [sub_mul, this, hη]; ring
  have h4 : |(v - (r - (c ^ 3 * r ^ 4 - r) * (1 / 3))) * c| ≤ 1.2 / 10 ^ 13 := by
    rw [abs_mul, abs_of_pos hc0]
    calc _ ≤ |v - (r - (c ^ 3 * r ^ 4 - r) * (1 / 3))| * 1 := mul_le_mul_of_nonneg_left hc1 (abs_nonneg _)
      _ ≤ 1.2 / 10 ^ 13 := by rw [mul_one]; norm_num at h1 ⊢; exact h1
  have h5 : η ^ 2 ≤ 0.00002364 ^ 2 := sq_le_sq' (by linarith [(abs_le.mp h3').1]) (abs_le.mp h3').2
  have h6 : |η ^ 2 * (-2 - 4 / 3 * η - 1 / 3 * η ^ 2)| ≤ 0.00002364 ^ 2 * 2.0001 := by
    rw [abs_mul, abs_of_nonneg (sq_nonneg η)]
    refine mul_le_mul h5 ?_ (abs_nonneg _) (by norm_num)
    have := abs_le.mp h3'
    have := sq_nonneg η
    norm_num at h5
    rw [abs_le]; constructor <;> linarith
  rw [e2]
  have := abs_add_le ((v - (r - (c ^ 3 * r ^ 4 - r) * (1 / 3))) * c) (η ^ 2 * (-2 - 4 / 3 * η - 1 / 3 * η ^ 2))
  norm_num at h4 h6 this ⊢
  linarith

end Nsimd.Sleef
