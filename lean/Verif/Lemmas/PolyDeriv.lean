import Verif.Lemmas.PolyBound
import Mathlib.Analysis.SpecialFunctions.Trigonometric.ArctanDeriv
import Mathlib.Analysis.Calculus.MeanValue
import Mathlib.Analysis.Calculus.Deriv.Polynomial

/-!
# Derivatives of polynomials given by their coefficients, and the arctangent

No code of the repo.
-/

namespace Nsimd.Poly

/-- Sum. Proof helper. -/
def addQ : List ℚ → List ℚ → List ℚ
  | [], m => m
  | l, [] => l
  | a :: l, b :: m => (a + b) :: addQ l m

theorem eval_addQ (l m : List ℚ) (x : ℝ) : eval (addQ l m) x = eval l x + eval m x := by
  induction l generalizing m with
  | nil => simp [addQ]
  | cons a l ih =>
    cases m with
    | nil => simp [addQ]
    | cons b m => simp [addQ, ih]; ring

/-- Opposite. Proof helper. -/
def negQ (l : List ℚ) : List ℚ := l.map (-·)

theorem eval_negQ (l : List ℚ) (x : ℝ) : eval (negQ l) x = -eval l x := by
  induction l with
  | nil => simp [negQ]
  | cons a l ih =>
    have h : negQ (a :: l) = -a :: negQ l := rfl
    rw [h, eval_cons, eval_cons, ih]; push_cast; ring

/-- Derivative. Proof helper. -/
def deriv : List ℚ → List ℚ
  | [] => []
  | _ :: l => addQ l (0 :: deriv l)

theorem hasDerivAt_eval (l : List ℚ) (x : ℝ) : HasDerivAt (eval l) (eval (deriv l) x) x := by
  induction l with
  | nil => exact hasDerivAt_const x (0 : ℝ)
  | cons c l ih =>
    have h1 : HasDerivAt (fun y : ℝ => (c : ℝ) + y * eval l y) (1 * eval l x + x * eval (deriv l) x) x :=
      ((hasDerivAt_id x).mul ih).const_add (c : ℝ)
    have h2 : eval (deriv (c :: l)) x = 1 * eval l x + x * eval (deriv l) x := by
      rw [deriv, eval_addQ, eval_cons]; push_cast; ring
    rw [h2]
    exact h1

/-- A bound of the derivative is a Lipschitz constant. -/
theorem lipschitz {l : List ℚ} {a b L : ℝ} (h : ∀ x, a ≤ x → x ≤ b → |eval (deriv l) x| ≤ L) {x y : ℝ} (hx : a ≤ x) (hx' : x ≤ b)
    (hy : a ≤ y) (hy' : y ≤ b) : |eval l x - eval l y| ≤ L * |x - y| := by
  have := Convex.norm_image_sub_le_of_norm_hasDerivWithin_le (f := eval l) (f' := eval (deriv l)) (s := Set.Icc a b) (C := L)
    (fun z _ => (hasDerivAt_eval l z).hasDerivWithinAt) (fun z hz => by rw [Real.norm_eq_abs]; exact h z hz.1 hz.2)
    (convex_Icc a b) (Set.mem_Icc.mpr ⟨hy, hy'⟩) (Set.mem_Icc.mpr ⟨hx, hx'⟩)
  simpa [Real.norm_eq_abs] using this

/-- Coefficients of the derivative of `s ^ (2 n + 1) * l (s ^ 2)`, divided by `s ^ (2 n)`. Proof helper. -/
def oddDeriv : ℕ → List ℚ → List ℚ
  | _, [] => []
  | n, c :: l => (2 * n + 1) * c :: oddDeriv (n + 1) l

theorem hasDerivAt_odd (l : List ℚ) (n : ℕ) (s : ℝ) :
    HasDerivAt (fun s : ℝ => s ^ (2 * n + 1) * eval l (s ^ 2)) (s ^ (2 * n) * eval (oddDeriv n l) (s ^ 2)) s := by
  induction l generalizing n with
  | nil => simpa [oddDeriv] using hasDerivAt_const s (0 : ℝ)
  | cons c l ih =>
    have h1 : HasDerivAt (fun s : ℝ => (c : ℝ) * s ^ (2 * n + 1)) ((c : ℝ) * ((2 * n + 1 : ℕ) * s ^ (2 * n))) s := by
      simpa using (hasDerivAt_pow (2 * n + 1) s).const_mul (c : ℝ)
    have h2 := h1.add (ih (n + 1))
    have e1 : (fun s : ℝ => s ^ (2 * n + 1) * eval (c :: l) (s ^ 2)) =
        (fun s : ℝ => (c : ℝ) * s ^ (2 * n + 1)) + fun s : ℝ => s ^ (2 * (n + 1) + 1) * eval l (s ^ 2) := by
      funext y
      simp only [eval_cons, Pi.add_apply]
      ring
    rw [e1]
    refine h2.congr_deriv ?_
    simp only [oddDeriv, eval_cons]
    push_cast
    ring

/-- `(1 + t) * l t - 1`. Proof helper. -/
def atanRes (l : List ℚ) : List ℚ := addQ [-1] (addQ l (0 :: l))

theorem eval_atanRes (l : List ℚ) (t : ℝ) : eval (atanRes l) t = (1 + t) * eval l t - 1 := by
  simp only [atanRes, eval_addQ, eval_cons, eval_nil]; push_cast; ring

/-- If `(1 + s ^ 2)` times the derivative of `s * l (s ^ 2)` is close to one then this is close to the arctangent. -/
theorem arctan_near {l : List ℚ} {ε : ℝ} (h : ∀ t : ℝ, 0 ≤ t → t ≤ 1 → |eval (atanRes (oddDeriv 0 l)) t| ≤ ε) {s : ℝ} (h0 : 0 ≤ s)
    (h1 : s ≤ 1) : |Real.arctan s - s * eval l (s ^ 2)| ≤ ε * s := by
  have hd : ∀ y : ℝ, HasDerivAt (fun s : ℝ => Real.arctan s - s ^ (2 * 0 + 1) * eval l (s ^ 2))
      (1 / (1 + y ^ 2) - y ^ (2 * 0) * eval (oddDeriv 0 l) (y ^ 2)) y := fun y =>
    (Real.hasDerivAt_arctan y).sub (hasDerivAt_odd l 0 y)
  have hb : ∀ y ∈ Set.Icc (0 : ℝ) 1, ‖1 / (1 + y ^ 2) - y ^ (2 * 0) * eval (oddDeriv 0 l) (y ^ 2)‖ ≤ ε := by
    intro y hy
    have h2 := h (y ^ 2) (by positivity) (pow_le_one₀ hy.1 hy.2)
    rw [eval_atanRes] at h2
    have h3 : (0 : ℝ) < 1 + y ^ 2 := by positivity
    have h4 : 1 / (1 + y ^ 2) - y ^ (2 * 0) * eval (oddDeriv 0 l) (y ^ 2) =
        -((1 + y ^ 2) * eval (oddDeriv 0 l) (y ^ 2) - 1) / (1 + y ^ 2) := by field_simp; ring
    rw [h4, Real.norm_eq_abs, abs_div, abs_neg, abs_of_pos h3, div_le_iff₀ h3]
    have : ε * 1 ≤ ε * (1 + y ^ 2) := mul_le_mul_of_nonneg_left (by nlinarith) ((abs_nonneg _).trans h2)
    linarith
  have := Convex.norm_image_sub_le_of_norm_hasDerivWithin_le (s := Set.Icc (0 : ℝ) 1) (C := ε)
    (fun z _ => (hd z).hasDerivWithinAt) hb (convex_Icc 0 1) (Set.mem_Icc.mpr ⟨le_refl _, zero_le_one⟩)
    (Set.mem_Icc.mpr ⟨h0, h1⟩)
  simpa [Real.norm_eq_abs, abs_of_nonneg h0] using this

end Nsimd.Poly
