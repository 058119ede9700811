import Verif.Model.Round
import Verif.Props.Hypot

/-!
# What "a precision of `c` ulps" means
-/

namespace Nsimd.Props.Ulp
open Nsimd.Round Nsimd.Props.Round Nsimd.Props.Hypot

/-- The result `r` of a function whose exact value is `y` has an error of at most `c` ulps of `y`.  A result that is finite is
a number of the format; infinity is the result only if the exact value is at most `c` ulps below `2 ^ emax`, the first power
of two that is too large for the format. Spec. -/
def Within (p : ℕ) (emin emax : ℤ) (c y : ℝ) : Fl → Prop
  | .nan => False
  | .inf neg => ∀ w, IsUlp p emin |y| w → if neg then y - c * w ≤ -2 ^ emax else 2 ^ emax ≤ y + c * w
  | .fin r => Rep p emin r ∧ |r| < 2 ^ emax ∧ ∀ w, IsUlp p emin |y| w → |(r : ℝ) - y| ≤ c * w

theorem Within.mono {p : ℕ} {emin emax : ℤ} {c c' y : ℝ} {r : Fl} (h : Within p emin emax c y r) (hc : c ≤ c') :
    Within p emin emax c' y r := by
  have key : ∀ w, IsUlp p emin |y| w → c * w ≤ c' * w := by
    rintro w ⟨e, -, rfl, -⟩
    exact mul_le_mul_of_nonneg_right hc (by positivity)
  cases r with
  | nan => exact h
  | inf neg =>
    intro w hw
    have h1 := h w hw
    have := key w hw
    split <;> rename_i hn
    · rw [if_pos hn] at h1; linarith
    · rw [if_neg hn] at h1; linarith
  | fin r => exact ⟨h.1, h.2.1, fun w hw => (h.2.2 w hw).trans (key w hw)⟩

end Nsimd.Props.Ulp
