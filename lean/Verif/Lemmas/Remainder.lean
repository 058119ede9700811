import Verif.Lemmas.FmodMain
import Verif.Model.Remainder

/-!
Helper lemmas: one step of a division in double-double arithmetic whose remainders have both signs.
-/

namespace Nsimd.Float
open Nsimd.Props.Round Nsimd.DoubleDouble

variable {p : Nat} {emin : ℤ} {rnd : ℚ → ℚ} {d R Q : ℚ} {f : ℤ}

/-- The subtraction of two pairs, as the code does it. Proof helper, not code of the repo. -/
def pairSub (rnd : ℚ → ℚ) (R Q : ℚ) : DD :=
  normalize rnd (add2_22 rnd (rnd R, R - rnd R) (-rnd Q, -(Q - rnd Q)))

/-- The subtraction is exact. Proof helper, not code of the repo. -/
def Exact (rnd : ℚ → ℚ) (R Q : ℚ) : Prop := pairSub rnd R Q = (rnd (R - Q), R - Q - rnd (R - Q))

/-- Negation of a pair. Proof helper, not code of the repo. -/
def neg2 (a : DD) : DD := (-a.1, -a.2)

theorem normalize_neg (hodd : ∀ x, rnd (-x) = -rnd x) (a : DD) : normalize rnd (neg2 a) = neg2 (normalize rnd a) := by
  simp only [normalize, neg2, add, sub]
  have e1 : ∀ x y : ℚ, rnd (-x + -y) = -rnd (x + y) := fun x y => by rw [← hodd]; congr 1; ring
  have e2 : ∀ x y : ℚ, rnd (-x - -y) = -rnd (x - y) := fun x y => by rw [← hodd]; congr 1; ring
  rw [e1, e2, e1]

theorem add2_22_neg (hodd : ∀ x, rnd (-x) = -rnd x) (a b : DD) :
    add2_22 rnd (neg2 a) (neg2 b) = neg2 (add2_22 rnd a b) := by
  simp only [add2_22, neg2, add, sub]
  have e1 : ∀ x y : ℚ, rnd (-x + -y) = -rnd (x + y) := fun x y => by rw [← hodd]; congr 1; ring
  have e2 : ∀ x y : ℚ, rnd (-x - -y) = -rnd (x - y) := fun x y => by rw [← hodd]; congr 1; ring
  simp only [e1, e2]

theorem Nearest.add2_22_comm (h : Nearest p emin rnd) (hp : 1 ≤ p) {a b : DD} (ha : Rep p emin a.1)
    (hb : Rep p emin b.1) : add2_22 rnd a b = add2_22 rnd b a := by
  simp only [add2_22, add, sub]
  rw [h.twoSum hp ha hb, h.twoSum hp hb ha, add_comm a.1, add_comm a.2]

theorem Exact.neg (hodd : ∀ x, rnd (-x) = -rnd x) (h : Exact rnd (-R) (-Q)) : Exact rnd R Q := by
  unfold Exact pairSub at h ⊢
  have e1 : (rnd R, R - rnd R) = neg2 (rnd (-R), -R - rnd (-R)) := by
    simp only [neg2, hodd]; ext <;> simp; ring
  have e2 : (-rnd Q, -(Q - rnd Q)) = neg2 (-rnd (-Q), -(-Q - rnd (-Q))) := by
    simp only [neg2, hodd]; ext <;> simp; ring
  have e3 : -R - -Q = -(R - Q) := by ring
  rw [e1, e2, add2_22_neg hodd, normalize_neg hodd, h, e3, hodd, neg2]
  ext
  · simp
  · simp; ring

theorem Exact.swap (h : Nearest p emin rnd) (hp : 1 ≤ p) (hodd : ∀ x, rnd (-x) = -rnd x) (hE : Exact rnd Q R) :
    Exact rnd R Q := by
  unfold Exact pairSub at hE ⊢
  have e1 : (rnd R, R - rnd R) = neg2 (-rnd R, -(R - rnd R)) := by simp only [neg2]; ext <;> simp
  have e2 : (-rnd Q, -(Q - rnd Q)) = neg2 (rnd Q, Q - rnd Q) := rfl
  have e3 : Q - R = -(R - Q) := by ring
  rw [e1, e2, h.add2_22_comm hp (by exact rep_neg (rep_neg (h.rep R))) (by exact rep_neg (h.rep Q)), add2_22_neg hodd,
    normalize_neg hodd, hE, e3, hodd, neg2]
  ext
  · simp
  · simp; ring

/-- The step if the numbers are small multiples of the divisor. -/
theorem Nearest.exact_small (h : Nearest p emin rnd) (hp : 8 ≤ p) (hf : emin ≤ f)
    (hRm : Mult f R) (hQm : Mult f Q) (hR : |R| ≤ 32 * (2 ^ p * 2 ^ f)) (hQ : |Q| ≤ 32 * (2 ^ p * 2 ^ f)) :
    Exact rnd R Q := by
  have hp1 : 1 ≤ p := by omega
  have hu := two_zpow_pos f
  have h256 : (256 : ℚ) ≤ 2 ^ p := by
    calc (256 : ℚ) = 2 ^ 8 := by norm_num
      _ ≤ 2 ^ p := pow_le_pow_right₀ (by norm_num) hp
  have e5 : (2 : ℚ) ^ (f + 5) = 32 * 2 ^ f := by rw [zpow_add₀ (by norm_num)]; norm_num; ring
  have e6 : (2 : ℚ) ^ (f + 6) = 64 * 2 ^ f := by rw [zpow_add₀ (by norm_num)]; norm_num; ring
  have half : ∀ z : ℚ, |z| ≤ 32 * (2 ^ p * 2 ^ f) → |z - rnd z| ≤ 16 * 2 ^ f := by
    intro z hz
    have := h.half_ulp hp1 (e := f + 5) (by omega) (x := z) (by rw [e5]; linarith)
    rw [e5] at this; linarith
  have small : ∀ z : ℚ, Mult f z → |z| ≤ 256 * 2 ^ f → Rep p emin z := fun z hz hz' =>
    rep_of_mult hp1 hf hz (hz'.trans (by gcongr))
  have hr32 : Rep p emin (32 * (2 ^ p * 2 ^ f)) := by
    have : 32 * ((2 : ℚ) ^ p * 2 ^ f) = 2 ^ p * 2 ^ (f + 5) := by rw [e5]; ring
    rw [this]
    exact rep_of_mult hp1 (e := f + 5) (by omega) ⟨2 ^ p, by push_cast; ring⟩
      (by rw [abs_of_pos (by positivity)])
  have h32 : |32 * ((2 : ℚ) ^ p * 2 ^ f)| = 32 * (2 ^ p * 2 ^ f) := abs_of_pos (by positivity)
  have hxl := half R hR
  have hyl := half Q hQ
  have hxm := h.mult hp1 hf hRm
  have hym := h.mult hp1 hf hQm
  have hxb := h.abs_ge hr32 (x := R) (by rwa [h32])
  have hyb := h.abs_ge hr32 (x := Q) (by rwa [h32])
  rw [h32] at hxb hyb
  unfold Exact pairSub
  set x := rnd R with hx
  set y := rnd Q with hy
  have hT : |x - y - rnd (x - y)| ≤ 32 * 2 ^ f := by
    have := h.half_ulp hp1 (e := f + 6) (by omega) (x := x - y) (by
      have := abs_sub x y
      rw [e6]; linarith)
    rw [e6] at this; linarith
  have hsm := h.mult hp1 hf (hxm.sub hym)
  have es : x + (R - x) - (y + (Q - y)) = R - Q := by ring
  rw [← es]
  have lm : Mult f (R - x - (Q - y)) := (hRm.sub hxm).sub (hQm.sub hym)
  have lb : |R - x - (Q - y)| ≤ 32 * 2 ^ f := by
    have := abs_sub (R - x) (Q - y); linarith
  have sm : Mult f (x - y - rnd (x - y) + (R - x - (Q - y))) := ((hxm.sub hym).sub hsm).add lm
  have sb : |x - y - rnd (x - y) + (R - x - (Q - y))| ≤ 64 * 2 ^ f := by
    have := abs_add_le (x - y - rnd (x - y)) (R - x - (Q - y)); linarith
  have sr := small _ sm (by linarith)
  refine h.step_of hp1 (h.rep R) (h.rep Q) (small _ lm (by linarith)) sr ?_
  have fin : rnd (x - y) + (x - y - rnd (x - y) + (R - x - (Q - y))) = x + (R - x) - (y + (Q - y)) := by ring
  rw [← fin]
  rcases le_or_gt (64 * 2 ^ f) |rnd (x - y)| with hc | hc
  · exact h.normalize_of hp1 (h.rep _) sr (h.sub_large hp1 (h.rep _) sr (sb.trans hc))
  · refine h.normalize_exact hp1 (h.rep _) sr (small _ (hsm.add sm) ?_)
    have := abs_add_le (rnd (x - y)) (x - y - rnd (x - y) + (R - x - (Q - y)))
    linarith

/-- The step if the difference is much smaller than the numbers. -/
theorem Nearest.exact_large (h : Nearest p emin rnd) (hp : 8 ≤ p) (hodd : ∀ x, rnd (-x) = -rnd x)
    (hR : 2 ^ p * 2 ^ emin ≤ |R|) (hc : |R - Q| ≤ |R| / 8)
    (hl : Rep p emin (R - rnd R - (Q - rnd Q))) : Exact rnd R Q := by
  have key : ∀ {R Q : ℚ}, 2 ^ p * 2 ^ emin ≤ R → |R - Q| ≤ R / 8 →
      Rep p emin (R - rnd R - (Q - rnd Q)) → Exact rnd R Q := by
    intro R Q hR hc hl
    rcases le_total Q R with hle | hle
    · rw [abs_of_nonneg (by linarith)] at hc
      exact h.step_large hp hR hle hc hl
    · rw [abs_of_nonpos (by linarith)] at hc
      refine Exact.swap h (by omega) hodd (h.step_large hp (hR.trans hle) hle (by linarith) ?_)
      have := rep_neg hl
      rwa [neg_sub] at this
  rcases le_total 0 R with h0 | h0
  · rw [abs_of_nonneg h0] at hR hc
    exact key hR hc hl
  · rw [abs_of_nonpos h0] at hR hc
    refine Exact.neg hodd (key hR ?_ ?_)
    · rwa [show -R - -Q = -(R - Q) by ring, abs_neg]
    · rw [hodd, hodd]
      have := rep_neg hl
      rwa [show -R - -rnd R - (-Q - -rnd Q) = -(R - rnd R - (Q - rnd Q)) by ring]

/-- A remainder and the grid on which it lies. Proof helper, not code of the repo. -/
structure Grid (p : Nat) (emin : ℤ) (rnd : ℚ → ℚ) (d : ℚ) (f : ℤ) (R : ℚ) : Prop where
  mult : Mult f R
  fine : ∀ e : ℤ, 0 ≤ e → 2 ^ ((p : ℤ) - 2 + e) * d ≤ |R| → Mult (e + f) R
  low : Rep p emin (R - rnd R)

/-- A quotient that the division may use. Proof helper, not code of the repo. -/
structure RQuot (p : Nat) (emin : ℤ) (rnd : ℚ → ℚ) (d R η q : ℚ) : Prop where
  int : Mult 0 q
  rep : Rep p emin q
  contr : |R - q * d| ≤ η * |R| + d
  low : |R - q * d| ≤ |R| / 8 → Rep p emin (R - rnd R - (q * d - rnd (q * d)))

theorem Grid.exact (h : Nearest p emin rnd) (hp : 8 ≤ p) (hodd : ∀ x, rnd (-x) = -rnd x) (D : Divisor p emin d f)
    (G : Grid p emin rnd d f R) {η q : ℚ} (hη : η ≤ 1 / 16) (Q : RQuot p emin rnd d R η q) :
    Exact rnd R (q * d) := by
  have hQm : Mult f (q * d) := by have := Q.int.mul D.hm; rwa [zero_add] at this
  have hpe : (2 : ℚ) ^ p * 2 ^ emin ≤ 2 ^ p * 2 ^ f := by
    gcongr
    · norm_num
    · exact D.hf
  have hc := Q.contr
  have hhi := D.hi
  have h0 := abs_nonneg R
  have hηR : η * |R| ≤ 1 / 16 * |R| := by gcongr
  have hsub : |q * d| ≤ |R| + |R - q * d| := by
    have := abs_sub R (R - q * d)
    rwa [sub_sub_cancel] at this
  rcases le_or_gt |R - q * d| (|R| / 8) with h8 | h8
  · rcases le_or_gt (2 ^ p * 2 ^ emin) |R| with hR | hR
    · exact h.exact_large hp hodd hR h8 (Q.low h8)
    · exact h.exact_small hp D.hf G.mult hQm (by linarith) (by linarith)
  · exact h.exact_small hp D.hf G.mult hQm (by linarith) (by linarith)

/-- The next remainder lies on the grid. -/
theorem Grid.step (h : Nearest p emin rnd) (hp : 8 ≤ p) (hodd : ∀ x, rnd (-x) = -rnd x) (D : Divisor p emin d f)
    (G : Grid p emin rnd d f R) {η q : ℚ} (hη : η ≤ 1 / 16) (Q : RQuot p emin rnd d R η q) :
    Grid p emin rnd d f (R - q * d) where
  mult := by
    refine G.mult.sub ?_
    have := Q.int.mul D.hm; rwa [zero_add] at this
  low := by
    have e2 : _ = R - q * d - rnd (R - q * d) := congrArg Prod.snd (G.exact h hp hodd D hη Q)
    rw [← e2]
    exact h.rep _
  fine := by
    intro e he hR'
    have hd := D.pos
    have h64 : (64 : ℚ) * 2 ^ e ≤ 2 ^ ((p : ℤ) - 2 + e) := by
      have : (64 : ℚ) * 2 ^ e = 2 ^ (6 + e) := by rw [zpow_add₀ (by norm_num)]; norm_num
      rw [this, zpow_le_iff]; omega
    have he1 : (1 : ℚ) ≤ 2 ^ e := by
      rw [show (1 : ℚ) = 2 ^ (0 : ℤ) by norm_num, zpow_le_iff]; exact he
    have hc := Q.contr
    have h0 := abs_nonneg R
    have hηR : η * |R| ≤ 1 / 16 * |R| := by gcongr
    have h1 : (64 : ℚ) * d ≤ 2 ^ ((p : ℤ) - 2 + e) * d := by nlinarith
    have h2 : 8 * (2 ^ ((p : ℤ) - 2 + e) * d) ≤ |R| := by linarith
    refine (G.fine e he (by linarith)).sub (Mult.mul ?_ D.hm)
    have hsub : |R| ≤ |q * d| + |R - q * d| := by
      have := abs_add_le (q * d) (R - q * d)
      rwa [add_sub_cancel] at this
    have h3 : 4 * 2 ^ ((p : ℤ) - 2 + e) ≤ |q| := by
      have : 4 * 2 ^ ((p : ℤ) - 2 + e) * d ≤ |q| * d := by
        rw [abs_mul, abs_of_pos hd] at hsub; linarith
      exact le_of_mul_le_mul_right this hd
    refine Mult.le (f := e + 1) (mult_of_ge Q.rep ?_) (by omega)
    refine le_trans (le_of_eq ?_) h3
    rw [add_sub_cancel_right, pow_eq_zpow, show (4 : ℚ) = 2 ^ (2 : ℤ) by norm_num, ← zpow_add₀ (by norm_num)]
    congr 1; ring

/-- The numerator lies on the grid. -/
theorem Divisor.grid (h : Nearest p emin rnd) (hp : 2 ≤ p) (D : Divisor p emin d f) {n : ℚ} (hn : Rep p emin n)
    (hnd : d ≤ n) : Grid p emin rnd d f n where
  mult := by
    have := D.mult_num hp hn le_rfl hnd (.inl rfl)
    rwa [zero_add] at this
  fine := fun e he hR => D.mult_num hp hn he hnd (.inr (by rwa [abs_of_pos (D.pos.trans_le hnd)] at hR))
  low := by rw [h.fix hn, sub_self]; exact rep_zero p emin

end Nsimd.Float
