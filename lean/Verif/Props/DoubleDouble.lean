import Verif.Lemmas.DoubleDouble

/-!
# C62, C63: double-double arithmetic of the vendored SLEEF

`rnd` is rounding to nearest with `p` bits, any rule for ties and gradual underflow; f64 is
`p = 53`, `emin = -1074`, f32 is `p = 24`, `emin = -149`.  Overflow is excluded by the model.
-/

namespace Nsimd.Props.DoubleDouble
open Nsimd.DoubleDouble
open Nsimd.Float (Nearest exists_nearest)
open Nsimd.Props.Round (Rep rep_neg)

variable {p : Nat} {emin : ℤ} {rnd : ℚ → ℚ}

/-- The value of a pair. Specification. -/
def val (x : DD) : ℚ := x.1 + x.2

/-- Both components are numbers of the format. Specification. -/
def RepDD (p : Nat) (emin : ℤ) (x : DD) : Prop := Rep p emin x.1 ∧ Rep p emin x.2

/-! ## Sums -/

/-- `ddadd2_vd2_vd_vd`: for any two numbers the high part is their rounded sum and the pair is
their sum without any error. -/
theorem add2_11_exact (hp : 1 ≤ p) (h : Nearest p emin rnd) {x y : ℚ} (hx : Rep p emin x)
    (hy : Rep p emin y) :
    (add2_11 rnd x y).1 = rnd (x + y) ∧ val (add2_11 rnd x y) = x + y := by
  refine ⟨rfl, ?_⟩
  simp only [val, add2_11, add, sub]
  rw [h.twoSum hp hx hy]
  ring

/-- `ddadd_vd2_vd_vd`: the same if the first number is not smaller in magnitude. -/
theorem add11_exact (hp : 1 ≤ p) (h : Nearest p emin rnd) {x y : ℚ} (hx : Rep p emin x)
    (hy : Rep p emin y) (hxy : |y| ≤ |x|) :
    (add11 rnd x y).1 = rnd (x + y) ∧ val (add11 rnd x y) = x + y := by
  refine ⟨rfl, ?_⟩
  simp only [val, add11, add, sub]
  rw [h.fastTwoSum hp hx hy hxy]
  ring

/-- `ddsub_vd2_vd_vd`: the same for differences. -/
theorem sub11_exact (hp : 1 ≤ p) (h : Nearest p emin rnd) {x y : ℚ} (hx : Rep p emin x)
    (hy : Rep p emin y) (hxy : |y| ≤ |x|) :
    (sub11 rnd x y).1 = rnd (x - y) ∧ val (sub11 rnd x y) = x - y := by
  refine ⟨rfl, ?_⟩
  simp only [val, sub11, sub]
  rw [h.fastTwoDiff hp hx hy hxy]
  ring

/-- `ddnormalize_vd2_vd2` keeps the value and makes the high part the rounded value. -/
theorem normalize_exact (hp : 1 ≤ p) (h : Nearest p emin rnd) {t : DD} (ht : RepDD p emin t)
    (hxy : |t.2| ≤ |t.1|) :
    val (normalize rnd t) = val t ∧ (normalize rnd t).1 = rnd (val (normalize rnd t)) := by
  have e : val (normalize rnd t) = val t := (add11_exact hp h ht.1 ht.2 hxy).2
  exact ⟨e, by rw [e]; rfl⟩

/-- Hence normalising twice changes nothing. -/
theorem normalize_idem (hp : 1 ≤ p) (h : Nearest p emin rnd) {t : DD} (ht : RepDD p emin t)
    (hxy : |t.2| ≤ |t.1|) : normalize rnd (normalize rnd t) = normalize rnd t := by
  obtain ⟨h1, h2⟩ := normalize_exact hp h ht hxy
  set r := normalize rnd t with hr
  have hs : rnd (r.1 + r.2) = r.1 := h2.symm
  have h3 : Rep p emin r.2 := h.rep _
  apply Prod.ext
  · exact hs
  · show rnd (rnd (r.1 - rnd (r.1 + r.2)) + r.2) = r.2
    rw [hs, sub_self, h.zero, zero_add, h.fix h3]

/-- Sums of a pair and a number: the high part is the rounded sum of the high parts and the low
part is the exact remainder, rounded once. `ddadd2_vd2_vd2_vd` and `ddadd2_vd2_vd_vd2`, for all
operands. -/
theorem add2_21_remainder (hp : 1 ≤ p) (h : Nearest p emin rnd) {x : DD} {y : ℚ}
    (hx : Rep p emin x.1) (hy : Rep p emin y) :
    (add2_21 rnd x y).1 = rnd (x.1 + y) ∧
    (add2_21 rnd x y).2 = rnd (val x + y - (add2_21 rnd x y).1) ∧
    (add2_12 rnd y x).1 = rnd (y + x.1) ∧
    (add2_12 rnd y x).2 = rnd (y + val x - (add2_12 rnd y x).1) := by
  refine ⟨rfl, ?_, rfl, ?_⟩
  · simp only [val, add2_21, add, sub]
    rw [h.twoSum hp hx hy]
    congr 1; ring
  · simp only [val, add2_12, add, sub]
    rw [h.twoSum hp hy hx]
    congr 1; ring

/-- `ddadd_vd2_vd2_vd` and `ddsub_vd2_vd2_vd` if the pair's high part is not smaller in magnitude
than the number. -/
theorem add21_remainder (hp : 1 ≤ p) (h : Nearest p emin rnd) {x : DD} {y : ℚ}
    (hx : Rep p emin x.1) (hy : Rep p emin y) (hxy : |y| ≤ |x.1|) :
    (add21 rnd x y).1 = rnd (x.1 + y) ∧
    (add21 rnd x y).2 = rnd (val x + y - (add21 rnd x y).1) ∧
    (sub21 rnd x y).1 = rnd (x.1 - y) ∧
    (sub21 rnd x y).2 = rnd (val x - y - (sub21 rnd x y).1) := by
  refine ⟨rfl, ?_, rfl, ?_⟩
  · simp only [val, add21, addN, add, sub]
    rw [h.fastTwoSum hp hx hy hxy]
    congr 1; ring
  · simp only [val, sub21, add, sub]
    rw [h.fastTwoDiff hp hx hy hxy]
    congr 1; ring

/-- `ddadd_vd2_vd_vd2` if the number is not smaller in magnitude than the pair's high part. -/
theorem add12_remainder (hp : 1 ≤ p) (h : Nearest p emin rnd) {x : ℚ} {y : DD}
    (hx : Rep p emin x) (hy : Rep p emin y.1) (hxy : |y.1| ≤ |x|) :
    (add12 rnd x y).1 = rnd (x + y.1) ∧
    (add12 rnd x y).2 = rnd (x + val y - (add12 rnd x y).1) := by
  refine ⟨rfl, ?_⟩
  simp only [val, add12, addN, add, sub]
  rw [h.fastTwoSum hp hx hy hxy]
  congr 1; ring

/-- Error of two roundings of sums, `t` being a rounding error. -/
theorem two_roundings {u t a b r1 r2 T : ℚ} (hu : 0 ≤ u) (ht : |t| ≤ u * T)
    (h1 : |r1 - (a + b)| ≤ u * |a + b|) (h2 : |r2 - (t + r1)| ≤ u * |t + r1|) :
    |r2 - (t + (a + b))| ≤ u ^ 2 * T + (2 * u + u ^ 2) * |a + b| := by
  have e1 : |r1| ≤ (1 + u) * |a + b| := by
    have := abs_sub_abs_le_abs_sub r1 (a + b); linarith
  have e2 : |t + r1| ≤ |t| + |r1| := abs_add_le _ _
  have e3 : |r2 - (t + (a + b))| ≤ |r2 - (t + r1)| + |r1 - (a + b)| := by
    have := abs_add_le (r2 - (t + r1)) (r1 - (a + b))
    rwa [show r2 - (t + r1) + (r1 - (a + b)) = r2 - (t + (a + b)) by ring] at this
  have e4 : u * |t + r1| ≤ u * (u * T + (1 + u) * |a + b|) :=
    mul_le_mul_of_nonneg_left (by linarith) hu
  nlinarith

/-- `ddadd2_vd2_vd2_vd2`: the high part is the rounded sum of the high parts; the error of the pair
is at most `2^-2p` times the sum of the high parts and `2^(1-p) + 2^-2p` times the sum of the low
parts, for all operands. -/
theorem add2_22_error (hp : 1 ≤ p) (h : Nearest p emin rnd) {x y : DD} (hx : RepDD p emin x)
    (hy : RepDD p emin y) :
    (add2_22 rnd x y).1 = rnd (x.1 + y.1) ∧
    |val (add2_22 rnd x y) - (val x + val y)| ≤ (1 / 2 ^ p) ^ 2 * |x.1 + y.1| +
      (2 * (1 / 2 ^ p) + (1 / 2 ^ p) ^ 2) * |x.2 + y.2| := by
  refine ⟨rfl, ?_⟩
  simp only [val, add2_22, add, sub]
  rw [h.twoSum hp hx.1 hy.1]
  have h1 := h.rel_add hp hx.2 hy.2
  have ht := h.rel_add hp hx.1 hy.1
  have h2 := h.rel_add hp (h.err_add hp hx.1 hy.1) (h.rep (x.2 + y.2))
  set u : ℚ := 1 / 2 ^ p with hu
  have hdiv : ∀ z : ℚ, z / 2 ^ p = u * z := fun z => by rw [hu]; ring
  rw [hdiv] at h1 ht h2
  rw [abs_sub_comm] at ht
  have := two_roundings (by rw [hu]; positivity) ht h1 h2
  refine le_trans (le_of_eq ?_) this
  congr 1; ring

/-- Error of the two final roundings of `ddadd_vd2_vd2_vd2`. -/
theorem two_roundings' {u t a b r1 r2 T : ℚ} (hu : 0 ≤ u) (ht : |t| ≤ u * T)
    (h1 : |r1 - (t + a)| ≤ u * |t + a|) (h2 : |r2 - (r1 + b)| ≤ u * |r1 + b|) :
    |r2 - (t + a + b)| ≤ (2 * u + u ^ 2) * (u * T + |a|) + u * |b| := by
  have e0 : |t + a| ≤ u * T + |a| := (abs_add_le _ _).trans (by linarith)
  have e1 : |r1| ≤ (1 + u) * |t + a| := by
    have := abs_sub_abs_le_abs_sub r1 (t + a); linarith
  have e2 : |r1 + b| ≤ |r1| + |b| := abs_add_le _ _
  have e3 : |r2 - (t + a + b)| ≤ |r2 - (r1 + b)| + |r1 - (t + a)| := by
    have := abs_add_le (r2 - (r1 + b)) (r1 - (t + a))
    rwa [show r2 - (r1 + b) + (r1 - (t + a)) = r2 - (t + a + b) by ring] at this
  have e4 : u * |r1 + b| ≤ u * ((1 + u) * |t + a| + |b|) :=
    mul_le_mul_of_nonneg_left (by linarith) hu
  have e5 : (2 * u + u ^ 2) * |t + a| ≤ (2 * u + u ^ 2) * (u * T + |a|) :=
    mul_le_mul_of_nonneg_left e0 (by positivity)
  nlinarith

/-- `ddadd_vd2_vd2_vd2`, with the precondition `|x| >= |y|` of its comment. -/
theorem add22_error (hp : 1 ≤ p) (h : Nearest p emin rnd) {x y : DD} (hx : RepDD p emin x)
    (hy : RepDD p emin y) (hxy : |y.1| ≤ |x.1|) :
    (add22 rnd x y).1 = rnd (x.1 + y.1) ∧
    |val (add22 rnd x y) - (val x + val y)| ≤
      (2 * (1 / 2 ^ p) + (1 / 2 ^ p) ^ 2) * (1 / 2 ^ p * |x.1 + y.1| + |x.2|) +
        1 / 2 ^ p * |y.2| := by
  refine ⟨rfl, ?_⟩
  simp only [val, add22, addN, add, sub]
  rw [h.fastTwoSum hp hx.1 hy.1 hxy]
  have ht := h.rel_add hp hx.1 hy.1
  have h1 := h.rel_add hp (h.err_add hp hx.1 hy.1) hx.2
  have h2 := h.rel_add hp (h.rep (x.1 + y.1 - rnd (x.1 + y.1) + x.2)) hy.2
  set u : ℚ := 1 / 2 ^ p with hu
  have hdiv : ∀ z : ℚ, z / 2 ^ p = u * z := fun z => by rw [hu]; ring
  rw [hdiv] at h1 ht h2
  rw [abs_sub_comm] at ht
  have := two_roundings' (by rw [hu]; positivity) ht h1 h2
  refine le_trans (le_of_eq ?_) this
  congr 1; ring

/-- `ddsub_vd2_vd2_vd2`, with the precondition `|x| >= |y|` of its comment. -/
theorem sub22_error (hp : 1 ≤ p) (h : Nearest p emin rnd) {x y : DD} (hx : RepDD p emin x)
    (hy : RepDD p emin y) (hxy : |y.1| ≤ |x.1|) :
    (sub22 rnd x y).1 = rnd (x.1 - y.1) ∧
    |val (sub22 rnd x y) - (val x - val y)| ≤
      (2 * (1 / 2 ^ p) + (1 / 2 ^ p) ^ 2) * (1 / 2 ^ p * |x.1 - y.1| + |x.2|) +
        1 / 2 ^ p * |y.2| := by
  refine ⟨rfl, ?_⟩
  have := (add22_error hp h hx (y := (-y.1, -y.2)) ⟨rep_neg hy.1, rep_neg hy.2⟩
    (by rwa [abs_neg])).2
  simp only [abs_neg, ← sub_eq_add_neg] at this
  refine le_trans (le_of_eq ?_) this
  simp only [val, add22, sub22, addN, add, sub, ← sub_eq_add_neg]
  congr 1; ring

/-- Formats and roundings as in the theorems exist, and `1 + 2^-60` is a sum whose low part is not
zero. -/
example : ∃ rnd, Nearest 53 (-1074) rnd ∧ Rep 53 (-1074) 1 ∧ Rep 53 (-1074) (1 / 2 ^ 60) ∧
    |(1 / 2 ^ 60 : ℚ)| ≤ |1| ∧ (add2_11 rnd 1 (1 / 2 ^ 60)).2 = 1 / 2 ^ 60 := by
  obtain ⟨rnd, h⟩ := exists_nearest (p := 53) (by norm_num) (-1074)
  have h1 : Rep 53 (-1074) 1 := ⟨1, 0, by norm_num, by norm_num, by norm_num⟩
  have h2 : Rep 53 (-1074) (1 / 2 ^ 60) := ⟨1, -60, by norm_num, by norm_num, by norm_num⟩
  refine ⟨rnd, h, h1, h2, by norm_num [abs_of_pos], ?_⟩
  have hv := (add2_11_exact (by norm_num) h h1 h2).2
  have hs : rnd (1 + 1 / 2 ^ 60) = 1 := by
    have hm := h.half_ulp (x := 1 + 1 / 2 ^ 60) (e := -52) (by norm_num) (by norm_num)
      (by norm_num [abs_of_pos])
    have hr := h.mult (e := -60) (by norm_num) (by norm_num) (x := 1 + 1 / 2 ^ 60)
      ⟨2 ^ 60 + 1, by norm_num⟩
    have hge := h.neg_bound (p := 53) (e := -53) (by norm_num) (by norm_num) (x := 1 + 1 / 2 ^ 60)
      (by norm_num [abs_of_pos])
    obtain ⟨k, hk⟩ := Nsimd.Float.mult_of_ge (e := -52) (h.rep (1 + 1 / 2 ^ 60))
      (by norm_num at hge ⊢; exact hge)
    rw [hk] at hm ⊢
    rw [abs_le] at hm
    have : k = 2 ^ 52 := by
      have h1 : (k : ℚ) < (2 ^ 52 + 1 : ℤ) := by push_cast; norm_num at hm ⊢; linarith [hm.1]
      have h2 : ((2 ^ 52 - 1 : ℤ) : ℚ) < k := by push_cast; norm_num at hm ⊢; linarith [hm.2]
      have h1' : k < 2 ^ 52 + 1 := by exact_mod_cast h1
      have h2' : 2 ^ 52 - 1 < k := by exact_mod_cast h2
      omega
    rw [this]; norm_num
  have h3 : (add2_11 rnd 1 (1 / 2 ^ 60)).1 = 1 := hs
  rw [val, h3] at hv
  linarith

/-! ## Products -/

/-- The product is zero or so large that its rounding error is not below the smallest subnormal.
Specification. -/
def NoUnderflow (p : Nat) (emin : ℤ) (x y : ℚ) : Prop :=
  x * y = 0 ∨ (2 : ℚ) ^ (2 * (p : ℤ) + emin) ≤ |x * y|

/-- `ddmul_vd2_vd_vd` with fused multiply-add: the high part is the rounded product and the pair is
the product without any error. -/
theorem fma_mul11_exact (hp : 1 ≤ p) (h : Nearest p emin rnd) {x y : ℚ} (hx : Rep p emin x)
    (hy : Rep p emin y) (hu : NoUnderflow p emin x y) :
    (Fma.mul11 rnd x y).1 = rnd (x * y) ∧ val (Fma.mul11 rnd x y) = x * y := by
  refine ⟨rfl, ?_⟩
  simp only [val, Fma.mul11, mul, fmapn]
  rw [h.fix (h.err_mul' hp hx hy hu)]
  ring

/-- `ddmul_vd2_vd2_vd` with fused multiply-add: the low part is the exact remainder, rounded
once. -/
theorem fma_mul21_remainder (hp : 1 ≤ p) (h : Nearest p emin rnd) {x : DD} {y : ℚ}
    (hx : Rep p emin x.1) (hy : Rep p emin y) (hu : NoUnderflow p emin x.1 y) :
    (Fma.mul21 rnd x y).1 = rnd (x.1 * y) ∧
    (Fma.mul21 rnd x y).2 = rnd (val x * y - (Fma.mul21 rnd x y).1) := by
  refine ⟨rfl, ?_⟩
  simp only [val, Fma.mul21, mul, fma, fmapn]
  rw [h.fix (h.err_mul' hp hx hy hu)]
  congr 1; ring

/-- A number that is doubled stays in the format. -/
theorem rep_double {x : ℚ} (hx : Rep p emin x) : Rep p emin (x + x) := by
  obtain ⟨m, e, hm, he, rfl⟩ := hx
  exact ⟨m, e + 1, hm, by omega, by rw [zpow_add₀ (by norm_num)]; ring⟩

/-- `ddsqu_vd2_vd2` with fused multiply-add: the low part is the remainder up to the square of the
low part, rounded once. -/
theorem fma_squ2_remainder (hp : 1 ≤ p) (h : Nearest p emin rnd) {x : DD}
    (hx : Rep p emin x.1) (hu : NoUnderflow p emin x.1 x.1) :
    (Fma.squ2 rnd x).1 = rnd (x.1 * x.1) ∧
    (Fma.squ2 rnd x).2 = rnd (val x ^ 2 - x.2 ^ 2 - (Fma.squ2 rnd x).1) := by
  refine ⟨rfl, ?_⟩
  simp only [val, Fma.squ2, mul, fma, fmapn, add]
  rw [h.fix (h.err_mul' hp hx hx hu), h.fix (rep_double hx)]
  congr 1; ring

/-- A rounding error, `u` being `2^-p` and `n` half of the smallest subnormal. -/
theorem err' (hp : 1 ≤ p) (h : Nearest p emin rnd) (x : ℚ) :
    |rnd x - x| ≤ 1 / 2 ^ p * |x| + 2 ^ emin / 2 := by
  have := h.err hp x
  rwa [show |x| / 2 ^ p = 1 / 2 ^ p * |x| by ring] at this

/-- A normalised pair: the low part is at most `2^-p` of the high part. Specification. -/
def Normal (p : Nat) (x : DD) : Prop := |x.2| ≤ 1 / 2 ^ p * |x.1|

/-- `ddnormalize_vd2_vd2` gives normalised pairs. -/
theorem normalize_normal (hp : 1 ≤ p) (h : Nearest p emin rnd) {t : DD} (ht : RepDD p emin t)
    (hxy : |t.2| ≤ |t.1|) : Normal p (normalize rnd t) := by
  obtain ⟨h1, h2⟩ := normalize_exact hp h ht hxy
  set r := normalize rnd t
  have hv : val r = t.1 + t.2 := h1
  have herr : |r.2| = |val r - rnd (val r)| := by
    rw [← h2]; congr 1; simp [val]
  have hmul : Nsimd.Float.Mult emin (val r) := by
    obtain ⟨e, he, hm, -⟩ := Nsimd.Float.rep_exp ht.1
    obtain ⟨f, hf, hn, -⟩ := Nsimd.Float.rep_exp ht.2
    rw [hv]; exact (hm.le he).add (hn.le hf)
  obtain ⟨e, he, hb, hm⟩ := Nsimd.Float.exists_scale p emin (val r)
  rw [Normal, herr]
  by_cases hee : e = emin
  · rw [hee] at hb
    rw [h.fix (Nsimd.Float.rep_of_mult hp le_rfl hmul hb), sub_self, abs_zero]
    positivity
  · have hlt := h.neg_bound hp (e := e - 1) (by omega) (hm.resolve_left hee).le
    have h3 := h.half_ulp hp he hb
    have h4 : (2 : ℚ) ^ (e - 1) = 2 ^ e / 2 := by rw [zpow_sub_one₀ (by norm_num)]; rfl
    rw [← h4] at h3
    rw [← h2] at hlt
    rw [div_mul_eq_mul_div, one_mul, le_div_iff₀ (by positivity)]
    refine le_trans ?_ hlt
    rw [mul_comm]
    exact mul_le_mul_of_nonneg_left (by rwa [← h2] at h3 ⊢) (by positivity)

/-- `ddmul_vd2_vd2_vd2` with fused multiply-add: relative error of about `6 * 2^-2p` and at most
one and a half times the smallest subnormal for normalised operands. -/
theorem fma_mul22_error (hp : 3 ≤ p) (h : Nearest p emin rnd) {x y : DD} (hx : RepDD p emin x)
    (hy : RepDD p emin y) (nx : Normal p x) (ny : Normal p y) (hu : NoUnderflow p emin x.1 y.1) :
    (Fma.mul22 rnd x y).1 = rnd (x.1 * y.1) ∧
    |val (Fma.mul22 rnd x y) - val x * val y| ≤
      7 * (1 / 2 ^ p) ^ 2 * |x.1 * y.1| + 3 / 2 * 2 ^ emin := by
  refine ⟨rfl, ?_⟩
  have hp1 : 1 ≤ p := by omega
  simp only [val, Fma.mul22, mul, fma, fmapn]
  have herr := h.err_mul' hp1 hx.1 hy.1 hu
  have hrel : |x.1 * y.1 - rnd (x.1 * y.1)| ≤ 1 / 2 ^ p * |x.1 * y.1| := by
    rcases hu with h0 | hu
    · rw [h0, h.zero]; simp
    · have := h.rel hp1 (x := x.1 * y.1) (by
        refine le_trans ?_ (hu.trans (by linarith [abs_nonneg (x.1 * y.1)]))
        rw [Nsimd.Float.pow_eq_zpow, Nsimd.Float.zpow_le_iff]; omega)
      rw [abs_sub_comm, div_mul_eq_mul_div, one_mul]; exact this
  rw [h.fix herr]
  have h1 := err' hp1 h (x.2 * y.1 + (x.1 * y.1 - rnd (x.1 * y.1)))
  have h2 := err' hp1 h (x.1 * y.2 + rnd (x.2 * y.1 + (x.1 * y.1 - rnd (x.1 * y.1))))
  set u : ℚ := 1 / 2 ^ p with hu'
  have hu0 : 0 ≤ u := by rw [hu']; positivity
  have hu8 : u ≤ 1 / 8 := by
    rw [hu']
    refine one_div_le_one_div_of_le (by norm_num) ?_
    calc (8 : ℚ) = 2 ^ 3 := by norm_num
      _ ≤ 2 ^ p := pow_le_pow_right₀ (by norm_num) hp
  set t := x.1 * y.1 - rnd (x.1 * y.1) with ht
  set r1 := rnd (x.2 * y.1 + t)
  set r2 := rnd (x.1 * y.2 + r1)
  set P := |x.1 * y.1| with hP
  set n : ℚ := 2 ^ emin / 2 with hn
  have hn0 : 0 ≤ n := by rw [hn]; positivity
  have hP0 : 0 ≤ P := abs_nonneg _
  have b1 : |x.2 * y.1| ≤ u * P := by
    rw [abs_mul, hP, abs_mul, ← mul_assoc]
    exact mul_le_mul_of_nonneg_right nx (abs_nonneg _)
  have b2 : |x.1 * y.2| ≤ u * P := by
    rw [abs_mul, hP, abs_mul]
    calc |x.1| * |y.2| ≤ |x.1| * (u * |y.1|) := mul_le_mul_of_nonneg_left ny (abs_nonneg _)
      _ = u * (|x.1| * |y.1|) := by ring
  have b3 : |x.2 * y.2| ≤ u ^ 2 * P := by
    rw [abs_mul, hP, abs_mul]
    calc |x.2| * |y.2| ≤ u * |x.1| * (u * |y.1|) := mul_le_mul nx ny (abs_nonneg _) (by positivity)
      _ = u ^ 2 * (|x.1| * |y.1|) := by ring
  have c1 : |x.2 * y.1 + t| ≤ 2 * u * P := (abs_add_le _ _).trans (by linarith)
  have c2 : |r1| ≤ |x.2 * y.1 + t| + (u * |x.2 * y.1 + t| + n) := by
    have := abs_sub_abs_le_abs_sub r1 (x.2 * y.1 + t); linarith
  have c3 : |x.1 * y.2 + r1| ≤ |x.1 * y.2| + |r1| := abs_add_le _ _
  have e : rnd (x.1 * y.1) + r2 - (x.1 + x.2) * (y.1 + y.2) =
      (r2 - (x.1 * y.2 + r1)) + (r1 - (x.2 * y.1 + t)) - x.2 * y.2 := by rw [ht]; ring
  rw [e]
  have f1 := abs_sub (r2 - (x.1 * y.2 + r1) + (r1 - (x.2 * y.1 + t))) (x.2 * y.2)
  have f2 := abs_add_le (r2 - (x.1 * y.2 + r1)) (r1 - (x.2 * y.1 + t))
  have k1 : u * |x.2 * y.1 + t| ≤ u * (2 * u * P) := mul_le_mul_of_nonneg_left c1 hu0
  have k2 : u * |x.1 * y.2 + r1| ≤ u * (u * P + (2 * u * P + (u * (2 * u * P) + n))) :=
    mul_le_mul_of_nonneg_left (by linarith) hu0
  have k3 : u * (u * (2 * u * P)) ≤ 1 / 4 * (u ^ 2 * P) := by
    have : 0 ≤ u ^ 2 * P := by positivity
    nlinarith
  have k4 : u * n ≤ 1 / 8 * n := mul_le_mul_of_nonneg_right hu8 hn0
  have k5 : 0 ≤ u ^ 2 * P := by positivity
  have hn3 : 3 / 2 * (2 : ℚ) ^ emin = 3 * n := by rw [hn]; ring
  rw [hn3]
  nlinarith

/-- Error of a product of pairs rounded to one number: two small terms `b` and `c` are added first. -/
theorem one_result {u n P a b c z r1 r2 r3 : ℚ} (hu0 : 0 ≤ u) (hu8 : u ≤ 1 / 8) (hn0 : 0 ≤ n)
    (ha : |a| ≤ P) (hb : |b| ≤ u * P) (hc : |c| ≤ u * P) (hz : |z| ≤ u ^ 2 * P)
    (h1 : |r1 - c| ≤ u * |c| + n) (h2 : |r2 - (b + r1)| ≤ u * |b + r1| + n)
    (h3 : |r3 - (a + r2)| ≤ u * |a + r2| + n) :
    |r3 - (a + b + c + z)| ≤ u * (1 + 8 * u) * P + 4 * n := by
  have hP0 : 0 ≤ P := (abs_nonneg a).trans ha
  have c1 : |r1| ≤ |c| + (u * |c| + n) := by
    have := abs_sub_abs_le_abs_sub r1 c; linarith
  have g1 : u * |c| ≤ u ^ 2 * P := by
    have := mul_le_mul_of_nonneg_left hc hu0; linarith
  have c2 : |b + r1| ≤ 2 * (u * P) + u ^ 2 * P + n := by
    have := abs_add_le b r1; linarith
  have k1 : u * (u ^ 2 * P) ≤ 1 / 8 * (u ^ 2 * P) := mul_le_mul_of_nonneg_right hu8 (by positivity)
  have k2 : u * n ≤ 1 / 8 * n := mul_le_mul_of_nonneg_right hu8 hn0
  have k3 : 0 ≤ u ^ 2 * P := by positivity
  have g2 : u * |b + r1| ≤ 17 / 8 * (u ^ 2 * P) + 1 / 8 * n := by
    have := mul_le_mul_of_nonneg_left c2 hu0
    have e : u * (2 * (u * P) + u ^ 2 * P + n) = 2 * (u ^ 2 * P) + u * (u ^ 2 * P) + u * n := by ring
    linarith
  have c3 : |r2| ≤ 2 * (u * P) + 25 / 8 * (u ^ 2 * P) + 17 / 8 * n := by
    have := abs_sub_abs_le_abs_sub r2 (b + r1); linarith
  have c4 : |a + r2| ≤ P + 2 * (u * P) + 25 / 8 * (u ^ 2 * P) + 17 / 8 * n := by
    have := abs_add_le a r2; linarith
  have g3 : u * |a + r2| ≤ u * P + (2 + 25 / 64) * (u ^ 2 * P) + 17 / 64 * n := by
    have := mul_le_mul_of_nonneg_left c4 hu0
    have e : u * (P + 2 * (u * P) + 25 / 8 * (u ^ 2 * P) + 17 / 8 * n) =
      u * P + 2 * (u ^ 2 * P) + 25 / 8 * (u * (u ^ 2 * P)) + 17 / 8 * (u * n) := by ring
    linarith
  have e : r3 - (a + b + c + z) = (r3 - (a + r2)) + (r2 - (b + r1)) + (r1 - c) - z := by ring
  rw [e]
  have f1 := abs_sub ((r3 - (a + r2)) + (r2 - (b + r1)) + (r1 - c)) z
  have f2 := abs_add_le ((r3 - (a + r2)) + (r2 - (b + r1))) (r1 - c)
  have f3 := abs_add_le (r3 - (a + r2)) (r2 - (b + r1))
  have e2 : u * (1 + 8 * u) * P = u * P + 8 * (u ^ 2 * P) := by ring
  linarith

/-- Bounds on the partial products of normalised pairs. -/
theorem partial_bounds {u : ℚ} (hu0 : 0 ≤ u) {x y : DD} (nx : |x.2| ≤ u * |x.1|)
    (ny : |y.2| ≤ u * |y.1|) : |x.2 * y.1| ≤ u * |x.1 * y.1| ∧ |x.1 * y.2| ≤ u * |x.1 * y.1| ∧
    |x.2 * y.2| ≤ u ^ 2 * |x.1 * y.1| := by
  simp only [abs_mul]
  refine ⟨?_, ?_, ?_⟩
  · have := mul_le_mul_of_nonneg_right nx (abs_nonneg y.1); linarith
  · have := mul_le_mul_of_nonneg_left ny (abs_nonneg x.1); linarith
  · calc |x.2| * |y.2| ≤ u * |x.1| * (u * |y.1|) := mul_le_mul nx ny (abs_nonneg _) (by positivity)
      _ = u ^ 2 * (|x.1| * |y.1|) := by ring

/-- `ddmul_vd_vd2_vd2` with fused multiply-add, the product of pairs as one number: it is within
half a unit in the last place and `8 * 2^-2p`, apart from underflow. -/
theorem fma_mul22_1_error (hp : 3 ≤ p) (h : Nearest p emin rnd) {x y : DD} (nx : Normal p x)
    (ny : Normal p y) : |Fma.mul22_1 rnd x y - val x * val y| ≤
      1 / 2 ^ p * (1 + 8 * (1 / 2 ^ p)) * |x.1 * y.1| + 2 * 2 ^ emin := by
  have hu8 : (1 / 2 ^ p : ℚ) ≤ 1 / 8 := by
    refine one_div_le_one_div_of_le (by norm_num) ?_
    calc (8 : ℚ) = 2 ^ 3 := by norm_num
      _ ≤ 2 ^ p := pow_le_pow_right₀ (by norm_num) hp
  have hu0 : (0 : ℚ) ≤ 1 / 2 ^ p := by positivity
  have hn0 : (0 : ℚ) ≤ 2 ^ emin / 2 := by positivity
  obtain ⟨hb, hc, hz⟩ := partial_bounds hu0 nx ny
  have := one_result hu0 hu8 hn0 le_rfl hb hc hz (err' (by omega) h (x.1 * y.2))
    (err' (by omega) h _) (err' (by omega) h _)
  rw [show val x * val y = x.1 * y.1 + x.2 * y.1 + x.1 * y.2 + x.2 * y.2 by simp only [val]; ring,
    show 2 * (2 : ℚ) ^ emin = 4 * (2 ^ emin / 2) by ring]
  exact this

/-- `ddsqu_vd_vd2` with fused multiply-add likewise. -/
theorem fma_squ2_1_error (hp : 3 ≤ p) (h : Nearest p emin rnd) {x : DD} (nx : Normal p x) :
    |Fma.squ2_1 rnd x - val x ^ 2| ≤
      1 / 2 ^ p * (1 + 8 * (1 / 2 ^ p)) * |x.1 * x.1| + 2 * 2 ^ emin := by
  have hu8 : (1 / 2 ^ p : ℚ) ≤ 1 / 8 := by
    refine one_div_le_one_div_of_le (by norm_num) ?_
    calc (8 : ℚ) = 2 ^ 3 := by norm_num
      _ ≤ 2 ^ p := pow_le_pow_right₀ (by norm_num) hp
  have hu0 : (0 : ℚ) ≤ 1 / 2 ^ p := by positivity
  have hn0 : (0 : ℚ) ≤ 2 ^ emin / 2 := by positivity
  obtain ⟨-, hc, hz⟩ := partial_bounds hu0 nx nx
  have k1 := err' (by omega) h (x.1 * x.2)
  simp only [Fma.squ2_1, fma, add, mul]
  rw [h.fix (rep_double (h.rep (x.1 * x.2)))]
  have k2 := err' (by omega) h (x.1 * x.1 + (rnd (x.1 * x.2) + rnd (x.1 * x.2)))
  generalize rnd (x.1 * x.1 + (rnd (x.1 * x.2) + rnd (x.1 * x.2))) = r3 at *
  generalize rnd (x.1 * x.2) = r1 at *
  set u : ℚ := 1 / 2 ^ p
  set n : ℚ := 2 ^ emin / 2 with hn
  set P := |x.1 * x.1| with hP
  have hP0 : 0 ≤ P := abs_nonneg _
  have g1 : u * |x.1 * x.2| ≤ u ^ 2 * P := by
    have := mul_le_mul_of_nonneg_left hc hu0; linarith
  have c1 : |r1| ≤ u * P + u ^ 2 * P + n := by
    have := abs_sub_abs_le_abs_sub r1 (x.1 * x.2); linarith
  have c2 : |x.1 * x.1 + (r1 + r1)| ≤ P + 2 * (u * P) + 2 * (u ^ 2 * P) + 2 * n := by
    have := abs_add_le (x.1 * x.1) (r1 + r1)
    have := abs_add_le r1 r1
    linarith
  have k3 : u * (u ^ 2 * P) ≤ 1 / 8 * (u ^ 2 * P) := mul_le_mul_of_nonneg_right hu8 (by positivity)
  have k4 : u * n ≤ 1 / 8 * n := mul_le_mul_of_nonneg_right hu8 hn0
  have k5 : 0 ≤ u ^ 2 * P := by positivity
  have g3 : u * |x.1 * x.1 + (r1 + r1)| ≤ u * P + 9 / 4 * (u ^ 2 * P) + 1 / 4 * n := by
    have := mul_le_mul_of_nonneg_left c2 hu0
    have e : u * (P + 2 * (u * P) + 2 * (u ^ 2 * P) + 2 * n) =
      u * P + 2 * (u ^ 2 * P) + 2 * (u * (u ^ 2 * P)) + 2 * (u * n) := by ring
    linarith
  have e : r3 - val x ^ 2 = (r3 - (x.1 * x.1 + (r1 + r1))) + (r1 - x.1 * x.2) +
      (r1 - x.1 * x.2) - x.2 * x.2 := by rw [val]; ring
  rw [e]
  have f1 := abs_sub ((r3 - (x.1 * x.1 + (r1 + r1))) + (r1 - x.1 * x.2) +
      (r1 - x.1 * x.2)) (x.2 * x.2)
  have f2 := abs_add_le ((r3 - (x.1 * x.1 + (r1 + r1))) + (r1 - x.1 * x.2)) (r1 - x.1 * x.2)
  have f3 := abs_add_le (r3 - (x.1 * x.1 + (r1 + r1))) (r1 - x.1 * x.2)
  have e2 : u * (1 + 8 * u) * P = u * P + 8 * (u ^ 2 * P) := by ring
  have e3 : 2 * (2 : ℚ) ^ emin = 4 * n := by rw [hn]; ring
  linarith

/-- `ddscale_vd2_vd2_vd` by a power of two is exact unless a component becomes subnormal. -/
theorem scale_exact (h : Nearest p emin rnd) {d : DD} {k : ℤ} (hd : RepDD p emin d)
    (h1 : d.1 = 0 ∨ 0 ≤ k ∨ 2 ^ p * 2 ^ emin ≤ |d.1 * 2 ^ k|)
    (h2 : d.2 = 0 ∨ 0 ≤ k ∨ 2 ^ p * 2 ^ emin ≤ |d.2 * 2 ^ k|) :
    scale rnd d (2 ^ k) = (d.1 * 2 ^ k, d.2 * 2 ^ k) := by
  have key : ∀ x : ℚ, Rep p emin x → (x = 0 ∨ 0 ≤ k ∨ 2 ^ p * 2 ^ emin ≤ |x * 2 ^ k|) →
      rnd (x * 2 ^ k) = x * 2 ^ k := by
    rintro x ⟨m, e, hm, he, rfl⟩ hx
    have e1 : (m : ℚ) * 2 ^ e * 2 ^ k = m * 2 ^ (e + k) := by
      rw [zpow_add₀ (by norm_num)]; ring
    rcases hx with hx | hx | hx
    · rw [hx, zero_mul, h.zero]
    · exact h.fix ⟨m, e + k, hm, by omega, e1⟩
    · refine h.fix ⟨m, e + k, hm, ?_, e1⟩
      rw [e1, abs_mul, abs_of_pos (Nsimd.Float.two_zpow_pos _)] at hx
      have hm' : |(m : ℚ)| < 2 ^ p := by exact_mod_cast hm
      have := hx.trans_lt (mul_lt_mul_of_pos_right hm' (Nsimd.Float.two_zpow_pos (e + k)))
      rw [Nsimd.Float.pow_eq_zpow, Nsimd.Float.pow_eq_zpow] at this
      have := Nsimd.Float.zpow_lt_iff.mp this
      omega
  simp only [scale, mul]
  rw [key _ hd.1 h1, key _ hd.2 h2]

/-! ## Reciprocals and quotients -/

/-- The reciprocal of `d` is in the normal range. Specification. -/
def RecNormal (p : Nat) (emin : ℤ) (d : ℚ) : Prop := d ≠ 0 ∧ 2 ^ p * 2 ^ emin ≤ |1 / d|

/-- The rounded reciprocal and its residual. -/
theorem rec_facts (hp : 1 ≤ p) (h : Nearest p emin rnd) {d : ℚ} (hr : RecNormal p emin d) :
    |1 - d * rnd (1 / d)| ≤ 1 / 2 ^ p := by
  obtain ⟨h0, hb⟩ := hr
  have h1 := h.rel hp (x := 1 / d) (by linarith [abs_nonneg (1 / d)])
  have e1 : 1 - d * rnd (1 / d) = -(d * (rnd (1 / d) - 1 / d)) := by field_simp; ring
  have hinv : |d| * |1 / d| = 1 := by rw [← abs_mul, mul_one_div_cancel h0, abs_one]
  rw [e1, abs_neg, abs_mul]
  calc |d| * |rnd (1 / d) - 1 / d| ≤ |d| * (|1 / d| / 2 ^ p) :=
        mul_le_mul_of_nonneg_left h1 (abs_nonneg _)
    _ = |d| * |1 / d| / 2 ^ p := by ring
    _ = 1 / 2 ^ p := by rw [hinv]

/-- `ddrec_vd2_vd` with fused multiply-add: the reciprocal with relative error `2^-2p * (2 + 2^-p)`,
and half of the smallest subnormal. -/
theorem fma_rec11_error (hp : 1 ≤ p) (hmin : emin ≤ -(2 * p : ℤ)) (h : Nearest p emin rnd) {d : ℚ}
    (hd : Rep p emin d) (hr : RecNormal p emin d) :
    (Fma.rec11 rnd d).1 = rnd (1 / d) ∧
    |val (Fma.rec11 rnd d) - 1 / d| ≤
      (1 / 2 ^ p) ^ 2 * (2 + 1 / 2 ^ p) * |1 / d| + 2 ^ emin / 2 := by
  refine ⟨rfl, ?_⟩
  have hf := rec_facts hp h hr
  have hres := h.rec_residual hp hmin hd hr.1 hr.2
  have hd0 := hr.1
  simp only [val, Fma.rec11, rec1, mul, fmanp]
  rw [h.fix hres]
  have h1 := err' hp h (rnd (1 / d) * (1 - d * rnd (1 / d)))
  set u : ℚ := 1 / 2 ^ p with hu'
  have hu0 : 0 ≤ u := by rw [hu']; positivity
  set s := rnd (1 / d)
  set r := 1 - d * s with hrd
  set lo := rnd (s * r)
  have hs : s = (1 - r) * (1 / d) := by rw [hrd]; field_simp; ring
  have e : s + lo - 1 / d = (lo - s * r) - r ^ 2 * (1 / d) := by
    have : s * r = r * (1 / d) - r ^ 2 * (1 / d) := by rw [hs]; ring
    rw [this]; rw [hs]; ring
  rw [e]
  set D := |1 / d| with hD
  have hD0 : 0 ≤ D := abs_nonneg _
  have hsr : |s * r| ≤ (1 + u) * D * u := by
    rw [abs_mul]
    refine mul_le_mul ?_ hf (abs_nonneg _) (by positivity)
    rw [hs, abs_mul]
    refine mul_le_mul_of_nonneg_right ?_ hD0
    have := abs_sub 1 r
    rw [abs_one] at this
    linarith
  have hrr : |r ^ 2 * (1 / d)| ≤ u ^ 2 * D := by
    rw [abs_mul, abs_pow]
    exact mul_le_mul_of_nonneg_right (pow_le_pow_left₀ (abs_nonneg _) hf 2) hD0
  have f1 := abs_sub (lo - s * r) (r ^ 2 * (1 / d))
  have k1 : u * |s * r| ≤ u * ((1 + u) * D * u) := mul_le_mul_of_nonneg_left hsr hu0
  nlinarith

/-- `u = 2^-p` for the formats in use. -/
theorem u_le (hp : 3 ≤ p) : (1 / 2 ^ p : ℚ) ≤ 1 / 8 := by
  refine one_div_le_one_div_of_le (by norm_num) ?_
  calc (8 : ℚ) = 2 ^ 3 := by norm_num
    _ ≤ 2 ^ p := pow_le_pow_right₀ (by norm_num) hp

/-- The value of a normalised pair with nonzero high part is not zero. -/
theorem val_ne_zero (hp : 3 ≤ p) {d : DD} (nd : Normal p d) (h0 : d.1 ≠ 0) : val d ≠ 0 := by
  intro hv
  have hu := u_le (p := p) hp
  have : d.2 = -d.1 := by rw [val] at hv; linarith
  rw [Normal, this, abs_neg] at nd
  have := abs_pos.mpr h0
  nlinarith

/-- The corrected residual of the reciprocal of a pair. -/
theorem rec2_residual (hp : 3 ≤ p) (h : Nearest p emin rnd) {d : DD} (nd : Normal p d)
    (hr : RecNormal p emin d.1) :
    |1 - val d * rnd (1 / d.1)| ≤ 17 / 8 * (1 / 2 ^ p) ∧
    |rnd (1 / d.1)| ≤ 81 / 64 * |1 / val d| := by
  have hu := u_le (p := p) hp
  have hf := rec_facts (by omega) h hr
  rw [Normal] at nd
  set u : ℚ := 1 / 2 ^ p with hu'
  have hu0 : 0 ≤ u := by rw [hu']; positivity
  set t := rnd (1 / d.1)
  have e1 : 1 - val d * t = (1 - d.1 * t) - d.2 * t := by rw [val]; ring
  have hdt : |d.1 * t| ≤ 1 + u := by
    have := abs_sub 1 (1 - d.1 * t)
    rw [abs_one, sub_sub_cancel] at this
    linarith
  have h2 : |d.2 * t| ≤ u * (1 + u) := by
    rw [abs_mul]
    calc |d.2| * |t| ≤ u * |d.1| * |t| := mul_le_mul_of_nonneg_right nd (abs_nonneg _)
      _ = u * |d.1 * t| := by rw [abs_mul]; ring
      _ ≤ u * (1 + u) := mul_le_mul_of_nonneg_left hdt hu0
  have hw : |1 - val d * t| ≤ 17 / 8 * u := by
    rw [e1]
    refine (abs_sub _ _).trans ?_
    nlinarith
  refine ⟨hw, ?_⟩
  have h0 := val_ne_zero hp nd hr.1
  have : t = (1 - (1 - val d * t)) * (1 / val d) := by field_simp; ring
  rw [this, abs_mul]
  refine mul_le_mul_of_nonneg_right ?_ (abs_nonneg _)
  have := abs_sub 1 (1 - val d * t)
  rw [abs_one] at this
  linarith

/-- `ddrec_vd2_vd2` with fused multiply-add: relative error at most `11 * 2^-2p`, apart from
underflow. -/
theorem fma_rec2_error (hp : 3 ≤ p) (hmin : emin ≤ -(2 * p : ℤ)) (h : Nearest p emin rnd) {d : DD}
    (hd : RepDD p emin d) (nd : Normal p d) (hr : RecNormal p emin d.1) :
    (Fma.rec2 rnd d).1 = rnd (1 / d.1) ∧
    |val (Fma.rec2 rnd d) - 1 / val d| ≤
      11 * (1 / 2 ^ p) ^ 2 * |1 / val d| + (1 + 2 * |1 / val d|) * (2 ^ emin / 2) := by
  refine ⟨rfl, ?_⟩
  have hp1 : 1 ≤ p := by omega
  obtain ⟨hw, ht⟩ := rec2_residual hp h nd hr
  have h0 := val_ne_zero hp nd hr.1
  have hres := h.rec_residual hp1 hmin hd.1 hr.1 hr.2
  have hu8 := u_le (p := p) hp
  rw [show val (Fma.rec2 rnd d) = rnd (1 / d.1) + rnd (rnd (1 / d.1) *
    rnd (rnd (1 - d.1 * rnd (1 / d.1)) - d.2 * rnd (1 / d.1))) from rfl, h.fix hres]
  have h1 := err' hp1 h (1 - d.1 * rnd (1 / d.1) - d.2 * rnd (1 / d.1))
  rw [show 1 - d.1 * rnd (1 / d.1) - d.2 * rnd (1 / d.1) = 1 - val d * rnd (1 / d.1) by
    rw [val]; ring] at h1 ⊢
  set t := rnd (1 / d.1)
  have h2 := err' hp1 h (t * rnd (1 - val d * t))
  set u : ℚ := 1 / 2 ^ p with hu'
  have hu0 : 0 ≤ u := by rw [hu']; positivity
  set w := 1 - val d * t with hwd
  set v := rnd w
  set lo := rnd (t * v)
  set n : ℚ := 2 ^ emin / 2 with hn
  have hn0 : 0 ≤ n := by rw [hn]; positivity
  have hs : t = (1 - w) * (1 / val d) := by rw [hwd]; field_simp; ring
  have e : t + lo - 1 / val d = (lo - t * v) + t * (v - w) - w ^ 2 * (1 / val d) := by
    have : t * w = w * (1 / val d) - w ^ 2 * (1 / val d) := by rw [hs]; ring
    have h3 : t = 1 / val d - w * (1 / val d) := by rw [hs]; ring
    have h4 : (lo - t * v) + t * (v - w) - w ^ 2 * (1 / val d) =
      lo - t * w - w ^ 2 * (1 / val d) := by ring
    rw [h4, this]
    linarith
  rw [e]
  set D := |1 / val d| with hD
  have hD0 : 0 ≤ D := abs_nonneg _
  have f1 := abs_sub ((lo - t * v) + t * (v - w)) (w ^ 2 * (1 / val d))
  have f2 := abs_add_le (lo - t * v) (t * (v - w))
  have f3 : |w ^ 2 * (1 / val d)| ≤ (17 / 8 * u) ^ 2 * D := by
    rw [abs_mul, abs_pow]
    exact mul_le_mul_of_nonneg_right (pow_le_pow_left₀ (abs_nonneg _) hw 2) hD0
  have f4 : |v - w| ≤ u * (17 / 8 * u) + n := by
    have := mul_le_mul_of_nonneg_left hw hu0
    linarith
  have f5 : |t * (v - w)| ≤ 81 / 64 * D * (u * (17 / 8 * u) + n) := by
    rw [abs_mul]
    exact mul_le_mul ht f4 (abs_nonneg _) (by positivity)
  have f6 : |v| ≤ 153 / 64 * u + n := by
    have := abs_sub_abs_le_abs_sub v w
    nlinarith
  have f7 : |t * v| ≤ 81 / 64 * D * (153 / 64 * u + n) := by
    rw [abs_mul]
    exact mul_le_mul ht f6 (abs_nonneg _) (by positivity)
  have f8 : u * |t * v| ≤ u * (81 / 64 * D * (153 / 64 * u + n)) :=
    mul_le_mul_of_nonneg_left f7 hu0
  have f9 : u * (D * n) ≤ 1 / 8 * (D * n) := mul_le_mul_of_nonneg_right hu8 (by positivity)
  have g1 : 0 ≤ u ^ 2 * D := by positivity
  have g2 : 0 ≤ D * n := by positivity
  have g3 : u * (81 / 64 * D * (153 / 64 * u + n)) =
    12393 / 4096 * (u ^ 2 * D) + 81 / 64 * (u * (D * n)) := by ring
  have g4 : 81 / 64 * D * (u * (17 / 8 * u) + n) = 1377 / 512 * (u ^ 2 * D) + 81 / 64 * (D * n) := by
    ring
  have g5 : (17 / 8 * u) ^ 2 * D = 289 / 64 * (u ^ 2 * D) := by ring
  rw [g3] at f8
  rw [g4] at f5
  rw [g5] at f3
  have g6 : 11 * u ^ 2 * D + (1 + 2 * D) * n = 11 * (u ^ 2 * D) + n + 2 * (D * n) := by ring
  rw [g6]
  linarith

/-- `dddiv_vd2_vd2_vd2` with fused multiply-add: relative error at most `25 * 2^-2p`, apart from
underflow. -/
theorem fma_div22_error (hp : 3 ≤ p) (hmin : emin ≤ -(2 * p : ℤ)) (h : Nearest p emin rnd)
    {n d : DD} (hn : RepDD p emin n) (hd : RepDD p emin d) (nn : Normal p n) (nd : Normal p d)
    (hr : RecNormal p emin d.1) (hu : NoUnderflow p emin n.1 (rnd (1 / d.1))) :
    |val (Fma.div22 rnd n d) - val n / val d| ≤
      25 * (1 / 2 ^ p) ^ 2 * |val n / val d| +
        (3 + 2 * |val n / val d|) * (2 ^ emin / 2) := by
  have hp1 : 1 ≤ p := by omega
  obtain ⟨hw, -⟩ := rec2_residual hp h nd hr
  have h0 := val_ne_zero hp nd hr.1
  have hres := h.rec_residual hp1 hmin hd.1 hr.1 hr.2
  have hu8 := u_le (p := p) hp
  have herr := h.err_mul' hp1 hn.1 (h.rep (1 / d.1)) hu
  have hrel : |n.1 * rnd (1 / d.1) - rnd (n.1 * rnd (1 / d.1))| ≤
      1 / 2 ^ p * |n.1 * rnd (1 / d.1)| := by
    rcases hu with h0 | hu
    · rw [h0, h.zero]; simp
    · have := h.rel hp1 (x := n.1 * rnd (1 / d.1)) (by
        refine le_trans ?_ (hu.trans (by linarith [abs_nonneg (n.1 * rnd (1 / d.1))]))
        rw [Nsimd.Float.pow_eq_zpow, Nsimd.Float.zpow_le_iff]; omega)
      rw [abs_sub_comm, div_mul_eq_mul_div, one_mul]; exact this
  rw [show val (Fma.div22 rnd n d) = rnd (n.1 * rnd (1 / d.1)) +
    rnd (rnd (n.1 * rnd (1 / d.1)) * rnd (rnd (1 - d.1 * rnd (1 / d.1)) - d.2 * rnd (1 / d.1)) +
      rnd (n.2 * rnd (1 / d.1) + rnd (rnd (1 / d.1) * n.1 - rnd (n.1 * rnd (1 / d.1))))) from rfl,
    mul_comm (rnd (1 / d.1)) n.1, h.fix hres, h.fix herr]
  have h1 := err' hp1 h (1 - d.1 * rnd (1 / d.1) - d.2 * rnd (1 / d.1))
  rw [show 1 - d.1 * rnd (1 / d.1) - d.2 * rnd (1 / d.1) = 1 - val d * rnd (1 / d.1) by
    rw [val]; ring] at h1 ⊢
  set t := rnd (1 / d.1)
  set s := rnd (n.1 * t)
  set u0 := n.1 * t - s with hu0d
  have h2 := err' hp1 h (n.2 * t + u0)
  have h3 := err' hp1 h (s * rnd (1 - val d * t) + rnd (n.2 * t + u0))
  rw [Normal] at nn
  set u : ℚ := 1 / 2 ^ p with hu'
  have hu0 : 0 ≤ u := by rw [hu']; positivity
  set w := 1 - val d * t with hwd
  set v := rnd w
  set z := rnd (n.2 * t + u0)
  set lo := rnd (s * v + z)
  set m : ℚ := 2 ^ emin / 2 with hm
  have hm0 : 0 ≤ m := by rw [hm]; positivity
  set R := val n / val d with hR
  have eNt : val n * t = R - R * w := by
    have hD : val n = R * val d := by rw [hR]; field_simp
    rw [hwd]; rw [hD]; ring
  have e : s + lo - R = (lo - (s * v + z)) + s * (v - w) + (z - (n.2 * t + u0)) + (s - R) * w := by
    have : s + u0 + n.2 * t = R - R * w := by rw [← eNt, hu0d, val]; ring
    have h4 : (lo - (s * v + z)) + s * (v - w) + (z - (n.2 * t + u0)) + (s - R) * w =
      lo - (u0 + n.2 * t) - R * w := by ring
    rw [h4]; linarith
  have eS : s - R = -(R * w) - u0 - n.2 * t := by
    have : s + u0 + n.2 * t = R - R * w := by rw [← eNt, hu0d, val]; ring
    linarith
  have hR0 : 0 ≤ |R| := abs_nonneg R
  have hRw : |R * w| ≤ |R| * (17 / 8 * u) := by
    rw [abs_mul]; exact mul_le_mul_of_nonneg_left hw hR0
  have hn1 : 7 / 8 * |n.1| ≤ |val n| := by
    have := abs_sub (val n) n.2
    rw [show val n - n.2 = n.1 by rw [val]; ring] at this
    have := mul_le_mul_of_nonneg_right hu8 (abs_nonneg n.1)
    linarith
  have hNt : |val n * t| ≤ 81 / 64 * |R| := by
    rw [eNt]
    refine (abs_sub _ _).trans ?_
    nlinarith
  have hn1t : |n.1 * t| ≤ 81 / 56 * |R| := by
    rw [abs_mul] at hNt ⊢
    have := mul_le_mul_of_nonneg_right hn1 (abs_nonneg t)
    linarith
  have hu0t : |u0| ≤ 81 / 56 * (u * |R|) := by
    have := mul_le_mul_of_nonneg_left hn1t hu0
    linarith
  have hn2t : |n.2 * t| ≤ 81 / 56 * (u * |R|) := by
    have e1 : |n.2 * t| ≤ u * |n.1 * t| := by
      rw [abs_mul, abs_mul, ← mul_assoc]
      exact mul_le_mul_of_nonneg_right nn (abs_nonneg _)
    have := mul_le_mul_of_nonneg_left hn1t hu0
    linarith
  have hsR : |s - R| ≤ 281 / 56 * (u * |R|) := by
    rw [eS]
    have f1 := abs_sub (-(R * w) - u0) (n.2 * t)
    have f2 := abs_sub (-(R * w)) u0
    rw [abs_neg] at f2
    linarith
  have hs : |s| ≤ 729 / 448 * |R| := by
    have f1 := abs_sub (n.1 * t) u0
    rw [show n.1 * t - u0 = s by rw [hu0d]; ring] at f1
    have := mul_le_mul_of_nonneg_right hu8 hR0
    linarith
  have hvw : |v - w| ≤ 17 / 8 * u ^ 2 + m := by
    have := mul_le_mul_of_nonneg_left hw hu0
    linarith
  have hv : |v| ≤ 153 / 64 * u + m := by
    have f1 := abs_sub_abs_le_abs_sub v w
    have f2 : u * u ≤ 1 / 8 * u := mul_le_mul_of_nonneg_right hu8 hu0
    nlinarith
  have a1 : |(s - R) * w| ≤ 281 / 56 * (u * |R|) * (17 / 8 * u) := by
    rw [abs_mul]; exact mul_le_mul hsR hw (abs_nonneg _) (by positivity)
  have a2 : |s * (v - w)| ≤ 729 / 448 * |R| * (17 / 8 * u ^ 2 + m) := by
    rw [abs_mul]; exact mul_le_mul hs hvw (abs_nonneg _) (by positivity)
  have c1 : |n.2 * t + u0| ≤ 81 / 28 * (u * |R|) := (abs_add_le _ _).trans (by linarith)
  have a3 : |z - (n.2 * t + u0)| ≤ u * (81 / 28 * (u * |R|)) + m := by
    have := mul_le_mul_of_nonneg_left c1 hu0
    linarith
  have c2 : |z| ≤ 729 / 224 * (u * |R|) + m := by
    have f1 := abs_sub_abs_le_abs_sub z (n.2 * t + u0)
    have f2 : u * (u * |R|) ≤ 1 / 8 * (u * |R|) :=
      mul_le_mul_of_nonneg_right hu8 (by positivity)
    linarith
  have c3 : |s * v| ≤ 729 / 448 * |R| * (153 / 64 * u + m) := by
    rw [abs_mul]; exact mul_le_mul hs hv (abs_nonneg _) (by positivity)
  have c4 : |s * v + z| ≤ 729 / 448 * |R| * (153 / 64 * u + m) + (729 / 224 * (u * |R|) + m) :=
    (abs_add_le _ _).trans (by linarith)
  have a4 : u * |s * v + z| ≤
      u * (729 / 448 * |R| * (153 / 64 * u + m) + (729 / 224 * (u * |R|) + m)) :=
    mul_le_mul_of_nonneg_left c4 hu0
  rw [e]
  have b1 := abs_add_le (lo - (s * v + z) + s * (v - w) + (z - (n.2 * t + u0))) ((s - R) * w)
  have b2 := abs_add_le (lo - (s * v + z) + s * (v - w)) (z - (n.2 * t + u0))
  have b3 := abs_add_le (lo - (s * v + z)) (s * (v - w))
  have k1 : u * (|R| * m) ≤ 1 / 8 * (|R| * m) := mul_le_mul_of_nonneg_right hu8 (by positivity)
  have k2 : u * m ≤ 1 / 8 * m := mul_le_mul_of_nonneg_right hu8 hm0
  have k3 : 0 ≤ |R| * m := by positivity
  have k4 : 0 ≤ u ^ 2 * |R| := by positivity
  have g1 : 281 / 56 * (u * |R|) * (17 / 8 * u) = 4777 / 448 * (u ^ 2 * |R|) := by ring
  have g2 : 729 / 448 * |R| * (17 / 8 * u ^ 2 + m) =
    12393 / 3584 * (u ^ 2 * |R|) + 729 / 448 * (|R| * m) := by ring
  have g3 : u * (81 / 28 * (u * |R|)) = 81 / 28 * (u ^ 2 * |R|) := by ring
  have g4 : u * (729 / 448 * |R| * (153 / 64 * u + m) + (729 / 224 * (u * |R|) + m)) =
    (111537 / 28672 + 729 / 224) * (u ^ 2 * |R|) + 729 / 448 * (u * (|R| * m)) + u * m := by ring
  have g5 : 25 * u ^ 2 * |R| + (3 + 2 * |R|) * m =
    25 * (u ^ 2 * |R|) + 3 * m + 2 * (|R| * m) := by ring
  rw [g5]
  rw [g1] at a1
  rw [g2] at a2
  rw [g3] at a3
  rw [g4] at a4
  linarith

/-- The hypotheses of the products and quotients are met, for instance, by `(3, 2^-60)` and
`(5, 2^-55)` in f64. -/
example : ∃ rnd, Nearest 53 (-1074) rnd ∧ RepDD 53 (-1074) (3, 1 / 2 ^ 60) ∧
    RepDD 53 (-1074) (5, 1 / 2 ^ 55) ∧ Normal 53 (3, 1 / 2 ^ 60) ∧ Normal 53 (5, 1 / 2 ^ 55) ∧
    NoUnderflow 53 (-1074) 3 5 ∧ RecNormal 53 (-1074) 5 ∧ (-1074 : ℤ) ≤ -(2 * (53 : ℕ) : ℤ) ∧
    NoUnderflow 53 (-1074) 3 (rnd (1 / 5)) := by
  obtain ⟨rnd, h⟩ := exists_nearest (p := 53) (by norm_num) (-1074)
  have hr : RecNormal 53 (-1074) 5 := by
    refine ⟨by norm_num, ?_⟩
    rw [abs_of_pos (by norm_num), Nsimd.Float.pow_eq_zpow]
    exact ((Nsimd.Float.zpow_le_iff (f := -3)).mpr (by norm_num)).trans (by norm_num)
  refine ⟨rnd, h, ⟨⟨3, 0, by norm_num, by norm_num, by norm_num⟩,
    ⟨1, -60, by norm_num, by norm_num, by norm_num⟩⟩, ⟨⟨5, 0, by norm_num, by norm_num, by norm_num⟩,
    ⟨1, -55, by norm_num, by norm_num, by norm_num⟩⟩, by norm_num [Normal, abs_of_pos],
    by norm_num [Normal, abs_of_pos], Or.inr ?_, hr, by norm_num, Or.inr ?_⟩
  · rw [abs_of_pos (by norm_num)]
    exact ((Nsimd.Float.zpow_le_iff (f := 3)).mpr (by norm_num)).trans (by norm_num)
  · have h1 := rec_facts (by norm_num) h hr
    rw [abs_le] at h1
    have h2 : (1 : ℚ) / 10 ≤ rnd (1 / 5) := by norm_num at h1 ⊢; linarith [h1.2]
    rw [abs_of_pos (by linarith)]
    exact ((Nsimd.Float.zpow_le_iff (f := -3)).mpr (by norm_num)).trans (by norm_num; linarith)

/-! ## Products without fused multiply-add -/

open Nsimd.Float (Splits)

/-- Value of the pattern `n` of a normal number with `m` fraction bits and `w` exponent bits, `emin`
being the exponent of the last bit of the smallest normal numbers. IEEE-754. Specification. -/
def normalVal (m w : Nat) (emin : ℤ) (n : Nat) : ℚ :=
  (-1) ^ (n / 2 ^ (m + w)) * (2 ^ m + n % 2 ^ m : ℕ) * 2 ^ (emin + (n / 2 ^ m % 2 ^ w : ℕ) - 1)

/-- `x` is the normal f64 with pattern `b`, and `up` clears the low 27 bits of the pattern.
Specification. -/
def Upper64 (up : ℚ → ℚ) (x : ℚ) : Prop := ∃ b : BitVec 64,
  0 < b.toNat / 2 ^ 52 % 2 ^ 11 ∧ x = normalVal 52 11 (-1074) b.toNat ∧
  up x = normalVal 52 11 (-1074) (upperBits64 b).toNat

/-- `x` is the normal f32 with pattern `b`, and `up` clears the low 12 bits of the pattern.
Specification. -/
def Upper32 (up : ℚ → ℚ) (x : ℚ) : Prop := ∃ b : BitVec 32,
  0 < b.toNat / 2 ^ 23 % 2 ^ 8 ∧ x = normalVal 23 8 (-149) b.toNat ∧
  up x = normalVal 23 8 (-149) (upperBits32 b).toNat

theorem and_mask {w q : Nat} (b : BitVec w) :
    (b &&& (BitVec.allOnes w <<< q)).toNat = b.toNat - b.toNat % 2 ^ q := by
  have e : b &&& (BitVec.allOnes w <<< q) = (b >>> q) <<< q := by
    ext i hi
    simp only [BitVec.getElem_and, BitVec.getElem_shiftLeft, BitVec.getElem_allOnes,
      BitVec.getElem_ushiftRight]
    by_cases h : i < q
    · simp [h]
    · simp [h, BitVec.getLsbD_eq_getElem, hi, Nat.add_sub_cancel' (not_lt.mp h)]
  have h1 : b.toNat / 2 ^ q * 2 ^ q = b.toNat - b.toNat % 2 ^ q := by
    have := Nat.div_add_mod b.toNat (2 ^ q)
    rw [mul_comm]; omega
  rw [e, BitVec.toNat_shiftLeft, BitVec.toNat_ushiftRight, Nat.shiftLeft_eq,
    Nat.shiftRight_eq_div_pow, h1, Nat.mod_eq_of_lt]
  exact lt_of_le_of_lt (Nat.sub_le _ _) b.isLt

theorem splits_of_pattern {m w q : Nat} (hq : q ≤ m) {emin : ℤ} {up : ℚ → ℚ} {n : Nat}
    (hn : 0 < n / 2 ^ m % 2 ^ w)
    (hup : up (normalVal m w emin n) = normalVal m w emin (n - n % 2 ^ q)) :
    ∃ X e, Splits (m + 1) q up (normalVal m w emin n) X e ∧ emin ≤ e := by
  have h2 : (2 : ℕ) ^ m = 2 ^ q * 2 ^ (m - q) := by rw [← pow_add]; congr 1; omega
  have hq0 : 0 < 2 ^ q := by positivity
  have hn' : n - n % 2 ^ q = 2 ^ q * (n / 2 ^ q) := by
    have := Nat.div_add_mod n (2 ^ q); omega
  have hdiv : ∀ k, (n - n % 2 ^ q) / 2 ^ (m + k) = n / 2 ^ (m + k) := by
    intro k
    rw [hn', pow_add, h2, mul_assoc, Nat.mul_div_mul_left _ _ hq0, Nat.div_div_eq_div_mul]
  have hmod : (n - n % 2 ^ q) % 2 ^ m = 2 ^ q * (n % 2 ^ m / 2 ^ q) := by
    rw [hn', h2, Nat.mul_mod_mul_left, Nat.mod_mul_right_div_self]
  set M := 2 ^ m + n % 2 ^ m with hM
  have hMlt : M < 2 ^ (m + 1) := by
    have := Nat.mod_lt n (show 0 < 2 ^ m by positivity)
    rw [pow_succ]; omega
  have hMd : M / 2 ^ q * 2 ^ q = 2 ^ m + 2 ^ q * (n % 2 ^ m / 2 ^ q) := by
    rw [hM, h2, Nat.mul_add_div hq0]; ring
  refine ⟨(-1) ^ (n / 2 ^ (m + w)) * M, emin + (n / 2 ^ m % 2 ^ w : ℕ) - 1,
    ⟨?_, ?_, ?_, ?_⟩, by omega⟩
  · rw [normalVal, ← hM]
    simp only [Int.cast_mul, Int.cast_pow, Int.cast_neg, Int.cast_one, Int.cast_natCast]
  · rw [abs_mul, abs_pow, abs_neg, abs_one, one_pow, one_mul, Nat.abs_cast, Nat.add_sub_cancel]
    exact_mod_cast Nat.le_add_right _ _
  · rw [abs_mul, abs_pow, abs_neg, abs_one, one_pow, one_mul, Nat.abs_cast]
    exact_mod_cast hMlt
  · have hd0 := hdiv 0
    rw [add_zero] at hd0
    rw [hup, normalVal, hdiv, hd0, hmod, ← hMd]
    have ht : (((-1) ^ (n / 2 ^ (m + w)) * (M : ℤ)).tdiv (2 ^ q)) * 2 ^ q =
        (-1) ^ (n / 2 ^ (m + w)) * ((M / 2 ^ q * 2 ^ q : ℕ) : ℤ) := by
      have hpos : (M : ℤ).tdiv (2 ^ q) = ((M / 2 ^ q : ℕ) : ℤ) := by
        rw [Int.tdiv_eq_ediv_of_nonneg (by positivity)]; push_cast; rfl
      rcases neg_one_pow_eq_or ℤ (n / 2 ^ (m + w)) with h | h <;> rw [h]
      · rw [one_mul, one_mul, hpos]; push_cast; ring
      · rw [neg_one_mul, Int.neg_tdiv, hpos]; push_cast; ring
    rw [ht]
    simp only [Int.cast_mul, Int.cast_pow, Int.cast_neg, Int.cast_one, Int.cast_natCast]

/-- `vupper_vd_vd` keeps the 26 leading bits of the significand of every normal f64. -/
theorem upper64_splits {up : ℚ → ℚ} {x : ℚ} (h : Upper64 up x) :
    ∃ X e, Splits 53 27 up x X e ∧ -1074 ≤ e := by
  obtain ⟨b, hb, rfl, hup⟩ := h
  refine splits_of_pattern (m := 52) (by norm_num) hb ?_
  rw [hup, upperBits64, show (0xffffffff#32 ++ 0xf8000000#32) = BitVec.allOnes 64 <<< 27 by decide,
    and_mask]

/-- `vupper_vf_vf` keeps the 12 leading bits of the significand of every normal f32. -/
theorem upper32_splits {up : ℚ → ℚ} {x : ℚ} (h : Upper32 up x) :
    ∃ X e, Splits 24 12 up x X e ∧ -149 ≤ e := by
  obtain ⟨b, hb, rfl, hup⟩ := h
  refine splits_of_pattern (m := 23) (by norm_num) hb ?_
  rw [hup, upperBits32, show (0xfffff000#32) = BitVec.allOnes 32 <<< 12 by decide, and_mask]

/-- Splits in a format whose products do not underflow. -/
theorem split_exps {q : Nat} {up : ℚ → ℚ} {x y : ℚ} {X Y e f : ℤ}
    (hx : Splits p q up x X e) (hy : Splits p q up y Y f) (hu : NoUnderflow p emin x y) :
    emin ≤ e + f := by
  obtain ⟨hx1, hx2, hx3, -⟩ := hx
  obtain ⟨hy1, hy2, hy3, -⟩ := hy
  have hX : (0 : ℤ) < |X| := lt_of_lt_of_le (by positivity) hx2
  have hY : (0 : ℤ) < |Y| := lt_of_lt_of_le (by positivity) hy2
  have hX' : |(X : ℚ)| < 2 ^ p := by exact_mod_cast hx3
  have hY' : |(Y : ℚ)| < 2 ^ p := by exact_mod_cast hy3
  have hxy : |x * y| = |(X : ℚ)| * |(Y : ℚ)| * 2 ^ (e + f) := by
    rw [hx1, hy1, abs_mul, abs_mul, abs_mul, abs_of_pos (Nsimd.Float.two_zpow_pos e),
      abs_of_pos (Nsimd.Float.two_zpow_pos f), zpow_add₀ (by norm_num)]
    ring
  rcases hu with h0 | hu
  · rw [h0, abs_zero] at hxy
    have h1 : (0 : ℚ) < |(X : ℚ)| := by exact_mod_cast hX
    have h2 : (0 : ℚ) < |(Y : ℚ)| := by exact_mod_cast hY
    have := mul_pos (mul_pos h1 h2) (Nsimd.Float.two_zpow_pos (e + f))
    linarith
  · have h1 : |(X : ℚ)| * |(Y : ℚ)| < 2 ^ p * 2 ^ p :=
      mul_lt_mul'' hX' hY' (abs_nonneg _) (abs_nonneg _)
    have h2 := mul_lt_mul_of_pos_right h1 (Nsimd.Float.two_zpow_pos (e + f))
    rw [← hxy, mul_assoc, Nsimd.Float.pow_eq_zpow, Nsimd.Float.pow_eq_zpow] at h2
    have := Nsimd.Float.zpow_lt_iff.mp (hu.trans_lt h2)
    omega

/-- `ddmul_vd2_vd_vd` of f64 without fused multiply-add: the pair is the product of normal numbers
up to a relative error of `2^-104`; the only inexact operation is the product of the low parts. -/
theorem nofma64_mul11_error (h : Nearest 53 (-1074) rnd) {up : ℚ → ℚ} {x y : ℚ}
    (hx : Upper64 up x) (hy : Upper64 up y) (hu : NoUnderflow 53 (-1074) x y) :
    (NoFma.mul11 rnd up x y).1 = rnd (x * y) ∧
    |val (NoFma.mul11 rnd up x y) - x * y| ≤ 1 / 2 ^ 104 * |x * y| ∧
    val (NoFma.mul11 rnd up x y) - x * y =
      rnd ((x - up x) * (y - up y)) - (x - up x) * (y - up y) := by
  obtain ⟨X, e, hX, he⟩ := upper64_splits hx
  obtain ⟨Y, f, hY, hf⟩ := upper64_splits hy
  have hef := split_exps hX hY hu
  have F := h.split_mul (by norm_num) (by norm_num) (by norm_num) hX hY he hf hef
  have hlo := h.dekker F
  have hδ1 := F.δ
  generalize hδ : rnd ((x - up x) * (y - up y)) - (x - up x) * (y - up y) = δ at hlo hδ1
  have hv : val (NoFma.mul11 rnd up x y) = x * y + δ := by
    have : val (NoFma.mul11 rnd up x y) = rnd (x * y) + (x * y - rnd (x * y) + δ) := by
      rw [← hlo]; rfl
    rw [this]; ring
  refine ⟨rfl, ?_, ?_⟩
  · rw [hv, add_sub_cancel_left]
    refine hδ1.trans (le_of_eq ?_)
    norm_num
  · rw [hv, add_sub_cancel_left]

/-- `dfmul_vf2_vf_vf` without fused multiply-add: the pair is the product of normal f32 numbers
without any error. -/
theorem nofma32_mul11_exact (h : Nearest 24 (-149) rnd) {up : ℚ → ℚ} {x y : ℚ}
    (hx : Upper32 up x) (hy : Upper32 up y) (hu : NoUnderflow 24 (-149) x y) :
    (NoFma.mul11 rnd up x y).1 = rnd (x * y) ∧ val (NoFma.mul11 rnd up x y) = x * y := by
  obtain ⟨X, e, hX, he⟩ := upper32_splits hx
  obtain ⟨Y, f, hY, hf⟩ := upper32_splits hy
  have hef := split_exps hX hY hu
  have F := h.split_mul (by norm_num) (by norm_num) (by norm_num) hX hY he hf hef
  have hlo := h.dekker F
  have hδ := F.δ0
  refine ⟨rfl, ?_⟩
  rw [hδ (by norm_num), sub_self, add_zero] at hlo
  have : val (NoFma.mul11 rnd up x y) = rnd (x * y) + (x * y - rnd (x * y)) := by
    rw [← hlo]; rfl
  rw [this]; ring

/-- The split of `x` used by the products without fused multiply-add: `vupper` clears the `q` low
bits of the significand of the normal number `x`. By `upper64_splits` and `upper32_splits` this
holds for f64 with `q = 27` and f32 with `q = 12`. Specification. -/
def Split (p q : Nat) (emin : ℤ) (up : ℚ → ℚ) (x : ℚ) : Prop :=
  ∃ X e : ℤ, Splits p q up x X e ∧ emin ≤ e

/-- Relative error of a product that does not underflow. -/
theorem rel_mul (hp : 1 ≤ p) (h : Nearest p emin rnd) {x y : ℚ} (hu : NoUnderflow p emin x y) :
    |x * y - rnd (x * y)| ≤ 1 / 2 ^ p * |x * y| := by
  rcases hu with h0 | hu
  · rw [h0, h.zero]; simp
  · have := h.rel hp (x := x * y) (by
      refine le_trans ?_ (hu.trans (by linarith [abs_nonneg (x * y)]))
      rw [Nsimd.Float.pow_eq_zpow, Nsimd.Float.zpow_le_iff]; omega)
    rw [abs_sub_comm, div_mul_eq_mul_div, one_mul]; exact this

/-- `ddmul_vd2_vd2_vd` without fused multiply-add: relative error at most `8 * 2^-2p`, apart from
underflow. -/
theorem nofma_mul21_error {q : Nat} (h1 : p ≤ 2 * q) (h2 : 2 * q ≤ p + 1) (h3 : q + 3 ≤ p)
    (hp : 5 ≤ p) (h : Nearest p emin rnd) {up : ℚ → ℚ} {x : DD} {y : ℚ}
    (nx : Normal p x) (sx : Split p q emin up x.1) (sy : Split p q emin up y)
    (hu : NoUnderflow p emin x.1 y) :
    (NoFma.mul21 rnd up x y).1 = rnd (x.1 * y) ∧
    |val (NoFma.mul21 rnd up x y) - val x * y| ≤
      8 * (1 / 2 ^ p) ^ 2 * |x.1 * y| + 3 * (2 ^ emin / 2) := by
  refine ⟨rfl, ?_⟩
  have hp1 : 1 ≤ p := by omega
  obtain ⟨X, e, hX, he⟩ := sx
  obtain ⟨Y, f, hY, hf⟩ := sy
  have F := h.split_mul h1 h2 h3 hX hY he hf (split_exps hX hY hu)
  have hlo := h.dekker F
  have hδ := F.δ
  generalize rnd ((x.1 - up x.1) * (y - up y)) - (x.1 - up x.1) * (y - up y) = δ at hlo hδ
  have hrel := rel_mul hp1 h hu
  have hv : val (NoFma.mul21 rnd up x y) =
      rnd (x.1 * y) + rnd (x.1 * y - rnd (x.1 * y) + δ + rnd (x.2 * y)) := by
    rw [← hlo]; rfl
  rw [hv]
  have k1 := err' hp1 h (x.2 * y)
  have k2 := err' hp1 h (x.1 * y - rnd (x.1 * y) + δ + rnd (x.2 * y))
  have hu8 : (1 / 2 ^ p : ℚ) ≤ 1 / 32 := by
    refine one_div_le_one_div_of_le (by norm_num) ?_
    calc (32 : ℚ) = 2 ^ 5 := by norm_num
      _ ≤ 2 ^ p := pow_le_pow_right₀ (by norm_num) hp
  rw [Normal] at nx
  set u : ℚ := 1 / 2 ^ p with hu'
  have hu0 : 0 ≤ u := by rw [hu']; positivity
  set t := x.1 * y - rnd (x.1 * y) with ht
  set r1 := rnd (x.2 * y)
  set r2 := rnd (t + δ + r1)
  set P := |x.1 * y| with hP
  have hP0 : 0 ≤ P := abs_nonneg _
  set n : ℚ := 2 ^ emin / 2 with hn
  have hn0 : 0 ≤ n := by rw [hn]; positivity
  have b1 : |x.2 * y| ≤ u * P := by
    rw [abs_mul, hP, abs_mul, ← mul_assoc]
    exact mul_le_mul_of_nonneg_right nx (abs_nonneg _)
  have c1 : |r1| ≤ |x.2 * y| + (u * |x.2 * y| + n) := by
    have := abs_sub_abs_le_abs_sub r1 (x.2 * y); linarith
  have c2 : |t + δ + r1| ≤ |t| + |δ| + |r1| :=
    (abs_add_le _ _).trans (by linarith [abs_add_le t δ])
  have e : rnd (x.1 * y) + r2 - val x * y = (r2 - (t + δ + r1)) + (r1 - x.2 * y) + δ := by
    rw [ht, val]; ring
  rw [e]
  have f1 := abs_add_le (r2 - (t + δ + r1) + (r1 - x.2 * y)) δ
  have f2 := abs_add_le (r2 - (t + δ + r1)) (r1 - x.2 * y)
  have g0 : u * |x.2 * y| ≤ u ^ 2 * P := by
    have := mul_le_mul_of_nonneg_left b1 hu0; nlinarith
  have g1 : u * |t + δ + r1| ≤ u * (u * P + 4 * u ^ 2 * P + (u * P + (u ^ 2 * P + n))) :=
    mul_le_mul_of_nonneg_left (by linarith) hu0
  have g2 : u * (u ^ 2 * P) ≤ 1 / 32 * (u ^ 2 * P) :=
    mul_le_mul_of_nonneg_right hu8 (by positivity)
  have g3 : u * n ≤ 1 / 32 * n := mul_le_mul_of_nonneg_right hu8 hn0
  have g4 : 0 ≤ u ^ 2 * P := by positivity
  nlinarith

/-- `ddmul_vd2_vd2_vd2` without fused multiply-add: relative error at most `14 * 2^-2p`, apart from
underflow. -/
theorem nofma_mul22_error {q : Nat} (h1 : p ≤ 2 * q) (h2 : 2 * q ≤ p + 1) (h3 : q + 3 ≤ p)
    (hp : 5 ≤ p) (h : Nearest p emin rnd) {up : ℚ → ℚ} {x y : DD}
    (nx : Normal p x) (ny : Normal p y) (sx : Split p q emin up x.1) (sy : Split p q emin up y.1)
    (hu : NoUnderflow p emin x.1 y.1) :
    (NoFma.mul22 rnd up x y).1 = rnd (x.1 * y.1) ∧
    |val (NoFma.mul22 rnd up x y) - val x * val y| ≤
      14 * (1 / 2 ^ p) ^ 2 * |x.1 * y.1| + 5 * (2 ^ emin / 2) := by
  refine ⟨rfl, ?_⟩
  have hp1 : 1 ≤ p := by omega
  obtain ⟨X, e, hX, he⟩ := sx
  obtain ⟨Y, f, hY, hf⟩ := sy
  have F := h.split_mul h1 h2 h3 hX hY he hf (split_exps hX hY hu)
  have hlo := h.dekker F
  have hδ := F.δ
  generalize rnd ((x.1 - up x.1) * (y.1 - up y.1)) - (x.1 - up x.1) * (y.1 - up y.1) = δ at hlo hδ
  have hrel := rel_mul hp1 h hu
  have hv : val (NoFma.mul22 rnd up x y) = rnd (x.1 * y.1) +
      rnd (rnd (x.1 * y.1 - rnd (x.1 * y.1) + δ + rnd (x.1 * y.2)) + rnd (x.2 * y.1)) := by
    rw [← hlo]; rfl
  rw [hv]
  have k1 := err' hp1 h (x.1 * y.2)
  have k2 := err' hp1 h (x.2 * y.1)
  have k3 := err' hp1 h (x.1 * y.1 - rnd (x.1 * y.1) + δ + rnd (x.1 * y.2))
  have k4 := err' hp1 h
    (rnd (x.1 * y.1 - rnd (x.1 * y.1) + δ + rnd (x.1 * y.2)) + rnd (x.2 * y.1))
  have hu8 : (1 / 2 ^ p : ℚ) ≤ 1 / 32 := by
    refine one_div_le_one_div_of_le (by norm_num) ?_
    calc (32 : ℚ) = 2 ^ 5 := by norm_num
      _ ≤ 2 ^ p := pow_le_pow_right₀ (by norm_num) hp
  rw [Normal] at nx ny
  set u : ℚ := 1 / 2 ^ p with hu'
  have hu0 : 0 ≤ u := by rw [hu']; positivity
  set t := x.1 * y.1 - rnd (x.1 * y.1) with ht
  set r1 := rnd (x.1 * y.2)
  set r2 := rnd (x.2 * y.1)
  set r3 := rnd (t + δ + r1)
  set r4 := rnd (r3 + r2)
  set P := |x.1 * y.1| with hP
  have hP0 : 0 ≤ P := abs_nonneg _
  set n : ℚ := 2 ^ emin / 2 with hn
  have hn0 : 0 ≤ n := by rw [hn]; positivity
  have b1 : |x.2 * y.1| ≤ u * P := by
    rw [abs_mul, hP, abs_mul, ← mul_assoc]
    exact mul_le_mul_of_nonneg_right nx (abs_nonneg _)
  have b2 : |x.1 * y.2| ≤ u * P := by
    rw [abs_mul, hP, abs_mul]
    calc |x.1| * |y.2| ≤ |x.1| * (u * |y.1|) := mul_le_mul_of_nonneg_left ny (abs_nonneg _)
      _ = u * (|x.1| * |y.1|) := by ring
  have b3 : |x.2 * y.2| ≤ u ^ 2 * P := by
    rw [abs_mul, hP, abs_mul]
    calc |x.2| * |y.2| ≤ u * |x.1| * (u * |y.1|) := mul_le_mul nx ny (abs_nonneg _) (by positivity)
      _ = u ^ 2 * (|x.1| * |y.1|) := by ring
  have c1 : |r1| ≤ |x.1 * y.2| + (u * |x.1 * y.2| + n) := by
    have := abs_sub_abs_le_abs_sub r1 (x.1 * y.2); linarith
  have c2 : |r2| ≤ |x.2 * y.1| + (u * |x.2 * y.1| + n) := by
    have := abs_sub_abs_le_abs_sub r2 (x.2 * y.1); linarith
  have g0 : u * |x.1 * y.2| ≤ u ^ 2 * P := by
    have := mul_le_mul_of_nonneg_left b2 hu0; nlinarith
  have g0' : u * |x.2 * y.1| ≤ u ^ 2 * P := by
    have := mul_le_mul_of_nonneg_left b1 hu0; nlinarith
  have c3 : |t + δ + r1| ≤ 2 * u * P + 5 * (u ^ 2 * P) + n := by
    have e1 := abs_add_le (t + δ) r1
    have e2 := abs_add_le t δ
    linarith
  have g1 : u * |t + δ + r1| ≤ u * (2 * u * P + 5 * (u ^ 2 * P) + n) :=
    mul_le_mul_of_nonneg_left c3 hu0
  have g2 : u * (u ^ 2 * P) ≤ 1 / 32 * (u ^ 2 * P) :=
    mul_le_mul_of_nonneg_right hu8 (by positivity)
  have g3 : u * n ≤ 1 / 32 * n := mul_le_mul_of_nonneg_right hu8 hn0
  have g4 : 0 ≤ u ^ 2 * P := by positivity
  have g1' : u * |t + δ + r1| ≤ 69 / 32 * (u ^ 2 * P) + 1 / 32 * n := by
    refine g1.trans ?_
    have : u * (2 * u * P + 5 * (u ^ 2 * P) + n) =
      2 * (u ^ 2 * P) + 5 * (u * (u ^ 2 * P)) + u * n := by ring
    rw [this]; linarith
  have c4 : |r3| ≤ 2 * u * P + 229 / 32 * (u ^ 2 * P) + 65 / 32 * n := by
    have := abs_sub_abs_le_abs_sub r3 (t + δ + r1); linarith
  have c5 : |r3 + r2| ≤ 3 * u * P + 261 / 32 * (u ^ 2 * P) + 97 / 32 * n := by
    have := abs_add_le r3 r2; linarith
  have g5 : u * |r3 + r2| ≤ 3 * (u ^ 2 * P) + 1 / 2 * (u ^ 2 * P) + 1 / 8 * n := by
    refine (mul_le_mul_of_nonneg_left c5 hu0).trans ?_
    have : u * (3 * u * P + 261 / 32 * (u ^ 2 * P) + 97 / 32 * n) =
      3 * (u ^ 2 * P) + 261 / 32 * (u * (u ^ 2 * P)) + 97 / 32 * (u * n) := by ring
    rw [this]; linarith
  have e : rnd (x.1 * y.1) + r4 - val x * val y = (r4 - (r3 + r2)) + (r3 - (t + δ + r1)) +
      (r1 - x.1 * y.2) + (r2 - x.2 * y.1) + δ - x.2 * y.2 := by
    rw [ht, val, val]; ring
  rw [e]
  have f1 := abs_sub ((r4 - (r3 + r2)) + (r3 - (t + δ + r1)) +
      (r1 - x.1 * y.2) + (r2 - x.2 * y.1) + δ) (x.2 * y.2)
  have f2 := abs_add_le ((r4 - (r3 + r2)) + (r3 - (t + δ + r1)) +
      (r1 - x.1 * y.2) + (r2 - x.2 * y.1)) δ
  have f3 := abs_add_le ((r4 - (r3 + r2)) + (r3 - (t + δ + r1)) + (r1 - x.1 * y.2)) (r2 - x.2 * y.1)
  have f4 := abs_add_le ((r4 - (r3 + r2)) + (r3 - (t + δ + r1))) (r1 - x.1 * y.2)
  have f5 := abs_add_le (r4 - (r3 + r2)) (r3 - (t + δ + r1))
  linarith

/-- `ddsqu_vd2_vd2` without fused multiply-add: relative error at most `12 * 2^-2p` of the square
of the high part, apart from underflow. -/
theorem nofma_squ2_error {q : Nat} (h1 : p ≤ 2 * q) (h2 : 2 * q ≤ p + 1) (h3 : q + 3 ≤ p)
    (hp : 5 ≤ p) (h : Nearest p emin rnd) {up : ℚ → ℚ} {x : DD} (hx : Rep p emin x.2)
    (nx : Normal p x) (sx : Split p q emin up x.1) (hu : NoUnderflow p emin x.1 x.1) :
    (NoFma.squ2 rnd up x).1 = rnd (x.1 * x.1) ∧
    |val (NoFma.squ2 rnd up x) - val x ^ 2| ≤
      12 * (1 / 2 ^ p) ^ 2 * |x.1 * x.1| + 3 * (2 ^ emin / 2) := by
  refine ⟨rfl, ?_⟩
  have hp1 : 1 ≤ p := by omega
  obtain ⟨X, e, hX, he⟩ := sx
  have F := h.split_mul h1 h2 h3 hX hX he he (split_exps hX hX hu)
  have hδ := F.δ
  have hrel := rel_mul hp1 h hu
  have hv : val (NoFma.squ2 rnd up x) = rnd (x.1 * x.1) +
      rnd (x.1 * x.1 - rnd (x.1 * x.1) + (rnd ((x.1 - up x.1) * (x.1 - up x.1)) -
        (x.1 - up x.1) * (x.1 - up x.1)) + rnd (x.1 * (x.2 + x.2))) := by
    simp only [val, NoFma.squ2, addN, add, sub, mul]
    have d2 : Rep p emin ((up x.1 + up x.1) * (x.1 - up x.1)) := by
      have := rep_double F.hl
      rwa [← add_mul] at this
    rw [h.fix F.lox, h.fix F.hh, h.fix (rep_double F.upx), h.fix d2, h.fix (rep_double hx),
      ← sub_eq_add_neg, h.fix F.s1]
    rw [show up x.1 * up x.1 - rnd (x.1 * x.1) + (up x.1 + up x.1) * (x.1 - up x.1) =
      x.1 * x.1 - rnd (x.1 * x.1) - (x.1 - up x.1) * (x.1 - up x.1) by ring, h.fix F.s3,
      show x.1 * x.1 - rnd (x.1 * x.1) - (x.1 - up x.1) * (x.1 - up x.1) +
        rnd ((x.1 - up x.1) * (x.1 - up x.1)) =
      x.1 * x.1 - rnd (x.1 * x.1) + (rnd ((x.1 - up x.1) * (x.1 - up x.1)) -
        (x.1 - up x.1) * (x.1 - up x.1)) by ring, h.fix F.s4]
  rw [hv]
  clear hv
  generalize rnd ((x.1 - up x.1) * (x.1 - up x.1)) - (x.1 - up x.1) * (x.1 - up x.1) = δ at *
  have k1 := err' hp1 h (x.1 * (x.2 + x.2))
  have k2 := err' hp1 h (x.1 * x.1 - rnd (x.1 * x.1) + δ + rnd (x.1 * (x.2 + x.2)))
  have hu8 : (1 / 2 ^ p : ℚ) ≤ 1 / 32 := by
    refine one_div_le_one_div_of_le (by norm_num) ?_
    calc (32 : ℚ) = 2 ^ 5 := by norm_num
      _ ≤ 2 ^ p := pow_le_pow_right₀ (by norm_num) hp
  rw [Normal] at nx
  set u : ℚ := 1 / 2 ^ p with hu'
  have hu0 : 0 ≤ u := by rw [hu']; positivity
  set t := x.1 * x.1 - rnd (x.1 * x.1) with ht
  set r1 := rnd (x.1 * (x.2 + x.2))
  set r2 := rnd (t + δ + r1)
  set P := |x.1 * x.1| with hP
  have hP0 : 0 ≤ P := abs_nonneg _
  set n : ℚ := 2 ^ emin / 2 with hn
  have hn0 : 0 ≤ n := by rw [hn]; positivity
  have b1 : |x.1 * (x.2 + x.2)| ≤ 2 * (u * P) := by
    rw [← two_mul, abs_mul, abs_mul, abs_two, hP, abs_mul]
    have := mul_le_mul_of_nonneg_left nx (abs_nonneg x.1)
    linarith
  have b2 : |x.2 ^ 2| ≤ u ^ 2 * P := by
    rw [abs_pow, hP, abs_mul, ← pow_two, ← mul_pow]
    exact pow_le_pow_left₀ (abs_nonneg _) nx 2
  have c1 : |r1| ≤ |x.1 * (x.2 + x.2)| + (u * |x.1 * (x.2 + x.2)| + n) := by
    have := abs_sub_abs_le_abs_sub r1 (x.1 * (x.2 + x.2)); linarith
  have c2 : |t + δ + r1| ≤ |t| + |δ| + |r1| :=
    (abs_add_le _ _).trans (by linarith [abs_add_le t δ])
  have e : rnd (x.1 * x.1) + r2 - val x ^ 2 =
      (r2 - (t + δ + r1)) + (r1 - x.1 * (x.2 + x.2)) + δ - x.2 ^ 2 := by
    rw [ht, val]; ring
  rw [e]
  have f0 := abs_sub (r2 - (t + δ + r1) + (r1 - x.1 * (x.2 + x.2)) + δ) (x.2 ^ 2)
  have f1 := abs_add_le (r2 - (t + δ + r1) + (r1 - x.1 * (x.2 + x.2))) δ
  have f2 := abs_add_le (r2 - (t + δ + r1)) (r1 - x.1 * (x.2 + x.2))
  have g0 : u * |x.1 * (x.2 + x.2)| ≤ 2 * (u ^ 2 * P) := by
    have := mul_le_mul_of_nonneg_left b1 hu0; linarith
  have g1 : u * |t + δ + r1| ≤
      u * (u * P + 4 * u ^ 2 * P + (2 * (u * P) + (2 * (u ^ 2 * P) + n))) :=
    mul_le_mul_of_nonneg_left (by linarith) hu0
  have g2 : u * (u ^ 2 * P) ≤ 1 / 32 * (u ^ 2 * P) :=
    mul_le_mul_of_nonneg_right hu8 (by positivity)
  have g3 : u * n ≤ 1 / 32 * n := mul_le_mul_of_nonneg_right hu8 hn0
  have g4 : 0 ≤ u ^ 2 * P := by positivity
  have g5 : u * (u * P + 4 * u ^ 2 * P + (2 * (u * P) + (2 * (u ^ 2 * P) + n))) =
    3 * (u ^ 2 * P) + 6 * (u * (u ^ 2 * P)) + u * n := by ring
  linarith

/-- `ddrec_vd2_vd` without fused multiply-add: relative error at most `7 * 2^-2p`, apart from
underflow. -/
theorem nofma_rec11_error {q : Nat} (h1 : p ≤ 2 * q) (h2 : 2 * q ≤ p + 1) (h3 : q + 3 ≤ p)
    (hp : 5 ≤ p) (hmin : emin ≤ -(2 * p : ℤ)) (h : Nearest p emin rnd) {up : ℚ → ℚ} {d : ℚ}
    (hr : RecNormal p emin d) (sd : Split p q emin up d) (st : Split p q emin up (rnd (1 / d))) :
    (NoFma.rec11 rnd up d).1 = rnd (1 / d) ∧
    |val (NoFma.rec11 rnd up d) - 1 / d| ≤ 7 * (1 / 2 ^ p) ^ 2 * |1 / d| + 2 ^ emin / 2 := by
  refine ⟨rfl, ?_⟩
  have hp1 : 1 ≤ p := by omega
  have hf := rec_facts hp1 h hr
  have hu8 : (1 / 2 ^ p : ℚ) ≤ 1 / 32 := by
    refine one_div_le_one_div_of_le (by norm_num) ?_
    calc (32 : ℚ) = 2 ^ 5 := by norm_num
      _ ≤ 2 ^ p := pow_le_pow_right₀ (by norm_num) hp
  obtain ⟨X, e, hX, he⟩ := sd
  obtain ⟨T, f, hT, hf'⟩ := st
  have hd0 := hr.1
  -- magnitude of `d * t`
  have hXq : (2 : ℚ) ^ (p - 1) ≤ |(X : ℚ)| := by exact_mod_cast hX.2.1
  have hTq : (2 : ℚ) ^ (p - 1) ≤ |(T : ℚ)| := by exact_mod_cast hT.2.1
  have hXq' : |(X : ℚ)| < 2 ^ p := by exact_mod_cast hX.2.2.1
  have hTq' : |(T : ℚ)| < 2 ^ p := by exact_mod_cast hT.2.2.1
  have hdt : |d * rnd (1 / d)| = |(X : ℚ)| * |(T : ℚ)| * 2 ^ (e + f) := by
    rw [hT.1, abs_mul, abs_mul, abs_of_pos (Nsimd.Float.two_zpow_pos f),
      zpow_add₀ (by norm_num)]
    conv_lhs => rw [hX.1, abs_mul, abs_of_pos (Nsimd.Float.two_zpow_pos e)]
    ring
  have hdt1 : |d * rnd (1 / d)| ≤ 1 + 1 / 2 ^ p := by
    have := abs_sub 1 (1 - d * rnd (1 / d))
    rw [abs_one, sub_sub_cancel] at this
    linarith
  have hdt2 : 1 - 1 / 2 ^ p ≤ |d * rnd (1 / d)| := by
    have := abs_sub_abs_le_abs_sub 1 (d * rnd (1 / d))
    rw [abs_one] at this
    linarith
  have hE1 : e + f < 1 - 2 * ((p : ℤ) - 1) := by
    have k1 : (2 : ℚ) ^ (p - 1) * 2 ^ (p - 1) ≤ |(X : ℚ)| * |(T : ℚ)| :=
      mul_le_mul hXq hTq (by positivity) (abs_nonneg _)
    have k2 := mul_le_mul_of_nonneg_right k1 (Nsimd.Float.two_zpow_pos (e + f)).le
    rw [← hdt, mul_assoc, Nsimd.Float.pow_eq_zpow, Nsimd.Float.pow_eq_zpow] at k2
    have k3 : (2 : ℚ) ^ (((p - 1 : ℕ) : ℤ) + (((p - 1 : ℕ) : ℤ) + (e + f))) < 2 ^ (1 : ℤ) := by
      refine k2.trans_lt (hdt1.trans_lt ?_)
      rw [zpow_one]; linarith
    have := Nsimd.Float.zpow_lt_iff.mp k3
    omega
  have hE2 : -1 - 2 * (p : ℤ) < e + f := by
    have k1 : |(X : ℚ)| * |(T : ℚ)| < 2 ^ p * 2 ^ p :=
      mul_lt_mul'' hXq' hTq' (abs_nonneg _) (abs_nonneg _)
    have k2 := mul_lt_mul_of_pos_right k1 (Nsimd.Float.two_zpow_pos (e + f))
    rw [← hdt, mul_assoc, Nsimd.Float.pow_eq_zpow, Nsimd.Float.pow_eq_zpow] at k2
    have k3 : (2 : ℚ) ^ (-1 : ℤ) < 2 ^ ((p : ℤ) + ((p : ℤ) + (e + f))) := by
      refine lt_of_le_of_lt ?_ (hdt2.trans_lt k2)
      rw [zpow_neg_one]; linarith
    have := Nsimd.Float.zpow_lt_iff.mp k3
    omega
  have F : Nsimd.Float.SplitFacts p q emin rnd up d (rnd (1 / d)) 1 := by
    refine h.split_core h1 h2 h3 hX hT he hf' (by omega) ?_ ?_
    · refine Nsimd.Float.Mult.le (f := 0) ⟨1, by norm_num⟩ ?_
      omega
    · have hb : |1 / d| ≤ 2 ^ p * 2 ^ f := by
        by_contra hc
        have := h.neg_bound hp1 hf' (not_le.mp hc).le
        rw [hT.1, abs_mul, abs_of_pos (Nsimd.Float.two_zpow_pos f)] at this
        have := le_of_mul_le_mul_right this (Nsimd.Float.two_zpow_pos f)
        linarith
      have k := h.half_ulp hp1 hf' hb
      have e1 : d * rnd (1 / d) - 1 = -(d * (1 / d - rnd (1 / d))) := by field_simp; ring
      rw [e1, abs_neg, abs_mul]
      refine (mul_le_mul_of_nonneg_left k (abs_nonneg _)).trans ?_
      rw [hX.1, abs_mul, abs_of_pos (Nsimd.Float.two_zpow_pos e), ← Nsimd.Float.pow_eq_zpow,
        zpow_add₀ (by norm_num)]
      have := mul_le_mul_of_nonneg_right hXq'.le
        (mul_pos (Nsimd.Float.two_zpow_pos e) (Nsimd.Float.two_zpow_pos f)).le
      linarith
  have hδ := F.δ
  have hv : val (NoFma.rec11 rnd up d) = rnd (1 / d) + rnd (rnd (1 / d) *
      (1 - d * rnd (1 / d) - (rnd ((d - up d) * (rnd (1 / d) - up (rnd (1 / d)))) -
        (d - up d) * (rnd (1 / d) - up (rnd (1 / d)))))) := by
    simp only [val, NoFma.rec11, subN, rec1, sub, mul]
    have n1 := rep_neg F.s1
    have n2 := rep_neg F.s2'
    have n3 := rep_neg F.s3
    have n4 := rep_neg F.s4
    set t := rnd (1 / d)
    rw [h.fix F.lox, h.fix F.loy, h.fix F.hh, h.fix F.lh, h.fix F.hl]
    rw [show 1 - up d * up t = -(up d * up t - 1) by ring, h.fix n1,
      show -(up d * up t - 1) - up d * (t - up t) =
        -(up d * up t - 1 + up d * (t - up t)) by ring, h.fix n2,
      show -(up d * up t - 1 + up d * (t - up t)) - (d - up d) * up t =
        -(d * t - 1 - (d - up d) * (t - up t)) by ring, h.fix n3,
      show -(d * t - 1 - (d - up d) * (t - up t)) - rnd ((d - up d) * (t - up t)) =
        -(d * t - 1 + (rnd ((d - up d) * (t - up t)) - (d - up d) * (t - up t))) by ring, h.fix n4]
    congr 3
    ring
  rw [hv]
  clear hv
  generalize rnd ((d - up d) * (rnd (1 / d) - up (rnd (1 / d)))) -
        (d - up d) * (rnd (1 / d) - up (rnd (1 / d))) = δ at *
  have k0 := err' hp1 h (rnd (1 / d) * (1 - d * rnd (1 / d) - δ))
  set u : ℚ := 1 / 2 ^ p with hu'
  have hu0 : 0 ≤ u := by rw [hu']; positivity
  set s := rnd (1 / d)
  set r := 1 - d * s with hrd
  set lo := rnd (s * (r - δ))
  have hs : s = (1 - r) * (1 / d) := by rw [hrd]; field_simp; ring
  have e : s + lo - 1 / d = (lo - s * (r - δ)) - s * δ - r ^ 2 * (1 / d) := by
    have : s * r = r * (1 / d) - r ^ 2 * (1 / d) := by rw [hs]; ring
    rw [mul_sub, this]; rw [hs]; ring
  rw [e]
  set D := |1 / d| with hD
  have hD0 : 0 ≤ D := abs_nonneg _
  have hs1 : |s| ≤ (1 + u) * D := by
    rw [hs, abs_mul]
    refine mul_le_mul_of_nonneg_right ?_ hD0
    have := abs_sub 1 r
    rw [abs_one] at this
    linarith
  have hs2 : |s| ≤ 33 / 32 * D := hs1.trans (mul_le_mul_of_nonneg_right (by linarith) hD0)
  have hδ2 : |δ| ≤ 33 / 8 * u ^ 2 := by
    refine hδ.trans ?_
    have := mul_le_mul_of_nonneg_left (hdt1.trans (by linarith : 1 + u ≤ 33 / 32))
      (by positivity : 0 ≤ 4 * u ^ 2)
    linarith
  have hrδ : |r - δ| ≤ 5 / 4 * u := by
    have := abs_sub r δ
    have : u ^ 2 ≤ 1 / 32 * u := by rw [pow_two]; exact mul_le_mul_of_nonneg_right hu8 hu0
    linarith
  have hsr : |s * (r - δ)| ≤ 33 / 32 * D * (5 / 4 * u) := by
    rw [abs_mul]
    exact mul_le_mul hs2 hrδ (abs_nonneg _) (by positivity)
  have hsδ : |s * δ| ≤ 33 / 32 * D * (33 / 8 * u ^ 2) := by
    rw [abs_mul]
    exact mul_le_mul hs2 hδ2 (abs_nonneg _) (by positivity)
  have hrr : |r ^ 2 * (1 / d)| ≤ u ^ 2 * D := by
    rw [abs_mul, abs_pow]
    exact mul_le_mul_of_nonneg_right (pow_le_pow_left₀ (abs_nonneg _) hf 2) hD0
  have f1 := abs_sub (lo - s * (r - δ) - s * δ) (r ^ 2 * (1 / d))
  have f2 := abs_sub (lo - s * (r - δ)) (s * δ)
  have k1 : u * |s * (r - δ)| ≤ u * (33 / 32 * D * (5 / 4 * u)) :=
    mul_le_mul_of_nonneg_left hsr hu0
  have k2 : u * (33 / 32 * D * (5 / 4 * u)) = 165 / 128 * (u ^ 2 * D) := by ring
  have k3 : 33 / 32 * D * (33 / 8 * u ^ 2) = 1089 / 256 * (u ^ 2 * D) := by ring
  have k4 : 0 ≤ u ^ 2 * D := by positivity
  linarith

/-- Operands as in the theorems above, and the one rounding that makes the f64 product inexact: the
significand `2^52 + 2^27 - 1` has the low part `2^27 - 1`, the square of which has 54 bits and is
odd. -/
theorem nofma64_mul11_inexact (h : Nearest 53 (-1074) rnd) : ∃ up x, Upper64 up x ∧
    NoUnderflow 53 (-1074) x x ∧ val (NoFma.mul11 rnd up x x) ≠ x * x := by
  set b : BitVec 64 := 0x4330000007ffffff#64 with hb
  refine ⟨fun _ => normalVal 52 11 (-1074) (upperBits64 b).toNat, normalVal 52 11 (-1074) b.toNat, ?_⟩
  have hx : normalVal 52 11 (-1074) b.toNat = 2 ^ 52 + 2 ^ 27 - 1 := by
    norm_num [normalVal, hb]
  have hy : normalVal 52 11 (-1074) (upperBits64 b).toNat = 2 ^ 52 := by
    rw [show (upperBits64 b).toNat = 0x4330000000000000 by rw [hb]; decide]
    norm_num [normalVal]
  have hU : Upper64 (fun _ => normalVal 52 11 (-1074) (upperBits64 b).toNat)
      (normalVal 52 11 (-1074) b.toNat) := ⟨b, by rw [hb]; decide, rfl, rfl⟩
  have hN : NoUnderflow 53 (-1074) (normalVal 52 11 (-1074) b.toNat)
      (normalVal 52 11 (-1074) b.toNat) := by
    right
    rw [hx, abs_of_pos (by norm_num)]
    exact ((Nsimd.Float.zpow_le_iff (f := 3)).mpr (by norm_num)).trans (by norm_num)
  refine ⟨hU, hN, fun hc => ?_⟩
  have := (nofma64_mul11_error h hU hU hN).2.2
  rw [hc, sub_self, hx, hy] at this
  have h1 : rnd (((2 : ℚ) ^ 27 - 1) * (2 ^ 27 - 1)) = (2 ^ 27 - 1) * (2 ^ 27 - 1) := by
    have e : (2 : ℚ) ^ 52 + 2 ^ 27 - 1 - 2 ^ 52 = 2 ^ 27 - 1 := by norm_num
    rw [e] at this; linarith
  have hr := h.rep (((2 : ℚ) ^ 27 - 1) * (2 ^ 27 - 1))
  rw [h1] at hr
  obtain ⟨k, hk⟩ := Nsimd.Float.mult_of_ge (e := 1) hr (by rw [abs_of_pos] <;> norm_num)
  rw [zpow_one] at hk
  have : ((2 : ℤ) ^ 27 - 1) * (2 ^ 27 - 1) = k * 2 := by exact_mod_cast hk
  omega

/-- A pair of normal f32 numbers for `nofma32_mul11_exact`: `1 + 2^-23` squared. -/
example : ∃ up x, Upper32 up x ∧ x = 1 + 1 / 2 ^ 23 ∧ up x = 1 ∧ NoUnderflow 24 (-149) x x := by
  set b : BitVec 32 := 0x3f800001#32 with hb
  have hx : normalVal 23 8 (-149) b.toNat = 1 + 1 / 2 ^ 23 := by norm_num [normalVal, hb]
  have hy : normalVal 23 8 (-149) (upperBits32 b).toNat = 1 := by
    rw [show (upperBits32 b).toNat = 0x3f800000 by rw [hb]; decide]
    norm_num [normalVal]
  refine ⟨fun _ => normalVal 23 8 (-149) (upperBits32 b).toNat, normalVal 23 8 (-149) b.toNat,
    ⟨b, by rw [hb]; decide, rfl, rfl⟩, hx, hy, Or.inr ?_⟩
  rw [hx, abs_of_pos (by norm_num)]
  exact ((Nsimd.Float.zpow_le_iff (f := 0)).mpr (by norm_num)).trans (by norm_num)

/-- Operands for `nofma_rec11_error`, `nofma_mul21_error`, `nofma_mul22_error`, `nofma_squ2_error`
and `scale_exact`, whatever the rounding of ties: `3`, its rounded reciprocal and the pair
`(3, 2^-52)`. -/
example (h : Nearest 53 (-1074) rnd) : ∃ up, Split 53 27 (-1074) up 3 ∧
    Split 53 27 (-1074) up (rnd (1 / 3)) ∧ rnd (1 / 3) ≠ 1 / 3 ∧ RecNormal 53 (-1074) 3 ∧
    Normal 53 (3, 1 / 2 ^ 52) ∧ RepDD 53 (-1074) (3, 1 / 2 ^ 52) ∧ NoUnderflow 53 (-1074) 3 3 ∧
    2 ^ 53 * 2 ^ (-1074 : ℤ) ≤ |(1 / 2 ^ 52 : ℚ) * 2 ^ (-9 : ℤ)| := by
  have hlt := h.near (1 / 3) (1 / 2) ⟨1, -1, by norm_num, by norm_num, by norm_num⟩
  have hn := h.neg_bound (by norm_num) (e := -55) (by norm_num) (x := 1 / 3)
    (by rw [abs_of_pos] <;> norm_num)
  obtain ⟨f, hf, ⟨U, hm⟩, hb, hc⟩ := Nsimd.Float.rep_canon (h.rep (1 / 3))
  have hne : rnd (1 / 3) ≠ 3 := by
    intro h3
    rw [h3] at hlt
    norm_num [abs_of_neg, abs_of_pos] at hlt
  have hne2 : rnd (1 / 3) ≠ 1 / 3 := by
    intro h3
    have hr := h.rep (1 / 3)
    rw [h3] at hr
    obtain ⟨m, g, -, -, hg⟩ := hr
    have : (3 : ℚ) * m * 2 ^ g = 1 := by linarith
    rcases le_or_gt 0 g with hg0 | hg0
    · obtain ⟨k, rfl⟩ := Int.eq_ofNat_of_zero_le hg0
      have h4 : (3 : ℤ) * (m * 2 ^ k) = 1 := by
        have : ((3 * (m * 2 ^ k) : ℤ) : ℚ) = 1 := by
          push_cast; rw [← this, zpow_natCast]; ring
        exact_mod_cast this
      omega
    · obtain ⟨k, hk⟩ := Int.eq_ofNat_of_zero_le (a := -g) (by omega)
      have e1 : (2 : ℚ) ^ g = 1 / 2 ^ k := by
        rw [show g = -(k : ℤ) by omega, zpow_neg, zpow_natCast, one_div]
      rw [e1, mul_one_div, div_eq_one_iff_eq (by positivity)] at this
      have h4 : (3 : ℤ) * m = 2 ^ k := by exact_mod_cast this
      have h5 : (3 : ℤ) ∣ 2 ^ k := ⟨m, h4.symm⟩
      have h6 : ∀ k : ℕ, ¬(3 : ℤ) ∣ 2 ^ k := by
        intro k
        induction k with
        | zero => norm_num
        | succ n ih => rw [pow_succ]; omega
      exact h6 k h5
  refine ⟨fun x => if x = 3 then 3 else ((U.tdiv (2 ^ 27) * 2 ^ 27 : ℤ) : ℚ) * 2 ^ f,
    ⟨3 * 2 ^ 51, -51, ⟨by norm_num, by norm_num, by norm_num,
      by norm_num [show Int.tdiv 6755399441055744 134217728 = 50331648 by decide]⟩, by norm_num⟩,
    ⟨U, f, ⟨hm, ?_, ?_, if_neg hne⟩, hf⟩, hne2, ⟨by norm_num, ?_⟩,
    by norm_num [Normal, abs_of_pos],
    ⟨⟨3, 0, by norm_num, by norm_num, by norm_num⟩, ⟨1, -52, by norm_num, by norm_num, by norm_num⟩⟩,
    Or.inr ?_, ?_⟩
  · rcases hc with rfl | hc
    · exfalso
      have := hn.trans_lt hb
      rw [Nsimd.Float.pow_eq_zpow, Nsimd.Float.pow_eq_zpow, Nsimd.Float.zpow_lt_iff] at this
      omega
    · rw [hm, abs_mul, abs_of_pos (Nsimd.Float.two_zpow_pos f),
        zpow_sub_one₀ (by norm_num : (2 : ℚ) ≠ 0), mul_comm ((2 : ℚ) ^ f), ← mul_assoc] at hc
      have := le_of_mul_le_mul_right hc (Nsimd.Float.two_zpow_pos f)
      have h7 : (2 : ℚ) ^ 52 ≤ |(U : ℚ)| := by refine le_trans (le_of_eq ?_) this; norm_num
      exact_mod_cast h7
  · rw [hm, abs_mul, abs_of_pos (Nsimd.Float.two_zpow_pos f)] at hb
    have := lt_of_mul_lt_mul_right hb (Nsimd.Float.two_zpow_pos f).le
    exact_mod_cast this
  · rw [Nsimd.Float.pow_eq_zpow, abs_of_pos (by norm_num)]
    exact ((Nsimd.Float.zpow_le_iff (f := -2)).mpr (by norm_num)).trans (by norm_num)
  · rw [abs_of_pos (by norm_num)]
    exact ((Nsimd.Float.zpow_le_iff (f := 0)).mpr (by norm_num)).trans (by norm_num)
  · rw [Nsimd.Float.pow_eq_zpow, abs_of_pos (by norm_num)]
    exact ((Nsimd.Float.zpow_le_iff (f := -61)).mpr (by norm_num)).trans (by norm_num)

end Nsimd.Props.DoubleDouble
