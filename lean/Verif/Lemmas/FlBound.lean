import Verif.Model.FlExpr
import Verif.Lemmas.DoubleDouble
import Mathlib.Data.Real.Basic
import Mathlib.Data.Rat.Floor
import Mathlib.Data.Nat.Prime.Basic
import Mathlib.Algebra.Order.Field.Basic
import Mathlib.Tactic.Positivity
import Mathlib.Tactic.FieldSimp

/-!
# Error bounds of straight-line floating-point code

An abstract interpretation of `Alg`: every intermediate result `v` is related to its exact counterpart `r`, a function of
one real argument `x`, by a bound `Bd`.  `r` is `x ^ k * w` with `w` between `lo` and `hi`, and `v` differs from `r` by
at most `a * |x| ^ k + b * η`, where `η` is half of the smallest subnormal number.  No code of the repo.
-/

namespace Nsimd.Sleef
open Nsimd.DoubleDouble Nsimd.Float Nsimd.Props.Round

/-- A bound. Proof helper. -/
structure Bd where
  ok : Bool
  k : ℕ
  lo : ℚ
  hi : ℚ
  a : ℚ
  b : ℚ

/-- Precision of the bounds. Proof helper. -/
def grid : ℚ := 2 ^ 160

/-- Rounding up to the precision of the bounds. Proof helper. -/
def up (x : ℚ) : ℚ := (⌈x * grid⌉ : ℚ) / grid

/-- Rounding down. Proof helper. -/
def dn (x : ℚ) : ℚ := (⌊x * grid⌋ : ℚ) / grid

theorem le_up (x : ℚ) : x ≤ up x := by
  rw [up, le_div_iff₀ (by norm_num [grid])]; exact Int.le_ceil _

theorem dn_le (x : ℚ) : dn x ≤ x := by
  rw [dn, div_le_iff₀ (by norm_num [grid])]; exact Int.floor_le _

theorem le_up_real {x : ℚ} {y : ℝ} (h : y ≤ x) : y ≤ (up x : ℚ) := h.trans (by exact_mod_cast le_up x)
theorem dn_le_real {x : ℚ} {y : ℝ} (h : (x : ℝ) ≤ y) : ((dn x : ℚ) : ℝ) ≤ y := le_trans (by exact_mod_cast dn_le x) h

/-- `v` approximates `r`. Proof helper. -/
def Ap (η x : ℝ) (v r : ℝ) (B : Bd) : Prop :=
  B.ok = true → 0 ≤ B.a ∧ 0 ≤ B.b ∧ |v - r| ≤ B.a * |x| ^ B.k + B.b * η ∧
    ∃ w : ℝ, r = x ^ B.k * w ∧ B.lo ≤ w ∧ w ≤ B.hi

namespace Bd

/-- Largest absolute value of `w`. Proof helper. -/
def mag (B : Bd) : ℚ := max |B.lo| |B.hi|

/-- A number without error. Proof helper. -/
def pt (c : ℚ) : Bd := ⟨true, 0, c, c, 0, 0⟩

/-- Opposite. Proof helper. -/
def neg (B : Bd) : Bd := { B with lo := -B.hi, hi := -B.lo }

/-- Exact product, `|x| ≤ X`. Proof helper. -/
def mulE (X : ℚ) (B C : Bd) : Bd where
  ok := B.ok && C.ok
  k := B.k + C.k
  lo := dn (min (min (B.lo * C.lo) (B.lo * C.hi)) (min (B.hi * C.lo) (B.hi * C.hi)))
  hi := up (max (max (B.lo * C.lo) (B.lo * C.hi)) (max (B.hi * C.lo) (B.hi * C.hi)))
  a := up (B.mag * C.a + C.mag * B.a + B.a * C.a)
  b := up ((B.mag + B.a) * X ^ B.k * C.b + (C.mag + C.a) * X ^ C.k * B.b + B.b * C.b)

/-- Bounds of `x ^ d` for `xl ≤ x ≤ xu`. Proof helper. -/
def powI (xl xu : ℚ) (d : ℕ) : ℚ × ℚ :=
  if 0 ≤ xl then (xl ^ d, xu ^ d)
  else if xu ≤ 0 then if d % 2 = 0 then (xu ^ d, xl ^ d) else (xl ^ d, xu ^ d)
  else if d % 2 = 0 then (0, (max |xl| |xu|) ^ d) else (-(max |xl| |xu|) ^ d, (max |xl| |xu|) ^ d)

/-- The same quantity with a degree that is smaller by `d`. Proof helper. -/
def lift (xl xu : ℚ) (d : ℕ) (B : Bd) : Bd :=
  if d = 0 then B else
  let P := powI xl xu d
  { B with
    k := B.k - d
    lo := dn (min (min (P.1 * B.lo) (P.1 * B.hi)) (min (P.2 * B.lo) (P.2 * B.hi)))
    hi := up (max (max (P.1 * B.lo) (P.1 * B.hi)) (max (P.2 * B.lo) (P.2 * B.hi)))
    a := up ((max |xl| |xu|) ^ d * B.a) }

/-- Exact sum of quantities of the same degree. Proof helper. -/
def addK (B C : Bd) : Bd := ⟨B.ok && C.ok, B.k, B.lo + C.lo, B.hi + C.hi, B.a + C.a, B.b + C.b⟩

/-- Exact sum. Proof helper. -/
def addE (xl xu : ℚ) (B C : Bd) : Bd := addK (lift xl xu (B.k - C.k) B) (lift xl xu (C.k - B.k) C)

/-- Exact quotient by a positive quantity of degree 0; `2^-100` bounds `η`. Proof helper. -/
def divE (X : ℚ) (B C : Bd) : Bd :=
  let m := C.lo - C.a - C.b / 2 ^ 100
  let lo := min (B.lo / C.lo) (B.lo / C.hi)
  let hi := max (B.hi / C.lo) (B.hi / C.hi)
  let Q := max |lo| |hi|
  { ok := B.ok && C.ok && decide (0 < m) && decide (0 < C.lo) && decide (C.k = 0)
    k := B.k, lo := dn lo, hi := up hi
    a := up ((B.a + Q * C.a) / m)
    b := up ((B.b + Q * X ^ B.k * C.b) / m) }

/-- Least `j` between -40 and 40 with `x ≤ 2^j`, 40 if there is none. Proof helper. -/
def log2c (x : ℚ) : ℕ → ℤ → ℤ
  | 0, j => j
  | n + 1, j => if x ≤ 2 ^ j then j else log2c x n (j + 1)

/-- One rounding with `p` digits. Proof helper. -/
def round (p : ℕ) (B : Bd) : Bd :=
  let rel := up (B.a + (B.mag + B.a) / 2 ^ p)
  let m := B.mag + B.a + B.b / 2 ^ 100
  let j := log2c m 80 (-40)
  let half := up (B.a + 2 ^ j / 2 ^ p / 2)
  if B.k = 0 ∧ m ≤ 2 ^ j ∧ half ≤ rel then { B with a := half }
  else { B with a := rel, b := up (B.b + B.b / 2 ^ p + 1) }

/-- Numbers that need no rounding. Proof helper. -/
def isRep (p : ℕ) (c : ℚ) : Bool := decide (c.num.natAbs < 2 ^ p) && decide (2 ^ 60 % c.den = 0)

/-- Digits after the binary point of a number with `p` digits close to `c`. Proof helper. -/
def litExp (p : ℕ) (c : ℚ) : ℕ :=
  let k := p - 1 + c.den.log2 - c.num.natAbs.log2
  if c.num.natAbs * 2 ^ k < 2 ^ (p - 1) * c.den then k + 1 else k

/-- The significand of this number. Proof helper. -/
def litNum (p : ℕ) (c : ℚ) : ℤ := (2 * c.num * 2 ^ litExp p c + c.den) / (2 * c.den)

/-- A decimal literal. Most of them are close to a number that needs no rounding. Proof helper. -/
def lit (p : ℕ) (c : ℚ) : Bd :=
  if isRep p c then pt c else
  let e := 3 * |(litNum p c : ℚ) / 2 ^ litExp p c - c|
  if litExp p c ≤ 100 ∧ (litNum p c).natAbs < 2 ^ p ∧ e ≤ |c| / 2 ^ p then ⟨true, 0, c, c, up e, 0⟩
  else ⟨true, 0, c, c, up (|c| * (1 / 2 ^ p + 1 / 2 ^ (p + 20))), 2⟩

end Bd

/-- Bounds as an interpretation of the code. Proof helper. -/
def bdAlg (p : ℕ) (xl xu : ℚ) (fused : Bool) : Alg Bd :=
  let X := max |xl| |xu|
  { lit := Bd.lit p
    neg := Bd.neg
    add := fun B C => (Bd.addE xl xu B C).round p
    sub := fun B C => (Bd.addE xl xu B C.neg).round p
    mul := fun B C => (Bd.mulE X B C).round p
    div := fun B C => (Bd.divE X B C).round p
    mla := fun B C D => if fused then (Bd.addE xl xu (Bd.mulE X B C) D).round p
      else (Bd.addE xl xu ((Bd.mulE X B C).round p) D).round p
    fma := fun B C D => (Bd.addE xl xu (Bd.mulE X B C) D).round p }

/-- Exact real arithmetic as an interpretation of the code. Spec. -/
noncomputable def reAlg : Alg ℝ where
  lit c := (c : ℝ)
  neg x := -x
  add x y := x + y
  sub x y := x - y
  mul x y := x * y
  div x y := x / y
  mla x y z := x * y + z
  fma x y z := x * y + z

/-- Conversion of literals: exact where possible, otherwise with a relative error that may exceed `2^-p` a little
because of two roundings. Proof helper. -/
structure Lit (p : ℕ) (emin : ℤ) (lt : ℚ → ℚ) : Prop where
  fix : ∀ c, Rep p emin c → lt c = c
  err : ∀ c, |lt c - c| ≤ |c| * (1 / 2 ^ p + 1 / 2 ^ (p + 20)) + 2 ^ emin
  best : ∀ c f, Rep p emin f → |lt c - c| ≤ 3 * |f - c|

/-- What is assumed of the format and of the argument. Proof helper. -/
structure Env (p : ℕ) (emin : ℤ) (rnd lt : ℚ → ℚ) (x : ℝ) (xl xu : ℚ) : Prop where
  hp : 1 ≤ p
  hmin : emin ≤ -100 - p
  near : Nearest p emin rnd
  lits : Lit p emin lt
  hl : xl ≤ x
  hu : x ≤ xu

variable {p : ℕ} {emin : ℤ} {rnd lt : ℚ → ℚ} {x : ℝ} {xl xu : ℚ}

/-- Half of the smallest subnormal number. Proof helper. -/
noncomputable def eta (emin : ℤ) : ℝ := 2 ^ emin / 2

theorem eta_pos : 0 < eta emin := by unfold eta; positivity

theorem Env.eta_le (E : Env p emin rnd lt x xl xu) : eta emin ≤ 1 / 2 ^ 100 := by
  have h1 : (2 : ℝ) ^ emin ≤ 2 ^ (-100 : ℤ) := zpow_le_zpow_right₀ (by norm_num) (by have := E.hmin; omega)
  have h2 : (2 : ℝ) ^ (-100 : ℤ) = 1 / 2 ^ 100 := by rw [zpow_neg]; norm_num
  rw [h2] at h1
  have h3 : (0 : ℝ) < 2 ^ emin := by positivity
  exact (half_le_self h3.le).trans h1

theorem Env.abs_le (E : Env p emin rnd lt x xl xu) : |x| ≤ ((max |xl| |xu| : ℚ) : ℝ) := by
  push_cast
  rw [_root_.abs_le]
  have h1 := E.hl
  have h2 := E.hu
  constructor
  · have := neg_abs_le (xl : ℝ); have := le_max_left |(xl : ℝ)| |(xu : ℝ)|; linarith
  · have := le_abs_self (xu : ℝ); have := le_max_right |(xl : ℝ)| |(xu : ℝ)|; linarith

theorem Ap.mag {η v r : ℝ} {B : Bd} (h : Ap η x v r B) (ho : B.ok = true) : |r| ≤ B.mag * |x| ^ B.k := by
  obtain ⟨_, _, _, w, rfl, h1, h2⟩ := h ho
  rw [abs_mul, abs_pow, mul_comm]
  refine mul_le_mul_of_nonneg_right ?_ (by positivity)
  rw [Bd.mag]; push_cast
  exact abs_le_max_abs_abs h1 h2

theorem Bd.mag_nonneg (B : Bd) : 0 ≤ B.mag := (abs_nonneg _).trans (le_max_left _ _)

/-! ### Exact operations -/

theorem Ap.neg {η v r : ℝ} {B : Bd} (h : Ap η x v r B) : Ap η x (-v) (-r) B.neg := by
  intro ho
  obtain ⟨h1, h2, h3, w, rfl, h4, h5⟩ := h ho
  refine ⟨h1, h2, ?_, -w, by simp [Bd.neg], ?_, ?_⟩
  · rw [← neg_sub', abs_neg]; exact h3
  · simp only [Bd.neg]; push_cast; linarith
  · simp only [Bd.neg]; push_cast; linarith

theorem prod_bounds {a b c d s t : ℝ} (h1 : a ≤ s) (h2 : s ≤ b) (h3 : c ≤ t) (h4 : t ≤ d) :
    min (min (a * c) (a * d)) (min (b * c) (b * d)) ≤ s * t ∧ s * t ≤ max (max (a * c) (a * d)) (max (b * c) (b * d)) := by
  have ht : ∀ y : ℝ, min (y * c) (y * d) ≤ y * t ∧ y * t ≤ max (y * c) (y * d) := by
    intro y
    rcases le_total 0 y with hy | hy
    · exact ⟨(min_le_left _ _).trans (mul_le_mul_of_nonneg_left h3 hy),
        (mul_le_mul_of_nonneg_left h4 hy).trans (le_max_right _ _)⟩
    · exact ⟨(min_le_right _ _).trans (mul_le_mul_of_nonpos_left h4 hy),
        (mul_le_mul_of_nonpos_left h3 hy).trans (le_max_left _ _)⟩
  rcases le_total 0 t with hy | hy
  · exact ⟨(min_le_left _ _).trans ((ht a).1.trans (mul_le_mul_of_nonneg_right h1 hy)),
      (mul_le_mul_of_nonneg_right h2 hy).trans ((ht b).2.trans (le_max_right _ _))⟩
  · exact ⟨(min_le_right _ _).trans ((ht b).1.trans (mul_le_mul_of_nonpos_right h2 hy)),
      (mul_le_mul_of_nonpos_right h1 hy).trans ((ht a).2.trans (le_max_left _ _))⟩

theorem Env.mulE (E : Env p emin rnd lt x xl xu) {v r v' r' : ℝ} {B C : Bd} (h : Ap (eta emin) x v r B)
    (h' : Ap (eta emin) x v' r' C) : Ap (eta emin) x (v * v') (r * r') (Bd.mulE (max |xl| |xu|) B C) := by
  intro ho
  simp only [Bd.mulE, Bool.and_eq_true] at ho
  have hm := h.mag ho.1
  have hm' := h'.mag ho.2
  obtain ⟨a1, b1, e1, w1, q1, l1, u1⟩ := h ho.1
  obtain ⟨a2, b2, e2, w2, q2, l2, u2⟩ := h' ho.2
  have hX := E.abs_le
  set X := max |xl| |xu| with hXd
  have hη := eta_pos (emin := emin)
  have hη1 : eta emin ≤ 1 := E.eta_le.trans (by norm_num)
  have a1' : (0 : ℝ) ≤ B.a := by exact_mod_cast a1
  have b1' : (0 : ℝ) ≤ B.b := by exact_mod_cast b1
  have a2' : (0 : ℝ) ≤ C.a := by exact_mod_cast a2
  have b2' : (0 : ℝ) ≤ C.b := by exact_mod_cast b2
  have hX0 : (0 : ℚ) ≤ X := (abs_nonneg _).trans (le_max_left _ _)
  have m1 : (0 : ℝ) ≤ B.mag := by exact_mod_cast B.mag_nonneg
  have m2 : (0 : ℝ) ≤ C.mag := by exact_mod_cast C.mag_nonneg
  have m1q := B.mag_nonneg
  have m2q := C.mag_nonneg
  refine ⟨?_, ?_, ?_, w1 * w2, ?_, ?_, ?_⟩
  · exact le_trans (by positivity) (le_up _)
  · exact le_trans (by positivity) (le_up _)
  · have hx1 : |x| ^ B.k ≤ (X : ℝ) ^ B.k := pow_le_pow_left₀ (abs_nonneg _) hX _
    have hx2 : |x| ^ C.k ≤ (X : ℝ) ^ C.k := pow_le_pow_left₀ (abs_nonneg _) hX _
    have key : |v * v' - r * r'| ≤ |r| * |v' - r'| + |r'| * |v - r| + |v - r| * |v' - r'| := by
      have : v * v' - r * r' = r * (v' - r') + r' * (v - r) + (v - r) * (v' - r') := by ring
      rw [this]
      refine (abs_add_three _ _ _).trans ?_
      rw [abs_mul, abs_mul, abs_mul]
    set s := |x| ^ B.k with hs
    set t := |x| ^ C.k with ht
    have s0 : 0 ≤ s := by positivity
    have t0 : 0 ≤ t := by positivity
    have k1 : |r| * |v' - r'| ≤ (B.mag * s) * (C.a * t + C.b * eta emin) := mul_le_mul hm e2 (abs_nonneg _) (by positivity)
    have k2 : |r'| * |v - r| ≤ (C.mag * t) * (B.a * s + B.b * eta emin) := mul_le_mul hm' e1 (abs_nonneg _) (by positivity)
    have k3 : |v - r| * |v' - r'| ≤ (B.a * s + B.b * eta emin) * (C.a * t + C.b * eta emin) :=
      mul_le_mul e1 e2 (abs_nonneg _) (by positivity)
    have k4 : (B.mag * s) * (C.a * t + C.b * eta emin) + (C.mag * t) * (B.a * s + B.b * eta emin) +
        (B.a * s + B.b * eta emin) * (C.a * t + C.b * eta emin) =
        (B.mag * C.a + C.mag * B.a + B.a * C.a) * (s * t) +
        ((B.mag + B.a) * s * C.b + (C.mag + C.a) * t * B.b + B.b * C.b * eta emin) * eta emin := by ring
    have k5 : (B.mag + B.a) * s * C.b ≤ (B.mag + B.a) * (X : ℝ) ^ B.k * C.b :=
      mul_le_mul_of_nonneg_right (mul_le_mul_of_nonneg_left hx1 (by positivity)) b2'
    have k6 : (C.mag + C.a) * t * B.b ≤ (C.mag + C.a) * (X : ℝ) ^ C.k * B.b :=
      mul_le_mul_of_nonneg_right (mul_le_mul_of_nonneg_left hx2 (by positivity)) b1'
    have k7 : B.b * C.b * eta emin ≤ B.b * C.b := by
      have : (0 : ℝ) ≤ B.b * C.b := by positivity
      nlinarith
    have hk : |x| ^ (B.k + C.k) = s * t := by rw [pow_add]
    have ha : ((B.mag * C.a + C.mag * B.a + B.a * C.a : ℚ) : ℝ) ≤ (Bd.mulE X B C).a := by
      exact_mod_cast le_up _
    have hb : (((B.mag + B.a) * X ^ B.k * C.b + (C.mag + C.a) * X ^ C.k * B.b + B.b * C.b : ℚ) : ℝ) ≤ (Bd.mulE X B C).b := by
      exact_mod_cast le_up _
    push_cast at ha hb
    have hka : (Bd.mulE X B C).k = B.k + C.k := rfl
    rw [hka, hk]
    have f1 := mul_le_mul_of_nonneg_right ha (mul_nonneg s0 t0)
    have f2 : ((B.mag + B.a) * s * C.b + (C.mag + C.a) * t * B.b + B.b * C.b * eta emin) * eta emin ≤
        (Bd.mulE X B C).b * eta emin := mul_le_mul_of_nonneg_right (by linarith) hη.le
    linarith
  · rw [q1, q2]; simp only [Bd.mulE]; rw [pow_add]; ring
  · have := (prod_bounds l1 u1 l2 u2).1
    refine dn_le_real (le_trans (le_of_eq ?_) this)
    push_cast; rfl
  · have := (prod_bounds l1 u1 l2 u2).2
    refine le_up_real (le_trans this (le_of_eq ?_))
    push_cast; rfl

theorem Env.powI (E : Env p emin rnd lt x xl xu) (d : ℕ) :
    ((Bd.powI xl xu d).1 : ℝ) ≤ x ^ d ∧ x ^ d ≤ (Bd.powI xl xu d).2 := by
  have hX := E.abs_le
  unfold Bd.powI
  split
  · rename_i h0
    have h0' : (0 : ℝ) ≤ xl := by exact_mod_cast h0
    push_cast
    exact ⟨pow_le_pow_left₀ h0' E.hl _, pow_le_pow_left₀ (h0'.trans E.hl) E.hu _⟩
  split
  · rename_i _ h0
    have h0' : (xu : ℝ) ≤ 0 := by exact_mod_cast h0
    have e1 := pow_le_pow_left₀ (neg_nonneg.mpr h0') (neg_le_neg E.hu) d
    have e2 := pow_le_pow_left₀ (neg_nonneg.mpr (E.hu.trans h0')) (neg_le_neg E.hl) d
    split
    · rename_i hd
      have hd' := Nat.even_iff.mpr hd
      rw [hd'.neg_pow, hd'.neg_pow] at e1 e2
      push_cast
      exact ⟨e1, e2⟩
    · rename_i hd
      have hd' : Odd d := Nat.odd_iff.mpr (by omega)
      rw [hd'.neg_pow, hd'.neg_pow] at e1 e2
      push_cast
      exact ⟨by linarith, by linarith⟩
  · have h1 : |x ^ d| ≤ ((max |xl| |xu| : ℚ) : ℝ) ^ d := by
      rw [abs_pow]; exact pow_le_pow_left₀ (abs_nonneg _) hX _
    push_cast at h1
    split
    · rename_i hd
      push_cast
      exact ⟨(Nat.even_iff.mpr hd).pow_nonneg _, (le_abs_self _).trans h1⟩
    · push_cast
      exact ⟨(_root_.abs_le.mp h1).1, (_root_.abs_le.mp h1).2⟩

theorem Env.lift (E : Env p emin rnd lt x xl xu) {v r : ℝ} {B : Bd} (h : Ap (eta emin) x v r B) {d : ℕ} (hd : d ≤ B.k) :
    Ap (eta emin) x v r (B.lift xl xu d) := by
  unfold Bd.lift
  split
  · exact h
  intro ho
  obtain ⟨a1, b1, e1, w1, q1, l1, u1⟩ := h ho
  obtain ⟨p1, p2⟩ := E.powI d
  have hX := E.abs_le
  set X := max |xl| |xu| with hXd
  have hX0 : (0 : ℚ) ≤ X := (abs_nonneg _).trans (le_max_left _ _)
  have a1' : (0 : ℝ) ≤ B.a := by exact_mod_cast a1
  refine ⟨?_, b1, ?_, x ^ d * w1, ?_, ?_, ?_⟩
  · exact le_trans (by positivity) (le_up _)
  · refine e1.trans (add_le_add_left ?_ _)
    have h1 : |x| ^ d ≤ (X : ℝ) ^ d := pow_le_pow_left₀ (abs_nonneg _) hX _
    have h2 : |x| ^ B.k = |x| ^ d * |x| ^ (B.k - d) := by rw [← pow_add]; congr 1; omega
    have h3 : ((X ^ d * B.a : ℚ) : ℝ) ≤ (up (X ^ d * B.a) : ℚ) := by exact_mod_cast le_up _
    push_cast at h3
    rw [h2]
    have h4 : (0 : ℝ) ≤ |x| ^ (B.k - d) := by positivity
    have h5 : B.a * (|x| ^ d * |x| ^ (B.k - d)) ≤ B.a * ((X : ℝ) ^ d * |x| ^ (B.k - d)) :=
      mul_le_mul_of_nonneg_left (mul_le_mul_of_nonneg_right h1 h4) a1'
    have h6 := mul_le_mul_of_nonneg_right h3 h4
    simp only
    linarith
  · rw [q1, ← mul_assoc, ← pow_add]; congr 2; simp only; omega
  · have := (prod_bounds p1 p2 l1 u1).1
    refine dn_le_real (le_trans (le_of_eq ?_) this)
    push_cast; rfl
  · have := (prod_bounds p1 p2 l1 u1).2
    refine le_up_real (le_trans this (le_of_eq ?_))
    push_cast; rfl

theorem Bd.lift_k (B : Bd) (d : ℕ) : (B.lift xl xu d).k = B.k - d := by unfold lift; split <;> simp_all

theorem Bd.lift_ok (B : Bd) (d : ℕ) : (B.lift xl xu d).ok = B.ok := by unfold lift; split <;> simp_all

theorem Ap.addK {η v r v' r' : ℝ} {B C : Bd} (h : Ap η x v r B) (h' : Ap η x v' r' C) (hk : B.k = C.k) :
    Ap η x (v + v') (r + r') (Bd.addK B C) := by
  intro ho
  simp only [Bd.addK, Bool.and_eq_true] at ho
  obtain ⟨a1, b1, e1, w1, q1, l1, u1⟩ := h ho.1
  obtain ⟨a2, b2, e2, w2, q2, l2, u2⟩ := h' ho.2
  refine ⟨add_nonneg a1 a2, add_nonneg b1 b2, ?_, w1 + w2, ?_, ?_, ?_⟩
  · have : v + v' - (r + r') = (v - r) + (v' - r') := by ring
    rw [this]
    refine (abs_add_le _ _).trans ?_
    simp only [Bd.addK]; push_cast
    rw [← hk] at e2
    linarith
  · simp only [Bd.addK]; rw [q1, q2, ← hk]; ring
  · simp only [Bd.addK]; push_cast; linarith
  · simp only [Bd.addK]; push_cast; linarith

theorem Env.addE (E : Env p emin rnd lt x xl xu) {v r v' r' : ℝ} {B C : Bd} (h : Ap (eta emin) x v r B)
    (h' : Ap (eta emin) x v' r' C) : Ap (eta emin) x (v + v') (r + r') (Bd.addE xl xu B C) :=
  (E.lift h (by omega)).addK (E.lift h' (by omega)) (by rw [Bd.lift_k, Bd.lift_k]; omega)

set_option maxHeartbeats 800000 in
theorem Env.divE (E : Env p emin rnd lt x xl xu) {v r v' r' : ℝ} {B C : Bd} (h : Ap (eta emin) x v r B)
    (h' : Ap (eta emin) x v' r' C) : Ap (eta emin) x (v / v') (r / r') (Bd.divE (max |xl| |xu|) B C) := by
  intro ho
  simp only [Bd.divE, Bool.and_eq_true, decide_eq_true_eq] at ho
  obtain ⟨⟨⟨⟨o1, o2⟩, hm⟩, hl⟩, hk⟩ := ho
  obtain ⟨a1, b1, e1, w1, q1, l1, u1⟩ := h o1
  obtain ⟨a2, b2, e2, w2, q2, l2, u2⟩ := h' o2
  have hX := E.abs_le
  set X := max |xl| |xu| with hXd
  have hX0 : (0 : ℚ) ≤ X := (abs_nonneg _).trans (le_max_left _ _)
  have hη := eta_pos (emin := emin)
  have a1' : (0 : ℝ) ≤ B.a := by exact_mod_cast a1
  have b1' : (0 : ℝ) ≤ B.b := by exact_mod_cast b1
  have a2' : (0 : ℝ) ≤ C.a := by exact_mod_cast a2
  have b2' : (0 : ℝ) ≤ C.b := by exact_mod_cast b2
  rw [hk, pow_zero, one_mul] at q2
  rw [hk, pow_zero, mul_one] at e2
  subst q2
  have hl' : (0 : ℝ) < C.lo := by exact_mod_cast hl
  have hr' : 0 < r' := hl'.trans_le l2
  have hhi : (0 : ℝ) < C.hi := hr'.trans_le u2
  set m := C.lo - C.a - C.b / 2 ^ 100 with hmd
  have hm' : (0 : ℝ) < m := by exact_mod_cast hm
  have hv : (m : ℝ) ≤ v' := by
    have := (_root_.abs_le.mp e2).1
    have h2 : C.b * eta emin ≤ C.b / 2 ^ 100 := by
      have := mul_le_mul_of_nonneg_left E.eta_le b2'
      rwa [mul_one_div] at this
    rw [hmd]; push_cast; linarith
  have hv0 : 0 < v' := hm'.trans_le hv
  set lo := min (B.lo / C.lo) (B.lo / C.hi) with hlo
  set hi := max (B.hi / C.lo) (B.hi / C.hi) with hhi'
  set Q := max |lo| |hi| with hQ
  have hQ0 : (0 : ℚ) ≤ Q := (abs_nonneg _).trans (le_max_left _ _)
  have wl : (lo : ℝ) ≤ w1 / r' := by
    rw [hlo]; push_cast
    rcases le_total 0 w1 with hw | hw
    · rcases le_total 0 (B.lo : ℝ) with hb | hb
      · exact (min_le_right _ _).trans (div_le_div₀ hw l1 hr' u2)
      · exact ((min_le_right _ _).trans (div_nonpos_of_nonpos_of_nonneg hb hhi.le)).trans (div_nonneg hw hr'.le)
    · refine (min_le_left _ _).trans ?_
      rw [div_le_div_iff₀ hl' hr']
      have hb : (B.lo : ℝ) ≤ 0 := l1.trans hw
      nlinarith
  have wu : w1 / r' ≤ hi := by
    rw [hhi']; push_cast
    rcases le_total 0 w1 with hw | hw
    · exact (div_le_div₀ (hw.trans u1) u1 hl' l2).trans (le_max_left _ _)
    · rcases le_total 0 (B.hi : ℝ) with hb | hb
      · exact (div_nonpos_of_nonpos_of_nonneg hw hr'.le).trans ((div_nonneg hb hl'.le).trans (le_max_left _ _))
      · refine le_trans ?_ (le_max_right _ _)
        rw [div_le_div_iff₀ hr' hhi]
        nlinarith
  have wQ : |w1 / r'| ≤ Q := by
    rw [hQ]; push_cast; exact abs_le_max_abs_abs wl wu
  have hk1 : (Bd.divE X B C).k = B.k := rfl
  refine ⟨?_, ?_, ?_, w1 / r', ?_, ?_, ?_⟩
  · exact le_trans (by positivity) (le_up _)
  · exact le_trans (by positivity) (le_up _)
  · have id : v / v' - r / r' = ((v - r) - r / r' * (v' - r')) / v' := by field_simp; ring
    set s := |x| ^ B.k with hs
    have s0 : 0 ≤ s := by positivity
    have hx1 : s ≤ (X : ℝ) ^ B.k := pow_le_pow_left₀ (abs_nonneg _) hX _
    have hrr : |r / r'| ≤ Q * s := by
      rw [q1, mul_div_assoc, abs_mul, abs_pow, mul_comm]
      exact mul_le_mul_of_nonneg_right wQ s0
    have h1 : |(v - r) - r / r' * (v' - r')| ≤ (B.a * s + B.b * eta emin) + Q * s * (C.a + C.b * eta emin) := by
      refine (abs_sub _ _).trans (add_le_add e1 ?_)
      rw [abs_mul]
      exact mul_le_mul hrr e2 (abs_nonneg _) (by positivity)
    have hQ' : (0 : ℝ) ≤ Q := by exact_mod_cast hQ0
    have h2 : (B.a * s + B.b * eta emin) + Q * s * (C.a + C.b * eta emin) ≤
        (B.a + Q * C.a) * s + (B.b + Q * (X : ℝ) ^ B.k * C.b) * eta emin := by
      have : Q * s * C.b ≤ Q * (X : ℝ) ^ B.k * C.b :=
        mul_le_mul_of_nonneg_right (mul_le_mul_of_nonneg_left hx1 hQ') b2'
      have := mul_le_mul_of_nonneg_right this hη.le
      have e : (B.a * s + B.b * eta emin) + Q * s * (C.a + C.b * eta emin) =
        (B.a + Q * C.a) * s + B.b * eta emin + Q * s * C.b * eta emin := by ring
      rw [e, add_mul (B.b : ℝ), ← add_assoc]
      exact add_le_add_right this _
    rw [id, abs_div, abs_of_pos hv0]
    have h3 : |(v - r) - r / r' * (v' - r')| / v' ≤
        ((B.a + Q * C.a) * s + (B.b + Q * (X : ℝ) ^ B.k * C.b) * eta emin) / m :=
      div_le_div₀ (by positivity) (h1.trans h2) hm' hv
    refine h3.trans ?_
    have ha : (((B.a + Q * C.a) / m : ℚ) : ℝ) ≤ (Bd.divE X B C).a := by exact_mod_cast le_up _
    have hb : (((B.b + Q * X ^ B.k * C.b) / m : ℚ) : ℝ) ≤ (Bd.divE X B C).b := by exact_mod_cast le_up _
    push_cast at ha hb
    rw [hk1]
    have f1 := mul_le_mul_of_nonneg_right ha s0
    have f2 := mul_le_mul_of_nonneg_right hb hη.le
    have h4 : ((B.a + Q * C.a) * s + (B.b + Q * (X : ℝ) ^ B.k * C.b) * eta emin) / m =
        (B.a + Q * C.a) / m * s + (B.b + Q * (X : ℝ) ^ B.k * C.b) / m * eta emin := by
      rw [add_div, mul_div_right_comm, mul_div_right_comm]
    rw [h4]
    exact add_le_add f1 f2
  · rw [q1, hk1, mul_div_assoc]
  · exact dn_le_real wl
  · exact le_up_real wu

/-! ### Rounding -/

theorem Env.round (E : Env p emin rnd lt x xl xu) {v : ℚ} {r : ℝ} {B : Bd} (h : Ap (eta emin) x v r B) :
    Ap (eta emin) x (rnd v : ℚ) r (B.round p) := by
  have hη := eta_pos (emin := emin)
  have hηl := E.eta_le
  unfold Bd.round
  simp only
  split
  · rename_i hc
    obtain ⟨hk, hj, -⟩ := hc
    intro ho
    have hm := h.mag ho
    obtain ⟨a1, b1, e1, w1, q1, l1, u1⟩ := h ho
    set j := Bd.log2c (B.mag + B.a + B.b / 2 ^ 100) 80 (-40) with hjd
    have hj40 : ∀ (y : ℚ) (n : ℕ) (i : ℤ), i ≤ Bd.log2c y n i := by
      intro y n
      induction n with
      | zero => intro i; exact le_refl i
      | succ n ih => intro i; unfold Bd.log2c; split
                     · exact le_refl i
                     · exact (by omega : i ≤ i + 1).trans (ih (i + 1))
    have hj0 : -40 ≤ j := hj40 _ _ _
    have b1' : (0 : ℝ) ≤ B.b := by exact_mod_cast b1
    rw [hk, pow_zero, mul_one] at e1 hm
    have hv : |(v : ℝ)| ≤ 2 ^ j := by
      have h1 : |(v : ℝ)| ≤ |r| + |v - r| := by
        have := abs_add_le r (v - r); rwa [add_sub_cancel] at this
      have h2 : B.b * eta emin ≤ B.b / 2 ^ 100 := by
        have := mul_le_mul_of_nonneg_left hηl b1'
        rwa [mul_one_div] at this
      have h3 : ((B.mag + B.a + B.b / 2 ^ 100 : ℚ) : ℝ) ≤ ((2 ^ j : ℚ) : ℝ) := by exact_mod_cast hj
      push_cast at h3
      linarith
    have hv' : |v| ≤ 2 ^ p * 2 ^ (j - p) := by
      have h1 : (2 : ℚ) ^ p * 2 ^ (j - p) = 2 ^ j := by
        rw [← zpow_natCast, ← zpow_add₀ (by norm_num)]; congr 1; omega
      rw [h1]
      have : ((|v| : ℚ) : ℝ) ≤ ((2 ^ j : ℚ) : ℝ) := by push_cast; exact hv
      exact_mod_cast this
    have hr := E.near.half_ulp E.hp (e := j - p) (by have := E.hmin; omega) hv'
    have hr' : |((rnd v : ℚ) : ℝ) - v| ≤ 2 ^ j / 2 ^ p / 2 := by
      rw [abs_sub_comm]
      have h1 : ((|v - rnd v| : ℚ) : ℝ) ≤ ((2 ^ (j - p) / 2 : ℚ) : ℝ) := by exact_mod_cast hr
      push_cast at h1
      rw [zpow_sub₀ (by norm_num), zpow_natCast] at h1
      exact h1
    refine ⟨?_, b1, ?_, w1, q1, l1, u1⟩
    · exact le_trans (by positivity) (le_up _)
    · simp only [hk, pow_zero, mul_one]
      have h1 : ((B.a + 2 ^ j / 2 ^ p / 2 : ℚ) : ℝ) ≤ (up (B.a + 2 ^ j / 2 ^ p / 2) : ℚ) := by exact_mod_cast le_up _
      push_cast at h1
      have h2 : |((rnd v : ℚ) : ℝ) - r| ≤ |((rnd v : ℚ) : ℝ) - v| + |(v : ℝ) - r| := abs_sub_le _ _ _
      linarith
  · intro ho
    have hm := h.mag ho
    obtain ⟨a1, b1, e1, w1, q1, l1, u1⟩ := h ho
    have a1' : (0 : ℝ) ≤ B.a := by exact_mod_cast a1
    have b1' : (0 : ℝ) ≤ B.b := by exact_mod_cast b1
    have m1 := B.mag_nonneg
    refine ⟨?_, ?_, ?_, w1, q1, l1, u1⟩
    · exact le_trans (by positivity) (le_up _)
    · exact le_trans (by positivity) (le_up _)
    · have h0 := E.near.err E.hp v
      have h1 : |((rnd v : ℚ) : ℝ) - v| ≤ |(v : ℝ)| / 2 ^ p + eta emin := by
        have : ((|rnd v - v| : ℚ) : ℝ) ≤ ((|v| / 2 ^ p + 2 ^ emin / 2 : ℚ) : ℝ) := by exact_mod_cast h0
        push_cast at this
        exact this
      have h2 : |((rnd v : ℚ) : ℝ) - r| ≤ |((rnd v : ℚ) : ℝ) - v| + |(v : ℝ) - r| := abs_sub_le _ _ _
      have h3 : |(v : ℝ)| ≤ |r| + |v - r| := by
        have := abs_add_le r (v - r); rwa [add_sub_cancel] at this
      have ha : ((B.a + (B.mag + B.a) / 2 ^ p : ℚ) : ℝ) ≤ (up (B.a + (B.mag + B.a) / 2 ^ p) : ℚ) := by exact_mod_cast le_up _
      have hb : ((B.b + B.b / 2 ^ p + 1 : ℚ) : ℝ) ≤ (up (B.b + B.b / 2 ^ p + 1) : ℚ) := by exact_mod_cast le_up _
      push_cast at ha hb
      set s := |x| ^ B.k with hs
      have s0 : 0 ≤ s := by positivity
      have h4 : |(v : ℝ)| / 2 ^ p ≤ (B.mag * s + (B.a * s + B.b * eta emin)) / 2 ^ p :=
        div_le_div_of_nonneg_right (by linarith) (by positivity)
      have f1 := mul_le_mul_of_nonneg_right ha s0
      have f2 := mul_le_mul_of_nonneg_right hb hη.le
      have h5 : (B.mag * s + (B.a * s + B.b * eta emin)) / 2 ^ p =
          (B.mag + B.a) / 2 ^ p * s + B.b / 2 ^ p * eta emin := by ring
      simp only
      linarith

theorem Ap.pt {η : ℝ} (c : ℚ) : Ap η x c c (Bd.pt c) := fun _ => by
  refine ⟨le_refl 0, le_refl 0, ?_, c, ?_, le_refl _, le_refl _⟩ <;> simp [Bd.pt]

theorem rep_of_isRep (hmin : emin ≤ -100 - p) {c : ℚ} (h : Bd.isRep p c = true) : Rep p emin c := by
  simp only [Bd.isRep, Bool.and_eq_true, decide_eq_true_eq] at h
  have hd : c.den ∣ 2 ^ 60 := Nat.dvd_of_mod_eq_zero h.2
  obtain ⟨k, hk, hk'⟩ := (Nat.dvd_prime_pow Nat.prime_two).mp hd
  refine ⟨c.num, -k, ?_, by omega, ?_⟩
  · have := h.1; zify at this; simpa using this
  · rw [zpow_neg, zpow_natCast, ← div_eq_mul_inv]
    have := c.num_div_den
    rw [hk'] at this
    push_cast at this
    exact this.symm

theorem Env.lit (E : Env p emin rnd lt x xl xu) (c : ℚ) : Ap (eta emin) x (lt c : ℚ) c (Bd.lit p c) := by
  unfold Bd.lit
  split
  · rename_i hc
    rw [E.lits.fix c (rep_of_isRep E.hmin hc)]
    exact Ap.pt c
  simp only
  split
  · rename_i hc
    intro _
    have hr : Rep p emin ((Bd.litNum p c : ℚ) / 2 ^ Bd.litExp p c) := by
      refine ⟨Bd.litNum p c, -(Bd.litExp p c : ℤ), ?_, by have := E.hmin; omega, ?_⟩
      · have := hc.2.1; zify at this; exact this
      · rw [zpow_neg, zpow_natCast, ← div_eq_mul_inv]
    have h1 := E.lits.best c _ hr
    generalize (Bd.litNum p c : ℚ) / 2 ^ Bd.litExp p c = f at *
    refine ⟨le_trans (by positivity) (le_up _), le_refl _, ?_, c, by simp, le_refl _, le_refl _⟩
    have h2 : ((|lt c - c| : ℚ) : ℝ) ≤ ((3 * |f - c| : ℚ) : ℝ) := by exact_mod_cast h1
    have h3 : ((3 * |f - c| : ℚ) : ℝ) ≤ (up (3 * |f - c|) : ℚ) := by exact_mod_cast le_up _
    push_cast at h2 h3 ⊢
    simp only [pow_zero, mul_one, zero_mul, add_zero]
    exact h2.trans h3
  · intro _
    refine ⟨le_trans (by positivity) (le_up _), by norm_num, ?_, c, by simp, le_refl _, le_refl _⟩
    have h1 : ((|lt c - c| : ℚ) : ℝ) ≤ ((|c| * (1 / 2 ^ p + 1 / 2 ^ (p + 20)) + 2 ^ emin : ℚ) : ℝ) := by
      exact_mod_cast E.lits.err c
    have h2 : ((|c| * (1 / 2 ^ p + 1 / 2 ^ (p + 20)) : ℚ) : ℝ) ≤ (up (|c| * (1 / 2 ^ p + 1 / 2 ^ (p + 20))) : ℚ) := by
      exact_mod_cast le_up _
    push_cast at h1 h2 ⊢
    simp only [pow_zero, mul_one]
    have h3 : (2 : ℝ) * eta emin = 2 ^ emin := by unfold eta; ring
    rw [h3]; linarith

/-! ### Code that carries its bounds -/

/-- A floating-point number, the exact value and a bound. Proof helper. -/
structure Tr (emin : ℤ) (x : ℝ) where
  v : ℚ
  r : ℝ
  B : Bd
  h : Ap (eta emin) x v r B

variable {E : Env p emin rnd lt x xl xu}

/-- The interpretation of the code in which every value carries its bound. Proof helper. -/
noncomputable def Env.alg (E : Env p emin rnd lt x xl xu) (fused : Bool) : Alg (Tr emin x) where
  lit c := ⟨(flAlg rnd lt fused).lit c, reAlg.lit c, (bdAlg p xl xu fused).lit c, E.lit c⟩
  neg s := ⟨(flAlg rnd lt fused).neg s.v, reAlg.neg s.r, (bdAlg p xl xu fused).neg s.B, by
    have := s.h.neg
    show Ap _ _ ((-s.v : ℚ) : ℝ) _ _
    push_cast; exact this⟩
  add s t := ⟨(flAlg rnd lt fused).add s.v t.v, reAlg.add s.r t.r, (bdAlg p xl xu fused).add s.B t.B, by
    refine E.round ?_
    push_cast
    exact E.addE s.h t.h⟩
  sub s t := ⟨(flAlg rnd lt fused).sub s.v t.v, reAlg.sub s.r t.r, (bdAlg p xl xu fused).sub s.B t.B, by
    refine E.round ?_
    push_cast
    simp only [reAlg, sub_eq_add_neg]
    exact E.addE s.h t.h.neg⟩
  mul s t := ⟨(flAlg rnd lt fused).mul s.v t.v, reAlg.mul s.r t.r, (bdAlg p xl xu fused).mul s.B t.B, by
    refine E.round ?_
    push_cast
    exact E.mulE s.h t.h⟩
  div s t := ⟨(flAlg rnd lt fused).div s.v t.v, reAlg.div s.r t.r, (bdAlg p xl xu fused).div s.B t.B, by
    refine E.round ?_
    push_cast
    exact E.divE s.h t.h⟩
  mla s t w := ⟨(flAlg rnd lt fused).mla s.v t.v w.v, reAlg.mla s.r t.r w.r, (bdAlg p xl xu fused).mla s.B t.B w.B, by
    cases fused
    · refine E.round ?_
      push_cast
      refine E.addE (E.round ?_) w.h
      push_cast
      exact E.mulE s.h t.h
    · refine E.round ?_
      push_cast
      exact E.addE (E.mulE s.h t.h) w.h⟩
  fma s t w := ⟨(flAlg rnd lt fused).fma s.v t.v w.v, reAlg.fma s.r t.r w.r, (bdAlg p xl xu fused).fma s.B t.B w.B, by
    refine E.round ?_
    push_cast
    exact E.addE (E.mulE s.h t.h) w.h⟩

/-- The argument itself. Proof helper. -/
def Bd.arg : Bd := ⟨true, 1, 1, 1, 0, 0⟩

/-- The argument with its bound. Proof helper. -/
def Tr.arg (emin : ℤ) (s : ℚ) : Tr emin (s : ℝ) := ⟨s, s, Bd.arg, fun _ => by
  refine ⟨le_refl 0, le_refl 0, ?_, 1, ?_, ?_, ?_⟩ <;> simp [Bd.arg]⟩

/-! The components of this interpretation. -/

section components
variable {fused : Bool} {a b c : Tr emin x} {q : ℚ}

theorem alg_lit_v : ((E.alg fused).lit q).v = (flAlg rnd lt fused).lit q := rfl
theorem alg_lit_r : ((E.alg fused).lit q).r = reAlg.lit q := rfl
theorem alg_lit_B : ((E.alg fused).lit q).B = (bdAlg p xl xu fused).lit q := rfl
theorem alg_neg_v : ((E.alg fused).neg a).v = (flAlg rnd lt fused).neg a.v := rfl
theorem alg_neg_r : ((E.alg fused).neg a).r = reAlg.neg a.r := rfl
theorem alg_neg_B : ((E.alg fused).neg a).B = (bdAlg p xl xu fused).neg a.B := rfl
theorem alg_add_v : ((E.alg fused).add a b).v = (flAlg rnd lt fused).add a.v b.v := rfl
theorem alg_add_r : ((E.alg fused).add a b).r = reAlg.add a.r b.r := rfl
theorem alg_add_B : ((E.alg fused).add a b).B = (bdAlg p xl xu fused).add a.B b.B := rfl
theorem alg_sub_v : ((E.alg fused).sub a b).v = (flAlg rnd lt fused).sub a.v b.v := rfl
theorem alg_sub_r : ((E.alg fused).sub a b).r = reAlg.sub a.r b.r := rfl
theorem alg_sub_B : ((E.alg fused).sub a b).B = (bdAlg p xl xu fused).sub a.B b.B := rfl
theorem alg_mul_v : ((E.alg fused).mul a b).v = (flAlg rnd lt fused).mul a.v b.v := rfl
theorem alg_mul_r : ((E.alg fused).mul a b).r = reAlg.mul a.r b.r := rfl
theorem alg_mul_B : ((E.alg fused).mul a b).B = (bdAlg p xl xu fused).mul a.B b.B := rfl
theorem alg_div_v : ((E.alg fused).div a b).v = (flAlg rnd lt fused).div a.v b.v := rfl
theorem alg_div_r : ((E.alg fused).div a b).r = reAlg.div a.r b.r := rfl
theorem alg_div_B : ((E.alg fused).div a b).B = (bdAlg p xl xu fused).div a.B b.B := rfl
theorem alg_mla_v : ((E.alg fused).mla a b c).v = (flAlg rnd lt fused).mla a.v b.v c.v := rfl
theorem alg_mla_r : ((E.alg fused).mla a b c).r = reAlg.mla a.r b.r c.r := rfl
theorem alg_mla_B : ((E.alg fused).mla a b c).B = (bdAlg p xl xu fused).mla a.B b.B c.B := rfl
theorem alg_fma_v : ((E.alg fused).fma a b c).v = (flAlg rnd lt fused).fma a.v b.v c.v := rfl
theorem alg_fma_r : ((E.alg fused).fma a b c).r = reAlg.fma a.r b.r c.r := rfl
theorem alg_fma_B : ((E.alg fused).fma a b c).B = (bdAlg p xl xu fused).fma a.B b.B c.B := rfl

end components

theorem Tr.arg_v (emin : ℤ) (s : ℚ) : (Tr.arg emin s).v = s := rfl
theorem Tr.arg_r (emin : ℤ) (s : ℚ) : (Tr.arg emin s).r = s := rfl
theorem Tr.arg_B (emin : ℤ) (s : ℚ) : (Tr.arg emin s).B = Bd.arg := rfl

/-- The code does the same in all interpretations. Proof helper. -/
def Natural (f : {α : Type} → Alg α → α → α) : Prop :=
  ∀ {p : ℕ} {emin : ℤ} {rnd lt : ℚ → ℚ} {x : ℝ} {xl xu : ℚ} (E : Env p emin rnd lt x xl xu) (fused : Bool) (t : Tr emin x),
    (f (E.alg fused) t).v = f (flAlg rnd lt fused) t.v ∧ (f (E.alg fused) t).r = f reAlg t.r ∧
    (f (E.alg fused) t).B = f (bdAlg p xl xu fused) t.B

/-- Proof of `Natural` after unfolding. Proof helper. -/
macro "natural" "[" ds:Lean.Parser.Tactic.simpLemma,* "]" : tactic =>
  `(tactic| (intro p emin rnd lt x xl xu E fused t; refine ⟨?_, ?_, ?_⟩ <;>
    simp only [$ds,*, Alg.poly2, Alg.poly3, Alg.poly4, Alg.poly5, Alg.poly6, Alg.poly7, Alg.poly8, Alg.poly9, Alg.poly10,
      Alg.poly11, Alg.poly12, Alg.poly13, Alg.poly14, Alg.poly15, Alg.poly16, Alg.poly17, Alg.poly18, Alg.poly19,
      alg_lit_v, alg_lit_r, alg_lit_B, alg_neg_v, alg_neg_r, alg_neg_B, alg_add_v, alg_add_r, alg_add_B, alg_sub_v, alg_sub_r, alg_sub_B,
      alg_mul_v, alg_mul_r, alg_mul_B, alg_div_v, alg_div_r, alg_div_B, alg_mla_v, alg_mla_r, alg_mla_B, alg_fma_v, alg_fma_r, alg_fma_B]))

end Nsimd.Sleef
