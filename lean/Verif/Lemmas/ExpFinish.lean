import Verif.Lemmas.ExpReduce
import Verif.Props.UlpSpec
import Mathlib.Analysis.SpecialFunctions.Pow.Real

/-!
# From the parts to the accuracy of an exponential function
-/

namespace Nsimd.Sleef
open Nsimd.DoubleDouble Nsimd.Float Nsimd.Props.Round Nsimd.Props.Hypot Nsimd.Round Nsimd.Hypot Nsimd.Props.Ulp

variable {p : ℕ} {emin emax : ℤ} {rnd lt : ℚ → ℚ}

/-- Literals of the type itself. -/
theorem lit_one (h : Nearest p emin rnd) (hp : 1 ≤ p) : Lit p emin rnd where
  fix c hc := h.fix hc
  err c := by
    have h1 := h.err hp c
    have h2 : |c| * (1 / 2 ^ p + 1 / 2 ^ (p + 20)) = |c| / 2 ^ p + |c| / 2 ^ (p + 20) := by ring
    have h3 : (0 : ℚ) ≤ |c| / 2 ^ (p + 20) := by positivity
    have h4 : (0 : ℚ) < 2 ^ emin := two_zpow_pos _
    rw [h2]; linarith
  best c f hf := by
    have := h.near c f hf
    have h0 := abs_nonneg (f - c)
    rw [abs_sub_comm (rnd c), abs_sub_comm f] at *
    linarith

/-- Literals of type `double` converted to `float`. -/
theorem lit_two {rndd : ℚ → ℚ} (h : Nearest 24 (-149) rnd) (hd : Nearest 53 (-1074) rndd) :
    Lit 24 (-149) fun c => rnd (rndd c) where
  fix c hc := by
    have : Rep 53 (-1074) c := by
      obtain ⟨k, e, h1, h2, h3⟩ := hc
      exact ⟨k, e, h1.trans (by norm_num), by omega, h3⟩
    rw [hd.fix this, h.fix hc]
  best c f hf := by
    have hf' : Rep 53 (-1074) f := by
      obtain ⟨k, e, h1, h2, h3⟩ := hf
      exact ⟨k, e, h1.trans (by norm_num), by omega, h3⟩
    have h1 := hd.near c f hf'
    have h2 := h.near (rndd c) f hf
    have h3 : |rnd (rndd c) - c| ≤ |rnd (rndd c) - rndd c| + |rndd c - c| := abs_sub_le _ _ _
    have h4 : |f - rndd c| ≤ |f - c| + |c - rndd c| := abs_sub_le _ _ _
    rw [abs_sub_comm] at h1 h2
    simp only [abs_sub_comm _ (rndd c), abs_sub_comm c f] at *
    linarith
  err c := by
    have h1 := h.err (by norm_num) (rndd c)
    have h2 := hd.err (by norm_num) c
    have h3 : |rndd c| ≤ |c| + |rndd c - c| := by
      have := abs_add_le c (rndd c - c); rwa [add_sub_cancel] at this
    have h4 : |rnd (rndd c) - c| ≤ |rnd (rndd c) - rndd c| + |rndd c - c| := abs_sub_le _ _ _
    have h5 : (2 : ℚ) ^ (-149 : ℤ) = 1 / 2 ^ 149 := by rw [zpow_neg]; norm_num
    have h6 : (2 : ℚ) ^ (-1074 : ℤ) = 1 / 2 ^ 1074 := by rw [zpow_neg, one_div]; norm_cast
    have h7 : (1 : ℚ) / 2 ^ 1074 ≤ 1 / 2 ^ 160 :=
      one_div_le_one_div_of_le (by norm_num) (pow_le_pow_right₀ (by norm_num) (by norm_num))
    rw [h6] at h2
    rw [h5] at h1 ⊢
    have hc0 := abs_nonneg c
    generalize (1 : ℚ) / 2 ^ 1074 = ε at h2 h7
    generalize |c| = a at *
    generalize |rndd c - c| = b at *
    generalize |rndd c| = d at *
    norm_num at h1 h2 h7 ⊢
    linarith

/-- The format and the literals of a function. Proof helper. -/
structure Fmt (p : ℕ) (emin : ℤ) (rnd lt : ℚ → ℚ) : Prop where
  hp : 8 ≤ p
  hmin : emin ≤ -100 - p
  near : Nearest p emin rnd
  lits : Lit p emin lt

/-- An accurate kernel and an accurate reduced argument give an accurate result. -/
theorem exp_finish (F : Fmt p emin rnd lt) {zf : ℚ → ℚ} {P : ℝ → ℝ} {bd : ℚ → ℚ → Bd} {lam εP εs ν κ S : ℚ} {l : List ℚ}
    (hz : ∀ (s xl xu : ℚ), Env p emin rnd lt (s : ℝ) xl xu → Ap (eta emin) s (zf s : ℚ) (P s) (bd xl xu))
    (hP : ∀ x : ℝ, |x| ≤ S → |P x - Real.exp (lam * x)| ≤ εP)
    (hl : l ≠ []) (hS : lastD (-S) l = S)
    (hc : chain (fun a b => coreOk p εP εs ν κ (bd a b)) (-S) l = true) (hκ : κ ≤ 3)
    {s : ℚ} {q : ℤ} {Y : ℝ} (hs : |s| ≤ S) (he : |(lam : ℝ) * s - (Y - q * Real.log 2)| ≤ εs) (hq : 2 * (emin + p) ≤ q)
    {c : ℝ} (hc1 : 1 ≤ c) (hc2 : 1 / 2 + κ ≤ c) (hc3 : ν / 2 ≤ c - 3 / 4) :
    Within p emin emax c (Real.exp Y) (ldexp2k rnd emax (rnd (zf s)) q) := by
  have hs' : |(s : ℝ)| ≤ S := by
    have : ((|s| : ℚ) : ℝ) ≤ S := by exact_mod_cast hs
    push_cast at this; exact this
  have hs2 := _root_.abs_le.mp hs'
  obtain ⟨xl, xu, hok, hxl, hxu⟩ := chain_sound hc hl (x := (s : ℝ)) (by push_cast; exact hs2.1) (by rw [hS]; exact hs2.2)
  have E : Env p emin rnd lt (s : ℝ) xl xu := ⟨by have := F.hp; omega, F.hmin, F.near, F.lits, hxl, hxu⟩
  obtain ⟨h1, h2, κ', h3, h4, h5, h6⟩ := core_error' E (hz s xl xu E) hok (hP s hs') he
  have hκ' : (κ : ℝ) ≤ 3 := by exact_mod_cast hκ
  have hexp : Real.exp Y = Real.exp (Y - q * Real.log 2) * 2 ^ q := by
    have : Real.exp (q * Real.log 2) = (2 : ℝ) ^ q := by
      rw [mul_comm, ← Real.rpow_intCast, Real.rpow_def_of_pos (by norm_num)]
    rw [← this, ← Real.exp_add]; congr 1; ring
  have key := fun w hw => ldexp2k_error (emax := emax) F.near F.hp (by have := F.hmin; omega) hq h1 h2 rfl h4 (by linarith)
    h5 (h6.imp_left fun h => h.trans hc3) hc1 (by linarith) (w := w) hw
  rw [hexp]
  set T := Real.exp (Y - q * Real.log 2) * 2 ^ q with hT
  have hT0 : |T| = T := abs_of_pos (by positivity)
  obtain ⟨w0, hw0⟩ := exists_ulp p emin (h := T) (by positivity)
  rcases key w0 hw0 with ⟨r, h7, h8, h9, -⟩ | ⟨h7, -⟩
  · rw [h7]
    refine ⟨h8, h9, fun w hw => ?_⟩
    rw [hT0] at hw
    rcases key w hw with ⟨r', h7', -, -, h10⟩ | ⟨h7', -⟩
    · rw [h7'] at h7; injection h7 with h7; rw [← h7]; exact h10
    · rw [h7'] at h7; cases h7
  · rw [h7]
    intro w hw
    rw [hT0] at hw
    rcases key w hw with ⟨r', h7', -, -, h10⟩ | ⟨h7', h10⟩
    · rw [h7'] at h7; cases h7
    · simpa using h10

/-- A positive result that is smaller than the smallest subnormal number may be replaced by zero. -/
theorem within_zero {c Y : ℝ} (hc : 1 ≤ c) (h0 : 0 ≤ Y) (h : Y ≤ 2 ^ emin) : Within p emin emax c Y (.fin 0) := by
  refine ⟨⟨0, emin, by positivity, le_refl _, by simp⟩, by simpa using two_zpow_pos emax, ?_⟩
  rintro w ⟨e, he, rfl, -⟩
  have h1 : (2 : ℝ) ^ emin ≤ 2 ^ e := zpow_le_zpow_right₀ (by norm_num) he
  have h2 : (0 : ℝ) < 2 ^ e := by positivity
  simp only [Rat.cast_zero, zero_sub, abs_neg, abs_of_nonneg h0]
  nlinarith

/-- A result that is too large for the format may be replaced by infinity. -/
theorem within_inf {c Y : ℝ} (hc : 0 ≤ c) (h : 2 ^ emax ≤ Y) : Within p emin emax c Y (.inf false) := by
  rintro w ⟨e, -, rfl, -⟩
  have : (0 : ℝ) ≤ c * 2 ^ e := by positivity
  simp; linarith

/-- Comparison of an exponential and a power of two. -/
theorem exp_le_zpow {Y : ℝ} {n : ℤ} (h : Y ≤ n * Real.log 2) : Real.exp Y ≤ 2 ^ n := by
  have : Real.exp (n * Real.log 2) = (2 : ℝ) ^ n := by
    rw [mul_comm, ← Real.rpow_intCast, Real.rpow_def_of_pos (by norm_num)]
  rw [← this]; exact Real.exp_le_exp.mpr h

theorem zpow_le_exp {Y : ℝ} {n : ℤ} (h : n * Real.log 2 ≤ Y) : 2 ^ n ≤ Real.exp Y := by
  have : Real.exp (n * Real.log 2) = (2 : ℝ) ^ n := by
    rw [mul_comm, ← Real.rpow_intCast, Real.rpow_def_of_pos (by norm_num)]
  rw [← this]; exact Real.exp_le_exp.mpr h

theorem log_two_bounds : (0.69314718 : ℝ) < Real.log 2 ∧ Real.log 2 < 0.69314719 := by
  have h := _root_.abs_le.mp log_two
  rw [ln2] at h
  norm_num at h ⊢
  constructor <;> linarith

/-- The conversion to an integer is defined for numbers of moderate size. -/
theorem rintk_some (h : Nearest p emin rnd) (hp : 1 ≤ p) (hmin : emin ≤ -p - 1) {m : Mode} {y : ℚ}
    (hy : m = .scalar → |y| ≤ 2 ^ 29) : ∃ q : ℤ, rintk rnd m y = some q := by
  cases m with
  | simd near => exact ⟨near y, rfl⟩
  | scalar =>
    replace hy := hy rfl
    have hhalf : rnd (1 / 2) = 1 / 2 := by
      refine h.fix ?_
      have := rep_int_mul (p := p) (emin := emin) hp (e := -1) (by omega) (k := 1) (by simp; exact one_le_pow₀ (by norm_num))
      norm_num at this ⊢; exact this
    have hrep : Rep p emin ((2 : ℚ) ^ 30) := by
      have := rep_int_mul (p := p) (emin := emin) hp (e := 30) (by omega) (k := 1) (by simp; exact one_le_pow₀ (by norm_num))
      norm_num at this ⊢; exact this
    have key : ∀ x : ℚ, |x| ≤ 2 ^ 30 →
        ∃ q : ℤ, (if -2 ^ 31 ≤ Fmod.truncQ (rnd x) ∧ Fmod.truncQ (rnd x) < 2 ^ 31 then some (Fmod.truncQ (rnd x)) else none)
          = some q := by
      intro x hx
      have h1 := h.abs_ge hrep (x := x) (by rw [abs_of_pos (show (0 : ℚ) < 2 ^ 30 by positivity)]; exact hx)
      rw [abs_of_pos (show (0 : ℚ) < 2 ^ 30 by positivity)] at h1
      have h2 := _root_.abs_le.mp ((truncQ_near (rnd x)).1.trans h1)
      have h3 : (-2 ^ 30 : ℤ) ≤ Fmod.truncQ (rnd x) := by exact_mod_cast h2.1
      have h4 : Fmod.truncQ (rnd x) ≤ (2 ^ 30 : ℤ) := by exact_mod_cast h2.2
      exact ⟨_, by rw [if_pos ⟨by norm_num at *; omega, by norm_num at *; omega⟩]⟩
    have hy' := _root_.abs_le.mp hy
    unfold rintk
    simp only [hhalf]
    split
    · exact key _ (by rw [_root_.abs_le]; constructor <;> norm_num at * <;> linarith)
    · exact key _ (by rw [_root_.abs_le]; constructor <;> norm_num at * <;> linarith)

/-- Taylor coefficients of `exp (a * x)`, rounded. Proof helper. -/
def tay (a : ℚ) (i : ℕ) : ℚ := ⌊a ^ i / i.factorial * 2 ^ 140⌋ / 2 ^ 140

theorem tay_near (a : ℚ) (i : ℕ) : |tay a i - a ^ i / i.factorial| ≤ 1 / 2 ^ 140 := by
  unfold tay
  set y := a ^ i / (i.factorial : ℚ)
  have h1 := Int.floor_le (y * 2 ^ 140)
  have h2 := Int.lt_floor_add_one (y * 2 ^ 140)
  rw [abs_sub_comm, _root_.abs_le]
  constructor
  · rw [neg_le_sub_iff_le_add, div_le_iff₀ (by positivity), add_mul, one_div_mul_cancel (by positivity)]; linarith
  · rw [sub_le_iff_le_add, ← add_div, le_div_iff₀ (by positivity)]; linarith

/-- A polynomial and the exponential of `a * x`, with rounded coefficients. -/
theorem poly_exp' {l : List ℚ} {a ε : ℚ} {n M : ℕ} {D : ℚ} {lo : ℤ} {r k : ℕ} (hn : 0 < n) (hl : l.length ≤ n)
    (h : Poly.check (Poly.diff l (tay a) n) ε M D lo r k = true) {x : ℝ} (h1 : (lo : ℝ) ≤ x * M)
    (h2 : x * M ≤ lo + 2 * r * k) (hx : |x| ≤ 1) {b ε' : ℚ} (hb : |(a : ℝ) * x| ≤ b) (hb1 : b ≤ 1)
    (hε : b ^ n * ((n + 1) / (n.factorial * n)) + n / 2 ^ 140 + ε ≤ ε') :
    |Poly.eval l x - Real.exp (a * x)| ≤ ε' := by
  have h3 := Poly.check_sound h h1 h2
  rw [Poly.eval_diff _ _ hl] at h3
  have hb1' : (b : ℝ) ≤ 1 := by exact_mod_cast hb1
  have h4 := Real.exp_bound (hb.trans hb1') hn
  have h5 : |∑ i ∈ Finset.range n, ((tay a i : ℚ) : ℝ) * x ^ i - ∑ i ∈ Finset.range n, ((a : ℝ) * x) ^ i / i.factorial| ≤
      n * (1 / 2 ^ 140) := by
    rw [← Finset.sum_sub_distrib]
    refine (Finset.abs_sum_le_sum_abs _ _).trans ?_
    have : (n : ℝ) * (1 / 2 ^ 140) = ∑ _i ∈ Finset.range n, (1 / 2 ^ 140 : ℝ) := by simp
    rw [this]
    refine Finset.sum_le_sum fun i _ => ?_
    have e1 : ((tay a i : ℚ) : ℝ) * x ^ i - ((a : ℝ) * x) ^ i / i.factorial =
        ((tay a i - a ^ i / i.factorial : ℚ) : ℝ) * x ^ i := by push_cast; rw [mul_pow]; ring
    have e2 : |((tay a i - a ^ i / i.factorial : ℚ) : ℝ)| ≤ ((1 / 2 ^ 140 : ℚ) : ℝ) := by exact_mod_cast tay_near a i
    push_cast at e2
    rw [e1, abs_mul, abs_pow]
    push_cast
    have e3 : |x| ^ i ≤ 1 := pow_le_one₀ (abs_nonneg _) hx
    calc _ ≤ (1 / 2 ^ 140 : ℝ) * 1 := mul_le_mul e2 e3 (by positivity) (by positivity)
      _ = _ := mul_one _
  have h6 : |(a : ℝ) * x| ^ n * ((n.succ : ℝ) / (n.factorial * n)) ≤ (b : ℝ) ^ n * ((n + 1) / (n.factorial * n)) := by
    push_cast
    exact mul_le_mul_of_nonneg_right (pow_le_pow_left₀ (abs_nonneg _) hb _) (by positivity)
  have h7 : ((b ^ n * ((n + 1) / (n.factorial * n)) + n / 2 ^ 140 + ε : ℚ) : ℝ) ≤ ε' := by exact_mod_cast hε
  push_cast at h7 h6
  rw [abs_sub_comm] at h4
  push_cast at h4
  have h8 : (n : ℝ) * (1 / 2 ^ 140) = n / 2 ^ 140 := by ring
  rw [h8] at h5
  have e1 := _root_.abs_le.mp h3
  have e2 := _root_.abs_le.mp h4
  have e3 := _root_.abs_le.mp h5
  rw [_root_.abs_le]
  constructor <;> linarith

end Nsimd.Sleef
