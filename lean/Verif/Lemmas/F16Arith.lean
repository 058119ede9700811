import Verif.Props.Fp16Order
import Verif.Props.Round
import Mathlib.Analysis.Real.Sqrt
import Mathlib.Tactic.Linarith
import Mathlib.Tactic.Push
import Mathlib.Tactic.LinearCombination

/-!
# Rounding to f32 and then to f16

Helper lemmas for C87: a rounding to `f32` followed by a rounding to `f16` is a correct rounding to `f16`
unless the `f32` is half way between two consecutive `f16`.
-/

namespace Nsimd.F16Arith
open Nsimd.Fp16 Nsimd.Props.Fp16

/-! ### Numbers of the two formats -/

theorem mag23_surj (K : Nat) (hK : K < 2 ^ 24) (j : Nat) (hj : j ≤ 253) :
    ∃ u, u < 255 * 2 ^ 23 ∧ mag 23 u = K * 2 ^ j := by
  induction j generalizing K with
  | zero => exact ⟨K, by omega, by rw [mag_of_lt 23 _ hK]; simp⟩
  | succ j ih =>
    by_cases h : K < 2 ^ 23
    · obtain ⟨u, h1, h2⟩ := ih (2 * K) (by omega) (by omega)
      exact ⟨u, h1, by rw [h2, pow_succ]; ring⟩
    · refine ⟨(j + 2) * 2 ^ 23 + (K - 2 ^ 23), by omega, ?_⟩
      rw [mag_of_parts 23 _ _ (by omega) (by omega), show 2 ^ 23 + (K - 2 ^ 23) = K by omega]
      rfl

theorem f32_of_mag (K j : ℤ) (i : Nat) (hj : j = i - 149) (hu : ∃ u, u < 255 * 2 ^ 23 ∧ mag 23 u = K.natAbs * 2 ^ i) :
    ∃ z, Finite32 z ∧ f32Value z = K * 2 ^ j := by
  subst hj
  obtain ⟨u, hu, hm⟩ := hu
  have hp : (2 : ℚ) ^ ((i : ℤ) - 149) = 2 ^ i * 2 ^ (-149 : ℤ) := by
    rw [sub_eq_add_neg, zpow_add₀ (by norm_num), zpow_natCast]
  have hmq : (mag 23 u : ℚ) = K.natAbs * 2 ^ i := by exact_mod_cast hm
  by_cases hn : K < 0
  · refine ⟨BitVec.ofNat 32 (2 ^ 31 + u), ?_, ?_⟩
    · unfold Finite32 e32
      rw [BitVec.toNat_ofNat, show (2 ^ 31 + u) % 2 ^ 32 = 2 ^ 31 + u by omega]
      omega
    · rw [f32Value_key, BitVec.toNat_ofNat, show (2 ^ 31 + u) % 2 ^ 32 = 2 ^ 31 + u by omega, if_pos (by omega),
        show (2 ^ 31 + u) % 2 ^ 31 = u by omega, hmq, hp]
      have : (K : ℚ) = -(K.natAbs : ℚ) := by
        have : K = -(K.natAbs : ℤ) := by omega
        rw [← Int.cast_natCast, ← Int.cast_neg, ← this]
      rw [this]; ring
  · refine ⟨BitVec.ofNat 32 u, ?_, ?_⟩
    · unfold Finite32 e32
      rw [BitVec.toNat_ofNat, show u % 2 ^ 32 = u by omega]
      omega
    · rw [f32Value_key, BitVec.toNat_ofNat, show u % 2 ^ 32 = u by omega, if_neg (by omega),
        show u % 2 ^ 31 = u by omega, hmq, hp]
      have : (K : ℚ) = (K.natAbs : ℚ) := by
        have : K = (K.natAbs : ℤ) := by omega
        rw [← Int.cast_natCast, ← this]
      rw [this]; ring

/-- Every integer of less than 24 bits times a power of two in range is a finite `f32`. -/
theorem f32_exists_lt (K : ℤ) (hK : |K| < 2 ^ 24) (j : ℤ) (h1 : -149 ≤ j) (h2 : j ≤ 104) :
    ∃ z, Finite32 z ∧ f32Value z = K * 2 ^ j := by
  have hK' := abs_lt.mp hK
  obtain ⟨i, hi⟩ : ∃ i : Nat, j = i - 149 := ⟨(j + 149).toNat, by omega⟩
  exact f32_of_mag K j i hi (mag23_surj _ (by omega) i (by omega))

/-- Every integer of at most 24 bits times a power of two in range is a finite `f32`. -/
theorem f32_exists (K : ℤ) (hK : |K| ≤ 2 ^ 24) (j : ℤ) (h1 : -149 ≤ j) (h2 : j ≤ 103) :
    ∃ z, Finite32 z ∧ f32Value z = K * 2 ^ j := by
  have hK' := abs_le.mp hK
  obtain ⟨i, hi⟩ : ∃ i : Nat, j = i - 149 := ⟨(j + 149).toNat, by omega⟩
  have hu : ∃ u, u < 255 * 2 ^ 23 ∧ mag 23 u = K.natAbs * 2 ^ i := by
    by_cases h : K.natAbs < 2 ^ 24
    · exact mag23_surj _ h i (by omega)
    · have : K.natAbs = 2 ^ 24 := by omega
      obtain ⟨u, h3, h4⟩ := mag23_surj (2 ^ 23) (by norm_num) (i + 1) (by omega)
      exact ⟨u, h3, by rw [h4, this, pow_succ]; ring⟩
  exact f32_of_mag K j i hi hu

theorem mag10_form (k : Nat) : ∃ A e : Nat, A < 2 ^ 11 ∧ e = k / 2 ^ 10 - 1 ∧ mag 10 k = A * 2 ^ e := by
  by_cases h : k < 2 ^ 10
  · exact ⟨k, 0, by omega, by omega, by rw [mag_of_lt 10 _ (by omega)]; simp⟩
  · refine ⟨2 ^ 10 + k % 2 ^ 10, k / 2 ^ 10 - 1, by omega, rfl, ?_⟩
    conv_lhs => rw [show k = k / 2 ^ 10 * 2 ^ 10 + k % 2 ^ 10 by omega]
    rw [mag_of_parts 10 _ _ (by omega) (by omega)]

/-- The value of the `i`-th `f16`, counted from zero in both directions, in units of `2^-24`. Proof helper, not code of the repo. -/
def val (i : ℤ) : ℤ := if i < 0 then -(mag 10 i.natAbs : ℤ) else mag 10 i.natAbs

theorem val_strictMono : StrictMono val := by
  apply strictMono_int_of_lt_succ
  intro i
  unfold val
  have hm := mag_strictMono 10
  split <;> split
  · have : mag 10 (i + 1).natAbs < mag 10 i.natAbs := hm (by omega)
    omega
  · have : mag 10 0 < mag 10 i.natAbs := hm (by omega)
    have h0 : mag 10 (i + 1).natAbs = mag 10 0 := by rw [show (i + 1).natAbs = 0 by omega]
    have h1 : mag 10 0 = 0 := by decide
    omega
  · omega
  · have : mag 10 i.natAbs < mag 10 (i + 1).natAbs := hm (by omega)
    omega

/-- The position of an `f16`, counted from zero in both directions. Proof helper, not code of the repo. -/
def pos (h : BitVec 16) : ℤ :=
  if 2 ^ 15 ≤ h.toNat then -((h.toNat % 2 ^ 15 : Nat) : ℤ) else (h.toNat % 2 ^ 15 : Nat)

theorem f16Value_val (h : BitVec 16) : f16Value h = val (pos h) * (2 : ℚ) ^ (-24 : ℤ) := by
  have hu : ((2 : ℚ) ^ (125 : Nat)) * 2 ^ (-149 : ℤ) = 2 ^ (-24 : ℤ) := by norm_num
  rw [f16Value_key]
  unfold G16 pos val
  by_cases hs : 2 ^ 15 ≤ h.toNat
  · rw [if_pos hs, if_pos hs]
    by_cases h0 : h.toNat % 2 ^ 15 = 0
    · rw [h0, show mag 10 0 = 0 by decide]
      simp [show mag 10 0 = 0 by decide]
    · rw [if_pos (by omega)]
      rw [show (-((h.toNat % 2 ^ 15 : Nat) : ℤ)).natAbs = h.toNat % 2 ^ 15 by omega]
      push_cast
      rw [← hu]; ring
  · rw [if_neg hs, if_neg hs, if_neg (by omega)]
    rw [show (((h.toNat % 2 ^ 15 : Nat) : ℤ)).natAbs = h.toNat % 2 ^ 15 by omega]
    push_cast
    rw [← hu]; ring

theorem pos_bound {h : BitVec 16} (hh : ¬ NaN16 h) : -0x7c00 ≤ pos h ∧ pos h ≤ 0x7c00 := by
  unfold NaN16 e16 m16 at hh
  have := h.isLt
  unfold pos
  split <;> constructor <;> omega

/-- Finite `f16`: eleven significant bits. -/
theorem f16_form (h : BitVec 16) (hh : Finite16 h) :
    ∃ (A : ℤ) (e : Nat), |A| < 2 ^ 11 ∧ e ≤ 29 ∧ f16Value h = ((A * 2 ^ e : ℤ) : ℚ) * (2 : ℚ) ^ (-24 : ℤ) := by
  obtain ⟨A, e, h1, h2, h3⟩ := mag10_form (pos h).natAbs
  have hb : (pos h).natAbs < 31 * 2 ^ 10 := by
    unfold Finite16 e16 at hh
    have := h.isLt
    unfold pos
    split <;> omega
  rw [f16Value_val]
  unfold val
  split
  · exact ⟨-A, e, by rw [abs_neg]; exact_mod_cast h1, by omega, by rw [h3]; push_cast; ring⟩
  · exact ⟨A, e, by exact_mod_cast h1, by omega, by rw [h3]; push_cast; ring⟩

theorem mid_nat (k : Nat) (hk : k < 0x7c00) :
    ∃ N s : Nat, N < 2 ^ 12 ∧ N % 2 = 1 ∧ s ≤ 29 ∧ (s = 0 ∨ 2 ^ 11 ≤ N) ∧
      mag 10 k + mag 10 (k + 1) = N * 2 ^ s := by
  rw [mag_succ]
  by_cases h : k < 2 ^ 10
  · refine ⟨2 * k + 1, 0, by omega, by omega, by omega, Or.inl rfl, ?_⟩
    rw [mag_of_lt 10 _ (by omega), show k / 2 ^ 10 - 1 = 0 by omega]; omega
  · refine ⟨2 * (2 ^ 10 + k % 2 ^ 10) + 1, k / 2 ^ 10 - 1, by omega, by omega, by omega,
      Or.inr (by omega), ?_⟩
    have : mag 10 k = (2 ^ 10 + k % 2 ^ 10) * 2 ^ (k / 2 ^ 10 - 1) := by
      conv_lhs => rw [show k = k / 2 ^ 10 * 2 ^ 10 + k % 2 ^ 10 by omega]
      rw [mag_of_parts 10 _ _ (by omega) (by omega)]
    rw [this]; ring

/-- Twice the number half way between two consecutive `f16`. -/
theorem mid_form (i : ℤ) (h1 : -0x7c00 ≤ i) (h2 : i < 0x7c00) :
    ∃ (N : ℤ) (s : Nat), |N| < 2 ^ 12 ∧ N % 2 = 1 ∧ s ≤ 29 ∧ (s = 0 ∨ 2 ^ 11 ≤ |N|) ∧
      val i + val (i + 1) = N * 2 ^ s := by
  by_cases hi : 0 ≤ i
  · obtain ⟨N, s, a, b, c, d, e⟩ := mid_nat i.natAbs (by omega)
    refine ⟨N, s, by rw [abs_of_nonneg (by omega)]; exact_mod_cast a, by omega, c, ?_, ?_⟩
    · rcases d with d | d
      · exact Or.inl d
      · right; rw [abs_of_nonneg (by omega)]; exact_mod_cast d
    · unfold val
      rw [if_neg (by omega), if_neg (by omega), show (i + 1).natAbs = i.natAbs + 1 by omega]
      exact_mod_cast e
  · obtain ⟨N, s, a, b, c, d, e⟩ := mid_nat (i + 1).natAbs (by omega)
    refine ⟨-N, s, by rw [abs_neg, abs_of_nonneg (by omega)]; exact_mod_cast a, by omega, c, ?_, ?_⟩
    · rcases d with d | d
      · exact Or.inl d
      · right; rw [abs_neg, abs_of_nonneg (by omega)]; exact_mod_cast d
    · have e1 : val i = -(mag 10 ((i + 1).natAbs + 1) : ℤ) := by
        unfold val
        rw [if_pos (by omega), show i.natAbs = (i + 1).natAbs + 1 by omega]
      have e2 : val (i + 1) = -(mag 10 (i + 1).natAbs : ℤ) := by
        unfold val
        split
        · rfl
        · rw [show (i + 1).natAbs = 0 by omega, show mag 10 0 = 0 by decide]; rfl
      rw [e1, e2]
      have : ((mag 10 (i + 1).natAbs + mag 10 ((i + 1).natAbs + 1) : Nat) : ℤ) = N * 2 ^ s := by
        exact_mod_cast e
      push_cast at this
      linarith

/-! ### Double rounding -/

theorem pos_surj (i : ℤ) (h1 : -0x7c00 ≤ i) (h2 : i ≤ 0x7c00) : ∃ h, ¬ NaN16 h ∧ pos h = i := by
  by_cases hi : i < 0
  · refine ⟨BitVec.ofNat 16 (2 ^ 15 + i.natAbs), ?_, ?_⟩
    · unfold NaN16 e16 m16
      rw [BitVec.toNat_ofNat, show (2 ^ 15 + i.natAbs) % 2 ^ 16 = 2 ^ 15 + i.natAbs by omega]
      omega
    · unfold pos
      rw [BitVec.toNat_ofNat, show (2 ^ 15 + i.natAbs) % 2 ^ 16 = 2 ^ 15 + i.natAbs by omega]
      rw [if_pos (by omega)]
      omega
  · refine ⟨BitVec.ofNat 16 i.natAbs, ?_, ?_⟩
    · unfold NaN16 e16 m16
      rw [BitVec.toNat_ofNat, show i.natAbs % 2 ^ 16 = i.natAbs by omega]
      omega
    · unfold pos
      rw [BitVec.toNat_ofNat, show i.natAbs % 2 ^ 16 = i.natAbs by omega]
      rw [if_neg (by omega)]
      omega

/-- `y` is on the same side of every `f32` as `x`. Proof helper, not code of the repo. -/
def Side (x : ℝ) (y : BitVec 32) : Prop :=
  ∀ z, Finite32 z → ((f32Value z : ℝ) ≤ x → (f32Value z : ℝ) ≤ f32Value y) ∧
    (x ≤ (f32Value z : ℝ) → (f32Value y : ℝ) ≤ f32Value z)

theorem side_of_near {x : ℝ} {y : BitVec 32}
    (h : ∀ z, Finite32 z → |(f32Value y : ℝ) - x| ≤ |(f32Value z : ℝ) - x|) : Side x y := by
  intro z hz
  have := h z hz
  constructor
  · intro h1
    by_contra hc
    rw [not_le] at hc
    rw [abs_of_nonpos (by linarith), abs_of_nonpos (by linarith)] at this
    linarith
  · intro h1
    by_contra hc
    rw [not_le] at hc
    rw [abs_of_nonneg (by linarith), abs_of_nonneg (by linarith)] at this
    linarith

theorem double_aux {R H H' m x y : ℝ} (h1 : R < H') (h2 : H' ≤ H) (hn : |R - y| ≤ |H' - y|)
    (hm : 2 * m = R + H') (hs1 : m ≤ x → m ≤ y) (he : y = m → x = y) :
    |R - x| ≤ |H - x| ∧ (|R - x| = |H - x| → H = H' ∧ x = y) := by
  have hy : y ≤ m := by
    by_contra hc
    rw [not_le] at hc
    have : |H' - y| < |R - y| := by
      rw [abs_of_nonpos (show R - y ≤ 0 by linarith)]
      exact abs_lt.mpr ⟨by linarith, by linarith⟩
    linarith
  have hx : x ≤ m := by
    by_contra hc
    rw [not_le] at hc
    have e := hs1 hc.le
    have := he (le_antisymm hy e)
    linarith
  have hH : |H - x| = H - x := abs_of_nonneg (by linarith)
  have hR : |R - x| ≤ H - x := abs_le.mpr ⟨by linarith, by linarith⟩
  rw [hH]
  refine ⟨hR, fun e => ?_⟩
  rcases abs_cases (R - x) with ⟨e1, _⟩ | ⟨e1, _⟩
  · linarith
  · rw [e1] at e
    have hxm : x = m := by linarith
    refine ⟨by linarith, ?_⟩
    exact he (le_antisymm hy (hs1 hxm.ge))

theorem pow_split (a b : ℤ) : (2 : ℝ) ^ (a + b) = 2 ^ a * 2 ^ b := zpow_add₀ (by norm_num) a b

theorem v16_val (h : BitVec 16) : (f16Value h : ℝ) = val (pos h) * (2 : ℝ) ^ (-24 : ℤ) := by
  rw [f16Value_val]; push_cast; ring

/-- Rounding to `f32` and then to `f16` is a correct rounding, unless the `f32` is half way between two
consecutive `f16` and is not the number itself. -/
theorem double_round {x : ℝ} {y : BitVec 32} (hy : Finite32 y) (hs : Side x y)
    (hm : ∀ (N : ℤ) (s : Nat), |N| < 2 ^ 12 → N % 2 = 1 → s ≤ 29 → (s = 0 ∨ 2 ^ 11 ≤ |N|) →
      (f32Value y : ℝ) = N * 2 ^ s * (2 : ℝ) ^ (-25 : ℤ) → x = f32Value y) :
    ¬ NaN16 (f32ToU16 y) ∧ ∀ h, ¬ NaN16 h →
      |(f16Value (f32ToU16 y) : ℝ) - x| ≤ |(f16Value h : ℝ) - x| ∧
      (|(f16Value (f32ToU16 y) : ℝ) - x| = |(f16Value h : ℝ) - x| →
        f16Value h = f16Value (f32ToU16 y) ∨ m16 (f32ToU16 y) % 2 = 0) := by
  have hN := (f32ToU16_nearest y hy).1
  refine ⟨hN.notNaN, fun h hh => ?_⟩
  set r := f32ToU16 y with hr
  have hbr := pos_bound hN.notNaN
  have hbh := pos_bound hh
  have near : ∀ h, ¬ NaN16 h → |(f16Value r : ℝ) - f32Value y| ≤ |(f16Value h : ℝ) - f32Value y| := by
    intro h hh
    exact_mod_cast hN.nearest h hh
  have tie : |(f16Value r : ℝ) - f32Value y| = |(f16Value h : ℝ) - f32Value y| →
      f16Value h = f16Value r ∨ m16 r % 2 = 0 := by
    intro e
    exact hN.tie h hh (by exact_mod_cast e)
  have hp25 : (2 : ℝ) ^ (-24 : ℤ) = 2 * 2 ^ (-25 : ℤ) := by norm_num
  -- the number half way between the `i`-th `f16` and the next one
  have mid : ∀ i : ℤ, -0x7c00 ≤ i → i < 0x7c00 →
      ∃ z, Finite32 z ∧ 2 * (f32Value z : ℝ) = val i * (2 : ℝ) ^ (-24 : ℤ) + val (i + 1) * (2 : ℝ) ^ (-24 : ℤ) ∧
        (f32Value y = f32Value z → x = f32Value y) := by
    intro i i1 i2
    obtain ⟨N, s, a, b, c, d, e⟩ := mid_form i i1 i2
    obtain ⟨z, z1, z2⟩ := f32_exists N (by linarith) ((s : ℤ) - 25) (by omega) (by omega)
    have hz : (f32Value z : ℝ) = N * 2 ^ s * (2 : ℝ) ^ (-25 : ℤ) := by
      rw [z2]; push_cast
      rw [sub_eq_add_neg, pow_split, zpow_natCast]; ring
    refine ⟨z, z1, ?_, fun hyz => hm N s a b c d (by rw [hyz, hz])⟩
    have e' : (val i : ℝ) + val (i + 1) = N * 2 ^ s := by exact_mod_cast e
    rw [hz, ← add_mul, e', hp25]; ring
  rcases lt_trichotomy (pos r) (pos h) with hlt | heq | hgt
  · obtain ⟨h', n', p'⟩ := pos_surj (pos r + 1) (by omega) (by omega)
    obtain ⟨z, z1, z2, z3⟩ := mid (pos r) (by omega) (by omega)
    have hp : (0 : ℝ) < 2 ^ (-24 : ℤ) := by positivity
    have o1 : (f16Value r : ℝ) < f16Value h' := by
      rw [v16_val, v16_val, p']
      exact mul_lt_mul_of_pos_right (by exact_mod_cast val_strictMono (by omega)) hp
    have o2 : (f16Value h' : ℝ) ≤ f16Value h := by
      rw [v16_val, v16_val, p']
      exact mul_le_mul_of_nonneg_right (by exact_mod_cast val_strictMono.monotone (by omega)) hp.le
    obtain ⟨k1, k2⟩ := double_aux (m := f32Value z) (x := x) (y := f32Value y) o1 o2 (near h' n')
      (by rw [z2, v16_val, v16_val, p']) (hs z z1).1 (fun e => z3 (by exact_mod_cast e))
    refine ⟨k1, fun e => ?_⟩
    obtain ⟨_, e2⟩ := k2 e
    rw [e2] at e
    exact tie e
  · have : f16Value h = f16Value r := by rw [f16Value_val, f16Value_val, heq]
    rw [this]
    exact ⟨le_rfl, fun _ => Or.inl rfl⟩
  · obtain ⟨h', n', p'⟩ := pos_surj (pos r - 1) (by omega) (by omega)
    obtain ⟨z, z1, z2, z3⟩ := mid (pos r - 1) (by omega) (by omega)
    rw [show pos r - 1 + 1 = pos r by ring] at z2
    have hp : (0 : ℝ) < 2 ^ (-24 : ℤ) := by positivity
    have o1 : (f16Value h' : ℝ) < f16Value r := by
      rw [v16_val, v16_val, p']
      exact mul_lt_mul_of_pos_right (by exact_mod_cast val_strictMono (by omega)) hp
    have o2 : (f16Value h : ℝ) ≤ f16Value h' := by
      rw [v16_val, v16_val, p']
      exact mul_le_mul_of_nonneg_right (by exact_mod_cast val_strictMono.monotone (by omega)) hp.le
    have flip : ∀ a b : ℝ, |(-a) - (-b)| = |a - b| := by
      intro a b; rw [← abs_neg]; congr 1; ring
    obtain ⟨k1, k2⟩ := double_aux (R := -(f16Value r : ℝ)) (H := -(f16Value h : ℝ)) (H' := -(f16Value h' : ℝ))
      (m := -(f32Value z : ℝ)) (x := -x) (y := -(f32Value y : ℝ)) (by linarith) (by linarith)
      (by rw [flip, flip]; exact near h' n')
      (by rw [v16_val, v16_val, p']; linarith)
      (fun e => by have := (hs z z1).2 (by linarith); linarith)
      (fun e => by
        have e : (f32Value y : ℝ) = f32Value z := by linarith
        have := z3 (by exact_mod_cast e)
        linarith)
    rw [flip, flip] at k1 k2
    refine ⟨k1, fun e => ?_⟩
    obtain ⟨_, e2⟩ := k2 e
    have e2 : x = f32Value y := by linarith
    rw [e2] at e
    exact tie e

/-! ### How near a nearest `f32` is -/

theorem near_step {x : ℝ} {y : BitVec 32}
    (h : ∀ z, Finite32 z → |(f32Value y : ℝ) - x| ≤ |(f32Value z : ℝ) - x|) {K : ℤ} (hK : |K| < 2 ^ 24)
    {j : ℤ} (h1 : -149 ≤ j) (h2 : j ≤ 103) (hv : (f32Value y : ℝ) = K * 2 ^ j) :
    2 * |x - f32Value y| ≤ 2 ^ j := by
  have hK' := abs_lt.mp hK
  have hp : (0 : ℝ) < 2 ^ j := by positivity
  rcases le_total (f32Value y : ℝ) x with hle | hle
  · obtain ⟨z, z1, z2⟩ := f32_exists (K + 1) (abs_le.mpr ⟨by linarith, by linarith⟩) j h1 h2
    have hz : (f32Value z : ℝ) = f32Value y + 2 ^ j := by
      rw [z2, hv]; push_cast; ring
    have := h z z1
    rw [abs_of_nonpos (by linarith), hz] at this
    rw [abs_of_nonneg (by linarith)]
    rcases abs_cases ((f32Value y : ℝ) + 2 ^ j - x) with ⟨e, _⟩ | ⟨e, _⟩ <;> rw [e] at this <;> linarith
  · obtain ⟨z, z1, z2⟩ := f32_exists (K - 1) (abs_le.mpr ⟨by linarith, by linarith⟩) j h1 h2
    have hz : (f32Value z : ℝ) = f32Value y - 2 ^ j := by
      rw [z2, hv]; push_cast; ring
    have := h z z1
    rw [abs_of_nonneg (by linarith), hz] at this
    rw [abs_of_nonpos (by linarith)]
    rcases abs_cases ((f32Value y : ℝ) - 2 ^ j - x) with ⟨e, _⟩ | ⟨e, _⟩ <;> rw [e] at this <;> linarith

theorem norm24 (N : ℤ) (h0 : N ≠ 0) (h1 : |N| < 2 ^ 12) :
    ∃ t : Nat, t ≤ 23 ∧ 2 ^ 23 ≤ |N| * 2 ^ t ∧ |N| * 2 ^ t < 2 ^ 24 := by
  have hp : 0 < |N| := abs_pos.mpr h0
  obtain ⟨n, hn⟩ : ∃ n : Nat, |N| = n := ⟨N.natAbs, (Int.natCast_natAbs N).symm⟩
  rw [hn] at hp h1 ⊢
  have hn0 : n ≠ 0 := by omega
  have l1 := Nat.log2_self_le hn0
  have l2 := Nat.lt_log2_self (n := n)
  have hl : n.log2 ≤ 23 := by
    have : 2 ^ n.log2 < 2 ^ 12 := lt_of_le_of_lt l1 (by exact_mod_cast h1)
    have := (Nat.pow_lt_pow_iff_right (by norm_num : 1 < 2)).mp this
    omega
  refine ⟨23 - n.log2, by omega, ?_, ?_⟩
  · have : 2 ^ n.log2 * 2 ^ (23 - n.log2) ≤ n * 2 ^ (23 - n.log2) := Nat.mul_le_mul_right _ l1
    rw [← pow_add, show n.log2 + (23 - n.log2) = 23 by omega] at this
    exact_mod_cast this
  · have : n * 2 ^ (23 - n.log2) < 2 ^ (n.log2 + 1) * 2 ^ (23 - n.log2) :=
      Nat.mul_lt_mul_of_pos_right l2 (by positivity)
    rw [← pow_add, show n.log2 + 1 + (23 - n.log2) = 24 by omega] at this
    exact_mod_cast this

/-- Within one part in `2^24`. -/
theorem near_rel {x : ℝ} {y : BitVec 32}
    (h : ∀ z, Finite32 z → |(f32Value y : ℝ) - x| ≤ |(f32Value z : ℝ) - x|) {N : ℤ} (h0 : N ≠ 0)
    (h1 : |N| < 2 ^ 12) {s : Nat} (hs : s ≤ 29) (hv : (f32Value y : ℝ) = N * 2 ^ s * (2 : ℝ) ^ (-25 : ℤ)) :
    2 ^ 24 * |x - f32Value y| ≤ |(f32Value y : ℝ)| := by
  obtain ⟨t, t0, t1, t2⟩ := norm24 N h0 h1
  have hpt : (0 : ℝ) < 2 ^ t := by positivity
  have he : (2 : ℝ) ^ ((s : ℤ) - 25 - t) = 2 ^ s * 2 ^ (-25 : ℤ) / 2 ^ t := by
    rw [sub_eq_add_neg, sub_eq_add_neg, pow_split, pow_split, zpow_natCast, zpow_neg 2 (t : ℤ), zpow_natCast]
    rfl
  have hv' : (f32Value y : ℝ) = ((N * 2 ^ t : ℤ) : ℝ) * 2 ^ ((s : ℤ) - 25 - t) := by
    rw [hv, he]; push_cast; field_simp
  have hk := near_step h (K := N * 2 ^ t) (by rw [abs_mul, abs_of_pos (show (0 : ℤ) < 2 ^ t by positivity)]; exact t2)
    (by omega) (by omega) hv'
  have ht1 : (2 : ℝ) ^ 23 ≤ |(N : ℝ)| * 2 ^ t := by exact_mod_cast t1
  have hpj : (0 : ℝ) < 2 ^ ((s : ℤ) - 25 - t) := by positivity
  have : |(f32Value y : ℝ)| = |(N : ℝ)| * 2 ^ t * 2 ^ ((s : ℤ) - 25 - t) := by
    rw [hv', abs_mul, abs_of_pos hpj]
    push_cast
    rw [abs_mul, abs_of_pos hpt]
  rw [this]
  have := mul_le_mul_of_nonneg_right ht1 hpj.le
  linarith

/-! ### No operation comes near a half-way number without being one -/

theorem int_zero {k : ℤ} {C : ℤ} (hC : 0 < C) (h : C * |k| < C) : k = 0 := by
  have : |k| < 1 := by
    by_contra hc
    rw [not_lt] at hc
    have := mul_le_mul_of_nonneg_left hc hC.le
    linarith
  exact Int.abs_lt_one_iff.mp this

theorem add_sep {A B N : ℤ} {α β s : Nat} (hA : |A| < 2 ^ 11) (hB : |B| < 2 ^ 11) (hN : |N| < 2 ^ 12)
    (hodd : N % 2 = 1) (hs : s = 0 ∨ 2 ^ 11 ≤ |N|) (hab : β ≤ α)
    (h : 2 ^ 24 * |2 * (A * 2 ^ α + B * 2 ^ β) - N * 2 ^ s| ≤ |N * 2 ^ s|) :
    2 * (A * 2 ^ α + B * 2 ^ β) = N * 2 ^ s := by
  have hps : (0 : ℤ) < 2 ^ s := by positivity
  rw [abs_mul N, abs_of_pos hps] at h
  by_cases c1 : s ≤ β + 1
  · obtain ⟨a, rfl⟩ := Nat.exists_eq_add_of_le hab
    obtain ⟨b, hb⟩ := Nat.exists_eq_add_of_le c1
    have e : 2 * (A * 2 ^ (β + a) + B * 2 ^ β) - N * 2 ^ s = 2 ^ s * (A * 2 ^ (a + b) + B * 2 ^ b - N) := by
      have : (2 : ℤ) * 2 ^ β = 2 ^ s * 2 ^ b := by rw [← pow_add, ← hb]; ring
      rw [pow_add, pow_add]
      linear_combination (A * 2 ^ a + B) * this
    rw [e, abs_mul, abs_of_pos hps] at h
    have : A * 2 ^ (a + b) + B * 2 ^ b - N = 0 := by
      apply int_zero (C := 2 ^ s * 2 ^ 24) (by positivity)
      nlinarith [mul_lt_mul_of_pos_right hN hps]
    rw [this] at e
    linarith
  · by_cases c2 : s ≤ β + 13
    · obtain ⟨a, rfl⟩ := Nat.exists_eq_add_of_le hab
      obtain ⟨b, hb⟩ := Nat.exists_eq_add_of_le (show β + 1 ≤ s by omega)
      have hb12 : b ≤ 12 := by omega
      have hpb : (0 : ℤ) < 2 ^ (β + 1) := by positivity
      have e : 2 * (A * 2 ^ (β + a) + B * 2 ^ β) - N * 2 ^ s = 2 ^ (β + 1) * (A * 2 ^ a + B - N * 2 ^ b) := by
        rw [hb]; ring
      rw [e, abs_mul, abs_of_pos hpb] at h
      have hS : (2 : ℤ) ^ s ≤ 2 ^ (β + 1) * 2 ^ 12 := by
        rw [hb, pow_add]
        exact mul_le_mul_of_nonneg_left (pow_le_pow_right₀ (by norm_num) hb12) hpb.le
      have : A * 2 ^ a + B - N * 2 ^ b = 0 := by
        apply int_zero (C := 2 ^ (β + 1) * 2 ^ 24) (by positivity)
        nlinarith [mul_lt_mul_of_pos_right hN hps]
      rw [this] at e
      linarith
    · exfalso
      have hN2 : 2 ^ 11 ≤ |N| := by omega
      have hY : |B * 2 ^ β| * 2 ^ 3 ≤ 2 ^ s := by
        rw [abs_mul, abs_of_pos (show (0 : ℤ) < 2 ^ β by positivity)]
        have : (2 : ℤ) ^ (β + 14) ≤ 2 ^ s := pow_le_pow_right₀ (by norm_num) (by omega)
        rw [pow_add] at this
        nlinarith [mul_lt_mul_of_pos_right hB (show (0 : ℤ) < 2 ^ β by positivity)]
      have hD : |2 * (A * 2 ^ α) - N * 2 ^ s| * 2 < 2 ^ s := by
        have hNs := mul_lt_mul_of_pos_right hN hps
        have t : |2 * (A * 2 ^ α) - N * 2 ^ s| ≤
            |2 * (A * 2 ^ α + B * 2 ^ β) - N * 2 ^ s| + 2 * |B * 2 ^ β| := by
          have := abs_sub (2 * (A * 2 ^ α + B * 2 ^ β) - N * 2 ^ s) (2 * (B * 2 ^ β))
          rw [abs_mul 2 (B * 2 ^ β), show |(2 : ℤ)| = 2 by norm_num] at this
          refine le_trans (le_of_eq ?_) this
          congr 1; ring
        linarith
      by_cases c3 : s ≤ α + 1
      · obtain ⟨b, hb⟩ := Nat.exists_eq_add_of_le c3
        have e : 2 * (A * 2 ^ α) - N * 2 ^ s = 2 ^ s * (A * 2 ^ b - N) := by
          have : (2 : ℤ) * 2 ^ α = 2 ^ s * 2 ^ b := by rw [← pow_add, ← hb]; ring
          linear_combination A * this
        rw [e, abs_mul, abs_of_pos hps] at hD
        have : A * 2 ^ b - N = 0 := by
          apply int_zero hps
          have := abs_nonneg (A * 2 ^ b - N)
          nlinarith
        cases b with
        | zero =>
          have : A = N := by simpa [sub_eq_zero] using this
          rw [this] at hA
          linarith
        | succ b =>
          have : N = A * 2 ^ b * 2 := by rw [pow_succ] at this; linarith
          omega
      · have hX : |2 * (A * 2 ^ α)| ≤ 2 ^ 10 * 2 ^ s := by
          rw [abs_mul, abs_mul, abs_of_pos (show (0 : ℤ) < 2 ^ α by positivity)]
          have : (2 : ℤ) ^ (α + 2) ≤ 2 ^ s := pow_le_pow_right₀ (by norm_num) (by omega)
          rw [pow_add] at this
          norm_num
          nlinarith [mul_lt_mul_of_pos_right hA (show (0 : ℤ) < 2 ^ α by positivity)]
        have hT : 2 ^ 11 * 2 ^ s ≤ |N * 2 ^ s| := by
          rw [abs_mul, abs_of_pos hps]
          exact mul_le_mul_of_nonneg_right hN2 hps.le
        have := abs_sub_abs_le_abs_sub (N * 2 ^ s) (2 * (A * 2 ^ α))
        rw [abs_sub_comm] at this
        linarith

theorem div_sep {A B N : ℤ} {α β s : Nat} (hA : |A| < 2 ^ 11) (hB : |B| < 2 ^ 11) (hN : |N| < 2 ^ 12)
    (h : 2 ^ 24 * |A * 2 ^ (α + 25) - N * B * 2 ^ (s + β)| ≤ |N * B * 2 ^ (s + β)|) :
    A * 2 ^ (α + 25) = N * B * 2 ^ (s + β) := by
  have hNB : |N * B| < 2 ^ 23 := by
    rw [abs_mul]
    have := abs_nonneg N
    have := abs_nonneg B
    nlinarith
  by_cases c : s + β ≤ α + 25
  · obtain ⟨d, hd⟩ := Nat.exists_eq_add_of_le c
    have hp : (0 : ℤ) < 2 ^ (s + β) := by positivity
    have e : A * 2 ^ (α + 25) - N * B * 2 ^ (s + β) = 2 ^ (s + β) * (A * 2 ^ d - N * B) := by
      rw [hd]; ring
    rw [e, abs_mul, abs_mul (N * B), abs_of_pos hp] at h
    have : A * 2 ^ d - N * B = 0 := by
      apply int_zero (C := 2 ^ (s + β) * 2 ^ 24) (by positivity)
      nlinarith [mul_lt_mul_of_pos_right hNB hp]
    rw [this] at e
    linarith
  · obtain ⟨d, hd⟩ := Nat.exists_eq_add_of_le (show α + 25 ≤ s + β by omega)
    have hp : (0 : ℤ) < 2 ^ (α + 25) := by positivity
    have e : A * 2 ^ (α + 25) - N * B * 2 ^ (s + β) = 2 ^ (α + 25) * (A - N * B * 2 ^ d) := by
      rw [hd]; ring
    have e2 : N * B * 2 ^ (s + β) = 2 ^ (α + 25) * (N * B * 2 ^ d) := by rw [hd]; ring
    rw [e, e2, abs_mul, abs_mul, abs_of_pos hp] at h
    have h' : 2 ^ 24 * |A - N * B * 2 ^ d| ≤ |N * B * 2 ^ d| := by
      apply le_of_mul_le_mul_left _ hp
      linarith
    have h3 := abs_sub_abs_le_abs_sub (N * B * 2 ^ d) A
    rw [abs_sub_comm] at h3
    have : A - N * B * 2 ^ d = 0 := by
      apply int_zero (C := 2 ^ 24) (by norm_num)
      linarith
    rw [this] at e
    linarith

theorem sqrt_sep {A N : ℤ} {α s : Nat} (hA : |A| < 2 ^ 11) (hN : 2 ^ 11 ≤ N)
    (h : |A * 2 ^ (α + 26) - N ^ 2 * 2 ^ (2 * s)| < 2 ^ (2 * s)) :
    A * 2 ^ (α + 26) = N ^ 2 * 2 ^ (2 * s) := by
  by_cases c : 2 * s ≤ α + 26
  · obtain ⟨d, hd⟩ := Nat.exists_eq_add_of_le c
    have hp : (0 : ℤ) < 2 ^ (2 * s) := by positivity
    have e : A * 2 ^ (α + 26) - N ^ 2 * 2 ^ (2 * s) = 2 ^ (2 * s) * (A * 2 ^ d - N ^ 2) := by
      rw [hd, pow_add]; ring
    rw [e, abs_mul, abs_of_pos hp] at h
    have := int_zero hp h
    rw [this] at e
    linarith
  · exfalso
    obtain ⟨d, hd⟩ := Nat.exists_eq_add_of_le (show α + 26 ≤ 2 * s by omega)
    have hp : (0 : ℤ) < 2 ^ (α + 26) := by positivity
    have hpd : (0 : ℤ) < 2 ^ d := by positivity
    have e : A * 2 ^ (α + 26) - N ^ 2 * 2 ^ (2 * s) = 2 ^ (α + 26) * (A - N ^ 2 * 2 ^ d) := by
      rw [hd, pow_add]; ring
    have e2 : (2 : ℤ) ^ (2 * s) = 2 ^ (α + 26) * 2 ^ d := by rw [hd, pow_add]
    rw [e, e2, abs_mul, abs_of_pos hp] at h
    have h' := lt_of_mul_lt_mul_left h hp.le
    have hA' := abs_lt.mp hA
    have h'' := abs_lt.mp h'
    have hN2 : 2 ^ 22 ≤ N ^ 2 := by nlinarith
    have := mul_le_mul_of_nonneg_right hN2 hpd.le
    have : (1 : ℤ) ≤ 2 ^ d := by omega
    linarith

end Nsimd.F16Arith
