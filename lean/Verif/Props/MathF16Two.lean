import Verif.Props.MathF16
import Verif.Props.Atan2

/-!
# Accuracy of the mathematical functions of two arguments on `f16`

`hypot_u35` and `atan2_u35`, called through f32.
-/

namespace Nsimd.Props.MathF16Two
open Nsimd.Hypot Nsimd.F16Arith Nsimd.Sleef Nsimd.Float Nsimd.MathCalls Nsimd.Round Nsimd.Fp16
open Nsimd.Props.Fp16 Nsimd.Props.F16Arith Nsimd.Props.MathCalls Nsimd.Props.Round Nsimd.Props.Hypot Nsimd.Props.Ulp
open Nsimd.Props.MathF16 Nsimd.Props.Atan2

variable {rnd rndd sq : ℚ → ℚ}

/-! ### Specification -/

/-- The number with its sign bit that a pattern of f32 denotes. Specification (IEEE-754). -/
def sf32 (x : BitVec 32) : SF :=
  if e32 x = 255 then (if m32 x = 0 then .inf x.msb else .nan) else .fin x.msb |f32Value x|

/-- The function `f` on patterns of f32 computes `g` on finite numbers. Specification. -/
def ComputesSF (g : SF → SF → SF) (f : BitVec 32 → BitVec 32 → BitVec 32) : Prop :=
  ∀ x y, Finite32 x → Finite32 y → sf32 (f x y) = g (sf32 x) (sf32 y)

/-- The function `f` on patterns of f32 computes `g` on the numbers below `2^16`. Specification. -/
def ComputesFl (g : Fl → Fl → Fl) (f : BitVec 32 → BitVec 32 → BitVec 32) : Prop :=
  ∀ x y, Finite32 x → Finite32 y → |f32Value x| < 2 ^ 16 → |f32Value y| < 2 ^ 16 →
    Denotes (f x y) (g (.fin (f32Value x)) (.fin (f32Value y)))

/-! ### Parts of the proofs -/

theorem within_neg {p : ℕ} {emin emax : ℤ} {c y : ℝ} {q : ℚ} (h : Within p emin emax c y (.fin q)) :
    Within p emin emax c (-y) (.fin (-q)) := by
  obtain ⟨h1, h2, h3⟩ := h
  refine ⟨rep_neg h1, by rwa [abs_neg], fun w hw => ?_⟩
  rw [abs_neg] at hw
  have := h3 w hw
  rw [Rat.cast_neg, show -(q : ℝ) - -y = -((q : ℝ) - y) by ring, abs_neg]
  exact this

theorem f32_msb {x : BitVec 32} : f32Value x = if x.msb then -|f32Value x| else |f32Value x| := by
  have hpos : 0 ≤ (mag 23 (x.toNat % 2 ^ 31) : ℚ) * (2 : ℚ) ^ (-149 : ℤ) := by positivity
  have hmag := f32Value_mag x
  split <;> rename_i hs
  · have : f32Value x ≤ 0 := by rw [hmag, sgn, if_pos hs]; linarith
    rw [abs_of_nonpos this, neg_neg]
  · have : 0 ≤ f32Value x := by rw [hmag, sgn, if_neg hs]; linarith
    rw [abs_of_nonneg this]

theorem sf32_fin {x : BitVec 32} (hx : Finite32 x) : sf32 x = .fin x.msb |f32Value x| := if_neg hx

/-- Every sign and absolute value of a number of f32 has a pattern. -/
theorem sf_exists {m : Bool} {a : ℚ} (h0 : 0 ≤ a) (hr : Rep 24 (-149) a) (hb : |a| < 2 ^ 128) : ∃ x, sf32 x = .fin m a := by
  rcases h0.eq_or_lt with rfl | h0
  · cases m
    · exact ⟨0#32, by simp [sf32, e32, f32Value, m32, BitVec.msb_eq_decide]⟩
    · exact ⟨0x80000000#32, by simp [sf32, e32, f32Value, m32, BitVec.msb_eq_decide]⟩
  · obtain ⟨x, hx, hv⟩ := f32_exists' (v := if m then -a else a) (by cases m; exacts [hr, rep_neg hr])
      (by cases m; exacts [hb, by simpa using hb])
    refine ⟨x, ?_⟩
    have he := f32_msb (x := x)
    have habs : |f32Value x| = a := by
      rw [hv]; cases m
      · simpa using h0.le
      · simpa using h0.le
    rw [sf32_fin hx, habs]
    rw [habs, hv] at he
    congr 1
    cases m <;> cases hm : x.msb <;> simp [hm] at he ⊢ <;> linarith

/-- The conversion to f16 of a number with its sign. -/
theorem cvt_signed {z : BitVec 32} {s : Bool} {Y : ℝ} (h : SignedWithin 24 (-149) 128 3.5 s Y (sf32 z)) (hY : |Y| ≤ 4) :
    Finite16 (f32ToU16 z) ∧ (f32ToU16 z).msb = s ∧ Within 11 (-24) 16 0.501 Y (.fin |f16Value (f32ToU16 z)|) := by
  obtain ⟨r, h1, h2, h3⟩ := h
  have hf : Finite32 z := by
    by_contra hc
    have : e32 z = 255 := not_not.mp hc
    unfold sf32 at h1
    rw [if_pos this] at h1
    split at h1 <;> cases h1
  rw [sf32_fin hf] at h1
  injection h1 with h4 h5
  obtain ⟨hn, hmsb⟩ := f32ToU16_nearest z hf
  obtain ⟨ho, -⟩ := f32ToU16_thresholds z hf
  -- the result is small
  have hsmall : |f32Value z| < 65520 := by
    rw [h5]
    obtain ⟨w, hw⟩ : ∃ w, IsUlp 24 (-149) |Y| w ∧ w ≤ 1 := by
      rcases (abs_nonneg Y).eq_or_lt with h0 | h0
      · exact ⟨2 ^ (-149 : ℤ), ⟨-149, le_rfl, rfl, by rw [← h0]; positivity, Or.inl rfl⟩, by norm_num⟩
      · obtain ⟨w, hw⟩ := exists_ulp 24 (-149) h0
        refine ⟨w, hw, ?_⟩
        obtain ⟨e, -, rfl, -, rfl | h6⟩ := hw
        · norm_num
        · norm_num at h6; linarith
    have h7 := _root_.abs_le.mp (h3.2.2 w hw.1)
    have h8 := (abs_le.mp hY).2
    have h9 : (r : ℝ) < ((65520 : ℚ) : ℝ) := by push_cast; linarith [h7.2, hw.2]
    exact_mod_cast h9
  have hfin : Finite16 (f32ToU16 z) := fun he => by
    by_cases hm : m16 (f32ToU16 z) = 0
    · exact absurd (ho.mp ⟨he, hm⟩) (not_le.mpr hsmall)
    · exact hn.notNaN ⟨he, hm⟩
  refine ⟨hfin, hmsb.trans h4, ?_⟩
  have hval := f32_msb (x := z)
  have h16 : f16Value (f32ToU16 z) = if (f32ToU16 z).msb then -|f16Value (f32ToU16 z)| else |f16Value (f32ToU16 z)| := by
    have hpos : ∀ h : BitVec 16, ∃ q : ℚ, 0 ≤ q ∧ f16Value h = sgn h * q := fun h => by
      unfold f16Value
      split
      · exact ⟨m16 h * (2 : ℚ) ^ (-24 : ℤ), by positivity, by ring⟩
      · exact ⟨(2 ^ 10 + m16 h) * (2 : ℚ) ^ ((e16 h : ℤ) - 25), by positivity, by ring⟩
    obtain ⟨q, q1, q2⟩ := hpos (f32ToU16 z)
    rw [q2, sgn]
    split
    · rw [neg_one_mul, abs_neg, abs_of_nonneg q1]
    · rw [one_mul, abs_of_nonneg q1]
  rw [hmsb] at h16
  cases hs : z.msb with
  | false =>
    rw [hs] at hval h16
    simp only [Bool.false_eq_true, if_false] at hval h16
    have := cvt_within (c := 3.5) (x := z) (r := .fin r) (by norm_num) ⟨hf, hval.trans h5⟩ (Or.inl h3)
    rw [fl16_fin hfin, h16] at this
    exact this
  | true =>
    rw [hs] at hval h16
    simp only [if_true] at hval h16
    have := cvt_within (c := 3.5) (x := z) (r := .fin (-r)) (by norm_num) ⟨hf, by rw [hval, h5]⟩ (Or.inl (within_neg h3))
    rw [fl16_fin hfin, h16] at this
    have := within_neg this
    rwa [neg_neg, neg_neg] at this

theorem angle_le (b : ℚ) (n : Bool) (a : ℚ) : |angle b n a| ≤ 4 := by
  have hpi := Real.pi_lt_d2
  have hpi0 := Real.pi_pos
  unfold angle
  split
  · rw [abs_of_pos hpi0]; linarith
  · exact (Complex.abs_arg_le_pi _).trans (by linarith)

/-! ### The functions -/

/-- **atan2_u35, f16**: for all finite arguments, zeros of both signs included, the result has the sign of the first argument, and its
absolute value is within 0.501 ulps of the angle. -/
theorem atan2_f16 (h : Nearest 24 (-149) rnd) (ho : ∀ x, rnd (-x) = -rnd x) (hd : Nearest 53 (-1074) rndd) (simd fused : Bool) :
    (∃ f, ComputesSF (xatan2f rnd simd fused rndd) f) ∧
    ∀ f, ComputesSF (xatan2f rnd simd fused rndd) f → ∀ a b, Finite16 a → Finite16 b →
      ∃ r, scalarF16 f a b = some r ∧ cpuLane2 f a b = some r ∧ Finite16 r ∧ r.msb = a.msb ∧
        Within 11 (-24) 16 0.501 (angle |f16Value a| b.msb |f16Value b|) (.fin |f16Value r|) := by
  have main : ∀ x y, Finite32 x → Finite32 y → SignedWithin 24 (-149) 128 3.5 x.msb (angle |f32Value x| y.msb |f32Value y|)
      (xatan2f rnd simd fused rndd (sf32 x) (sf32 y)) := fun x y hx hy => by
    rw [sf32_fin hx, sf32_fin hy]
    exact xatan2f_within h ho hd simd fused _ _ (abs_nonneg _) (abs_nonneg _)
  constructor
  · classical
    refine ⟨fun x y => if hex : ∃ z, sf32 z = xatan2f rnd simd fused rndd (sf32 x) (sf32 y) then hex.choose else 0, ?_⟩
    intro x y hx hy
    have hex : ∃ z, sf32 z = xatan2f rnd simd fused rndd (sf32 x) (sf32 y) := by
      obtain ⟨r, e1, e2, e3, e4, -⟩ := main x y hx hy
      rw [e1]
      exact sf_exists e2 e3 (by exact_mod_cast e4)
    simp only [dif_pos hex]
    exact hex.choose_spec
  · intro f hf a b ha hb
    obtain ⟨x, x1, xm, x2, -⟩ := u16ToF32_exact a
    obtain ⟨y, y1, ym, y2, -⟩ := u16ToF32_exact b
    obtain ⟨x2, x3⟩ := x2 ha
    obtain ⟨y2, y3⟩ := y2 hb
    have hm := main x y x2 y2
    rw [← hf x y x2 y2, x3, y3, xm, ym] at hm
    have hs : scalarF16 f a b = some (f32ToU16 (f x y)) := by simp [scalarF16, x1, y1]
    exact ⟨_, hs, by simpa [cpuLane2, scalarF16, Cpu.f16Elem] using hs, cvt_signed hm (angle_le _ _ _)⟩

theorem hypot_small (h : Nearest 24 (-149) rnd) (hq : Root 24 (-149) sq) (fused : Bool) {u v : ℚ} (rx : Rep 24 (-149) u)
    (ry : Rep 24 (-149) v) (hu : |u| < 2 ^ 16) (hv : |v| < 2 ^ 16) :
    ∃ r, hypot35 rnd sq fused 128 (.fin u) (.fin v) = .fin r ∧
      Within 24 (-149) 128 3.5 (Real.sqrt ((u : ℝ) ^ 2 + (v : ℝ) ^ 2)) (.fin r) := by
  have bx : |(u : ℝ)| ≤ 2 ^ 16 := by
    have : ((|u| : ℚ) : ℝ) ≤ ((2 ^ 16 : ℚ) : ℝ) := by exact_mod_cast hu.le
    push_cast at this; exact this
  have by' : |(v : ℝ)| ≤ 2 ^ 16 := by
    have : ((|v| : ℚ) : ℝ) ≤ ((2 ^ 16 : ℚ) : ℝ) := by exact_mod_cast hv.le
    push_cast at this; exact this
  have hle : Real.sqrt ((u : ℝ) ^ 2 + (v : ℝ) ^ 2) ≤ 2 ^ 17 := by
    rw [Real.sqrt_le_left (by norm_num)]
    have g1 := sq_le_sq' (_root_.abs_le.mp bx).1 (_root_.abs_le.mp bx).2
    have g2 := sq_le_sq' (_root_.abs_le.mp by').1 (_root_.abs_le.mp by').2
    norm_num at g1 g2 ⊢
    linarith
  have hfin := fun w hw => hypot35_finite (p := 24) (emin := -149) (emax := 128) (by norm_num) (by norm_num) (by norm_num) h hq fused rx ry
    (w := w) hw
  have h0 := Real.sqrt_nonneg ((u : ℝ) ^ 2 + (v : ℝ) ^ 2)
  generalize Real.sqrt ((u : ℝ) ^ 2 + (v : ℝ) ^ 2) = Y at *
  have noinf : ¬ (2 : ℝ) ^ (128 : ℤ) ≤ (1 + 4 / 2 ^ 24) * Y := fun hc => by norm_num at hc; norm_num at hle; linarith
  have key : ∀ w, IsUlp 24 (-149) |Y| w → ∃ r : ℚ, hypot35 rnd sq fused 128 (.fin (u)) (.fin (v)) = .fin r ∧
      Rep 24 (-149) r ∧ |(r : ℝ) - Y| ≤ 7 / 2 * w := fun w hw => by
    rw [abs_of_nonneg h0] at hw
    rcases hfin w hw with h1 | ⟨-, h1⟩
    · exact h1
    · exact absurd h1 noinf
  obtain ⟨w, hw, hw1⟩ : ∃ w, IsUlp 24 (-149) |Y| w ∧ w ≤ 1 := by
    rcases (abs_nonneg Y).eq_or_lt with h0 | h0
    · exact ⟨2 ^ (-149 : ℤ), ⟨-149, le_rfl, rfl, by rw [← h0]; positivity, Or.inl rfl⟩, by norm_num⟩
    · obtain ⟨w, hw⟩ := exists_ulp 24 (-149) h0
      refine ⟨w, hw, ?_⟩
      rw [abs_of_nonneg (by assumption)] at hw
      obtain ⟨e, -, rfl, -, rfl | h6⟩ := hw
      · norm_num
      · norm_num at h6 hle; linarith
  obtain ⟨r, e1, e2, e3⟩ := key w hw
  refine ⟨r, e1, e2, ?_, fun w' hw' => ?_⟩
  · have h7 := _root_.abs_le.mp e3
    have h8 : |(r : ℝ)| < 2 ^ 128 := by
      rw [_root_.abs_lt]; norm_num at hle ⊢; constructor <;> linarith [h7.1, h7.2]
    have h9 : ((|r| : ℚ) : ℝ) < ((2 ^ 128 : ℚ) : ℝ) := by push_cast; exact h8
    exact_mod_cast h9
  · obtain ⟨r', f1, -, f3⟩ := key w' hw'
    rw [e1] at f1
    cases f1
    norm_num at f3 ⊢
    exact f3

/-- **hypot_u35, f16**: for all finite arguments the result is within 0.501 ulps. -/
theorem hypot_f16 (h : Nearest 24 (-149) rnd) (hq : Root 24 (-149) sq) (fused : Bool) :
    (∃ f, ComputesFl (hypot35 rnd sq fused 128) f) ∧
    ∀ f, ComputesFl (hypot35 rnd sq fused 128) f → ∀ a b, Finite16 a → Finite16 b →
      ∃ r, scalarF16 f a b = some r ∧ cpuLane2 f a b = some r ∧
        Within 11 (-24) 16 0.501 (Real.sqrt ((f16Value a : ℝ) ^ 2 + (f16Value b : ℝ) ^ 2)) (fl16 r) := by
  constructor
  · classical
    refine ⟨fun x y => if hex : ∃ z, Denotes z (hypot35 rnd sq fused 128 (.fin (f32Value x)) (.fin (f32Value y))) then hex.choose else 0, ?_⟩
    intro x y hx hy bx by'
    have hex : ∃ z, Denotes z (hypot35 rnd sq fused 128 (.fin (f32Value x)) (.fin (f32Value y))) := by
      obtain ⟨r, e1, e2⟩ := hypot_small h hq fused (rep_f32 hx).1 (rep_f32 hy).1 bx by'
      rw [e1]
      exact denotes_exists (Or.inl e2)
    simp only [dif_pos hex]
    exact hex.choose_spec
  · intro f hf a b ha hb
    obtain ⟨x, x1, x2, x3⟩ := dec_spec a ha
    obtain ⟨y, y1, y2, y3⟩ := dec_spec b hb
    have hs : scalarF16 f a b = some (f32ToU16 (f x y)) := by simp [scalarF16, x1, y1]
    refine ⟨_, hs, by simpa [cpuLane2, scalarF16, Cpu.f16Elem] using hs, ?_⟩
    have bx : |f32Value x| < 2 ^ 16 := by rw [x3]; exact f16_bound a ha
    have by' : |f32Value y| < 2 ^ 16 := by rw [y3]; exact f16_bound b hb
    obtain ⟨r, e1, e2⟩ := hypot_small h hq fused (rep_f32 x2).1 (rep_f32 y2).1 bx by'
    have hden := hf x y x2 y2 bx by'
    rw [e1] at hden
    rw [x3, y3] at e2
    exact cvt_within (by norm_num) hden (Or.inl e2)

/-- A concrete case: the operator for `atan2` on 1 and -1 returns a result near `3π/4`, the one for `hypot` on 3 and 4 one near 5. -/
example : Finite16 0x3c00#16 ∧ Finite16 0xbc00#16 ∧ f16Value 0x3c00#16 = 1 ∧ f16Value 0xbc00#16 = -1 ∧
    f16Value 0x4200#16 = 3 ∧ f16Value 0x4400#16 = 4 := by
  refine ⟨by simp [Finite16, e16], by simp [Finite16, e16], ?_, ?_, ?_, ?_⟩ <;>
    norm_num [f16Value, e16, m16, sgn, BitVec.msb_eq_decide]

end Nsimd.Props.MathF16Two
