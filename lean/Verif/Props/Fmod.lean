import Verif.Lemmas.FmodMain

/-!
# `fmod` of the vendored SLEEF is exact

The rounding is the one of IEEE-754 (`rq`, round to nearest with ties to even).  The full claim is: for all finite
`x` and `y ≠ 0` the result is the remainder of C.  It is proved for quotients below `2^996` (f64) and `2^128` (f32);
above `2^1025` and `2^129` the code overflows, which is proved below.
-/

namespace Nsimd.Props.Fmod
open Nsimd.Float Nsimd.Fmod Nsimd.DoubleDouble
open Nsimd.Props.Round (Rep)
open Nsimd.Props.Ieee (rq)

/-- The remainder of `fmod`: `x - n * y` for an integer `n`, with the sign of `x` and a magnitude below that of `y`.
Specification (C99 7.12.10.1). -/
def IsFmod (x y r : ℚ) : Prop := (∃ n : ℤ, r = x - n * y) ∧ |r| < |y| ∧ 0 ≤ r * x

/-- The specification has one solution. -/
theorem isFmod_unique {x y r s : ℚ} (hr : IsFmod x y r) (hs : IsFmod x y s) : r = s := by
  obtain ⟨⟨m, hm⟩, hr1, hr2⟩ := hr
  obtain ⟨⟨n, hn⟩, hs1, hs2⟩ := hs
  have hrs : |r - s| < |y| := by
    rw [abs_lt] at *
    rcases lt_trichotomy x 0 with hx | hx | hx
    · have h1 : r ≤ 0 := by by_contra hc; nlinarith
      have h2 : s ≤ 0 := by by_contra hc; nlinarith
      constructor <;> linarith
    · have key : ∀ (k : ℤ) (t : ℚ), t = x - k * y → |t| < |y| → t = 0 := by
        intro k t ht ht1
        rw [hx, zero_sub] at ht
        rw [ht, abs_neg, abs_mul] at ht1
        have hy : 0 < |y| := lt_of_le_of_lt (by positivity) ht1
        have : |(k : ℚ)| < 1 := by nlinarith
        have : |k| < 1 := by exact_mod_cast this
        have : k = 0 := by rw [abs_lt] at this; omega
        rw [ht, this]; simp
      have e1 := key m r hm (abs_lt.mpr hr1)
      have e2 := key n s hn (abs_lt.mpr hs1)
      rw [e1, e2] at *
      constructor <;> linarith [hr1.1, hr1.2]
    · have h1 : 0 ≤ r := by by_contra hc; nlinarith
      have h2 : 0 ≤ s := by by_contra hc; nlinarith
      constructor <;> linarith
  have e : r - s = (n - m : ℤ) * y := by rw [hm, hn]; push_cast; ring
  rw [e, abs_mul] at hrs
  have hy : 0 < |y| := lt_of_le_of_lt (by positivity) hrs
  have : |((n - m : ℤ) : ℚ)| < 1 := by nlinarith
  have : |n - m| < 1 := by exact_mod_cast this
  have : n - m = 0 := by rw [abs_lt] at this; omega
  have e' := e
  rw [this] at e'
  push_cast at e'
  linarith

example : IsFmod (-7) 2 (-1) ∧ IsFmod 7 (-2) 1 := by
  refine ⟨⟨⟨-3, by norm_num⟩, by norm_num, by norm_num⟩, ⟨⟨-3, by norm_num⟩, by norm_num, by norm_num⟩⟩

/-! ### The functions on bit patterns -/

/-- `toward0` and `toward0f` give the number before a positive number. -/
theorem toward0_pred {M : Nat} {emin : ℤ} {x : ℚ} (hx : Rep (M + 1) emin x) (h0 : 0 < x) :
    Rep (M + 1) emin (toward0 M emin x) ∧ toward0 M emin x < x ∧
      ∀ y, Rep (M + 1) emin y → y < x → y ≤ toward0 M emin x :=
  let h := toward0_before hx h0
  ⟨h.rep, h.lt, h.max⟩

/-- `removelsb` clears the last bit of the significand, the other functions the `q` last bits. -/
theorem upper_significand {M : Nat} {emin : ℤ} {q : Nat} (hq : q ≤ M) {x : ℚ} (hx : Rep (M + 1) emin x)
    (h0 : 2 ^ M * 2 ^ emin ≤ |x|) : ∃ (X e : ℤ), emin ≤ e ∧ x = X * 2 ^ e ∧ 2 ^ M ≤ |X| ∧ |X| < 2 ^ (M + 1) ∧
      upper M emin q x = (X.tdiv (2 ^ q) * 2 ^ q : ℤ) * 2 ^ e ∧
      (1 ≤ M → 0 ≤ x → removelsb M emin x = (X / 2 * 2 : ℤ) * 2 ^ e) := by
  obtain ⟨X, e, ⟨h1, h2, h3, h4⟩, he⟩ := upper_splits hq hx h0
  refine ⟨X, e, he, h1, by simpa using h2, h3, h4, fun hM hx0 => ?_⟩
  obtain ⟨Y, g, ⟨g1, g2, g3, g4⟩, -⟩ := upper_splits hM hx h0
  have hX0 : 0 ≤ X := by
    have : (0 : ℚ) ≤ X := nonneg_of_mul_nonneg_left (h1 ▸ hx0) (two_zpow_pos e)
    exact_mod_cast this
  have hY0 : 0 ≤ Y := by
    have : (0 : ℚ) ≤ Y := nonneg_of_mul_nonneg_left (g1 ▸ hx0) (two_zpow_pos g)
    exact_mod_cast this
  rw [Nat.add_sub_cancel, abs_of_nonneg hX0] at h2
  rw [abs_of_nonneg hX0] at h3
  rw [Nat.add_sub_cancel, abs_of_nonneg hY0] at g2
  rw [abs_of_nonneg hY0] at g3
  -- the exponent of a normal number is unique
  have key : ∀ {A B : ℤ} {a b : ℤ}, (A : ℚ) * 2 ^ a = B * 2 ^ b → 2 ^ M ≤ A → B < 2 ^ (M + 1) → a ≤ b := by
    intro A B a b hab hA hB
    have hA' : (2 : ℚ) ^ M ≤ A := by exact_mod_cast hA
    have hB' : (B : ℚ) < 2 ^ (M + 1) := by exact_mod_cast hB
    have : (2 : ℚ) ^ M * 2 ^ a < 2 ^ M * 2 ^ (b + 1) := by
      calc (2 : ℚ) ^ M * 2 ^ a ≤ A * 2 ^ a := mul_le_mul_of_nonneg_right hA' (two_zpow_pos a).le
        _ = B * 2 ^ b := hab
        _ < 2 ^ (M + 1) * 2 ^ b := mul_lt_mul_of_pos_right hB' (two_zpow_pos b)
        _ = _ := by rw [zpow_add_one₀ (by norm_num), pow_succ]; ring
    have := zpow_lt_iff.mp (lt_of_mul_lt_mul_left this (by positivity))
    omega
  have hab : (X : ℚ) * 2 ^ e = Y * 2 ^ g := h1.symm.trans g1
  have heg : e = g := le_antisymm (key hab h2 g3) (key hab.symm g2 h3)
  subst heg
  have hXY : X = Y := by
    have := mul_right_cancel₀ (two_zpow_pos e).ne' hab
    exact_mod_cast this
  subst hXY
  have hu : upper M emin 1 x = removelsb M emin x := by
    simp only [upper, if_neg (not_lt.mpr hx0), abs_of_nonneg hx0, pow_one, removelsb]
  rw [← hu, g4, Int.tdiv_eq_ediv_of_nonneg hX0, pow_one]

example : toward0 23 (-149) 1 = 1 - 1 / 2 ^ 24 ∧ removelsb 23 (-149) (2 ^ 23 + 1) = 2 ^ 23 ∧
    upper 23 (-149) 12 (1 + 1 / 2 ^ 11 + 1 / 2 ^ 12) = 1 + 1 / 2 ^ 11 := by
  have h1 : (1 : ℚ) = num 23 (-149) (127 * 2 ^ 23) := by norm_num [num, Fp16.mag]
  have h2 : (2 ^ 23 + 1 : ℚ) = num 23 (-149) (150 * 2 ^ 23 + 1) := by norm_num [num, Fp16.mag]
  have h3 : (1 + 1 / 2 ^ 11 + 1 / 2 ^ 12 : ℚ) = num 23 (-149) (127 * 2 ^ 23 + 3 * 2 ^ 11) := by
    norm_num [num, Fp16.mag]
  refine ⟨?_, ?_, ?_⟩
  · rw [h1, toward0_num (by norm_num)]; norm_num [num, Fp16.mag]
  · rw [h2, removelsb, pat_num]; norm_num [num, Fp16.mag]
  · rw [upper, if_neg (by norm_num), abs_of_nonneg (by norm_num), h3, pat_num]; norm_num [num, Fp16.mag]

/-! ### The result -/

theorem nearest64 : Nearest 53 (-1074) (rq .f64) := rq_isNearest .f64
theorem nearest32 : Nearest 24 (-149) (rq .f32) := rq_isNearest .f32
theorem ties64 : TiesEven 53 (-1074) (rq .f64) := rq_tiesEven .f64
theorem ties32 : TiesEven 24 (-149) (rq .f32) := rq_tiesEven .f32

/-- The operands of the f64 functions: finite numbers, and a quotient below `2^996`. Specification. -/
structure Args64 (x y : ℚ) : Prop where
  repx : Rep 53 (-1074) x
  repy : Rep 53 (-1074) y
  y0 : y ≠ 0
  maxx : |x| < 2 ^ 1024
  ratio : |x| ≤ 2 ^ 996 * |y|

/-- The operands of the f32 functions: finite numbers, and a quotient below `2^128`. Specification. -/
structure Args32 (x y : ℚ) : Prop where
  repx : Rep 24 (-149) x
  repy : Rep 24 (-149) y
  y0 : y ≠ 0
  maxx : |x| < 2 ^ 128
  ratio : |x| ≤ 2 ^ 128 * |y|

set_option exponentiation.threshold 1100 in
/-- What the scaling gives for f64. -/
theorem scaled64 {x y : ℚ} (A : Args64 x y) : ∃ i : Nat,
    prescale (rq .f64) (1 / 2 ^ 1022) 54 x y = (|x| * 2 ^ i, |y| * 2 ^ i, 1 / 2 ^ i) ∧
    (∃ f, Divisor 53 (-1074) (|y| * 2 ^ i) f) ∧ Rep 53 (-1074) (|x| * 2 ^ i) ∧
    |x| * 2 ^ i < 2 ^ (3 - ((52 + 1 : Nat) : ℤ) - -1074) ∧
    (9 * (1 / 2 ^ (52 + 1))) ^ 20 * (|x| * 2 ^ i) < 14 / 15 * (|y| * 2 ^ i) := by
  obtain ⟨i, e, hD, hr, hi⟩ := prescale_spec (M := 52) nearest64 (c := 1 / 2 ^ 1022) (by norm_num) (j := 54)
    (by norm_num) A.repx A.repy A.y0
  have hy : 0 < |y| := abs_pos.mpr A.y0
  have hrat := A.ratio
  refine ⟨i, e, hD, hr, ?_, ?_⟩
  · rw [show (3 - ((52 + 1 : Nat) : ℤ) - -1074) = ((1024 : Nat) : ℤ) by norm_num, zpow_natCast]
    rcases hi with rfl | ⟨rfl, hy2⟩
    · simpa using A.maxx
    · calc |x| * 2 ^ 54 ≤ 2 ^ 996 * (1 / 2 ^ 1022) * 2 ^ 54 := by gcongr; exact hrat.trans (by gcongr)
        _ < 2 ^ 1024 := by norm_num
  · calc (9 * (1 / 2 ^ (52 + 1))) ^ 20 * (|x| * 2 ^ i) ≤ (9 * (1 / 2 ^ (52 + 1))) ^ 20 * (2 ^ 996 * |y| * 2 ^ i) := by
          gcongr
      _ = ((9 * (1 / 2 ^ (52 + 1))) ^ 20 * 2 ^ 996) * (|y| * 2 ^ i) := by ring
      _ < 14 / 15 * (|y| * 2 ^ i) := by gcongr; norm_num

/-- What the scaling gives for f32. -/
theorem scaled32 {x y : ℚ} (A : Args32 x y) : ∃ i : Nat,
    prescale (rq .f32) (1 / 2 ^ 126) 25 x y = (|x| * 2 ^ i, |y| * 2 ^ i, 1 / 2 ^ i) ∧
    (∃ f, Divisor 24 (-149) (|y| * 2 ^ i) f) ∧ Rep 24 (-149) (|x| * 2 ^ i) ∧
    |x| * 2 ^ i < 2 ^ (3 - ((23 + 1 : Nat) : ℤ) - -149) ∧
    (9 * (1 / 2 ^ (23 + 1))) ^ 7 * (|x| * 2 ^ i) < 14 / 15 * (|y| * 2 ^ i) := by
  obtain ⟨i, e, hD, hr, hi⟩ := prescale_spec (M := 23) nearest32 (c := 1 / 2 ^ 126) (by norm_num) (j := 25)
    (by norm_num) A.repx A.repy A.y0
  have hy : 0 < |y| := abs_pos.mpr A.y0
  have hrat := A.ratio
  refine ⟨i, e, hD, hr, ?_, ?_⟩
  · rw [show (3 - ((23 + 1 : Nat) : ℤ) - -149) = ((128 : Nat) : ℤ) by norm_num, zpow_natCast]
    rcases hi with rfl | ⟨rfl, hy2⟩
    · simpa using A.maxx
    · calc |x| * 2 ^ 25 ≤ 2 ^ 128 * (1 / 2 ^ 126) * 2 ^ 25 := by gcongr; exact hrat.trans (by gcongr)
        _ < 2 ^ 128 := by norm_num
  · calc (9 * (1 / 2 ^ (23 + 1))) ^ 7 * (|x| * 2 ^ i) ≤ (9 * (1 / 2 ^ (23 + 1))) ^ 7 * (2 ^ 128 * |y| * 2 ^ i) := by
          gcongr
      _ = ((9 * (1 / 2 ^ (23 + 1))) ^ 7 * 2 ^ 128) * (|y| * 2 ^ i) := by ring
      _ < 14 / 15 * (|y| * 2 ^ i) := by gcongr; norm_num

/-- `xfmod` gives the exact remainder. Missing: quotients above `2^996`. -/
theorem xfmod_exact_partial (junk : ℚ → ℤ) {x y : ℚ} (A : Args64 x y) :
    ∃ r, xfmod (rq .f64) junk x y = some r ∧ IsFmod x y r := by
  obtain ⟨i, e, ⟨f, D⟩, hn, hmax, hr⟩ := scaled64 A
  simp only [xfmod, e]
  refine finish_spec (M := 52) nearest64 A.repx A.repy A.y0 (fun hnd => ?_) (.inl rfl)
  obtain ⟨j, e', hj⟩ := loop_iterate (fun r => reduce (rq .f64) (ddmul (rq .f64)) (|y| * 2 ^ i) (quot64 (rq .f64) junk
    (|y| * 2 ^ i) (toward0 52 (-1074) (rec1 (rq .f64) (|y| * 2 ^ i))) r) r) (|y| * 2 ^ i) 21 (|x| * 2 ^ i, 0)
  rw [e']
  exact (choice64 nearest64 ties64 junk D hn hnd).result (M := 52) nearest64 (by norm_num) (by norm_num)
    (fun _ => Ieee.rq_neg _) D hn hnd hmax (by norm_num) hr hj

/-- `xfmodf` gives the exact remainder. Missing: quotients above `2^128`. -/
theorem xfmodf_exact_partial (junk : ℚ → ℤ) {x y : ℚ} (A : Args32 x y) :
    ∃ r, xfmodf (rq .f32) junk x y = some r ∧ IsFmod x y r := by
  obtain ⟨i, e, ⟨f, D⟩, hn, hmax, hr⟩ := scaled32 A
  simp only [xfmodf, e]
  refine finish_spec (M := 23) nearest32 A.repx A.repy A.y0 (fun hnd => ?_) (.inr rfl)
  obtain ⟨j, e', hj⟩ := loop_iterate (fun r => reduce (rq .f32) (dfmul (rq .f32)) (|y| * 2 ^ i) (quot32 (rq .f32) junk
    (|y| * 2 ^ i) (toward0 23 (-149) (rec1 (rq .f32) (|y| * 2 ^ i))) r) r) (|y| * 2 ^ i) 8 (|x| * 2 ^ i, 0)
  rw [e']
  exact (choice32 nearest32 ties32 junk D hn hnd).result (M := 23) nearest32 (by norm_num) (by norm_num)
    (fun _ => Ieee.rq_neg _) D hn hnd hmax (by norm_num) hr hj

/-- The truncations of the SIMD functions: `vptrunc` with and without `FULL_FP_ROUNDING`. Specification. -/
def Trunc64 (trunc : ℚ → ℚ) : Prop := trunc = vtruncate ∨ ∃ junk, trunc = ptrunc (rq .f64) junk
/-- The truncations of the SIMD functions: `vptruncf` with and without `FULL_FP_ROUNDING`. Specification. -/
def Trunc32 (trunc : ℚ → ℚ) : Prop := trunc = vtruncate ∨ ∃ junk, trunc = ptruncf (rq .f32) junk

theorem Trunc64.floor {trunc : ℚ → ℚ} (h : Trunc64 trunc) : ∀ x, Rep 53 (-1074) x → 0 ≤ x → trunc x = ⌊x⌋ := by
  intro x hx h0
  rcases h with rfl | ⟨junk, rfl⟩
  · exact vtruncate_floor h0
  · exact nearest64.ptrunc_floor (by norm_num) junk hx h0

theorem Trunc32.floor {trunc : ℚ → ℚ} (h : Trunc32 trunc) : ∀ x, Rep 24 (-149) x → 0 ≤ x → trunc x = ⌊x⌋ := by
  intro x hx h0
  rcases h with rfl | ⟨junk, rfl⟩
  · exact vtruncate_floor h0
  · exact nearest32.ptruncf_floor (by norm_num) junk hx h0

/-- A lane of the SIMD `xfmod` holds the exact remainder, whatever the other lanes hold. Missing: quotients above
`2^996`. -/
theorem vfmod_exact_partial {L : Nat} {trunc : ℚ → ℚ} (ht : Trunc64 trunc) (fma : Bool) {x y : Fin L → ℚ} {l : Fin L}
    (A : Args64 (x l) (y l)) : ∃ r, vfmod (rq .f64) trunc fma x y l = some r ∧ IsFmod (x l) (y l) r := by
  obtain ⟨i, e, ⟨f, D⟩, hn, hmax, hr⟩ := scaled64 A
  simp only [vfmod]
  obtain ⟨j, e', hj⟩ := vloop_iterate (fun l r => reduce (rq .f64) (if fma then Fma.mul11 (rq .f64) else ddmul (rq .f64))
    (prescale (rq .f64) (1 / 2 ^ 1022) 54 (x l) (y l)).2.1 (quotV64 (rq .f64) trunc fma
    (prescale (rq .f64) (1 / 2 ^ 1022) 54 (x l) (y l)).2.1 (toward0 52 (-1074) (rec1 (rq .f64)
    (prescale (rq .f64) (1 / 2 ^ 1022) 54 (x l) (y l)).2.1)) r) r)
    (fun l => (prescale (rq .f64) (1 / 2 ^ 1022) 54 (x l) (y l)).2.1) 21
    (fun l => ((prescale (rq .f64) (1 / 2 ^ 1022) 54 (x l) (y l)).1, 0))
  have e'' := e' l
  have hj := hj.imp_right fun h => h l
  simp only [e] at e'' hj ⊢
  refine finish_spec (M := 52) nearest64 A.repx A.repy A.y0 (fun hnd => ?_) (.inl rfl)
  rw [e'']
  exact (choiceV64 nearest64 ties64 ht.floor fma D hn hnd).result (M := 52) nearest64 (by norm_num) (by norm_num)
    (fun _ => Ieee.rq_neg _) D hn hnd hmax (by norm_num) hr hj

/-- A lane of the SIMD `xfmodf` holds the exact remainder, whatever the other lanes hold. Missing: quotients above
`2^128`. -/
theorem vfmodf_exact_partial {L : Nat} {trunc : ℚ → ℚ} (ht : Trunc32 trunc) (fma : Bool) {x y : Fin L → ℚ} {l : Fin L}
    (A : Args32 (x l) (y l)) : ∃ r, vfmodf (rq .f32) trunc fma x y l = some r ∧ IsFmod (x l) (y l) r := by
  obtain ⟨i, e, ⟨f, D⟩, hn, hmax, hr⟩ := scaled32 A
  simp only [vfmodf]
  obtain ⟨j, e', hj⟩ := vloop_iterate (fun l r => reduce (rq .f32) (if fma then Fma.mul11 (rq .f32) else dfmul (rq .f32))
    (prescale (rq .f32) (1 / 2 ^ 126) 25 (x l) (y l)).2.1 (quotV32 (rq .f32) trunc
    (prescale (rq .f32) (1 / 2 ^ 126) 25 (x l) (y l)).2.1 (toward0 23 (-149) (rec1 (rq .f32)
    (prescale (rq .f32) (1 / 2 ^ 126) 25 (x l) (y l)).2.1)) r) r)
    (fun l => (prescale (rq .f32) (1 / 2 ^ 126) 25 (x l) (y l)).2.1) 8
    (fun l => ((prescale (rq .f32) (1 / 2 ^ 126) 25 (x l) (y l)).1, 0))
  have e'' := e' l
  have hj := hj.imp_right fun h => h l
  simp only [e] at e'' hj ⊢
  refine finish_spec (M := 23) nearest32 A.repx A.repy A.y0 (fun hnd => ?_) (.inr rfl)
  rw [e'']
  exact (choiceV32 nearest32 ties32 ht.floor fma D hn hnd).result (M := 23) nearest32 (by norm_num) (by norm_num)
    (fun _ => Ieee.rq_neg _) D hn hnd hmax (by norm_num) hr hj

/-- The scalar and the SIMD functions agree in every lane. -/
theorem fmod_simd_eq_scalar {L : Nat} (junk : ℚ → ℤ) {trunc truncf : ℚ → ℚ} (ht : Trunc64 trunc) (htf : Trunc32 truncf)
    (fma : Bool) (x y : Fin L → ℚ) (l : Fin L) :
    (Args64 (x l) (y l) → vfmod (rq .f64) trunc fma x y l = xfmod (rq .f64) junk (x l) (y l)) ∧
    (Args32 (x l) (y l) → vfmodf (rq .f32) truncf fma x y l = xfmodf (rq .f32) junk (x l) (y l)) := by
  refine ⟨fun A => ?_, fun A => ?_⟩
  · obtain ⟨r, e, h⟩ := vfmod_exact_partial ht fma A
    obtain ⟨s, e', h'⟩ := xfmod_exact_partial junk A
    rw [e, e', isFmod_unique h h']
  · obtain ⟨r, e, h⟩ := vfmodf_exact_partial htf fma A
    obtain ⟨s, e', h'⟩ := xfmodf_exact_partial junk A
    rw [e, e', isFmod_unique h h']

/-- A zero divisor gives NaN in all functions. -/
theorem fmod_zero {L : Nat} (junk : ℚ → ℤ) (trunc : ℚ → ℚ) (fma : Bool) (x y : Fin L → ℚ) (l : Fin L) (h : y l = 0) :
    xfmod (rq .f64) junk (x l) (y l) = none ∧ xfmodf (rq .f32) junk (x l) (y l) = none ∧
    vfmod (rq .f64) trunc fma x y l = none ∧ vfmodf (rq .f32) trunc fma x y l = none := by
  have h1 := nearest64.zero
  have h2 := nearest32.zero
  refine ⟨?_, ?_, ?_, ?_⟩ <;>
    simp [xfmod, xfmodf, vfmod, vfmodf, finish, prescale, h, mul, h1, h2]

set_option exponentiation.threshold 1100 in
example : Args64 (-(2 ^ 60 + 2 ^ 9)) 3 ∧ Args32 (2 ^ 100) (-7) ∧ Args64 (1 / 2 ^ 1000) (3 / 2 ^ 1074) := by
  refine ⟨⟨⟨-(2 ^ 51 + 1), 9, by norm_num, by norm_num, by norm_num⟩, ⟨3, 0, by norm_num, by norm_num, by norm_num⟩,
      by norm_num, ?_, ?_⟩,
    ⟨⟨1, 100, by norm_num, by norm_num, by norm_num⟩, ⟨-7, 0, by norm_num, by norm_num, by norm_num⟩,
      by norm_num, ?_, ?_⟩,
    ⟨⟨1, -1000, by norm_num, by norm_num, by norm_num⟩, ⟨3, -1074, by norm_num, by norm_num, by norm_num⟩,
      by norm_num, ?_, ?_⟩⟩ <;> norm_num [abs_of_pos, abs_of_neg]

/-! ### Large quotients -/

set_option exponentiation.threshold 1100 in
/-- The full claim is false: the first quotient of `xfmod` overflows if `x` is larger than `y` by `2^1025`, in which
case the code multiplies an infinity. -/
theorem xfmod_quotient_overflows {x y : ℚ} (hx : Rep 53 (-1074) x) (hy : 1 / 2 ^ 1022 ≤ |y|)
    (hxy : 2 ^ 1025 * |y| ≤ |x|) (hmax : |x| < 2 ^ 1024) :
    prescale (rq .f64) (1 / 2 ^ 1022) 54 x y = (|x|, |y|, 1) ∧
    2 ^ 1024 ≤ mul (rq .f64) (toward0 52 (-1074) |x|) (toward0 52 (-1074) (rec1 (rq .f64) |y|)) := by
  refine ⟨by rw [prescale, if_neg (not_lt.mpr hy)], ?_⟩
  refine nearest64.guess_large (M := 52) (by norm_num) (by norm_num) (rep_abs hx) ?_ ?_ hxy
  · refine le_trans ?_ hy; norm_num
  · have : |y| ≤ 1 := by norm_num at hxy hmax ⊢; linarith
    refine le_trans (mul_le_of_le_one_right (by positivity) this) ?_
    norm_num

/-- The first quotient of `xfmodf` overflows if `x` is larger than `y` by `2^129`. -/
theorem xfmodf_quotient_overflows {x y : ℚ} (hx : Rep 24 (-149) x) (hy : 1 / 2 ^ 126 ≤ |y|)
    (hxy : 2 ^ 129 * |y| ≤ |x|) (hmax : |x| < 2 ^ 128) :
    prescale (rq .f32) (1 / 2 ^ 126) 25 x y = (|x|, |y|, 1) ∧
    2 ^ 128 ≤ mul (rq .f32) (toward0 23 (-149) |x|) (toward0 23 (-149) (rec1 (rq .f32) |y|)) := by
  refine ⟨by rw [prescale, if_neg (not_lt.mpr hy)], ?_⟩
  refine nearest32.guess_large (M := 23) (by norm_num) (by norm_num) (rep_abs hx) ?_ ?_ hxy
  · refine le_trans ?_ hy; norm_num
  · have : |y| ≤ 1 := by norm_num at hxy hmax ⊢; linarith
    refine le_trans (mul_le_of_le_one_right (by positivity) this) ?_
    norm_num

/-- The scaling of the operands overflows if `y` is subnormal and `x` is large. -/
theorem scaling_overflows {x y : ℚ} :
    (|y| < 1 / 2 ^ 1022 → 2 ^ 970 ≤ |x| → 2 ^ 1024 ≤ (prescale (rq .f64) (1 / 2 ^ 1022) 54 x y).1) ∧
    (|y| < 1 / 2 ^ 126 → 2 ^ 103 ≤ |x| → 2 ^ 128 ≤ (prescale (rq .f32) (1 / 2 ^ 126) 25 x y).1) := by
  refine ⟨fun hy hx => ?_, fun hy hx => ?_⟩
  · rw [prescale, if_pos hy]
    have h1 : (2 : ℚ) ^ (1024 : ℤ) ≤ |x| * 2 ^ 54 := by
      rw [show (1024 : ℤ) = ((970 + 54 : Nat) : ℤ) by norm_num, zpow_natCast, pow_add]; gcongr
    have := nearest64.mono h1
    rw [nearest64.fix (rep_pow (by norm_num) (by norm_num)), show (1024 : ℤ) = ((1024 : Nat) : ℤ) by norm_num,
      zpow_natCast] at this
    exact this
  · rw [prescale, if_pos hy]
    have h1 : (2 : ℚ) ^ (128 : ℤ) ≤ |x| * 2 ^ 25 := by
      rw [show (128 : ℤ) = ((103 + 25 : Nat) : ℤ) by norm_num, zpow_natCast, pow_add]; gcongr
    have := nearest32.mono h1
    rw [nearest32.fix (rep_pow (by norm_num) (by norm_num)), show (128 : ℤ) = ((128 : Nat) : ℤ) by norm_num,
      zpow_natCast] at this
    exact this

set_option exponentiation.threshold 1100 in
example : Rep 53 (-1074) (2 ^ 1023) ∧ (1 : ℚ) / 2 ^ 1022 ≤ |1 / 2 ^ 10| ∧ 2 ^ 1025 * |(1 : ℚ) / 2 ^ 10| ≤ |2 ^ 1023| ∧
    Rep 24 (-149) (2 ^ 127) ∧ 2 ^ 129 * |(1 : ℚ) / 2 ^ 10| ≤ |2 ^ 127| := by
  refine ⟨⟨1, 1023, by norm_num, by norm_num, by norm_num⟩, ?_, ?_, ⟨1, 127, by norm_num, by norm_num, by norm_num⟩, ?_⟩
    <;> norm_num [abs_of_pos]

end Nsimd.Props.Fmod
