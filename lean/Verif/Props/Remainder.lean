import Verif.Props.Fmod
import Verif.Lemmas.RemainderParts

/-!
# `remainder` of the vendored SLEEF is exact

The rounding is the one of IEEE-754 (`rq`, round to nearest with ties to even).  The full claim is: for all finite
`x` and `y ≠ 0` the result is the remainder of IEEE-754.  It is proved for quotients up to `2^1006` (f64) and `2^128`
(f32); from `2^1025` and `2^129` on the code overflows, which is proved below.
-/

namespace Nsimd.Props.Remainder
open Nsimd.Float Nsimd.Remainder Nsimd.DoubleDouble
open Nsimd.Fmod (prescale ddmul dfmul)
open Nsimd.Props.Round (Rep)
open Nsimd.Props.Ieee (rq)
open Nsimd.Props.Fmod (nearest64 nearest32)

/-- The remainder of IEEE-754: `x - n * y`, where `n` is the integer nearest to `x / y`, the even one if there are two.
Specification (C99 7.12.10.2). -/
def IsRemainder (x y r : ℚ) : Prop :=
  ∃ n : ℤ, r = x - n * y ∧ (∀ m : ℤ, |x / y - n| ≤ |x / y - m|) ∧
    ∀ m : ℤ, m ≠ n → |x / y - m| = |x / y - n| → n % 2 = 0

/-- A remainder of at most half the divisor is the remainder, if the quotient is even in the case of equality. -/
theorem isRemainder_of_half {x y r : ℚ} (hy : y ≠ 0) {n : ℤ} (e : r = x - n * y) (hle : |r| ≤ |y| / 2)
    (ht : |r| = |y| / 2 → n % 2 = 0) : IsRemainder x y r := by
  have hya : 0 < |y| := abs_pos.mpr hy
  have key : ∀ m : ℤ, |x / y - m| = |x - m * y| / |y| := by
    intro m
    rw [← abs_div]; congr 1; field_simp
  have hn : |x / y - n| ≤ 1 / 2 := by
    rw [key, ← e, div_le_iff₀ hya]; linarith
  have far : ∀ m : ℤ, m ≠ n → 1 / 2 ≤ |x / y - m| := by
    intro m hm
    have h1 : 1 ≤ |m - n| := Int.one_le_abs (sub_ne_zero.mpr hm)
    have h2 : (1 : ℚ) ≤ |(m : ℚ) - n| := by exact_mod_cast h1
    have h3 : |(m : ℚ) - n| ≤ |x / y - n| + |x / y - m| := by
      have := abs_sub (x / y - n) (x / y - m)
      have e : x / y - n - (x / y - m) = (m : ℚ) - n := by ring
      rwa [e] at this
    linarith
  refine ⟨n, e, fun m => ?_, fun m hm h => ht ?_⟩
  · by_cases hm : m = n
    · rw [hm]
    · exact hn.trans (far m hm)
  · have := far m hm
    have h2 : |x / y - n| = 1 / 2 := by linarith
    rw [key, ← e, div_eq_iff hya.ne'] at h2
    linarith

/-- The specification has one solution. -/
theorem isRemainder_unique {x y r s : ℚ} (hr : IsRemainder x y r) (hs : IsRemainder x y s) : r = s := by
  obtain ⟨m, hm, hm1, hm2⟩ := hr
  obtain ⟨n, hn, hn1, hn2⟩ := hs
  by_cases hmn : m = n
  · rw [hm, hn, hmn]
  exfalso
  have he : |x / y - m| = |x / y - n| := le_antisymm (hm1 n) (hn1 m)
  have p1 := hm2 n (Ne.symm hmn) he.symm
  have p2 := hn2 m hmn he
  -- the two are at the same distance, and an integer lies between them
  have hq : x / y - m = -(x / y - n) := by
    rcases abs_eq_abs.mp he with h | h
    · exact absurd (by have : (m : ℚ) = n := by linarith
                       exact_mod_cast this) hmn
    · exact h
  have h1 := hm1 ((m + n) / 2)
  have e2 : ((m + n) / 2 : ℤ) * 2 = m + n := by omega
  have e3 : (((m + n) / 2 : ℤ) : ℚ) * 2 = m + n := by exact_mod_cast e2
  have e4 : x / y - (((m + n) / 2 : ℤ) : ℚ) = 0 := by linarith
  rw [e4, abs_zero] at h1
  have h0 : x / y - m = 0 := abs_eq_zero.mp (le_antisymm h1 (abs_nonneg _))
  have : (m : ℚ) = n := by rw [h0] at hq; linarith
  exact hmn (by exact_mod_cast this)

example : IsRemainder 7 2 (-1) ∧ IsRemainder 5 2 1 ∧ IsRemainder (-5) 3 1 := by
  refine ⟨isRemainder_of_half (by norm_num) (n := 4) ?_ ?_ ?_, isRemainder_of_half (by norm_num) (n := 2) ?_ ?_ ?_,
    isRemainder_of_half (by norm_num) (n := -2) ?_ ?_ ?_⟩ <;> norm_num [abs_of_pos, abs_of_neg]

/-- The operands of the f64 functions: finite numbers, and a quotient of at most `2^1006`. Specification. -/
structure Args64 (x y : ℚ) : Prop where
  repx : Rep 53 (-1074) x
  repy : Rep 53 (-1074) y
  y0 : y ≠ 0
  maxx : |x| < 2 ^ 1024
  maxy : |y| < 2 ^ 1024
  ratio : |x| ≤ 2 ^ 1006 * |y|

/-- The operands of the f32 functions: finite numbers, and a quotient of at most `2^128`. Specification. -/
structure Args32 (x y : ℚ) : Prop where
  repx : Rep 24 (-149) x
  repy : Rep 24 (-149) y
  y0 : y ≠ 0
  maxx : |x| < 2 ^ 128
  maxy : |y| < 2 ^ 128
  ratio : |x| ≤ 2 ^ 128 * |y|

set_option exponentiation.threshold 1100 in
/-- What the scaling gives for f64. -/
theorem scaled64 {x y : ℚ} (A : Args64 x y) : ∃ i : Nat,
    prescale (rq .f64) (2 / 2 ^ 1022) 54 x y = (|x| * 2 ^ i, |y| * 2 ^ i, 1 / 2 ^ i) ∧
    (∃ f, Divisor 53 (-1074) (|y| * 2 ^ i) f ∧ -1074 + 1 ≤ f) ∧ Rep 53 (-1074) (|x| * 2 ^ i) ∧
    |x| * 2 ^ i < 2 ^ 1024 ∧ |y| * 2 ^ i < 2 ^ 1024 ∧
    (6 * (1 / 2 ^ 53)) ^ 20 * (|x| * 2 ^ i) < 1 / 4 * (|y| * 2 ^ i) := by
  obtain ⟨i, e, hD, hr, hi⟩ := rprescale_spec (M := 52) nearest64 (c := 2 / 2 ^ 1022) (by norm_num) (j := 54)
    (by norm_num) A.repx A.repy A.y0
  have hy : 0 < |y| := abs_pos.mpr A.y0
  have hrat := A.ratio
  refine ⟨i, e, hD, hr, ?_, ?_, ?_⟩
  · rcases hi with rfl | ⟨rfl, hy2⟩
    · simpa using A.maxx
    · calc |x| * 2 ^ 54 ≤ 2 ^ 1006 * (2 / 2 ^ 1022) * 2 ^ 54 := by gcongr; exact hrat.trans (by gcongr)
        _ < 2 ^ 1024 := by norm_num
  · rcases hi with rfl | ⟨rfl, hy2⟩
    · simpa using A.maxy
    · calc |y| * 2 ^ 54 ≤ 2 / 2 ^ 1022 * 2 ^ 54 := by gcongr
        _ < 2 ^ 1024 := by norm_num
  · calc (6 * (1 / 2 ^ 53) : ℚ) ^ 20 * (|x| * 2 ^ i) ≤ (6 * (1 / 2 ^ 53)) ^ 20 * (2 ^ 1006 * |y| * 2 ^ i) := by
          gcongr
      _ = ((6 * (1 / 2 ^ 53)) ^ 20 * 2 ^ 1006) * (|y| * 2 ^ i) := by ring
      _ < 1 / 4 * (|y| * 2 ^ i) := by gcongr; norm_num

/-- What the scaling gives for f32. -/
theorem scaled32 {x y : ℚ} (A : Args32 x y) : ∃ i : Nat,
    prescale (rq .f32) (2 / 2 ^ 126) 25 x y = (|x| * 2 ^ i, |y| * 2 ^ i, 1 / 2 ^ i) ∧
    (∃ f, Divisor 24 (-149) (|y| * 2 ^ i) f ∧ -149 + 1 ≤ f) ∧ Rep 24 (-149) (|x| * 2 ^ i) ∧
    |x| * 2 ^ i < 2 ^ 128 ∧ |y| * 2 ^ i < 2 ^ 128 ∧
    (6 * (1 / 2 ^ 24)) ^ 7 * (|x| * 2 ^ i) < 1 / 4 * (|y| * 2 ^ i) := by
  obtain ⟨i, e, hD, hr, hi⟩ := rprescale_spec (M := 23) nearest32 (c := 2 / 2 ^ 126) (by norm_num) (j := 25)
    (by norm_num) A.repx A.repy A.y0
  have hy : 0 < |y| := abs_pos.mpr A.y0
  have hrat := A.ratio
  refine ⟨i, e, hD, hr, ?_, ?_, ?_⟩
  · rcases hi with rfl | ⟨rfl, hy2⟩
    · simpa using A.maxx
    · calc |x| * 2 ^ 25 ≤ 2 ^ 128 * (2 / 2 ^ 126) * 2 ^ 25 := by gcongr; exact hrat.trans (by gcongr)
        _ < 2 ^ 128 := by norm_num
  · rcases hi with rfl | ⟨rfl, hy2⟩
    · simpa using A.maxy
    · calc |y| * 2 ^ 25 ≤ 2 / 2 ^ 126 * 2 ^ 25 := by gcongr
        _ < 2 ^ 128 := by norm_num
  · calc (6 * (1 / 2 ^ 24) : ℚ) ^ 7 * (|x| * 2 ^ i) ≤ (6 * (1 / 2 ^ 24)) ^ 7 * (2 ^ 128 * |y| * 2 ^ i) := by
          gcongr
      _ = ((6 * (1 / 2 ^ 24)) ^ 7 * 2 ^ 128) * (|y| * 2 ^ i) := by ring
      _ < 1 / 4 * (|y| * 2 ^ i) := by gcongr; norm_num

/-- The end of the functions, in terms of the specification. -/
theorem finish_isRemainder {M : Nat} {emin : ℤ} {rnd : ℚ → ℚ} (h : Nearest (M + 1) emin rnd) {x y v R : ℚ} {i : Nat}
    {k : ℤ} (hx : Rep (M + 1) emin x) (hy : Rep (M + 1) emin y) (hy0 : y ≠ 0)
    (hR : R = |x| * 2 ^ i - k * (|y| * 2 ^ i)) (hF : Final (|y| * 2 ^ i) R k) (hr : Rep (M + 1) emin R)
    (hv : v = R ∨ v = add rnd R 0) :
    ∃ r, Nsimd.Remainder.finish rnd x (|y| * 2 ^ i) (1 / 2 ^ i) v = some r ∧ IsRemainder x y r := by
  obtain ⟨r, e, n, h1, h2, h3⟩ := rfinish_spec h hx hy hy0 hR hF hr hv
  exact ⟨r, e, isRemainder_of_half hy0 h1 h2 h3⟩

theorem odd64 : ∀ x, rq .f64 (-x) = -rq .f64 x := fun _ => Ieee.rq_neg _
theorem odd32 : ∀ x, rq .f32 (-x) = -rq .f32 x := fun _ => Ieee.rq_neg _

/-- `xremainder` gives the exact remainder. Missing: quotients above `2^1006`. -/
theorem xremainder_exact_partial (junk : ℚ → ℤ) {x y : ℚ} (A : Args64 x y) :
    ∃ r, xremainder (rq .f64) junk x y = some r ∧ IsRemainder x y r := by
  obtain ⟨i, e, ⟨f, D, hf⟩, hn, hmx, hmy, hr⟩ := scaled64 A
  simp only [xremainder, e]
  have P := (nearest64.rintk2_rint (b := 52) (by norm_num) (by norm_num) odd64).parts64 nearest64 odd64 D
    (fun _ hj => nearest64.isodd64_spec (by norm_num) junk hj)
  obtain ⟨j, e', hj⟩ := rloop_iterate (step (rq .f64) 1024 (ddmul (rq .f64)) (isodd64 (rq .f64) junk) (|y| * 2 ^ i)
      (quot (rq .f64) (fun v => removelsb (rintk2 (rq .f64) 52 v)) (|y| * 2 ^ i) (rec1 (rq .f64) (|y| * 2 ^ i))))
    (quot (rq .f64) (fun v => removelsb (rintk2 (rq .f64) 52 v)) (|y| * 2 ^ i) (rec1 (rq .f64) (|y| * 2 ^ i))) 21
    ((|x| * 2 ^ i, 0), false)
  rw [e']
  obtain ⟨R, k, eR, hR, hF, hrep⟩ := P.result (E := 1024) nearest64 (by norm_num) (by norm_num) odd64 D hf (by norm_num)
    hn (by positivity) hmx hmy (by norm_num) hr rfl rfl hj
  simp only [rec1] at eR ⊢
  rw [eR]
  exact finish_isRemainder (M := 52) nearest64 A.repx A.repy A.y0 hR hF hrep (.inl rfl)

/-- `xremainderf` gives the exact remainder. Missing: quotients above `2^128`. -/
theorem xremainderf_exact_partial (junk : ℚ → ℤ) {x y : ℚ} (A : Args32 x y) :
    ∃ r, xremainderf (rq .f32) junk x y = some r ∧ IsRemainder x y r := by
  obtain ⟨i, e, ⟨f, D, hf⟩, hn, hmx, hmy, hr⟩ := scaled32 A
  simp only [xremainderf, e]
  have P := (nearest32.rintfk2_rint (by norm_num) odd32 junk).parts32 nearest32 odd32 D
    (fun _ hj => isodd32_spec junk hj)
  obtain ⟨j, e', hj⟩ := rloop_iterate (step (rq .f32) 128 (dfmul (rq .f32)) (isodd32 junk) (|y| * 2 ^ i)
      (quot (rq .f32) (rintfk2 (rq .f32) junk) (|y| * 2 ^ i) (rec1 (rq .f32) (|y| * 2 ^ i))))
    (quot (rq .f32) (rintfk2 (rq .f32) junk) (|y| * 2 ^ i) (rec1 (rq .f32) (|y| * 2 ^ i))) 8
    ((|x| * 2 ^ i, 0), false)
  rw [e']
  obtain ⟨R, k, eR, hR, hF, hrep⟩ := P.result (E := 128) nearest32 (by norm_num) (by norm_num) odd32 D hf (by norm_num)
    hn (by positivity) hmx hmy (by norm_num) hr rfl rfl hj
  simp only [rec1] at eR ⊢
  rw [eR]
  exact finish_isRemainder (M := 23) nearest32 A.repx A.repy A.y0 hR hF hrep (.inl rfl)

/-- The parts of the SIMD `xremainder`. -/
theorem partsV64 {d : ℚ} {f : ℤ} (junk : ℚ → ℤ) (full fma : Bool) (D : Divisor 53 (-1074) d f) :
    Parts 53 (-1074) (rq .f64) d
      (fun v => if fma then (if full then vrint else rintk2 (rq .f64) 52) v
        else removelsb ((if full then vrint else rintk2 (rq .f64) 52) v))
      (if fma then Fma.mul11 (rq .f64) else ddmul (rq .f64))
      (if full then visodd (rq .f64) else isodd64 (rq .f64) junk) := by
  have h1 : Rint 53 (-1074) (if full then vrint else rintk2 (rq .f64) 52) := by
    cases full
    · exact nearest64.rintk2_rint (b := 52) (by norm_num) (by norm_num) odd64
    · exact vrint_rint
  have h2 : ∀ j : ℤ, Rep 53 (-1074) (j : ℚ) →
      (if full then visodd (rq .f64) else isodd64 (rq .f64) junk) j = decide (j % 2 ≠ 0) := by
    intro j hj
    cases full
    · exact nearest64.isodd64_spec (by norm_num) junk hj
    · exact nearest64.visodd_spec (by norm_num) (by norm_num) hj
  cases fma
  · exact h1.parts64 nearest64 odd64 D h2
  · exact h1.partsFma nearest64 (by norm_num) D h2

/-- The parts of the SIMD `xremainderf`. -/
theorem partsV32 {d : ℚ} {f : ℤ} (junk : ℚ → ℤ) (full fma : Bool) (D : Divisor 24 (-149) d f) :
    Parts 24 (-149) (rq .f32) d (if full then vrint else rintk2 (rq .f32) 23)
      (if fma then Fma.mul11 (rq .f32) else dfmul (rq .f32)) (isodd32 junk) := by
  have h1 : Rint 24 (-149) (if full then vrint else rintk2 (rq .f32) 23) := by
    cases full
    · exact nearest32.rintk2_rint (b := 23) (by norm_num) (by norm_num) odd32
    · exact vrint_rint
  cases fma
  · exact h1.parts32 nearest32 odd32 D (fun _ hj => isodd32_spec junk hj)
  · exact h1.partsFma nearest32 (by norm_num) D (fun _ hj => isodd32_spec junk hj)

/-- A lane of the SIMD `xremainder` holds the exact remainder, whatever the other lanes hold. Missing: quotients above
`2^1006`. -/
theorem vremainder_exact_partial {L : Nat} (junk : ℚ → ℤ) (full fma : Bool) {x y : Fin L → ℚ} {l : Fin L}
    (A : Args64 (x l) (y l)) :
    ∃ r, vremainder (rq .f64) junk full fma x y l = some r ∧ IsRemainder (x l) (y l) r := by
  obtain ⟨i, e, ⟨f, D, hf⟩, hn, hmx, hmy, hr⟩ := scaled64 A
  have P := partsV64 junk full fma D
  simp only [vremainder]
  generalize hest : (fun v => if fma = true then (if full = true then vrint else rintk2 (rq .f64) 52) v
        else removelsb ((if full = true then vrint else rintk2 (rq .f64) 52) v)) = est at P ⊢
  generalize (if fma = true then Fma.mul11 (rq .f64) else ddmul (rq .f64)) = prod at P ⊢
  generalize (if full = true then visodd (rq .f64) else isodd64 (rq .f64) junk) = isodd at P ⊢
  obtain ⟨j, e', hj⟩ := vrloop_iterate (fun l => step (rq .f64) 1024 prod isodd
      (prescale (rq .f64) (2 / 2 ^ 1022) 54 (x l) (y l)).2.1
      (quot (rq .f64) est (prescale (rq .f64) (2 / 2 ^ 1022) 54 (x l) (y l)).2.1
        (rec1 (rq .f64) (prescale (rq .f64) (2 / 2 ^ 1022) 54 (x l) (y l)).2.1)))
    (fun l => quot (rq .f64) est (prescale (rq .f64) (2 / 2 ^ 1022) 54 (x l) (y l)).2.1
        (rec1 (rq .f64) (prescale (rq .f64) (2 / 2 ^ 1022) 54 (x l) (y l)).2.1)) 21
    (fun l => (((prescale (rq .f64) (2 / 2 ^ 1022) 54 (x l) (y l)).1, 0), false))
  have e'' := e' l
  have hj := hj.imp_right fun h => h l
  simp only [e] at e'' hj ⊢
  obtain ⟨R, k, eR, hR, hF, hrep⟩ := P.result (E := 1024) nearest64 (by norm_num) (by norm_num) odd64 D hf (by norm_num)
    hn (by positivity) hmx hmy (by norm_num) hr rfl rfl hj
  simp only [rec1] at e'' ⊢
  rw [e'', eR]
  exact finish_isRemainder (M := 52) nearest64 A.repx A.repy A.y0 hR hF hrep (.inl rfl)

/-- A lane of the SIMD `xremainderf` holds the exact remainder, whatever the other lanes hold. Missing: quotients above
`2^128`. -/
theorem vremainderf_exact_partial {L : Nat} (junk : ℚ → ℤ) (full fma : Bool) {x y : Fin L → ℚ} {l : Fin L}
    (A : Args32 (x l) (y l)) :
    ∃ r, vremainderf (rq .f32) junk full fma x y l = some r ∧ IsRemainder (x l) (y l) r := by
  obtain ⟨i, e, ⟨f, D, hf⟩, hn, hmx, hmy, hr⟩ := scaled32 A
  have P := partsV32 junk full fma D
  simp only [vremainderf]
  generalize (if full = true then vrint else rintk2 (rq .f32) 23) = est at P ⊢
  generalize (if fma = true then Fma.mul11 (rq .f32) else dfmul (rq .f32)) = prod at P ⊢
  obtain ⟨j, e', hj⟩ := vrloop_iterate (fun l => step (rq .f32) 128 prod (isodd32 junk)
      (prescale (rq .f32) (2 / 2 ^ 126) 25 (x l) (y l)).2.1
      (quot (rq .f32) est (prescale (rq .f32) (2 / 2 ^ 126) 25 (x l) (y l)).2.1
        (rec1 (rq .f32) (prescale (rq .f32) (2 / 2 ^ 126) 25 (x l) (y l)).2.1)))
    (fun l => quot (rq .f32) est (prescale (rq .f32) (2 / 2 ^ 126) 25 (x l) (y l)).2.1
        (rec1 (rq .f32) (prescale (rq .f32) (2 / 2 ^ 126) 25 (x l) (y l)).2.1)) 8
    (fun l => (((prescale (rq .f32) (2 / 2 ^ 126) 25 (x l) (y l)).1, 0), false))
  have e'' := e' l
  have hj := hj.imp_right fun h => h l
  simp only [e] at e'' hj ⊢
  obtain ⟨R, k, eR, hR, hF, hrep⟩ := P.result (E := 128) nearest32 (by norm_num) (by norm_num) odd32 D hf (by norm_num)
    hn (by positivity) hmx hmy (by norm_num) hr rfl rfl hj
  simp only [rec1] at e'' ⊢
  rw [e'', eR]
  exact finish_isRemainder (M := 23) nearest32 A.repx A.repy A.y0 hR hF hrep (.inr rfl)

/-- The scalar and the SIMD functions agree in every lane. -/
theorem remainder_simd_eq_scalar {L : Nat} (junk junk' : ℚ → ℤ) (full fma : Bool) (x y : Fin L → ℚ) (l : Fin L) :
    (Args64 (x l) (y l) → vremainder (rq .f64) junk full fma x y l = xremainder (rq .f64) junk' (x l) (y l)) ∧
    (Args32 (x l) (y l) → vremainderf (rq .f32) junk full fma x y l = xremainderf (rq .f32) junk' (x l) (y l)) := by
  refine ⟨fun A => ?_, fun A => ?_⟩
  · obtain ⟨r, e, h⟩ := vremainder_exact_partial junk full fma A
    obtain ⟨s, e', h'⟩ := xremainder_exact_partial junk' A
    rw [e, e', isRemainder_unique h h']
  · obtain ⟨r, e, h⟩ := vremainderf_exact_partial junk full fma A
    obtain ⟨s, e', h'⟩ := xremainderf_exact_partial junk' A
    rw [e, e', isRemainder_unique h h']

/-- A zero divisor gives NaN in all functions. -/
theorem remainder_zero {L : Nat} (junk : ℚ → ℤ) (full fma : Bool) (x y : Fin L → ℚ) (l : Fin L) (h : y l = 0) :
    xremainder (rq .f64) junk (x l) (y l) = none ∧ xremainderf (rq .f32) junk (x l) (y l) = none ∧
    vremainder (rq .f64) junk full fma x y l = none ∧ vremainderf (rq .f32) junk full fma x y l = none := by
  have h1 := nearest64.zero
  have h2 := nearest32.zero
  refine ⟨?_, ?_, ?_, ?_⟩ <;>
    simp [xremainder, xremainderf, vremainder, vremainderf, Nsimd.Remainder.finish, prescale, h, mul, h1, h2]

set_option exponentiation.threshold 1100 in
example : Args64 (-(2 ^ 60 + 2 ^ 9)) 3 ∧ Args32 (2 ^ 100) (-7) ∧ Args64 (1 / 2 ^ 1000) (3 / 2 ^ 1074) := by
  refine ⟨⟨⟨-(2 ^ 51 + 1), 9, by norm_num, by norm_num, by norm_num⟩, ⟨3, 0, by norm_num, by norm_num, by norm_num⟩,
      by norm_num, ?_, ?_, ?_⟩,
    ⟨⟨1, 100, by norm_num, by norm_num, by norm_num⟩, ⟨-7, 0, by norm_num, by norm_num, by norm_num⟩,
      by norm_num, ?_, ?_, ?_⟩,
    ⟨⟨1, -1000, by norm_num, by norm_num, by norm_num⟩, ⟨3, -1074, by norm_num, by norm_num, by norm_num⟩,
      by norm_num, ?_, ?_, ?_⟩⟩ <;> norm_num [abs_of_pos, abs_of_neg]

/-! ### Large quotients -/

set_option exponentiation.threshold 1100 in
/-- The full claim is false: the first quotient overflows if `x` is larger than `y` by `2^1025` (f64) or `2^129` (f32),
in which case the code multiplies an infinity. -/
theorem quotient_overflows {x y : ℚ} :
    (Rep 53 (-1074) x → 2 / 2 ^ 1022 ≤ |y| → 2 ^ 1025 * |y| ≤ |x| → |x| < 2 ^ 1024 →
      prescale (rq .f64) (2 / 2 ^ 1022) 54 x y = (|x|, |y|, 1) ∧
      2 ^ 1024 ≤ mul (rq .f64) |x| (rec1 (rq .f64) |y|)) ∧
    (Rep 24 (-149) x → 2 / 2 ^ 126 ≤ |y| → 2 ^ 129 * |y| ≤ |x| → |x| < 2 ^ 128 →
      prescale (rq .f32) (2 / 2 ^ 126) 25 x y = (|x|, |y|, 1) ∧
      2 ^ 128 ≤ mul (rq .f32) |x| (rec1 (rq .f32) |y|)) := by
  refine ⟨fun hx hy hxy hmax => ⟨by rw [prescale, if_neg (not_lt.mpr hy)], ?_⟩,
    fun hx hy hxy hmax => ⟨by rw [prescale, if_neg (not_lt.mpr hy)], ?_⟩⟩
  · have hy1 : |y| ≤ 1 := by norm_num at hxy hmax ⊢; linarith
    refine nearest64.product_large (M := 52) (by norm_num) (by norm_num) (rep_abs hx) ?_ ?_ hxy
    · refine le_trans ?_ hy; norm_num
    · refine le_trans (mul_le_of_le_one_right (by positivity) hy1) ?_
      norm_num
  · have hy1 : |y| ≤ 1 := by norm_num at hxy hmax ⊢; linarith
    refine nearest32.product_large (M := 23) (by norm_num) (by norm_num) (rep_abs hx) ?_ ?_ hxy
    · refine le_trans ?_ hy; norm_num
    · refine le_trans (mul_le_of_le_one_right (by positivity) hy1) ?_
      norm_num

set_option exponentiation.threshold 1100 in
example : Rep 53 (-1074) (2 ^ 1023) ∧ (2 : ℚ) / 2 ^ 1022 ≤ |1 / 2 ^ 10| ∧ 2 ^ 1025 * |(1 : ℚ) / 2 ^ 10| ≤ |2 ^ 1023| ∧
    Rep 24 (-149) (2 ^ 127) ∧ 2 ^ 129 * |(1 : ℚ) / 2 ^ 10| ≤ |2 ^ 127| := by
  refine ⟨⟨1, 1023, by norm_num, by norm_num, by norm_num⟩, ?_, ?_, ⟨1, 127, by norm_num, by norm_num, by norm_num⟩, ?_⟩
    <;> norm_num [abs_of_pos]

end Nsimd.Props.Remainder
