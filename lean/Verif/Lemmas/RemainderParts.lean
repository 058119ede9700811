import Verif.Lemmas.RemainderLoop

/-!
Helper lemmas: the functions that the loop of `remainder` calls.
-/

namespace Nsimd.Float
open Nsimd.Props.Round Nsimd.DoubleDouble
open Nsimd.Fmod (truncQ toInt32)
open Nsimd.Remainder (mulsign orsign copysign rintk2 rintfk2 vrint isodd64 visodd isodd32)

variable {p : Nat} {emin : ℤ} {rnd : ℚ → ℚ} {d : ℚ} {f : ℤ}

/-! ### Rounding to an integer -/

/-- `r` rounds to an integer. Proof helper, not code of the repo. -/
def Rint (p : Nat) (emin : ℤ) (r : ℚ → ℚ) : Prop := ∀ v, Rep p emin v → 1 ≤ |v| →
  ∃ z : ℤ, r v = z ∧ |(z : ℚ) - v| ≤ 3 / 4 ∧ (2 ^ p ≤ 2 * |v| → (z : ℚ) = v)

theorem Rint.of_pos {r : ℚ → ℚ} (h1 : ∀ v, Rep p emin v → 1 ≤ v →
      ∃ z : ℤ, r v = z ∧ |(z : ℚ) - v| ≤ 3 / 4 ∧ (2 ^ p ≤ 2 * v → (z : ℚ) = v))
    (h2 : ∀ v, Rep p emin v → 1 ≤ v →
      ∃ z : ℤ, r (-v) = -z ∧ |(z : ℚ) - v| ≤ 3 / 4 ∧ (2 ^ p ≤ 2 * v → (z : ℚ) = v)) : Rint p emin r := by
  intro v hv hv1
  rcases le_total 0 v with h0 | h0
  · rw [abs_of_nonneg h0] at hv1 ⊢
    exact h1 v hv hv1
  · rw [abs_of_nonpos h0] at hv1 ⊢
    obtain ⟨z, a, b, c⟩ := h2 (-v) (rep_neg hv) hv1
    refine ⟨-z, by rw [neg_neg] at a; rw [a]; push_cast; rfl, ?_, fun h => ?_⟩
    · rw [← abs_neg]; push_cast; rwa [neg_sub, sub_neg_eq_add, add_comm, ← sub_neg_eq_add]
    · have := c h; push_cast; linarith

theorem int_of_ge {v : ℚ} (hv : Rep p emin v) (h : 2 ^ p ≤ 2 * |v|) : ∃ z : ℤ, v = z := by
  obtain ⟨j, hj⟩ := mult_of_ge (e := 0) hv (by
    rw [zpow_sub_one₀ (by norm_num)]; norm_num; linarith)
  exact ⟨j, by simpa using hj⟩

theorem vrint_rint : Rint p emin vrint := by
  intro v hv _
  have h1 := Int.floor_le v
  have h2 := Int.lt_floor_add_one v
  have hint : 2 ^ p ≤ 2 * |v| → (⌊v⌋ : ℚ) = v := by
    intro h
    obtain ⟨z, hz⟩ := int_of_ge hv h
    rw [hz, Int.floor_intCast]
  rw [vrint]
  split_ifs with hc
  · refine ⟨⌊v⌋, rfl, ?_, hint⟩
    rw [abs_of_nonpos (by linarith)]
    rcases hc with hc | ⟨hc, -⟩ <;> linarith
  · rw [not_or, not_lt] at hc
    refine ⟨⌊v⌋ + 1, by push_cast; rfl, ?_, fun h => ?_⟩
    · push_cast
      rw [abs_of_nonneg (by linarith)]
      linarith
    · have := hint h
      linarith

theorem Nearest.rintk2_rint {b : Nat} (h : Nearest (b + 1) emin rnd) (hb : 1 ≤ b) (hme : emin ≤ 0)
    (hodd : ∀ x, rnd (-x) = -rnd x) : Rint (b + 1) emin (rintk2 rnd b) := by
  have hb0 : (0 : ℚ) < 2 ^ b := by positivity
  have hpb : (2 : ℚ) ^ (b + 1) = 2 * 2 ^ b := by rw [pow_succ]; ring
  have key : ∀ v, Rep (b + 1) emin v → 1 ≤ v → ∃ z : ℤ, rintk2 rnd b v = z ∧ rintk2 rnd b (-v) = -z ∧
      |(z : ℚ) - v| ≤ 3 / 4 ∧ (2 ^ (b + 1) ≤ 2 * v → (z : ℚ) = v) := by
    intro v hv hv1
    simp only [rintk2, mulsign, orsign, abs_neg, abs_of_pos (by linarith : 0 < v), if_neg (by linarith : ¬ v < 0),
      if_pos (by linarith : -v < 0), add, sub]
    by_cases hc : 2 ^ b < v
    · rw [if_pos hc, if_pos hc]
      obtain ⟨z, hz⟩ := int_of_ge hv (by rw [abs_of_pos (by linarith), hpb]; linarith)
      exact ⟨z, hz, by rw [hz], by rw [hz]; norm_num, fun _ => hz.symm⟩
    · rw [if_neg hc, if_neg hc]
      rw [not_lt] at hc
      have h1 := h.half_ulp (by omega) hme (x := v + 2 ^ b) (by
        rw [abs_of_pos (by linarith), zpow_zero, mul_one, hpb]; linarith)
      rw [zpow_zero] at h1
      have h1' := _root_.abs_le.mp h1
      have hlo : (2 : ℚ) ^ b ≤ rnd (v + 2 ^ b) := by
        have := h.mono (show (2 : ℚ) ^ b ≤ v + 2 ^ b by linarith)
        rwa [h.fix (by
          have := rep_pow (p := b + 1) (emin := emin) (e := b) (by omega) (by omega)
          rwa [zpow_natCast] at this)] at this
      obtain ⟨j, hj⟩ := int_of_ge (h.rep (v + 2 ^ b)) (by
        rw [abs_of_pos (by linarith), hpb]; linarith)
      have e : rnd (v + 2 ^ b) - 2 ^ b = ((j - 2 ^ b : ℤ) : ℚ) := by rw [hj]; push_cast; ring
      have hz : |((j - 2 ^ b : ℤ) : ℚ) - v| ≤ 3 / 4 := by
        rw [← e, _root_.abs_le]; constructor <;> linarith
      have hz' := _root_.abs_le.mp hz
      have hfix : rnd (rnd (v + 2 ^ b) - 2 ^ b) = ((j - 2 ^ b : ℤ) : ℚ) := by
        rw [e]
        refine h.fix (rep_of_int (by omega) hme ?_)
        rw [abs_of_pos (by linarith), hpb]
        have : (1 : ℚ) ≤ 2 ^ b := one_le_pow₀ (by norm_num)
        linarith
      refine ⟨j - 2 ^ b, hfix, ?_, hz, fun hge => ?_⟩
      · rw [show -v + -2 ^ b = -(v + 2 ^ b) by ring, hodd, show -rnd (v + 2 ^ b) - -2 ^ b = -(rnd (v + 2 ^ b) - 2 ^ b)
          by ring, hodd, hfix, abs_neg, abs_of_pos (by linarith)]
      · have hv2 : v = 2 ^ b := le_antisymm hc (by rw [hpb] at hge; linarith)
        rw [← e, hv2, ← two_mul, ← hpb, h.fix, hpb]
        · ring
        · have := rep_pow (p := b + 1) (emin := emin) (e := ((b + 1 : Nat) : ℤ)) (by omega) (by omega)
          rwa [zpow_natCast] at this
  exact Rint.of_pos (fun v hv h1 => let ⟨z, a, _, c, d⟩ := key v hv h1; ⟨z, a, c, d⟩)
    fun v hv h1 => let ⟨z, _, a, c, d⟩ := key v hv h1; ⟨z, a, c, d⟩

theorem toInt32_neg_floor {junk : ℚ → ℤ} {y : ℚ} (h : 0 < y) (h' : y < 2 ^ 31) : toInt32 junk (-y) = -⌊y⌋ := by
  have e : truncQ (-y) = -⌊y⌋ := by rw [truncQ, if_pos (by linarith), Int.ceil_neg]
  rw [toInt32, e, if_pos]
  have h1 : 0 ≤ ⌊y⌋ := Int.floor_nonneg.mpr h.le
  have h2 : ⌊y⌋ < 2 ^ 31 := by rw [Int.floor_lt]; exact_mod_cast h'
  omega

theorem rintfk2_eq {junk : ℚ → ℤ} {d x fr : ℚ} {T : ℤ} (hx : rnd (d + 1 / 2) = x) (hT : toInt32 junk x = T)
    (hfr : rnd (x - T) = fr) : rintfk2 rnd junk d = if 2 ^ 23 ≤ |d| then d else
      copysign (rnd (x - if fr < 0 ∨ (fr = 0 ∧ T % 2 ≠ 0) then rnd (fr + 1) else fr)) d := by
  subst hx hT hfr; rfl

theorem Nearest.rintfk2_rint (h : Nearest 24 emin rnd) (hme : emin ≤ -24) (hodd : ∀ x, rnd (-x) = -rnd x)
    (junk : ℚ → ℤ) : Rint 24 emin (rintfk2 rnd junk) := by
  have h1r : Rep 24 emin (1 : ℚ) := by simpa using rep_pow (p := 24) (emin := emin) (e := 0) (by omega) (by omega)
  have e24 : (2 : ℚ) ^ 24 = 2 * 2 ^ 23 := by norm_num
  -- a sum with one half
  have near : ∀ {v s : ℚ}, Rep 24 emin v → v < 2 ^ 23 → 1 ≤ v → (s = v + 1 / 2 ∨ s = v - 1 / 2) →
      |s - rnd s| ≤ 1 / 4 ∧ 1 / 2 ≤ rnd s ∧ rnd s ≤ 2 ^ 23 := by
    intro v s hv hlt hv1 hs
    have hv2 : v ≤ 2 ^ 23 - 1 / 2 := by
      by_contra hc
      rw [not_le] at hc
      obtain ⟨j, hj⟩ := mult_of_ge (e := -1) hv (by
        rw [abs_of_pos (by linarith)]; norm_num at hc ⊢; linarith)
      rw [hj] at hlt hc
      have e : (2 : ℚ) ^ (-1 : ℤ) = 1 / 2 := by norm_num
      rw [e] at hlt hc
      have a1 : (j : ℚ) < 2 ^ 24 := by norm_num at *; linarith
      have a2 : (2 ^ 24 - 1 : ℚ) < j := by norm_num at *; linarith
      have a1' : j < 2 ^ 24 := by exact_mod_cast a1
      have a2' : (2 ^ 24 - 1 : ℤ) < j := by exact_mod_cast a2
      omega
    have hs1 : 1 / 2 ≤ s := by rcases hs with rfl | rfl <;> linarith
    have hs2 : s ≤ 2 ^ 23 := by rcases hs with rfl | rfl <;> linarith
    refine ⟨?_, ?_, ?_⟩
    · have := h.half_ulp (by omega) (e := -1) (by omega) (x := s) (by
        rw [abs_of_pos (by linarith)]; norm_num at *; linarith)
      norm_num at this ⊢
      exact this
    · have := h.mono hs1
      rwa [h.fix (by
        have := rep_pow (p := 24) (emin := emin) (e := -1) (by omega) (by omega)
        norm_num at this ⊢; exact this)] at this
    · have := h.mono hs2
      rwa [h.fix (show Rep 24 emin (2 ^ 23) by
        have := rep_pow (p := 24) (emin := emin) (e := 23) (by omega) (by omega)
        exact_mod_cast this)] at this
  have frac : ∀ {y : ℚ}, Rep 24 emin y → 1 / 2 ≤ y → y ≤ 2 ^ 23 → Rep 24 emin (y - ⌊y⌋) ∧ Rep 24 emin (⌊y⌋ : ℚ) ∧
      Rep 24 emin (1 - (y - ⌊y⌋)) ∧ Rep 24 emin ((⌊y⌋ + 1 : ℤ) : ℚ) := by
    intro y hy hlo hhi
    have h0 : (0 : ℚ) ≤ (⌊y⌋ : ℚ) := by exact_mod_cast Int.floor_nonneg.mpr (by linarith : (0 : ℚ) ≤ y)
    have h1 := Int.floor_le y
    have h2 := Int.lt_floor_add_one y
    refine ⟨rep_sub_int (by norm_num) (by omega) hy (by linarith) h0 h1, rep_floor (by norm_num) (by omega) hy
      (by linarith), ?_, rep_of_int (by norm_num) (by omega) ?_⟩
    · have hm : Mult (-24) y := mult_of_ge hy (by
        rw [abs_of_pos (by linarith)]; norm_num at hlo ⊢; exact hlo)
      have hz : Mult (-24) (⌊y⌋ : ℚ) := Mult.le (f := 0) ⟨⌊y⌋, by simp⟩ (by norm_num)
      have ho : Mult (-24) (1 : ℚ) := Mult.le (f := 0) ⟨1, by simp⟩ (by norm_num)
      refine rep_of_mult (e := -24) (by norm_num) (by omega) (ho.sub (hm.sub hz)) ?_
      rw [abs_of_pos (by linarith)]; norm_num
    · rw [abs_of_pos (by push_cast; linarith)]; push_cast; linarith
  have big : ∀ v, Rep 24 emin v → 1 ≤ v → 2 ^ 23 ≤ v → ∃ z : ℤ, v = z := fun v hv _ hc =>
    int_of_ge hv (by rw [abs_of_pos (by linarith)]; linarith)
  refine Rint.of_pos (fun v hv hv1 => ?_) (fun v hv hv1 => ?_)
  · by_cases hc : 2 ^ 23 ≤ v
    · rw [rintfk2_eq rfl rfl rfl, abs_of_pos (by linarith : 0 < v), if_pos hc]
      obtain ⟨z, hz⟩ := big v hv hv1 hc
      exact ⟨z, hz, by rw [hz]; norm_num, fun _ => hz.symm⟩
    have hc0 := hc
    rw [not_le] at hc
    obtain ⟨n1, n2, n3⟩ := near hv hc hv1 (.inl rfl)
    have n1' := _root_.abs_le.mp n1
    set y := rnd (v + 1 / 2)
    obtain ⟨f1, f2, f3, f4⟩ := frac (h.rep _) n2 n3
    have hy : toInt32 junk y = ⌊y⌋ := toInt32_floor (by linarith) (by linarith)
    have g0 : (0 : ℚ) ≤ (⌊y⌋ : ℚ) := by exact_mod_cast Int.floor_nonneg.mpr (by linarith : (0 : ℚ) ≤ y)
    have g1 := Int.floor_le y
    have g2 := Int.lt_floor_add_one y
    rw [rintfk2_eq rfl hy (h.fix f1), abs_of_pos (by linarith : 0 < v), if_neg hc0, copysign,
      if_neg (by linarith : ¬ v < 0)]
    split_ifs with hodd'
    · rcases hodd' with hneg | ⟨h0, ho⟩
      · linarith
      · rw [h0, zero_add, h.fix h1r]
        have hyz : y = ⌊y⌋ := by linarith
        have hpos : (1 : ℚ) ≤ (⌊y⌋ : ℚ) := by
          have : (0 : ℚ) < (⌊y⌋ : ℚ) := by rw [← hyz]; linarith
          have : 0 < ⌊y⌋ := by exact_mod_cast this
          exact_mod_cast this
        have e : y - 1 = ((⌊y⌋ - 1 : ℤ) : ℚ) := by rw [hyz]; push_cast [Int.floor_intCast]; ring
        refine ⟨⌊y⌋ - 1, ?_, ?_, fun hge => by rw [e24] at hge; linarith⟩
        · rw [e, h.fix (rep_of_int (by norm_num) (by omega) (by
            push_cast
            rw [abs_of_nonneg (by linarith)]; linarith)), abs_of_nonneg (by push_cast; linarith)]
        · rw [← e, _root_.abs_le]; constructor <;> linarith
    · refine ⟨⌊y⌋, ?_, ?_, fun hge => by rw [e24] at hge; linarith⟩
      · rw [sub_sub_cancel, h.fix f2, abs_of_nonneg g0]
      · rw [_root_.abs_le]; constructor <;> linarith
  · by_cases hc : 2 ^ 23 ≤ v
    · rw [rintfk2_eq rfl rfl rfl, abs_neg, abs_of_pos (by linarith : 0 < v), if_pos hc]
      obtain ⟨z, hz⟩ := big v hv hv1 hc
      exact ⟨z, by rw [hz], by rw [hz]; norm_num, fun _ => hz.symm⟩
    have hc0 := hc
    rw [not_le] at hc
    obtain ⟨n1, n2, n3⟩ := near hv hc hv1 (.inr rfl)
    have n1' := _root_.abs_le.mp n1
    have hx : rnd (-v + 1 / 2) = -rnd (v - 1 / 2) := by rw [show -v + 1 / 2 = -(v - 1 / 2) by ring, hodd]
    set y := rnd (v - 1 / 2)
    obtain ⟨f1, f2, f3, f4⟩ := frac (h.rep _) n2 n3
    have hy : toInt32 junk (-y) = -⌊y⌋ := toInt32_neg_floor (by linarith) (by linarith)
    have g0 : (0 : ℚ) ≤ (⌊y⌋ : ℚ) := by exact_mod_cast Int.floor_nonneg.mpr (by linarith : (0 : ℚ) ≤ y)
    have g1 := Int.floor_le y
    have g2 := Int.lt_floor_add_one y
    have e1 : -y - ((-⌊y⌋ : ℤ) : ℚ) = -(y - ⌊y⌋) := by push_cast; ring
    rw [rintfk2_eq hx hy (by rw [e1, hodd, h.fix f1]), abs_neg, abs_of_pos (by linarith : 0 < v), if_neg hc0, copysign,
      if_pos (by linarith : -v < 0)]
    split_ifs with hodd'
    · refine ⟨⌊y⌋ + 1, ?_, ?_, fun hge => by rw [e24] at hge; linarith⟩
      · rw [show -(y - (⌊y⌋ : ℚ)) + 1 = 1 - (y - ⌊y⌋) by ring, h.fix f3,
          show -y - (1 - (y - (⌊y⌋ : ℚ))) = -((⌊y⌋ + 1 : ℤ) : ℚ) by push_cast; ring, hodd, h.fix f4, abs_neg,
          abs_of_pos (by push_cast; linarith)]
      · push_cast
        rw [_root_.abs_le]; constructor <;> linarith
    · rw [not_or, not_lt] at hodd'
      have hyz : y = ⌊y⌋ := by linarith
      refine ⟨⌊y⌋, ?_, ?_, fun hge => by rw [e24] at hge; linarith⟩
      · rw [show -y - -(y - (⌊y⌋ : ℚ)) = -(⌊y⌋ : ℚ) by ring, hodd, h.fix f2, abs_neg, abs_of_nonneg g0]
      · rw [← hyz, _root_.abs_le]; constructor <;> linarith

/-! ### The estimates -/

theorem Rint.guess {r : ℚ → ℚ} (h : Rint p emin r) {v : ℚ} (hv : Rep p emin v) (hv1 : 1 ≤ v) :
    Guess p v (r v) ∧ Guess p v (-r (-v)) := by
  obtain ⟨z, a, b, c⟩ := h v hv (by rwa [abs_of_pos (by linarith)])
  obtain ⟨z', a', b', c'⟩ := h (-v) (rep_neg hv) (by rwa [abs_neg, abs_of_pos (by linarith)])
  rw [abs_of_pos (by linarith)] at c
  rw [abs_neg, abs_of_pos (by linarith)] at c'
  refine ⟨⟨z, by linarith, c, .inl a⟩, ⟨-z', ?_, fun h => ?_, .inl (by rw [a']; push_cast; rfl)⟩⟩
  · rw [← abs_neg]; push_cast
    rw [show -(-(z' : ℚ) - v) = z' - -v by ring]; linarith
  · have := c' h; push_cast; linarith

theorem removelsb_neg {z : ℚ} (hz : 0 < z) : Remainder.removelsb (-z) = -Remainder.removelsb z := by
  rw [Remainder.removelsb, if_pos (by linarith), Remainder.removelsb, if_neg (by linarith), abs_neg, abs_of_pos hz]

/-- `removelsb` of a rounded number. -/
theorem Rint.lsb {r : ℚ → ℚ} (h : Rint 53 (-1074) r) {v : ℚ} (hv : Rep 53 (-1074) v) (hv1 : 1 ≤ |v|) :
    ∃ z : ℤ, 0 < (z : ℚ) ∧ Rep 53 (-1074) (z : ℚ) ∧ |(z : ℚ) - (|v|)| ≤ 1 ∧ (2 ^ 53 ≤ 2 * |v| → (z : ℚ) = |v|) ∧
      Lsb 53 z (Remainder.removelsb z) ∧
      Remainder.removelsb (r v) = if v < 0 then -Remainder.removelsb z else Remainder.removelsb z := by
  obtain ⟨z, a, b, c⟩ := h v hv hv1
  have b' := abs_le.mp b
  have key : ∀ z : ℤ, 0 < (z : ℚ) → |(z : ℚ) - (|v|)| ≤ 3 / 4 → (2 ^ 53 ≤ 2 * |v| → (z : ℚ) = |v|) →
      Rep 53 (-1074) (z : ℚ) ∧ Lsb 53 z (Remainder.removelsb z) := by
    intro z hz hb hc
    have G : Guess 53 |v| z := ⟨z, by linarith, hc, .inl rfl⟩
    have hva : Rep 53 (-1074) |v| := rep_abs (M := 52) hv
    obtain ⟨-, hr, -⟩ := G.spec (by norm_num) (by norm_num) hva hv1
    refine ⟨hr, ?_⟩
    rw [Remainder.removelsb, if_neg (by linarith)]
    exact removelsb_lsb (M := 52) (by norm_num) (by norm_num) hr hz.le ⟨z, by simp⟩
  rcases lt_or_ge v 0 with h0 | h0
  · rw [abs_of_neg h0] at hv1 key c ⊢
    have hz : 0 < ((-z : ℤ) : ℚ) := by push_cast; linarith
    have e : ((-z : ℤ) : ℚ) - -v = -(z - v) := by push_cast; ring
    have c' : 2 ^ 53 ≤ 2 * -v → ((-z : ℤ) : ℚ) = -v := fun h => by have := c h; push_cast; linarith
    obtain ⟨k1, k2⟩ := key (-z) hz (by rw [e, abs_neg]; exact b) c'
    refine ⟨-z, hz, k1, by rw [e, abs_neg]; linarith, c', k2, ?_⟩
    rw [if_pos h0, a, ← removelsb_neg hz]; push_cast; rw [neg_neg]
  · rw [abs_of_nonneg h0] at hv1 key c ⊢
    have hz : 0 < (z : ℚ) := by linarith
    obtain ⟨k1, k2⟩ := key z hz b c
    exact ⟨z, hz, k1, by linarith, c, k2, by rw [if_neg (not_lt.mpr h0), a]⟩

theorem Rint.guess_lsb {r : ℚ → ℚ} (h : Rint 53 (-1074) r) {v : ℚ} (hv : Rep 53 (-1074) v) (hv1 : 1 ≤ v) :
    Guess 53 v (Remainder.removelsb (r v)) ∧ Guess 53 v (-Remainder.removelsb (r (-v))) := by
  constructor
  · obtain ⟨z, -, -, a, b, c, d⟩ := h.lsb hv (by rwa [abs_of_pos (by linarith)])
    rw [abs_of_pos (by linarith : 0 < v)] at a b
    rw [d, if_neg (by linarith)]
    exact ⟨z, a, b, .inr c⟩
  · obtain ⟨z, -, -, a, b, c, d⟩ := h.lsb (rep_neg hv) (by rwa [abs_neg, abs_of_pos (by linarith)])
    rw [abs_neg, abs_of_pos (by linarith : 0 < v)] at a b
    rw [d, if_pos (by linarith), neg_neg]
    exact ⟨z, a, b, .inr c⟩

/-- The quotients without the last bit have an even significand. -/
theorem Rint.evenSig {r : ℚ → ℚ} (h : Rint 53 (-1074) r) {v : ℚ} (hv : Rep 53 (-1074) v) (hv1 : 1 ≤ |v|) :
    EvenSig 53 |Remainder.removelsb (r v)| := by
  obtain ⟨z, hz, hr, -, -, c, d⟩ := h.lsb hv hv1
  obtain ⟨J, ev⟩ := IsInt.lsb (M := 52) (emin := -1074) (by norm_num) (by norm_num) ⟨⟨z, by simp⟩, hz.le, hr⟩ c
  rw [d]
  split_ifs
  · rwa [abs_neg, abs_of_nonneg J.nonneg]
  · rwa [abs_of_nonneg J.nonneg]

/-! ### Products -/

theorem upper_neg (M : Nat) (emin : ℤ) (b : Nat) (x : ℚ) (hx : 0 < x) :
    Fmod.upper M emin b (-x) = -Fmod.upper M emin b x := by
  simp only [Fmod.upper, abs_neg, if_pos (by linarith : -x < 0), if_neg (by linarith : ¬ x < 0)]

theorem mul11_neg (hodd : ∀ x, rnd (-x) = -rnd x) {up : ℚ → ℚ} {x : ℚ} (hup : up (-x) = -up x) (y : ℚ) :
    NoFma.mul11 rnd up (-x) y = neg2 (NoFma.mul11 rnd up x y) := by
  have e1 : ∀ x y : ℚ, rnd (-x + -y) = -rnd (x + y) := fun x y => by rw [← hodd]; congr 1; ring
  have e2 : ∀ x y : ℚ, rnd (-x - -y) = -rnd (x - y) := fun x y => by rw [← hodd]; congr 1; ring
  simp only [NoFma.mul11, addN, mul, add, sub, neg2, hup, neg_mul, hodd, e1, e2]

theorem Nearest.upper_mul' {M : Nat} (h : Nearest (M + 1) emin rnd) (hodd : ∀ x, rnd (-x) = -rnd x) {b : Nat}
    (h1 : M + 1 ≤ 2 * b) (h2 : 2 * b ≤ M + 2) (h3 : b + 3 ≤ M + 1) (hmin : emin ≤ -((M + 1 : Nat) : ℤ))
    (D : Divisor (M + 1) emin d f) {q : ℚ} (hi : Mult 0 q) (hr : Rep (M + 1) emin q)
    (hev : 2 * b = M + 1 ∨ EvenSig (M + 1) |q|) :
    NoFma.mul11 rnd (Fmod.upper M emin b) q (-d) = (rnd (q * -d), q * -d - rnd (q * -d)) := by
  rcases le_or_gt 0 q with h0 | h0
  · rw [abs_of_nonneg h0] at hev
    exact h.upper_mul h1 h2 h3 hmin D ⟨hi, h0, hr⟩ hev
  · rw [abs_of_neg h0] at hev
    have := h.upper_mul h1 h2 h3 hmin D (q := -q) ⟨hi.neg, by linarith, rep_neg hr⟩ hev
    have e := mul11_neg (rnd := rnd) hodd (upper_neg M emin b (-q) (by linarith)) (-d)
    rw [neg_neg] at e
    rw [e, this, neg2, neg_mul, hodd]
    ext <;> simp; ring

/-! ### Parity -/

theorem even_of_ge {j : ℤ} (hj : Rep p emin (j : ℚ)) (h : 2 ^ p ≤ |(j : ℚ)|) : j % 2 = 0 := by
  obtain ⟨i, hi⟩ := mult_of_ge (e := 1) hj (by simpa using h)
  have : j = i * 2 := by
    have : (j : ℚ) = (i * 2 : ℤ) := by rw [hi]; push_cast; norm_num
    exact_mod_cast this
  omega

theorem truncQ_near (x : ℚ) : |x - truncQ x| < 1 ∧ |(truncQ x : ℚ)| ≤ |x| := by
  rw [truncQ]
  have h1 := Int.floor_le x
  have h2 := Int.lt_floor_add_one x
  have h3 := Int.le_ceil x
  have h4 := Int.ceil_lt_add_one x
  split_ifs with h0
  · have : (⌈x⌉ : ℚ) ≤ 0 := by exact_mod_cast Int.ceil_le.mpr (by simpa using h0.le)
    rw [abs_of_nonpos (by linarith), abs_of_nonpos this, abs_of_neg h0]
    constructor <;> linarith
  · have : (0 : ℚ) ≤ (⌊x⌋ : ℚ) := by exact_mod_cast Int.floor_nonneg.mpr (not_lt.mp h0)
    rw [abs_of_nonneg (by linarith), abs_of_nonneg this, abs_of_nonneg (not_lt.mp h0)]
    constructor <;> linarith

theorem truncQ_int (j : ℤ) : truncQ (j : ℚ) = j := by simp [truncQ]

theorem toInt32_of_abs {junk : ℚ → ℤ} {x : ℚ} (h : |x| < 2 ^ 31) : toInt32 junk x = truncQ x := by
  rw [toInt32, if_pos]
  have h1 := (truncQ_near x).2.trans_lt h
  have h2 : |truncQ x| < 2 ^ 31 := by exact_mod_cast h1
  have := abs_lt.mp h2
  constructor <;> omega

theorem isodd32_spec (junk : ℚ → ℤ) {j : ℤ} (hj : Rep 24 emin (j : ℚ)) : isodd32 junk j = decide (j % 2 ≠ 0) := by
  rw [isodd32]
  rcases lt_or_ge |(j : ℚ)| (2 ^ 24) with hc | hc
  · rw [toInt32_of_abs (by linarith), truncQ_int]; simp [hc]
  · simp [even_of_ge hj hc, hc]

theorem Nearest.visodd_spec (h : Nearest p emin rnd) (hp : 1 ≤ p) (hme : emin ≤ -1) {j : ℤ} (hj : Rep p emin (j : ℚ)) :
    visodd rnd j = decide (j % 2 ≠ 0) := by
  have hr : Rep p emin ((j : ℚ) * (1 / 2)) := by
    rcases le_or_gt |(j : ℚ)| (2 ^ p) with hc | hc
    · refine rep_of_mult (e := -1) hp hme ⟨j, by norm_num⟩ ?_
      rw [abs_mul]; norm_num; linarith
    · obtain ⟨e, he, ⟨i, hi⟩, hlt⟩ := rep_exp hj
      have he1 : 0 < e := by
        by_contra hcon
        have : (2 : ℚ) ^ e ≤ 1 := by
          rw [show (1 : ℚ) = 2 ^ (0 : ℤ) by norm_num, zpow_le_iff]; omega
        have : (2 : ℚ) ^ p * 2 ^ e ≤ 2 ^ p * 1 := by gcongr
        linarith
      refine rep_of_mult (e := e - 1) hp (by omega) ⟨i, by rw [hi, zpow_sub_one₀ (by norm_num)]; ring⟩ ?_
      rw [abs_mul, zpow_sub_one₀ (by norm_num)]; norm_num; linarith
  rw [visodd, mul, h.fix hr]
  rcases Int.emod_two_eq j with h0 | h0
  · obtain ⟨i, rfl⟩ : ∃ i, j = 2 * i := ⟨j / 2, by omega⟩
    have : ((2 * i : ℤ) : ℚ) * (1 / 2) = (i : ℤ) := by push_cast; ring
    rw [this, truncQ_int]; simp
  · have : (truncQ ((j : ℚ) * (1 / 2)) : ℚ) ≠ (j : ℚ) * (1 / 2) := by
      intro hc
      have : (j : ℚ) = (2 * truncQ ((j : ℚ) * (1 / 2)) : ℤ) := by push_cast; linarith
      have : j = 2 * truncQ ((j : ℚ) * (1 / 2)) := by exact_mod_cast this
      omega
    rw [decide_eq_true this, h0]; rfl

theorem Nearest.isodd64_spec (h : Nearest 53 emin rnd) (hme : emin ≤ -31) (junk : ℚ → ℤ) {j : ℤ}
    (hj : Rep 53 emin (j : ℚ)) : isodd64 rnd junk j = decide (j % 2 ≠ 0) := by
  rcases lt_or_ge |(j : ℚ)| (2 ^ 53) with hc | hc
  swap
  · simp [isodd64, even_of_ge hj hc, not_lt.mpr hc]
  have e1 : rnd ((j : ℚ) * (1 / 2 ^ 31)) = (j : ℚ) * (1 / 2 ^ 31) := by
    refine h.fix (rep_of_mult (e := -31) (by norm_num) hme ⟨j, by norm_num⟩ ?_)
    rw [abs_mul]; norm_num at hc ⊢; linarith
  have hx : |(j : ℚ) * (1 / 2 ^ 31)| < 2 ^ 22 := by rw [abs_mul]; norm_num at hc ⊢; linarith
  have e2 : toInt32 junk ((j : ℚ) * (1 / 2 ^ 31)) = truncQ ((j : ℚ) * (1 / 2 ^ 31)) :=
    toInt32_of_abs (by linarith)
  obtain ⟨t1, t2⟩ := truncQ_near ((j : ℚ) * (1 / 2 ^ 31))
  generalize hT : truncQ ((j : ℚ) * (1 / 2 ^ 31)) = T at *
  have e3 : rnd (2 ^ 31 * (T : ℚ)) = ((2 ^ 31 * T : ℤ) : ℚ) := by
    have : Rep 53 emin ((2 ^ 31 * T : ℤ) : ℚ) := rep_of_int (by norm_num) (by omega) (by
      push_cast
      rw [abs_mul]; norm_num at *; linarith)
    rw [← h.fix this]; push_cast; rfl
  have hlt : |((j - 2 ^ 31 * T : ℤ) : ℚ)| < 2 ^ 31 := by
    have : ((j - 2 ^ 31 * T : ℤ) : ℚ) = 2 ^ 31 * ((j : ℚ) * (1 / 2 ^ 31) - T) := by push_cast; ring
    rw [this, abs_mul]; norm_num at *; linarith
  have e4 : rnd ((j : ℚ) - ((2 ^ 31 * T : ℤ) : ℚ)) = ((j - 2 ^ 31 * T : ℤ) : ℚ) := by
    rw [← Int.cast_sub]
    exact h.fix (rep_of_int (by norm_num) (by omega) (by linarith))
  simp only [isodd64, mul, sub, e1, e2, e3, e4, toInt32_of_abs hlt, truncQ_int]
  have : (j - 2 ^ 31 * T) % 2 = j % 2 := by omega
  rw [this]
  simp [hc]

/-! ### The functions of the code -/

theorem evenSig_small {q : ℚ} (h : 2 * |q| < 2 ^ p) : EvenSig p |q| := .inl h

/-- f64 without fused multiply-add. -/
theorem Rint.parts64 (h : Nearest 53 (-1074) rnd) (hodd : ∀ x, rnd (-x) = -rnd x) (D : Divisor 53 (-1074) d f)
    {r : ℚ → ℚ} (hr : Rint 53 (-1074) r) {isodd : ℚ → Bool}
    (ho : ∀ j : ℤ, Rep 53 (-1074) (j : ℚ) → isodd j = decide (j % 2 ≠ 0)) :
    Parts 53 (-1074) rnd d (fun v => Remainder.removelsb (r v)) (Fmod.ddmul rnd) isodd where
  guess _ hv h1 := (hr.guess_lsb hv h1).1
  guess_neg _ hv h1 := (hr.guess_lsb hv h1).2
  prod q hi hq hc := by
    refine h.upper_mul' (M := 52) hodd (by norm_num) (by norm_num) (by norm_num) (by norm_num) D hi hq (.inr ?_)
    rcases hc with hc | ⟨v, rfl, hv, hv1⟩
    · exact evenSig_small hc
    · exact hr.evenSig hv hv1
  odd := ho

/-- f32 without fused multiply-add. -/
theorem Rint.parts32 (h : Nearest 24 (-149) rnd) (hodd : ∀ x, rnd (-x) = -rnd x) (D : Divisor 24 (-149) d f)
    {r : ℚ → ℚ} (hr : Rint 24 (-149) r) {isodd : ℚ → Bool}
    (ho : ∀ j : ℤ, Rep 24 (-149) (j : ℚ) → isodd j = decide (j % 2 ≠ 0)) :
    Parts 24 (-149) rnd d r (Fmod.dfmul rnd) isodd where
  guess _ hv h1 := (hr.guess hv h1).1
  guess_neg _ hv h1 := (hr.guess hv h1).2
  prod q hi hq _ := h.upper_mul' (M := 23) hodd (by norm_num) (by norm_num) (by norm_num) (by norm_num) D hi hq
    (.inl (by norm_num))
  odd := ho

/-- With fused multiply-add. -/
theorem Rint.partsFma (h : Nearest p emin rnd) (hp : 1 ≤ p) (D : Divisor p emin d f)
    {r : ℚ → ℚ} (hr : Rint p emin r) {isodd : ℚ → Bool}
    (ho : ∀ j : ℤ, Rep p emin (j : ℚ) → isodd j = decide (j % 2 ≠ 0)) :
    Parts p emin rnd d r (Fma.mul11 rnd) isodd where
  guess _ hv h1 := (hr.guess hv h1).1
  guess_neg _ hv h1 := (hr.guess hv h1).2
  prod q hi hq _ := h.fma_int hp hq hi D.hf D.hm.neg (by rw [abs_neg, abs_of_pos D.pos]; exact D.hi)
  odd := ho

/-! ### Scaling and signs -/

/-- The scaled operands. -/
theorem rprescale_spec {M : Nat} (h : Nearest (M + 1) emin rnd) {c : ℚ} (hc : c = 2 * (2 ^ M * 2 ^ emin)) {j : Nat}
    (hj : M + 1 ≤ j) {x y : ℚ} (hx : Rep (M + 1) emin x) (hy : Rep (M + 1) emin y) (hy0 : y ≠ 0) :
    ∃ i : Nat, Fmod.prescale rnd c j x y = (|x| * 2 ^ i, |y| * 2 ^ i, 1 / 2 ^ i) ∧
      (∃ f, Divisor (M + 1) emin (|y| * 2 ^ i) f ∧ emin + 1 ≤ f) ∧ Rep (M + 1) emin (|x| * 2 ^ i) ∧
      (i = 0 ∨ i = j ∧ |y| < c) := by
  have hpe := two_zpow_pos emin
  have hya := rep_abs hy
  have hxa := rep_abs hx
  have ext : ∀ {d : ℚ}, Rep (M + 1) emin d → 2 * (2 ^ M * 2 ^ emin) ≤ d → ∃ f, Divisor (M + 1) emin d f ∧ emin + 1 ≤ f := by
    intro d hd hge
    have hpos : (0 : ℚ) < 2 ^ M * 2 ^ emin := by positivity
    obtain ⟨f, D⟩ := Divisor.of_rep hd (by linarith)
    refine ⟨f, D, ?_⟩
    have h1 : (2 : ℚ) ^ (M + 1) * 2 ^ emin < 2 ^ (M + 1) * 2 ^ f := by
      refine lt_of_le_of_lt ?_ D.hi
      rw [pow_succ]; linarith
    have := zpow_lt_iff.mp (lt_of_mul_lt_mul_left h1 (by positivity))
    omega
  rw [Fmod.prescale]
  split
  · rename_i hlt
    have r1 := rep_scale (by omega) j hxa
    have r2 := rep_scale (by omega) j hya
    refine ⟨j, by simp only [mul]; rw [h.fix r1, h.fix r2], ext r2 ?_, r1, .inr ⟨rfl, hlt⟩⟩
    have h1 : (2 : ℚ) ^ emin ≤ |y| := by
      obtain ⟨e, he, ⟨a, ha⟩, -⟩ := rep_exp hya
      have hpe' := two_zpow_pos e
      have h0 : 0 < |y| := abs_pos.mpr hy0
      have : (2 : ℚ) ^ emin ≤ 2 ^ e := zpow_le_iff.mpr he
      rw [ha] at h0 ⊢
      have : (0 : ℚ) < a := pos_of_mul_pos_left h0 hpe'.le
      have : 0 < a := by exact_mod_cast this
      have : (1 : ℚ) ≤ a := by exact_mod_cast this
      nlinarith
    have h2 : (2 : ℚ) ^ (M + 1) ≤ 2 ^ j := pow_le_pow_right₀ (by norm_num) hj
    calc 2 * ((2 : ℚ) ^ M * 2 ^ emin) = 2 ^ (M + 1) * 2 ^ emin := by rw [pow_succ]; ring
      _ ≤ 2 ^ j * |y| := by gcongr
      _ = _ := by ring
  · rename_i hge
    rw [not_lt, hc] at hge
    refine ⟨0, by simp, ?_, by simpa using hxa, .inl rfl⟩
    rw [pow_zero, mul_one]
    exact ext hya hge

/-- The end of the functions. -/
theorem rfinish_spec {M : Nat} (h : Nearest (M + 1) emin rnd) {x y v R : ℚ} {i : Nat} {k : ℤ}
    (hx : Rep (M + 1) emin x) (hy : Rep (M + 1) emin y) (hy0 : y ≠ 0) (hR : R = |x| * 2 ^ i - k * (|y| * 2 ^ i))
    (hF : Final (|y| * 2 ^ i) R k) (hr : Rep (M + 1) emin R) (hv : v = R ∨ v = add rnd R 0) :
    ∃ ret, Remainder.finish rnd x (|y| * 2 ^ i) (1 / 2 ^ i) v = some ret ∧
      ∃ n : ℤ, ret = x - n * y ∧ |ret| ≤ |y| / 2 ∧ (|ret| = |y| / 2 → n % 2 = 0) := by
  have hi : (0 : ℚ) < 2 ^ i := by positivity
  have hya : 0 < |y| := abs_pos.mpr hy0
  have hd0 : |y| * 2 ^ i ≠ 0 := by positivity
  have hv' : v = R := by
    rcases hv with hv | hv
    · exact hv
    · rw [hv, add, add_zero, h.fix hr]
  have e1 : R = (|x| - k * |y|) * 2 ^ i := by rw [hR]; ring
  have e2 : R * (1 / 2 ^ i) = |x| - k * |y| := by rw [e1, mul_assoc, mul_one_div_cancel hi.ne', mul_one]
  have hrep : Rep (M + 1) emin (|x| - k * |y|) := by
    refine rep_lift (emin' := emin - i) (by omega) ?_ ?_
    · obtain ⟨μ, e, a, b, c⟩ := hr
      refine ⟨μ, e - i, a, by omega, ?_⟩
      rw [← e2, c, zpow_sub₀ (by norm_num), zpow_natCast]; ring
    · obtain ⟨e, he, hm, -⟩ := rep_exp (rep_abs hx)
      obtain ⟨g, hg, hm', -⟩ := rep_exp (rep_abs hy)
      have : Mult 0 (k : ℚ) := ⟨k, by simp⟩
      have := this.mul hm'
      rw [zero_add] at this
      exact (hm.le he).sub (this.le hg)
  have habs : |R| = |(|x| - k * |y|)| * 2 ^ i := by rw [e1, abs_mul, abs_of_pos hi]
  have hle : |(|x| - k * |y|)| ≤ |y| / 2 := by
    have := hF.le
    rw [habs] at this
    refine le_of_mul_le_mul_right (a := (2 : ℚ) ^ i) ?_ hi
    linarith
  have htie : |(|x| - k * |y|)| = |y| / 2 → k % 2 = 0 := by
    intro hc
    rcases hF with hF | hF
    · rw [habs, hc] at hF; linarith
    · exact hF.2
  rw [Remainder.finish, if_neg hd0, hv', mul, e2, h.fix hrep]
  refine ⟨_, rfl, ?_⟩
  rw [mulsign]
  by_cases hx0 : x < 0
  · rw [if_pos hx0]
    rcases abs_choice y with hs | hs
    · refine ⟨-k, ?_, by rwa [abs_neg], fun hc => by rw [abs_neg] at hc; have := htie hc; omega⟩
      rw [abs_of_neg hx0, hs]; push_cast; ring
    · refine ⟨k, ?_, by rwa [abs_neg], fun hc => by rw [abs_neg] at hc; exact htie hc⟩
      rw [abs_of_neg hx0, hs]; ring
  · rw [if_neg hx0]
    rw [not_lt] at hx0
    rcases abs_choice y with hs | hs
    · refine ⟨k, ?_, hle, htie⟩
      rw [abs_of_nonneg hx0, hs]
    · refine ⟨-k, ?_, hle, fun hc => by have := htie hc; omega⟩
      rw [abs_of_nonneg hx0, hs]; push_cast; ring

/-- A product with a reciprocal overflows if the quotient does. -/
theorem Nearest.product_large {M : Nat} (h : Nearest (M + 1) emin rnd) (hM : 4 ≤ M + 1) (hme : emin ≤ 0) {a b : ℚ}
    (ha : Rep (M + 1) emin a) (hb : 2 ^ M * 2 ^ emin ≤ b) (hb1 : 2 ^ (M + 1) * 2 ^ emin * b ≤ 1)
    {E : Nat} (hab : 2 ^ (E + 1) * b ≤ a) : 2 ^ E ≤ rnd (a * rnd (1 / b)) := by
  have hb0 : 0 < b := lt_of_lt_of_le (by have := two_zpow_pos emin; positivity) hb
  have ha0 : 0 < a := lt_of_lt_of_le (by positivity) hab
  have hs0 : 0 < rnd (1 / b) := by
    have h1 : (2 : ℚ) ^ (((M + 1 : Nat) : ℤ) + emin) ≤ 1 / b := by
      rw [← pow_eq_zpow, le_div_iff₀ hb0]; exact hb1
    have := h.mono h1
    rw [h.fix (rep_pow (by omega) (by omega))] at this
    exact (two_zpow_pos _).trans_le this
  refine (h.guess_large hM hme ha hb hb1 hab).trans (h.mono ?_)
  have h1 := (toward0_before ha ha0).lt
  have h2 := (toward0_before (h.rep (1 / b)) hs0).lt
  have h3 : 0 ≤ Fmod.toward0 M emin (rnd (1 / b)) :=
    (toward0_before (h.rep (1 / b)) hs0).max 0 (rep_zero _ _) hs0
  exact mul_le_mul h1.le h2.le h3 ha0.le

end Nsimd.Float
