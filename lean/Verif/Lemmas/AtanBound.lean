import Verif.Model.Atan
import Verif.Lemmas.PolyDeriv
import Verif.Lemmas.ExpFinish
import Verif.Lemmas.UlpTools

/-!
# Error of the kernel of `atan`
-/

namespace Nsimd.Sleef
open Nsimd.DoubleDouble Nsimd.Float Nsimd.Props.Round Nsimd.Props.Hypot Nsimd.Round Nsimd.Hypot Nsimd.Props.Ulp

variable {p : ℕ} {emin emax : ℤ} {rnd lt : ℚ → ℚ}

/-- An argument of which only an interval is known. Proof helper. -/
def Bd.argI (xl xu : ℚ) : Bd := ⟨true, 0, xl, xu, 0, 0⟩

/-- The argument with this bound. Proof helper. -/
def Tr.argI {xl xu : ℚ} {s : ℚ} (hl : (xl : ℝ) ≤ s) (hu : (s : ℝ) ≤ xu) (emin : ℤ) : Tr emin (s : ℝ) :=
  ⟨s, s, Bd.argI xl xu, fun _ => by
    refine ⟨le_refl 0, le_refl 0, ?_, s, ?_, hl, hu⟩ <;> simp [Bd.argI]⟩

theorem Env.natural {s xl xu : ℚ} (E : Env p emin rnd lt (s : ℝ) xl xu) {f : {α : Type} → Alg α → α → α} (hn : Natural f)
    (fused : Bool) : Ap (eta emin) s (f (flAlg rnd lt fused) s : ℚ) (f reAlg (s : ℝ)) (f (bdAlg p xl xu fused) Bd.arg) := by
  obtain ⟨h1, h2, h3⟩ := hn E fused (Tr.arg emin s)
  have h := (f (E.alg fused) (Tr.arg emin s)).h
  rw [h1, h2, h3] at h
  exact h

theorem Env.naturalI {s xl xu : ℚ} (E : Env p emin rnd lt (s : ℝ) xl xu) {f : {α : Type} → Alg α → α → α} (hn : Natural f)
    (fused : Bool) :
    Ap (eta emin) s (f (flAlg rnd lt fused) s : ℚ) (f reAlg (s : ℝ)) (f (bdAlg p xl xu fused) (Bd.argI xl xu)) := by
  obtain ⟨h1, h2, h3⟩ := hn E fused (Tr.argI E.hl E.hu emin)
  have h := (f (E.alg fused) (Tr.argI E.hl E.hu emin)).h
  rw [h1, h2, h3] at h
  exact h

/-- `t * u`. Proof helper. -/
def atanTU (poly : {α : Type} → Alg α → α → α) {α : Type} (A : Alg α) (t : α) : α := A.mul t (poly A t)

/-- The number that the kernel rounds last. Proof helper. -/
def atanZ (rnd : ℚ → ℚ) (fused : Bool) (poly : {α : Type} → Alg α → α → α) (s : ℚ) : ℚ :=
  let A := flAlg rnd rnd fused
  let V := atanTU poly A (rnd (s * s))
  (if fused then s * V else rnd (s * V)) + s

theorem atanKernel_eq (fused : Bool) (poly : {α : Type} → Alg α → α → α) (s : ℚ) :
    atanKernel (flAlg rnd rnd fused) poly s = rnd (atanZ rnd fused poly s) := by
  cases fused <;> simp [atanKernel, atanZ, atanTU, flAlg, fma, add, mul]

theorem atan_core (fused : Bool) (poly : {α : Type} → Alg α → α → α) {s : ℚ} {eV et L ε em : ℝ} (hs : 0 ≤ s)
    (heV : |((atanTU poly (flAlg rnd rnd fused) (rnd (s * s)) : ℚ) : ℝ) - atanTU poly reAlg ((rnd (s * s) : ℚ) : ℝ)| ≤ eV)
    (hL : |atanTU poly reAlg ((rnd (s * s) : ℚ) : ℝ) - atanTU poly reAlg ((s : ℝ) ^ 2)| ≤ L * et)
    (hε : |(s : ℝ) * (1 + atanTU poly reAlg ((s : ℝ) ^ 2)) - Real.arctan s| ≤ ε * s) (hem : 0 ≤ em)
    (hm : fused = false → |((rnd (s * atanTU poly (flAlg rnd rnd fused) (rnd (s * s))) : ℚ) : ℝ) -
      s * atanTU poly (flAlg rnd rnd fused) (rnd (s * s))| ≤ em) :
    |((atanZ rnd fused poly s : ℚ) : ℝ) - Real.arctan s| ≤ s * (eV + L * et + ε) + em := by
  have hs' : (0 : ℝ) ≤ s := by exact_mod_cast hs
  set V := atanTU poly (flAlg rnd rnd fused) (rnd (s * s)) with hV
  have h1 : |((atanZ rnd fused poly s : ℚ) : ℝ) - (s * V + s)| ≤ em := by
    unfold atanZ
    cases fused
    · have := hm rfl
      simp only [Bool.false_eq_true, if_false]
      push_cast
      rw [add_sub_add_right_eq_sub]
      exact this
    · simp only [if_true]
      push_cast
      rw [hV, sub_self, abs_zero]; exact hem
  have h2 : ((atanZ rnd fused poly s : ℚ) : ℝ) - Real.arctan s =
      (((atanZ rnd fused poly s : ℚ) : ℝ) - (s * V + s)) + s * (((V : ℚ) : ℝ) - atanTU poly reAlg ((rnd (s * s) : ℚ) : ℝ)) +
      s * (atanTU poly reAlg ((rnd (s * s) : ℚ) : ℝ) - atanTU poly reAlg ((s : ℝ) ^ 2)) +
      ((s : ℝ) * (1 + atanTU poly reAlg ((s : ℝ) ^ 2)) - Real.arctan s) := by ring
  rw [h2]
  have h3 : |(s : ℝ) * (((V : ℚ) : ℝ) - atanTU poly reAlg ((rnd (s * s) : ℚ) : ℝ))| ≤ s * eV := by
    rw [abs_mul, abs_of_nonneg hs']; exact mul_le_mul_of_nonneg_left heV hs'
  have h4 : |(s : ℝ) * (atanTU poly reAlg ((rnd (s * s) : ℚ) : ℝ) - atanTU poly reAlg ((s : ℝ) ^ 2))| ≤ s * (L * et) := by
    rw [abs_mul, abs_of_nonneg hs']; exact mul_le_mul_of_nonneg_left hL hs'
  refine (abs_add_le _ _).trans ?_
  refine (add_le_add (abs_add_three _ _ _) (le_refl _)).trans ?_
  nlinarith

/-- What is known about a polynomial and its evaluation. `F` are the coefficients of `t * u` and `C` those of `1 + t * u`. Proof helper. -/
structure AtanPoly (p : ℕ) (poly : {α : Type} → Alg α → α → α) (F : List ℚ) (εa εb : ℚ) : Prop where
  nat : Natural (atanTU poly)
  eval : ∀ t : ℝ, atanTU poly reAlg t = Poly.eval F t
  mag : ∀ t : ℝ, 0 ≤ t → t ≤ 1 → |Poly.eval F t| ≤ 0.34 * t
  mag' : ∀ t : ℝ, 0 ≤ t → t ≤ 1 → |Poly.eval F t| ≤ 0.22
  der : ∀ t : ℝ, 0 ≤ t → t ≤ 1 → |Poly.eval (Poly.deriv F) t| ≤ 0.34
  der' : ∀ t : ℝ, 0.8 ≤ t → t ≤ 1 → |Poly.eval (Poly.deriv F) t| ≤ 0.17
  near : ∀ s : ℝ, 0 ≤ s → s ≤ 0.9 → |s * (1 + Poly.eval F (s ^ 2)) - Real.arctan s| ≤ εa / 2 ^ p * s
  near' : ∀ s : ℝ, 0.9 ≤ s → s ≤ 1 → |s * (1 + Poly.eval F (s ^ 2)) - Real.arctan s| ≤ εb / 2 ^ p * s

/-- Bound of `t * u` for `sl ≤ s ≤ sh`. Proof helper. -/
def atanB (p : ℕ) (fused : Bool) (poly : {α : Type} → Alg α → α → α) (sl sh : ℚ) : Bd :=
  let tl := sl ^ 2 - 1 / 2 ^ p
  let th := min 1 (sh ^ 2 + 1 / 2 ^ p)
  atanTU poly (bdAlg p tl th fused) (Bd.argI tl th)

/-- Error bound of the kernel before its last rounding for `sl ≤ s ≤ sh`. Proof helper. -/
def atanD (p : ℕ) (fused : Bool) (poly : {α : Type} → Alg α → α → α) (εa εb sl sh : ℚ) : ℚ :=
  let B := atanB p fused poly sl sh
  sh * (B.a + B.b / 2 ^ 100 + (if sl < 0.9 then 0.34 else 0.17) * (1 / 2 ^ p / 2) + (if sl < 0.9 then εa else εb) / 2 ^ p) +
    (if fused then 0 else 1 / 2 ^ p / 8)

/-- Is it at most `c` in units of `2 ^ -p`? Proof helper. -/
def atanOk (p : ℕ) (fused : Bool) (poly : {α : Type} → Alg α → α → α) (εa εb c sl sh : ℚ) : Bool :=
  let B := atanB p fused poly sl sh
  B.ok && decide (B.k = 0) && decide (1 / 4 ≤ sl) && decide (sh ≤ 0.9 ∨ 0.9 ≤ sl) && decide (sh ≤ 1) && decide (B.a + B.b / 2 ^ 100 ≤ 0.01) &&
    decide (atanD p fused poly εa εb sl sh ≤ c / 2 ^ p)

theorem atan_mid (h : Nearest p emin rnd) (hp : 20 ≤ p) (hmin : emin ≤ -100 - p) {fused : Bool} {poly : {α : Type} → Alg α → α → α}
    {F : List ℚ} {εa εb : ℚ} (P : AtanPoly p poly F εa εb) {c sl sh s : ℚ} (hok : atanOk p fused poly εa εb c sl sh = true) (h1 : sl ≤ s)
    (h2 : s ≤ sh) : |((atanZ rnd fused poly s : ℚ) : ℝ) - Real.arctan s| ≤ c / 2 ^ p := by
  simp only [atanOk, Bool.and_eq_true, decide_eq_true_eq] at hok
  obtain ⟨⟨⟨⟨⟨⟨hB, hk⟩, hsl⟩, hcase⟩, hsh⟩, hB'⟩, hD⟩ := hok
  have hs1 : s ≤ 1 := h2.trans hsh
  have hs4 : 1 / 4 ≤ s := hsl.trans h1
  have hs0 : 0 ≤ s := by linarith
  have h2p : (2 : ℚ) ^ 20 ≤ 2 ^ p := pow_le_pow_right₀ (by norm_num) hp
  have hUq : (0 : ℚ) < 1 / 2 ^ p := by positivity
  have hU20 : (1 : ℚ) / 2 ^ p ≤ 1 / 2 ^ 20 := one_div_le_one_div_of_le (by norm_num) h2p
  have hss : s * s ≤ 1 := by nlinarith
  have hrt : |s * s - rnd (s * s)| ≤ 1 / 2 ^ p / 2 := by
    have := h.half_ulp (by omega) (e := -(p : ℤ)) (by omega) (x := s * s) (by
      rw [abs_of_nonneg (by positivity), zpow_neg, zpow_natCast, mul_inv_cancel₀ (by positivity)]; exact hss)
    rwa [zpow_neg, zpow_natCast, ← one_div] at this
  have hrt' := _root_.abs_le.mp hrt
  have hone : rnd 1 = 1 := h.fix ⟨1, 0, by simp; exact one_lt_pow₀ (by norm_num) (by omega), by omega, by norm_num⟩
  have ht1 : rnd (s * s) ≤ 1 := by rw [← hone]; exact h.mono hss
  have ht0 : 0 ≤ rnd (s * s) := by have := h.mono (show (0 : ℚ) ≤ s * s by positivity); rwa [h.zero] at this
  set t := rnd (s * s) with ht
  have hsl2 : sl ^ 2 ≤ s * s := by nlinarith
  have hsh2 : s * s ≤ sh ^ 2 := by nlinarith
  have E : Env p emin rnd rnd (t : ℝ) (sl ^ 2 - 1 / 2 ^ p) (min 1 (sh ^ 2 + 1 / 2 ^ p)) := by
    refine ⟨by omega, hmin, h, lit_one h (by omega), ?_, ?_⟩
    · have : sl ^ 2 - 1 / 2 ^ p ≤ t := by linarith
      exact_mod_cast this
    · have : t ≤ min 1 (sh ^ 2 + 1 / 2 ^ p) := le_min ht1 (by linarith)
      exact_mod_cast this
  have hA := E.naturalI P.nat fused hB
  obtain ⟨a0, b0, e1, -⟩ := hA
  rw [show (atanTU poly (bdAlg p (sl ^ 2 - 1 / 2 ^ p) (min 1 (sh ^ 2 + 1 / 2 ^ p)) fused)
    (Bd.argI (sl ^ 2 - 1 / 2 ^ p) (min 1 (sh ^ 2 + 1 / 2 ^ p)))) = atanB p fused poly sl sh from rfl] at a0 b0 e1
  set B := atanB p fused poly sl sh with hBd
  rw [hk, pow_zero, mul_one] at e1
  have b0' : (0 : ℝ) ≤ B.b := by exact_mod_cast b0
  have heV : |((atanTU poly (flAlg rnd rnd fused) t : ℚ) : ℝ) - atanTU poly reAlg (t : ℝ)| ≤ ((B.a + B.b / 2 ^ 100 : ℚ) : ℝ) := by
    refine e1.trans ?_
    push_cast
    have := mul_le_mul_of_nonneg_left E.eta_le b0'
    rw [mul_one_div] at this
    linarith
  have htR0 : (0 : ℝ) ≤ t := by exact_mod_cast ht0
  have htR1 : (t : ℝ) ≤ 1 := by exact_mod_cast ht1
  have hsR0 : (0 : ℝ) ≤ s := by exact_mod_cast hs0
  have hsR1 : (s : ℝ) ≤ 1 := by exact_mod_cast hs1
  have hs2R : (s : ℝ) ^ 2 ≤ 1 := pow_le_one₀ hsR0 hsR1
  have het : |(t : ℝ) - (s : ℝ) ^ 2| ≤ ((1 / 2 ^ p / 2 : ℚ) : ℝ) := by
    rw [abs_sub_comm]
    have : ((|s * s - t| : ℚ) : ℝ) ≤ ((1 / 2 ^ p / 2 : ℚ) : ℝ) := by exact_mod_cast hrt
    push_cast at this ⊢
    rwa [sq]
  set L : ℚ := if sl < 0.9 then 0.34 else 0.17 with hLd
  set ε : ℚ := (if sl < 0.9 then εa else εb) / 2 ^ p with hεd
  have hL0 : 0 ≤ L := by rw [hLd]; split <;> norm_num
  have hL0' : (0 : ℝ) ≤ L := by exact_mod_cast hL0
  have hL : |atanTU poly reAlg (t : ℝ) - atanTU poly reAlg ((s : ℝ) ^ 2)| ≤ (L : ℝ) * ((1 / 2 ^ p / 2 : ℚ) : ℝ) := by
    rw [P.eval, P.eval]
    refine le_trans ?_ (mul_le_mul_of_nonneg_left het hL0')
    by_cases hc : sl < 0.9
    · rw [hLd, if_pos hc]
      push_cast
      exact Poly.lipschitz (a := 0) (b := 1) P.der htR0 htR1 (by positivity) hs2R
    · rw [hLd, if_neg hc]
      push_cast
      push Not at hc
      have h3 : (0.8 : ℚ) ≤ t := by
        have h81 : (0.81 : ℚ) ≤ s * s := by nlinarith
        norm_num at hU20 h81 hrt' ⊢
        linarith
      have h4 : (0.8 : ℝ) ≤ t := by have : ((0.8 : ℚ) : ℝ) ≤ t := by exact_mod_cast h3
                                    norm_num at this ⊢; exact this
      have h5 : (0.9 : ℝ) ≤ s := by have : ((0.9 : ℚ) : ℝ) ≤ s := by exact_mod_cast hc.trans h1
                                    norm_num at this ⊢; exact this
      exact Poly.lipschitz (a := 0.8) (b := 1) P.der' h4 htR1 (by nlinarith) hs2R
  have hε : |(s : ℝ) * (1 + atanTU poly reAlg ((s : ℝ) ^ 2)) - Real.arctan s| ≤ (ε : ℝ) * s := by
    rw [P.eval]
    by_cases hc : sl < 0.9
    · rw [hεd, if_pos hc]
      push_cast
      refine P.near s hsR0 ?_
      have : s ≤ 0.9 := h2.trans (hcase.resolve_right (not_le.mpr hc))
      have : (s : ℝ) ≤ ((0.9 : ℚ) : ℝ) := by exact_mod_cast this
      norm_num at this ⊢; exact this
    · rw [hεd, if_neg hc]
      push_cast
      push Not at hc
      refine P.near' s ?_ hsR1
      have : ((0.9 : ℚ) : ℝ) ≤ s := by exact_mod_cast hc.trans h1
      norm_num at this ⊢; exact this
  set V := atanTU poly (flAlg rnd rnd fused) t with hV
  have hVm : |s * V| ≤ 1 / 4 := by
    have h3 : |(V : ℝ)| ≤ 0.23 := by
      have h4 := P.mag' t htR0 htR1
      rw [← P.eval] at h4
      have h5 : |(V : ℝ)| ≤ |atanTU poly reAlg (t : ℝ)| + |(V : ℝ) - atanTU poly reAlg (t : ℝ)| := by
        have := abs_add_le (atanTU poly reAlg (t : ℝ)) ((V : ℝ) - atanTU poly reAlg (t : ℝ)); rwa [add_sub_cancel] at this
      have h6 : ((B.a + B.b / 2 ^ 100 : ℚ) : ℝ) ≤ ((0.01 : ℚ) : ℝ) := by exact_mod_cast hB'
      norm_num at h6 h4 ⊢ heV
      linarith
    have h4 : |V| ≤ 1 / 4 := by
      have : ((|V| : ℚ) : ℝ) ≤ ((1 / 4 : ℚ) : ℝ) := by push_cast; norm_num at h3 ⊢; linarith
      exact_mod_cast this
    rw [abs_mul, abs_of_nonneg hs0]
    have := mul_le_mul hs1 h4 (abs_nonneg _) (by norm_num)
    linarith
  have hm : fused = false → |((rnd (s * V) : ℚ) : ℝ) - s * V| ≤ ((1 / 2 ^ p / 8 : ℚ) : ℝ) := by
    intro _
    have h3 := h.half_ulp (by omega) (e := -(p : ℤ) - 2) (by omega) (x := s * V) (by
      rw [zpow_sub₀ (by norm_num), zpow_neg, zpow_natCast, mul_div_assoc', mul_inv_cancel₀ (by positivity)]; norm_num at hVm ⊢; exact hVm)
    rw [zpow_sub₀ (by norm_num), zpow_neg, zpow_natCast, abs_sub_comm, ← one_div] at h3
    have h4 : (1 : ℚ) / 2 ^ p / 2 ^ (2 : ℤ) / 2 = 1 / 2 ^ p / 8 := by
      rw [div_div _ ((2 : ℚ) ^ (2 : ℤ))]; norm_num
    rw [h4] at h3
    have : ((|rnd (s * V) - s * V| : ℚ) : ℝ) ≤ ((1 / 2 ^ p / 8 : ℚ) : ℝ) := by exact_mod_cast h3
    push_cast at this ⊢
    exact this
  have hfin := atan_core (rnd := rnd) fused poly (em := ((if fused then 0 else 1 / 2 ^ p / 8 : ℚ) : ℝ)) hs0 heV hL hε (by
    split <;> push_cast <;> positivity) (fun hf => by subst hf; exact hm rfl)
  refine hfin.trans ?_
  have hDR : ((atanD p fused poly εa εb sl sh : ℚ) : ℝ) ≤ ((c / 2 ^ p : ℚ) : ℝ) := by exact_mod_cast hD
  push_cast at hDR
  refine le_trans ?_ hDR
  have hq : (0 : ℚ) ≤ B.a + B.b / 2 ^ 100 + L * (1 / 2 ^ p / 2) + ε := by
    have hε0 : 0 ≤ ε := by
      have := (abs_nonneg _).trans hε
      have hspos : (0 : ℝ) < s := by
        have : (0 : ℚ) < s := by linarith
        exact_mod_cast this
      have := nonneg_of_mul_nonneg_left this hspos
      exact_mod_cast this
    have := div_nonneg b0 (show (0 : ℚ) ≤ 2 ^ 100 by positivity)
    have := mul_nonneg hL0 (show (0 : ℚ) ≤ 1 / 2 ^ p / 2 by positivity)
    linarith
  have hfinal : s * (B.a + B.b / 2 ^ 100 + L * (1 / 2 ^ p / 2) + ε) + (if fused then 0 else 1 / 2 ^ p / 8) ≤
      atanD p fused poly εa εb sl sh := by
    unfold atanD
    simp only [← hBd, ← hLd, ← hεd]
    have := mul_le_mul_of_nonneg_right h2 hq
    linarith
  have : ((s * (B.a + B.b / 2 ^ 100 + L * (1 / 2 ^ p / 2) + ε) + (if fused then 0 else 1 / 2 ^ p / 8) : ℚ) : ℝ) ≤
    ((atanD p fused poly εa εb sl sh : ℚ) : ℝ) := by exact_mod_cast hfinal
  push_cast at this ⊢
  exact this

end Nsimd.Sleef
