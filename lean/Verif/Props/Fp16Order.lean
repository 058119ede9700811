import Verif.Props.Fp16

/-!
# C03, C04: round trip, monotonicity, sign symmetry

Also the two facts that tie the hardware rules used by the model (`f32key`,
`roundF32`) to IEEE-754: comparison of keys is comparison of values, and
`roundF32` is a nearest-even rounding.
-/

namespace Nsimd.Props.Fp16
open Nsimd.Fp16

/-! ### C03 -/

/-- C03: half → float → half is the identity on every non-NaN pattern, and maps
every NaN to `0xffff`. -/
theorem f16_roundtrip (a : BitVec 16) :
    ∃ r, u16ToF32 a = some r ∧
      (¬ NaN16 a → f32ToU16 r = a) ∧ (NaN16 a → f32ToU16 r = 0xffff#16) := by
  obtain ⟨r, u, hr, hn, hu, hfin, hinf⟩ := u16ToF32_nat a
  have ha := a.isLt
  have hru : r.toNat % 2 ^ 31 = u := by omega
  have hrs : r.toNat / 2 ^ 31 = a.toNat / 2 ^ 15 := by omega
  have hf := f32ToU16_nat r
  rw [hru, hrs] at hf
  refine ⟨r, hr, ?_, ?_⟩
  · intro hnan
    apply BitVec.eq_of_toNat_eq
    by_cases hk : a.toNat % 2 ^ 15 < 31 * 1024
    · obtain ⟨h1, h2⟩ := hfin hk
      rw [if_neg (by omega)] at hf
      have hc := (core_nearest u (a.toNat % 2 ^ 15) (by omega)).1
      have hG : (G16 (a.toNat % 2 ^ 15) : Int) = mag 23 u := by rw [h1]; rfl
      rw [hG, sub_self, abs_zero] at hc
      have h3 := abs_eq_zero.1 (le_antisymm hc (abs_nonneg _))
      have h4 : G16 (core u) = G16 (a.toNat % 2 ^ 15) := by omega
      have := G16_strictMono.injective h4
      omega
    · have h1 := hinf (by omega)
      unfold NaN16 e16 m16 at hnan
      have hm : a.toNat % 1024 = 0 := by omega
      rw [hm] at h1
      have hcore : core 0x7f800000 = 0x7c00 := by decide
      rw [if_neg (by omega), show u = 0x7f800000 by omega, hcore] at hf
      omega
  · rintro ⟨h1, h2⟩
    unfold e16 at h1; unfold m16 at h2
    have := hinf (by omega)
    rw [if_pos (by omega)] at hf
    apply BitVec.eq_of_toNat_eq
    rw [hf]; rfl

-- the round trip is not trivially the identity: a signalling NaN changes
example : NaN16 0x7c01#16 ∧ (u16ToF32 0x7c01#16).map f32ToU16 = some 0xffff#16 :=
  ⟨by unfold NaN16 e16 m16; decide, by decide⟩
-- smallest subnormal, negative
example : ¬ NaN16 0x8001#16 ∧ (u16ToF32 0x8001#16).map f32ToU16 = some 0x8001#16 :=
  ⟨by unfold NaN16 e16 m16; decide, by decide⟩

/-! ### Hardware rules -/

theorem f32Value_key (a : BitVec 32) :
    f32Value a = (if 2 ^ 31 ≤ a.toNat then -(mag 23 (a.toNat % 2 ^ 31) : ℚ)
      else (mag 23 (a.toNat % 2 ^ 31) : ℚ)) * (2 : ℚ) ^ (-149 : ℤ) := by
  rw [f32Value_mag, sgn32]; split <;> ring

theorem f16Value_key (a : BitVec 16) :
    f16Value a = (if 2 ^ 15 ≤ a.toNat then -(G16 (a.toNat % 2 ^ 15) : ℚ)
      else (G16 (a.toNat % 2 ^ 15) : ℚ)) * (2 : ℚ) ^ (-149 : ℤ) := by
  rw [f16Value_mag, sgn16]; split <;> ring

/-- Sign-magnitude comparison through any strictly increasing `G` with `G 0 = 0`. -/
theorem signed_le {G : Nat → Nat} (hG : StrictMono G) (h0 : G 0 = 0) (p q : Prop)
    [Decidable p] [Decidable q] (x y : Nat) :
    ((if p then -(G x : ℚ) else (G x : ℚ)) ≤ if q then -(G y : ℚ) else (G y : ℚ)) ↔
    ((if p then -(x : Int) else (x : Int)) ≤ if q then -(y : Int) else (y : Int)) := by
  have gle : ∀ u v, (G u : ℚ) ≤ G v ↔ u ≤ v := by
    intro u v; rw [Nat.cast_le]; exact hG.le_iff_le
  have g0 : ∀ u, (0 : ℚ) ≤ G u := fun u => Nat.cast_nonneg _
  have gz : ∀ u, (G u : ℚ) ≤ 0 ↔ u = 0 := by
    intro u
    have := gle u 0
    rw [h0] at this
    simp only [Nat.cast_zero] at this
    rw [this]; omega
  have hx := g0 x
  have hy := g0 y
  split <;> split
  · rw [neg_le_neg_iff, gle]; omega
  · constructor
    · intro; omega
    · intro; linarith
  · constructor
    · intro h
      have h1 := (gz x).1 (by linarith)
      have h2 := (gz y).1 (by linarith)
      omega
    · intro h
      have h1 : x = 0 := by omega
      have h2 : y = 0 := by omega
      subst h1; subst h2
      rw [h0]; simp
  · rw [gle]; omega

/-- The comparison rule used in the model is comparison of real values
(infinities, whose pattern evaluates to `±2^128`, included). -/
theorem f32key_le_iff (a b : BitVec 32) :
    f32key a ≤ f32key b ↔ f32Value a ≤ f32Value b := by
  rw [f32Value_key, f32Value_key, mul_le_mul_iff_left₀ (by positivity),
    signed_le (mag_strictMono 23) (by decide), f32key_nat, f32key_nat]

theorem round_aux (s q : Nat) (h1 : 2 ^ 23 ≤ q) (h2 : q < 2 ^ 24) :
    ((s + 1) * 2 ^ 23 + q) % 2 = q % 2 ∧ ((s + 1) * 2 ^ 23 + q) / 2 ^ 23 - 1 = s + 1 ∧
    (s + 1) * 2 ^ 23 + q = (s + 2) * 2 ^ 23 + (q - 2 ^ 23) := by
  refine ⟨by omega, by omega, by omega⟩

/-- `roundF32 n` is the float nearest to `n * 2^-149`, ties to even (the
pattern of infinity standing for `2^128`). -/
theorem roundF32_nearest (n : Nat) :
    NearestIdx (mag 23) 0x7f800000 n (roundF32 n).toNat := by
  unfold roundF32
  by_cases hn : n < 2 ^ 24
  · rw [if_pos hn]
    have e : (BitVec.ofNat 32 n).toNat = n := by
      rw [BitVec.toNat_ofNat]; omega
    rw [e]
    intro j _
    rw [mag_of_lt 23 n hn]
    simp only [sub_self, abs_zero]
    refine ⟨abs_nonneg _, fun h => ?_⟩
    have h1 : (mag 23 j : Int) - n = 0 := abs_eq_zero.1 h.symm
    have h2 : mag 23 j = mag 23 n := by rw [mag_of_lt 23 n hn]; omega
    exact Or.inl ((mag_strictMono 23).injective h2)
  · rw [if_neg hn]
    simp only []
    have hlog : 24 ≤ n.log2 := by
      rw [Nat.le_log2 (by omega)]; omega
    obtain ⟨s, hs⟩ : ∃ s, n.log2 - 23 = s + 1 := ⟨n.log2 - 24, by omega⟩
    rw [hs, Nat.add_sub_cancel, apply_ite ((s + 1) * 2 ^ 23 + ·), ← Nat.add_assoc]
    have hl : n.log2 = s + 24 := by omega
    have h1 : 2 ^ (s + 24) ≤ n := by rw [← hl]; exact Nat.log2_self_le (by omega)
    have h2 : n < 2 ^ (s + 25) := by rw [← Nat.log2_lt (by omega)]; omega
    have hp : 0 < 2 ^ (s + 1) := Nat.two_pow_pos _
    have hps : 2 ^ (s + 1) = 2 * 2 ^ s := by rw [pow_succ]; ring
    have e24 : 2 ^ (s + 24) = 2 ^ 23 * 2 ^ (s + 1) := by
      have h : s + 24 = 23 + (s + 1) := by omega
      rw [h, pow_add]
    have e25 : 2 ^ (s + 25) = 2 ^ 24 * 2 ^ (s + 1) := by
      have h : s + 25 = 24 + (s + 1) := by omega
      rw [h, pow_add]
    have hdm := Nat.div_add_mod n (2 ^ (s + 1))
    have hr := Nat.mod_lt n hp
    generalize hq : n / 2 ^ (s + 1) = q at *
    generalize hrem : n % 2 ^ (s + 1) = rem at *
    have hq1 : 2 ^ 23 ≤ q := by
      rw [← hq, Nat.le_div_iff_mul_le hp]; rw [← e24]; exact h1
    have hq2 : q < 2 ^ 24 := by
      rw [← hq, Nat.div_lt_iff_lt_mul hp]; rw [← e25]; exact h2
    -- bracket n between two consecutive magnitudes
    obtain ⟨hkpar, hkdiv, hkeq⟩ := round_aux s q hq1 hq2
    have hk : mag 23 ((s + 1) * 2 ^ 23 + q) = q * 2 ^ (s + 1) := by
      rw [hkeq, mag_of_parts 23 _ _ (by omega) (by omega), Nat.add_sub_cancel' hq1]
      rfl
    have hk1 : mag 23 ((s + 1) * 2 ^ 23 + q + 1) = q * 2 ^ (s + 1) + 2 ^ (s + 1) := by
      rw [mag_succ, hk, hkdiv]
    have hnq : n = q * 2 ^ (s + 1) + rem := by rw [← hdm]; ring
    clear e24 e25 h1 h2 hdm hl hs hlog hrem hq hn hkdiv hkeq hp
    obtain ⟨k, hkd⟩ : ∃ k, (s + 1) * 2 ^ 23 + q = k := ⟨_, rfl⟩
    rw [hkd] at hk hk1 hkpar ⊢
    clear hkd
    generalize q * 2 ^ (s + 1) = A at *
    generalize 2 ^ (s + 1) = P at *
    have hb : ∀ top, NearestIdx (mag 23) top n
        (if 2 ^ s < rem ∨ rem = 2 ^ s ∧ q % 2 = 1 then k + 1 else k) := by
      intro top
      generalize 2 ^ s = Q at *
      apply nearest_of_bracket (mag_strictMono 23) (k := k)
      · omega
      · omega
      · split <;> omega
    have hb := hb 0x7f800000
    generalize (if 2 ^ s < rem ∨ rem = 2 ^ s ∧ q % 2 = 1 then k + 1 else k) = c at *
    have e : (BitVec.ofNat 32 (min c 0x7f800000)).toNat = min c 0x7f800000 := by
      rw [BitVec.toNat_ofNat]; omega
    rw [e]
    by_cases hc : c ≤ 0x7f800000
    · rw [min_eq_left hc]; exact hb
    · rw [min_eq_right (by omega)]
      have hmc : mag 23 0x7f800000 < mag 23 c := mag_strictMono 23 (by omega)
      intro j hj
      have hjm : mag 23 j ≤ mag 23 0x7f800000 := (mag_strictMono 23).monotone hj
      -- the unbounded nearest is beyond the top, so n is above every candidate
      have hn2 : 2 * (mag 23 0x7f800000 : Int) ≤ 2 * n := by
        have h := (hb 0x7f800000 (le_refl _)).1
        have h' : (mag 23 0x7f800000 : Int) < mag 23 c := by exact_mod_cast hmc
        by_contra hcon
        rw [abs_of_nonneg (by omega)] at h
        rw [abs_of_nonneg (by omega)] at h
        omega
      have hjm' : (mag 23 j : Int) ≤ mag 23 0x7f800000 := by exact_mod_cast hjm
      rw [abs_of_nonpos (by omega), abs_of_nonpos (by omega)]
      exact ⟨by omega, fun _ => Or.inr (by decide)⟩

/-! ### C04 -/

theorem nearest_mono {G : Nat → Nat} (hG : StrictMono G) {top : Nat} {x y : Int} {r s : Nat}
    (hr : r ≤ top) (hs : s ≤ top)
    (h1 : NearestIdx G top x r) (h2 : NearestIdx G top y s) (hxy : x < y) : r ≤ s := by
  by_contra hcon
  have hlt : (G s : Int) < G r := by exact_mod_cast hG (show s < r by omega)
  have a1 := (h1 s hs).1
  have a2 := (h2 r hr).1
  rcases abs_cases ((G r : Int) - x) with ⟨e1, _⟩ | ⟨e1, _⟩ <;>
  rcases abs_cases ((G s : Int) - x) with ⟨e2, _⟩ | ⟨e2, _⟩ <;>
  rcases abs_cases ((G s : Int) - y) with ⟨e3, _⟩ | ⟨e3, _⟩ <;>
  rcases abs_cases ((G r : Int) - y) with ⟨e4, _⟩ | ⟨e4, _⟩ <;> omega

theorem core_mono {u v : Nat} (h : u ≤ v) : core u ≤ core v := by
  rcases Nat.lt_or_ge u v with h | h'
  · exact nearest_mono G16_strictMono (core_le u) (core_le v) (core_nearest u) (core_nearest v)
      (by exact_mod_cast mag_strictMono 23 h)
  · rw [show u = v by omega]

/-- C04: the conversion to half is monotone on all non-NaN floats, infinities
included. -/
theorem f32ToU16_mono (a b : BitVec 32) (ha : ¬ NaN32 a) (hb : ¬ NaN32 b)
    (hab : f32Value a ≤ f32Value b) : f16Value (f32ToU16 a) ≤ f16Value (f32ToU16 b) := by
  rw [← f32key_le_iff, f32key_nat, f32key_nat] at hab
  have ha' := a.isLt
  have hb' := b.isLt
  have na := f32ToU16_nat a
  have nb := f32ToU16_nat b
  rw [if_neg (by unfold NaN32 e32 m32 at ha; omega)] at na
  rw [if_neg (by unfold NaN32 e32 m32 at hb; omega)] at nb
  have ca := core_le (a.toNat % 2 ^ 31)
  have cb := core_le (b.toNat % 2 ^ 31)
  rw [f16Value_key, f16Value_key]
  apply mul_le_mul_of_nonneg_right _ (by positivity)
  rw [signed_le G16_strictMono (by decide)]
  rw [show (f32ToU16 a).toNat % 2 ^ 15 = core (a.toNat % 2 ^ 31) by omega,
    show (f32ToU16 b).toNat % 2 ^ 15 = core (b.toNat % 2 ^ 31) by omega]
  have m1 : a.toNat % 2 ^ 31 ≤ b.toNat % 2 ^ 31 →
      core (a.toNat % 2 ^ 31) ≤ core (b.toNat % 2 ^ 31) := core_mono
  have m2 : b.toNat % 2 ^ 31 ≤ a.toNat % 2 ^ 31 →
      core (b.toNat % 2 ^ 31) ≤ core (a.toNat % 2 ^ 31) := core_mono
  have z : core 0 = 0 := by decide
  have z1 : a.toNat % 2 ^ 31 = 0 → core (a.toNat % 2 ^ 31) = 0 := fun h => by rw [h, z]
  have z2 : b.toNat % 2 ^ 31 = 0 → core (b.toNat % 2 ^ 31) = 0 := fun h => by rw [h, z]
  split at hab <;> split at hab <;> split <;> split <;> omega

theorem xor_sign (n : Nat) (a : BitVec (n + 1)) :
    (a ^^^ BitVec.ofNat (n + 1) (2 ^ n)).toNat =
      (1 - a.toNat / 2 ^ n) * 2 ^ n + a.toNat % 2 ^ n := by
  have ha := a.isLt
  have hp : 0 < 2 ^ n := Nat.two_pow_pos n
  have h2 : 2 ^ (n + 1) = 2 * 2 ^ n := by rw [pow_succ]; ring
  have hdm := Nat.div_add_mod a.toNat (2 ^ n)
  have hlt := Nat.mod_lt a.toNat hp
  have hq : a.toNat / 2 ^ n < 2 := by rw [Nat.div_lt_iff_lt_mul hp]; omega
  rw [BitVec.toNat_xor, BitVec.toNat_ofNat, Nat.mod_eq_of_lt (by omega)]
  have hd : (a.toNat ^^^ 2 ^ n) / 2 ^ n = 1 - a.toNat / 2 ^ n := by
    rw [← Nat.shiftRight_eq_div_pow, Nat.shiftRight_xor_distrib, Nat.shiftRight_eq_div_pow,
      Nat.shiftRight_eq_div_pow, Nat.div_self hp]
    generalize a.toNat / 2 ^ n = q at *
    have : q = 0 ∨ q = 1 := by omega
    rcases this with rfl | rfl <;> decide
  have hm : (a.toNat ^^^ 2 ^ n) % 2 ^ n = a.toNat % 2 ^ n := by
    rw [Nat.xor_mod_two_pow]
    simp
  have := Nat.div_add_mod (a.toNat ^^^ 2 ^ n) (2 ^ n)
  rw [hd, hm] at this
  rw [← this]; ring

/-- C04: negating a non-NaN float negates the half. -/
theorem f32ToU16_neg (a : BitVec 32) (ha : ¬ NaN32 a) :
    f32ToU16 (a ^^^ 0x80000000#32) = f32ToU16 a ^^^ 0x8000#16 := by
  have ha' := a.isLt
  have x1 : (a ^^^ 0x80000000#32).toNat = _ := xor_sign 31 a
  have x2 : (f32ToU16 a ^^^ 0x8000#16).toNat = _ := xor_sign 15 (f32ToU16 a)
  have na := f32ToU16_nat a
  have nb := f32ToU16_nat (a ^^^ 0x80000000#32)
  have hm : (a ^^^ 0x80000000#32).toNat % 2 ^ 31 = a.toNat % 2 ^ 31 := by omega
  have ca := core_le (a.toNat % 2 ^ 31)
  rw [if_neg (by unfold NaN32 e32 m32 at ha; omega)] at na
  rw [hm, if_neg (by unfold NaN32 e32 m32 at ha; omega)] at nb
  apply BitVec.eq_of_toNat_eq
  rw [nb, x2, na]
  omega

-- non-trivial instances of the hypotheses
example : ¬ NaN32 0xff800000#32 ∧ ¬ NaN32 0x33000001#32 ∧
    f32key 0xff800000#32 ≤ f32key 0x33000001#32 := by
  refine ⟨by unfold NaN32 e32 m32; decide, by unfold NaN32 e32 m32; decide, by decide⟩
-- the NaN side condition of `f32ToU16_neg` is needed
example : NaN32 0x7fc00000#32 ∧
    f32ToU16 (0x7fc00000#32 ^^^ 0x80000000#32) ≠ f32ToU16 0x7fc00000#32 ^^^ 0x8000#16 :=
  ⟨by unfold NaN32 e32 m32; decide, by decide⟩

end Nsimd.Props.Fp16
