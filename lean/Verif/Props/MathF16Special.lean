import Verif.Props.MathF16Two

/-!
# Infinities, NaN and arguments outside of the domain on `f16`

The operators on `f16` keep what the functions on f32 do: an infinity stays one with its sign, a NaN stays a NaN.
-/

namespace Nsimd.Props.MathF16Special
open Nsimd.Hypot Nsimd.F16Arith Nsimd.Sleef Nsimd.Float Nsimd.MathCalls Nsimd.Round Nsimd.Fp16
open Nsimd.Props.Fp16 Nsimd.Props.F16Arith Nsimd.Props.MathCalls Nsimd.Props.Round Nsimd.Props.Hypot Nsimd.Props.Ulp
open Nsimd.Props.MathF16 Nsimd.Props.MathF16Two Nsimd.Props.Atan2

variable {rnd rndd sq : ℚ → ℚ} {m : Mode}

/-! ### Specification -/

/-- The function `f` on patterns of f32 computes `g`, infinities and NaNs included. Specification. -/
def ComputesAll (g : Fl → Option Fl) (f : BitVec 32 → BitVec 32) : Prop :=
  ∀ x v r, Denotes x v → g v = some r → Denotes (f x) r

/-- The function `f` of two patterns of f32 computes `g`, infinities and NaNs included. Specification. -/
def ComputesAllSF (g : SF → SF → SF) (f : BitVec 32 → BitVec 32 → BitVec 32) : Prop :=
  ∀ x y, sf32 (f x y) = g (sf32 x) (sf32 y)

/-- The operator on `f16` that calls `f` returns `r` for `a`, in the scalar code and in a lane of the CPU back end. Specification. -/
def Returns (f : BitVec 32 → BitVec 32) (a : BitVec 16) (r : Fl) : Prop :=
  ∃ h, scalarF16 (fun x _ => f x) a a = some h ∧ cpuLane2 (fun x _ => f x) a a = some h ∧ fl16 h = r

/-! ### Parts of the proofs -/

/-- `r` is a result of f32. -/
def Ok32 : Fl → Prop
  | .fin q => Rep 24 (-149) q ∧ |q| < 2 ^ 128
  | _ => True

theorem ok_denotes {r : Fl} (h : Ok32 r) : ∃ x, Denotes x r := by
  cases r with
  | nan => exact ⟨0xffffffff#32, by simp [e32], by simp [m32]⟩
  | inf s =>
    cases s
    · exact ⟨0x7f800000#32, ⟨by simp [e32], by simp [m32]⟩, by simp [BitVec.msb_eq_decide]⟩
    · exact ⟨0xff800000#32, ⟨by simp [e32], by simp [m32]⟩, by simp [BitVec.msb_eq_decide]⟩
  | fin q => exact (f32_exists' h.1 h.2).imp fun x hx => hx

theorem denotes_ok {x : BitVec 32} {v : Fl} (h : Denotes x v) : Ok32 v := by
  cases v with
  | nan => trivial
  | inf s => trivial
  | fin q => obtain ⟨h1, rfl⟩ := h; exact rep_f32 h1

theorem denotes_unique {x : BitVec 32} {v w : Fl} (hv : Denotes x v) (hw : Denotes x w) : v = w := by
  cases v <;> cases w <;> simp only [Denotes, NaN32, Inf32, Finite32] at hv hw
  all_goals first | rfl | (exact absurd hw.1.2 hv.2) | (exact absurd hv.1.2 hw.2) | (exact absurd hv.1 hw.1) | (exact absurd hw.1 hv.1) |
    (exact absurd hv.1.1 hw.1) | (exact absurd hw.1.1 hv.1) | (rw [← hv.2, ← hw.2])

theorem ok_of_within {c y : ℝ} {r : Fl} (h : Within 24 (-149) 128 c y r) : Ok32 r := by
  cases r with
  | nan => trivial
  | inf s => trivial
  | fin q => exact ⟨h.1, by exact_mod_cast h.2.1⟩

theorem computes_exists {g : Fl → Option Fl} (hg : ∀ v r, Ok32 v → g v = some r → Ok32 r) : ∃ f, ComputesAll g f := by
  classical
  refine ⟨fun x => if h : ∃ z, ∀ v r, Denotes x v → g v = some r → Denotes z r then h.choose else 0, fun x v r hv hr => ?_⟩
  have hex : ∃ z, ∀ v r, Denotes x v → g v = some r → Denotes z r := by
    obtain ⟨z, hz⟩ := ok_denotes (hg v r (denotes_ok hv) hr)
    refine ⟨z, fun v' r' hv' hr' => ?_⟩
    rw [denotes_unique hv' hv, hr] at hr'
    cases hr'
    exact hz
  simp only [dif_pos hex]
  exact hex.choose_spec v r hv hr

/-- The pattern of f32 that an argument is converted to. -/
theorem dec_denotes (a : BitVec 16) : ∃ x, u16ToF32 a = some x ∧ Denotes x (fl16 a) ∧ x.msb = a.msb := by
  obtain ⟨x, h1, h2, h3, h4, h5⟩ := u16ToF32_exact a
  refine ⟨x, h1, ?_, h2⟩
  unfold fl16
  split <;> rename_i he
  · split <;> rename_i hm
    · exact ⟨h4 ⟨he, hm⟩, h2⟩
    · exact h5 ⟨he, hm⟩
  · exact h3 he

/-- The conversion of an infinity, a NaN or zero. -/
theorem enc_special {z : BitVec 32} {r : Fl} (hz : Denotes z r) (hr : r = .nan ∨ (∃ s, r = .inf s) ∨ r = .fin 0) : fl16 (f32ToU16 z) = r := by
  rcases hr with rfl | ⟨s, rfl⟩ | rfl
  · rw [(f32ToU16_special z).2 hz]
    simp [fl16, e16, m16]
  · obtain ⟨h1, h2⟩ := (f32ToU16_special z).1 hz.1
    rw [fl16_inf h1, h2, hz.2]
  · obtain ⟨h1, h2⟩ := hz
    have h3 : f16Value 0#16 = 0 := by simp [f16Value, e16, m16]
    obtain ⟨k1, k2⟩ := f32ToU16_exact h1 (h := 0#16) (by simp [Finite16, e16]) (h3.trans h2.symm)
    rw [fl16_fin k1, k2, h2]

theorem returns {g : Fl → Option Fl} {f : BitVec 32 → BitVec 32} (hf : ComputesAll g f) {a : BitVec 16} {r : Fl} (hr : g (fl16 a) = some r)
    (hs : r = .nan ∨ (∃ s, r = .inf s) ∨ r = .fin 0) : Returns f a r := by
  obtain ⟨x, h1, h2, -⟩ := dec_denotes a
  have hsc : scalarF16 (fun x _ => f x) a a = some (f32ToU16 (f x)) := by simp [scalarF16, h1]
  exact ⟨_, hsc, by simpa [cpuLane2, scalarF16, Cpu.f16Elem] using hsc, enc_special (hf x _ r h2 hr) hs⟩

theorem halfPi_ulp {w : ℝ} (hw : IsUlp 24 (-149) |Real.pi / 2| w) : 1 / 2 ^ 24 ≤ w := by
  have h1 := Asin.ulp_rel hw
  have h2 := Real.pi_gt_three
  rw [abs_of_pos (by linarith)] at h1
  norm_num at h1 ⊢
  linarith

/-! ### The functions -/

/-- **log_u35, f16**: minus infinity for both zeros, infinity for infinity, NaN for negative numbers, minus infinity and NaN. -/
theorem log_f16_special (h : Nearest 24 (-149) rnd) (simd fused : Bool) :
    (∃ f, ComputesAll (fun v => some (xlogf rnd simd fused v)) f) ∧
    ∀ f, ComputesAll (fun v => some (xlogf rnd simd fused v)) f → ∀ a,
      (fl16 a = .fin 0 → Returns f a (.inf true)) ∧ (fl16 a = .inf false → Returns f a (.inf false)) ∧
      ((fl16 a = .nan ∨ fl16 a = .inf true ∨ ∃ d, fl16 a = .fin d ∧ d < 0) → Returns f a .nan) := by
  obtain ⟨-, l1, l2, l3, l4, l5⟩ := Log.log_special rnd simd fused
  constructor
  · refine computes_exists fun v r hv hr => ?_
    cases hr
    cases v with
    | nan => rw [l4]; trivial
    | inf s => cases s; exacts [by rw [l2]; trivial, by rw [l3]; trivial]
    | fin d =>
      rcases lt_trichotomy d 0 with h0 | rfl | h0
      · rw [l5 d h0]; trivial
      · rw [l1]; trivial
      · exact ok_of_within (Log.xlogf_within h simd fused hv.1 h0 ((le_abs_self d).trans_lt (by exact_mod_cast hv.2)))
  · intro f hf a
    refine ⟨fun e => returns hf (by rw [e, l1]) (by simp), fun e => returns hf (by rw [e, l2]) (by simp), ?_⟩
    rintro (e | e | ⟨d, e, h0⟩)
    · exact returns hf (by rw [e, l4]) (by simp)
    · exact returns hf (by rw [e, l3]) (by simp)
    · exact returns hf (by rw [e, l5 d h0]) (by simp)

/-- **asin_u35 and acos_u35, f16**: NaN for a number outside of the interval from -1 to 1, for an infinity and for NaN. -/
theorem asin_f16_special (h : Nearest 24 (-149) rnd) (hd : Nearest 53 (-1074) rndd) (hq : Root 24 (-149) sq) (simd fused : Bool) :
    ∀ g ∈ [xasinf rnd sq simd fused rndd, xacosf rnd sq simd fused rndd],
      (∃ f, ComputesAll (fun v => some (g v)) f) ∧
      ∀ f, ComputesAll (fun v => some (g v)) f → ∀ a,
        (fl16 a = .nan ∨ (∃ s, fl16 a = .inf s) ∨ ∃ d, fl16 a = .fin d ∧ 1 < |d|) → Returns f a .nan := by
  have sp := (Asin.asin_special hd h sq sq simd fused).2
  have all : ∀ g : Fl → Fl, (∀ x, (x = .nan ∨ (∃ b, x = .inf b) ∨ ∃ d, x = .fin d ∧ Rep 24 (-149) d ∧ 1 < |d|) → g x = .nan) →
      (∀ d : ℚ, Rep 24 (-149) d → |d| ≤ 1 → Ok32 (g (.fin d))) → (∃ f, ComputesAll (fun v => some (g v)) f) ∧
      ∀ f, ComputesAll (fun v => some (g v)) f → ∀ a,
        (fl16 a = .nan ∨ (∃ s, fl16 a = .inf s) ∨ ∃ d, fl16 a = .fin d ∧ 1 < |d|) → Returns f a .nan := by
    intro g g1 g2
    constructor
    · refine computes_exists fun v r hv hr => ?_
      cases hr
      cases v with
      | nan => rw [g1 _ (Or.inl rfl)]; trivial
      | inf s => rw [g1 _ (Or.inr (Or.inl ⟨s, rfl⟩))]; trivial
      | fin d =>
        rcases le_or_gt |d| 1 with h1 | h1
        · exact g2 d hv.1 h1
        · rw [g1 _ (Or.inr (Or.inr ⟨d, rfl, hv.1, h1⟩))]; trivial
    · intro f hf a ha
      refine returns hf (congrArg some (g1 _ ?_)) (by simp)
      rcases ha with e | e | ⟨d, e, h1⟩
      · exact Or.inl e
      · exact Or.inr (Or.inl e)
      · obtain ⟨x, -, hx, -⟩ := dec_denotes a
        have := denotes_ok hx
        rw [e] at this
        exact Or.inr (Or.inr ⟨d, e, this.1, h1⟩)
  intro g hg
  simp only [List.mem_cons, List.not_mem_nil, or_false] at hg
  rcases hg with rfl | rfl
  · exact all _ (fun x hx => (sp x hx).1) fun d hr h1 => ok_of_within (Asin.xasinf_within h hd hq simd fused hr h1)
  · exact all _ (fun x hx => (sp x hx).2) fun d hr h1 => ok_of_within (Asin.xacosf_within h hd hq simd fused hr h1)

/-- **exp_u10, exp2_u35 and exp10_u35, f16, SIMD code of f32**: infinity for infinity, zero for minus infinity, NaN for NaN. The scalar code is
undefined for them (C98). -/
theorem exp_f16_special (h : Nearest 24 (-149) rnd) (hd : Nearest 53 (-1074) rndd) (fused : Bool) {near : ℚ → ℤ} (hm : (Mode.simd near).Ok) :
    ∀ g ∈ [xexpf rnd fused (.simd near) rndd, xexp2f rnd fused (.simd near) rndd, xexp10f rnd fused (.simd near) rndd],
      (∃ f, ComputesAll g f) ∧
      ∀ f, ComputesAll g f → ∀ a, (fl16 a = .inf false → Returns f a (.inf false)) ∧ (fl16 a = .inf true → Returns f a (.fin 0)) ∧
        (fl16 a = .nan → Returns f a .nan) := by
  intro g hg
  have sp : g (.inf false) = some (.inf false) ∧ g (.inf true) = some (.fin 0) ∧ g .nan = some .nan :=
    Exp.special_simd rnd rndd fused near g (by simp only [List.mem_cons, List.not_mem_nil, or_false] at hg ⊢; tauto)
  have fin : ∀ d : ℚ, Rep 24 (-149) d → ∃ r, g (.fin d) = some r ∧ Ok32 r := by
    intro d hr
    simp only [List.mem_cons, List.not_mem_nil, or_false] at hg
    rcases hg with rfl | rfl | rfl
    · exact (Exp.xexpf_within_partial h hd fused hm hr (fun hc => by cases hc)).imp fun r hr => ⟨hr.1, ok_of_within hr.2⟩
    · exact (Exp.xexp2f_within h hd fused hm (fun hc => by cases hc)).imp fun r hr => ⟨hr.1, ok_of_within hr.2⟩
    · exact (Exp.xexp10f_within h hd fused hm hr (fun hc => by cases hc)).imp fun r hr => ⟨hr.1, ok_of_within hr.2⟩
  constructor
  · refine computes_exists fun v r hv hr => ?_
    cases v with
    | nan => rw [sp.2.2] at hr; cases hr; trivial
    | inf s =>
      cases s
      · rw [sp.1] at hr; cases hr; trivial
      · rw [sp.2.1] at hr; cases hr; exact ⟨rep_zero _ _, by norm_num⟩
    | fin d =>
      obtain ⟨r', e1, e2⟩ := fin d hv.1
      rw [hr] at e1; cases e1; exact e2
  · intro f hf a
    exact ⟨fun e => returns hf (by rw [e, sp.1]) (by simp), fun e => returns hf (by rw [e, sp.2.1]) (by simp),
      fun e => returns hf (by rw [e, sp.2.2]) (by simp)⟩

/-- **cosh_u35, f16, SIMD code of f32**: infinity for both infinities, NaN for NaN. -/
theorem cosh_f16_special (h : Nearest 24 (-149) rnd) (hd : Nearest 53 (-1074) rndd) (fused : Bool) (hm : m.Ok) (hs : m.isSimd = true) :
    (∃ f, ComputesAll (xcoshf35 rnd fused m rndd) f) ∧
    ∀ f, ComputesAll (xcoshf35 rnd fused m rndd) f → ∀ a,
      ((∃ s, fl16 a = .inf s) → Returns f a (.inf false)) ∧ (fl16 a = .nan → Returns f a .nan) := by
  have sp := fun neg => (Cosh.special_simd (rnd := rnd) (rndd := rndd) hs fused neg).2.2
  constructor
  · refine computes_exists fun v r hv hr => ?_
    cases v with
    | nan => rw [(sp true).2] at hr; cases hr; trivial
    | inf s => rw [(sp s).1] at hr; cases hr; trivial
    | fin d =>
      rcases le_or_gt |d| 88 with h8 | h8
      · obtain ⟨r', e1, e2⟩ := Cosh.xcoshf35_within_partial h hd fused hm hv.1 h8
        rw [hr] at e1; cases e1; exact ok_of_within e2
      · rw [Cosh.xcoshf35_over h hd fused hm hv.1 h8 (fun hc => by rw [hc] at hs; cases hs)] at hr
        cases hr; trivial
  · intro f hf a
    exact ⟨fun ⟨s, e⟩ => returns hf (by rw [e, (sp s).1]) (by simp), fun e => returns hf (by rw [e, (sp true).2]) (by simp)⟩

/-- **atan_u35, f16**: within 0.501 ulps of a half of pi with the sign for an infinity, NaN for NaN. -/
theorem atan_f16_special (h : Nearest 24 (-149) rnd) (hd : Nearest 53 (-1074) rndd) (simd fused : Bool) :
    (∃ f, ComputesAll (fun v => some (xatanf rnd simd fused rndd v)) f) ∧
    ∀ f, ComputesAll (fun v => some (xatanf rnd simd fused rndd v)) f → ∀ a,
      (∀ s, fl16 a = .inf s → Accurate f a (if s then -(Real.pi / 2) else Real.pi / 2)) ∧ (fl16 a = .nan → Returns f a .nan) := by
  have hpi := Real.pi_gt_d20
  have hpi' := Real.pi_lt_d20
  have half : Within 24 (-149) 128 3.5 (Real.pi / 2) (.fin (13176795 / 2 ^ 23)) := by
    refine ⟨⟨13176795, -23, by norm_num, by norm_num, by norm_num⟩, by norm_num [abs_lt], fun w hw => ?_⟩
    have h1 := halfPi_ulp hw
    rw [_root_.abs_le]
    norm_num at hpi hpi' h1 ⊢
    constructor <;> linarith
  have inf : ∀ s, Within 24 (-149) 128 3.5 (if s then -(Real.pi / 2) else Real.pi / 2) (xatanf rnd simd fused rndd (.inf s)) := fun s => by
    rw [Atan.xatanf_inf h hd]
    cases s
    · simpa using half
    · simpa using within_neg half
  constructor
  · refine computes_exists fun v r hv hr => ?_
    cases hr
    cases v with
    | nan => trivial
    | inf s => exact ok_of_within (inf s)
    | fin d => exact ok_of_within (Atan.xatanf_within h hd simd fused d)
  · intro f hf a
    refine ⟨fun s e => ?_, fun e => returns hf (by rw [e, (Atan.atan_nan rnd rndd simd fused).2]) (by simp)⟩
    obtain ⟨x, h1, h2, -⟩ := dec_denotes a
    have hsc : scalarF16 (fun x _ => f x) a a = some (f32ToU16 (f x)) := by simp [scalarF16, h1]
    rw [e] at h2
    exact ⟨_, hsc, by simpa [cpuLane2, scalarF16, Cpu.f16Elem] using hsc, cvt_within (by norm_num) (hf x _ _ h2 rfl) (Or.inl (inf s))⟩

/-- The number with its sign bit that a pattern of f16 denotes. Specification (IEEE-754). -/
def sf16 (x : BitVec 16) : SF :=
  if e16 x = 31 then (if m16 x = 0 then .inf x.msb else .nan) else .fin x.msb |f16Value x|

theorem dec_sf (a : BitVec 16) : ∃ x, u16ToF32 a = some x ∧ sf32 x = sf16 a := by
  obtain ⟨x, h1, h2, h3, h4, h5⟩ := u16ToF32_exact a
  refine ⟨x, h1, ?_⟩
  unfold sf16
  split <;> rename_i he
  · split <;> rename_i hm
    · have := h4 ⟨he, hm⟩
      unfold sf32; rw [if_pos this.1, if_pos this.2, h2]
    · have := h5 ⟨he, hm⟩
      unfold sf32; rw [if_pos this.1, if_neg this.2]
  · rw [sf32_fin (h3 he).1, h2, (h3 he).2]

theorem limAngle_le (y x : SF) : |limAngle y x| ≤ 4 := by
  have hpi := Real.pi_lt_d2
  have hpi0 := Real.pi_pos
  have : 0 ≤ limAngle y x ∧ limAngle y x ≤ Real.pi := by
    cases y <;> cases x <;> simp only [limAngle] <;> (try split) <;> constructor <;> linarith
  rw [abs_of_nonneg this.1]
  linarith

/-- **atan2_u35, f16, infinite arguments and NaN**: the result has the sign of the first argument and its absolute value is within 0.501 ulps of
the angle of the direction; it is NaN if an argument is. -/
theorem atan2_f16_special (h : Nearest 24 (-149) rnd) (ho : ∀ x, rnd (-x) = -rnd x) (hd : Nearest 53 (-1074) rndd) (simd fused : Bool) :
    (∃ f, ComputesAllSF (xatan2f rnd simd fused rndd) f) ∧
    ∀ f, ComputesAllSF (xatan2f rnd simd fused rndd) f → ∀ a b,
      ∃ r, scalarF16 f a b = some r ∧ cpuLane2 f a b = some r ∧
        ((sf16 a = .nan ∨ sf16 b = .nan) → NaN16 r) ∧
        (sf16 a ≠ .nan → sf16 b ≠ .nan → (Inf16 a ∨ Inf16 b) → Finite16 r ∧ r.msb = a.msb ∧
          Within 11 (-24) 16 0.501 (limAngle (sf16 a) (sf16 b)) (.fin |f16Value r|)) := by
  constructor
  · classical
    refine ⟨fun x y => if hex : ∃ z, sf32 z = xatan2f rnd simd fused rndd (sf32 x) (sf32 y) then hex.choose else 0, fun x y => ?_⟩
    have sw : ∀ {c s Y r}, SignedWithin 24 (-149) 128 c s Y r → ∃ z, sf32 z = r := by
      rintro c s Y r ⟨q, rfl, e2, e3, e4, -⟩
      exact sf_exists e2 e3 (by exact_mod_cast e4)
    have hex : ∃ z, sf32 z = xatan2f rnd simd fused rndd (sf32 x) (sf32 y) := by
      by_cases hn : sf32 x = .nan ∨ sf32 y = .nan
      · rw [(atan2_nan rnd rndd simd fused _ _).2.mpr hn]
        exact ⟨0xffffffff#32, by simp [sf32, e32, m32]⟩
      · push Not at hn
        by_cases hi : (sf32 x).isInf = true ∨ (sf32 y).isInf = true
        · exact sw (xatan2f_inf h ho hd simd fused hn.1 hn.2 hi)
        · have fin : ∀ x, sf32 x ≠ .nan → ¬ (sf32 x).isInf = true → ∃ s q, sf32 x = .fin s q ∧ 0 ≤ q := by
            intro x h1 h2
            by_cases he : e32 x = 255
            · unfold sf32 at h1 h2
              rw [if_pos he] at h1 h2
              split at h1 <;> simp_all [SF.isInf]
            · exact ⟨_, _, sf32_fin he, abs_nonneg _⟩
          push Not at hi
          obtain ⟨s, q, e1, e2⟩ := fin x hn.1 hi.1
          obtain ⟨t, u, e3, e4⟩ := fin y hn.2 hi.2
          rw [e1, e3]
          exact sw (xatan2f_within h ho hd simd fused s t e4 e2)
    simp only [dif_pos hex]
    exact hex.choose_spec
  · intro f hf a b
    obtain ⟨x, x1, x2⟩ := dec_sf a
    obtain ⟨y, y1, y2⟩ := dec_sf b
    have hs : scalarF16 f a b = some (f32ToU16 (f x y)) := by simp [scalarF16, x1, y1]
    have hz := hf x y
    rw [x2, y2] at hz
    refine ⟨_, hs, by simpa [cpuLane2, scalarF16, Cpu.f16Elem] using hs, fun hn => ?_, fun h1 h2 h3 => ?_⟩
    · rw [(atan2_nan rnd rndd simd fused _ _).2.mpr hn] at hz
      have : NaN32 (f x y) := by
        unfold sf32 at hz
        split at hz <;> rename_i he
        · split at hz <;> rename_i hm
          · cases hz
          · exact ⟨he, hm⟩
        · cases hz
      rw [(f32ToU16_special _).2 this]
      exact ⟨by simp [e16], by simp [m16]⟩
    · have inf : ∀ c : BitVec 16, Inf16 c → (sf16 c).isInf = true := fun c hc => by
        unfold sf16; rw [if_pos hc.1, if_pos hc.2]; rfl
      have hm := xatan2f_inf h ho hd simd fused h1 h2 (h3.imp (inf a) (inf b))
      have hsgn : (sf16 a).sgn = a.msb := by
        by_cases he : e16 a = 31
        · unfold sf16 at h1 ⊢
          rw [if_pos he] at h1 ⊢
          split at h1 <;> simp_all [SF.sgn]
        · unfold sf16; rw [if_neg he]; rfl
      rw [← hz, hsgn] at hm
      obtain ⟨q, q1, q2, q3⟩ := hm
      exact cvt_signed ⟨q, q1, q2, q3.mono (by norm_num)⟩ (limAngle_le _ _)

/-- The patterns of the special values of f16. -/
example : fl16 0x7c00#16 = .inf false ∧ fl16 0xfc00#16 = .inf true ∧ fl16 0x7e00#16 = .nan ∧ fl16 0x8000#16 = .fin 0 ∧ fl16 0xc000#16 = .fin (-2) := by
  refine ⟨?_, ?_, ?_, ?_, ?_⟩ <;> norm_num [fl16, e16, m16, f16Value, sgn, BitVec.msb_eq_decide]

end Nsimd.Props.MathF16Special
