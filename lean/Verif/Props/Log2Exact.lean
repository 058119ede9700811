import Verif.Props.Log2F16

/-!
# `log2_u35` of the powers of two
-/

namespace Nsimd.Props.Log2Exact
open Nsimd.Hypot Nsimd.F16Arith Nsimd.Sleef Nsimd.DoubleDouble Nsimd.Float Nsimd.MathCalls Nsimd.Round Nsimd.Fp16
open Nsimd.Props.Fp16 Nsimd.Props.F16Arith Nsimd.Props.MathCalls Nsimd.Props.Round Nsimd.Props.Hypot Nsimd.Props.Ulp
open Nsimd.Props.MathF16 Nsimd.Props.MathF16Special Nsimd.Props.Log

variable {rnd rndd : ℚ → ℚ}

/-- An integer of at most eleven bits is a number of every type used here. Proof helper. -/
theorem rep_int {p : ℕ} {emin k : ℤ} (hp : 11 ≤ p) (he : emin ≤ 0) (hk : |k| < 2 ^ 11) : Rep p emin (k : ℚ) :=
  ⟨k, 0, hk.trans_le (pow_le_pow_right₀ (by norm_num) hp), he, by simp⟩

/-- The significand 1. Proof helper. -/
theorem kernel_one (h : Nearest 24 (-149) rnd) (hd : Nearest 53 (-1074) rndd) (fused : Bool) {k : ℤ} (hk : |k| < 2 ^ 11) :
    log2Kernel (flAlg rnd (fun c => rnd (rndd c)) fused) 1 k = k := by
  have z : rnd 0 = 0 := h.fix ⟨0, 0, by norm_num, by norm_num, by norm_num⟩
  have hx : logX (flAlg rnd (fun c => rnd (rndd c)) fused) 0 = 0 := by rw [Log2.logX_eq h hd, zero_div, z]
  have hk' : rnd (k : ℚ) = k := h.fix (rep_int (by norm_num) (by norm_num) hk)
  have := Log2.kernel_eq h hd fused (s := 0) ⟨0, 0, by norm_num, by norm_num, by norm_num⟩ (k : ℚ)
  rw [add_zero] at this
  rw [this, log2R, log2X3, hx]
  cases fused <;> simp [flAlg, mul, z, hk']

/-- A power of two between 0.7499 and 1.5001 is 1. Proof helper. -/
theorem pow_one {j : ℤ} (h1 : (0.7499 : ℚ) ≤ 2 ^ j) (h2 : (2 : ℚ) ^ j ≤ 1.5001) : j = 0 := by
  have a : ¬ j ≤ -1 := fun hj => by
    have := zpow_le_zpow_right₀ (show (1 : ℚ) ≤ 2 by norm_num) hj
    norm_num at this h1; linarith
  have b : ¬ 1 ≤ j := fun hj => by
    have := zpow_le_zpow_right₀ (show (1 : ℚ) ≤ 2 by norm_num) hj
    norm_num at this h2; linarith
  omega

/-- **log2_u35, f32**: the logarithm of a power of two is exact, subnormal ones included. -/
theorem xlog2f35_pow (h : Nearest 24 (-149) rnd) (hd : Nearest 53 (-1074) rndd) (simd fused : Bool) {k : ℤ} (h1 : -149 ≤ k) (h2 : k < 128) :
    xlog2f35 rnd rndd simd fused (.fin (2 ^ k)) = .fin k := by
  have h0 : (0 : ℚ) < 2 ^ k := by positivity
  simp only [xlog2f35, logWith, if_neg h0.ne', if_neg (not_lt.mpr h0.le)]
  rcases hs : logSplit rnd (-149) 128 24 (2 ^ k) with ⟨m, e⟩
  obtain ⟨hde, -, hm1, hm2⟩ := logSplit_spec h (by norm_num) (by norm_num) (by norm_num) ⟨1, k, by norm_num, h1, by simp⟩ h0
    (by norm_num) (zpow_lt_zpow_right₀ (by norm_num) h2) hs
  have hm : m = 2 ^ (k - e) := by
    rw [zpow_sub₀ (by norm_num), hde]
    field_simp
  rw [hm] at hm1 hm2
  have hj := pow_one hm1 hm2
  rw [hj, zpow_zero] at hm
  obtain rfl : e = k := by omega
  subst hm
  simp only [Fl.fin.injEq]
  exact kernel_one h hd _ (by rw [abs_lt]; constructor <;> norm_num <;> omega)

/-- **log2_u35, f16**: the logarithm of a power of two is exact, subnormal ones included. -/
theorem log2_f16_pow (h : Nearest 24 (-149) rnd) (hd : Nearest 53 (-1074) rndd) (simd fused : Bool) {f : BitVec 32 → BitVec 32}
    (hf : ComputesAll (fun v => some (xlog2f35 rnd rndd simd fused v)) f) {a : BitVec 16} {k : ℤ} (ha : fl16 a = .fin (2 ^ k)) :
    Returns f a (.fin k) := by
  have hk : -24 ≤ k ∧ k < 16 := by
    have hfin : Finite16 a := by
      intro hn
      unfold fl16 at ha
      rw [if_pos hn] at ha
      split at ha <;> cases ha
    rw [fl16_fin hfin] at ha
    simp only [Fl.fin.injEq] at ha
    obtain ⟨n, j, -, hj, e⟩ := rep_f16 hfin
    have hb := f16_bound a hfin
    rw [ha, abs_of_pos (by positivity)] at hb
    rw [ha] at e
    constructor
    · by_contra hlt
      have hn : (0 : ℚ) < n := by
        have : (0 : ℚ) < (n : ℚ) * 2 ^ j := e ▸ by positivity
        exact pos_of_mul_pos_left this (by positivity)
      have hn1 : (1 : ℚ) ≤ n := by exact_mod_cast (show (0 : ℤ) < n by exact_mod_cast hn)
      have : (2 : ℚ) ^ k < 2 ^ j := zpow_lt_zpow_right₀ (by norm_num) (by omega)
      have hp : (0 : ℚ) < 2 ^ j := by positivity
      nlinarith
    · have : (2 : ℚ) ^ k < 2 ^ (16 : ℤ) := by norm_num at hb ⊢; linarith
      exact (zpow_lt_zpow_iff_right₀ (by norm_num)).mp this
  have hk' : |k| < 2 ^ 11 := by rw [abs_lt]; constructor <;> norm_num <;> omega
  obtain ⟨x, h1, h2, -⟩ := dec_denotes a
  have hsc : scalarF16 (fun x _ => f x) a a = some (f32ToU16 (f x)) := by simp [scalarF16, h1]
  have hz : Denotes (f x) (.fin (k : ℚ)) := hf x _ _ h2 (by rw [ha]; exact congrArg some (xlog2f35_pow h hd simd fused (by omega) (by omega)))
  obtain ⟨z1, z2⟩ := hz
  obtain ⟨b, b1, b2⟩ := f16_exists (v := (k : ℚ)) (rep_int (by norm_num) (by norm_num) hk') (by
    have : |(k : ℚ)| < 2 ^ 11 := by exact_mod_cast hk'
    exact this.trans (by norm_num))
  obtain ⟨k1, k2⟩ := f32ToU16_exact z1 b1 (b2.trans z2.symm)
  exact ⟨_, hsc, by simpa [cpuLane2, scalarF16, Cpu.f16Elem] using hsc, by rw [fl16_fin k1, k2, z2]⟩

/-- A concrete case: the logarithm of the least positive subnormal number of f32. -/
example : ∃ r rd : ℚ → ℚ, xlog2f35 r rd true true (.fin (2 ^ (-149 : ℤ))) = .fin (-149) := by
  obtain ⟨r, hr⟩ := exists_nearest (p := 24) (by norm_num) (-149)
  obtain ⟨rd, hrd⟩ := exists_nearest (p := 53) (by norm_num) (-1074)
  exact ⟨r, rd, by rw [xlog2f35_pow hr hrd true true (by norm_num) (by norm_num)]; norm_num⟩

/-- A concrete case: the f16 with value 8. -/
example : ∃ f, Returns f 0x4800#16 (.fin 3) := by
  obtain ⟨r, hr⟩ := exists_nearest (p := 24) (by norm_num) (-149)
  obtain ⟨rd, hrd⟩ := exists_nearest (p := 53) (by norm_num) (-1074)
  obtain ⟨⟨f, hf⟩, -⟩ := Log2F16.log2_f16_special hr hrd false false
  have e : f16Value 0x4800#16 = 8 := by norm_num [f16Value, e16, m16, sgn, BitVec.msb_eq_decide]
  have ha : Finite16 0x4800#16 := by simp [Finite16, e16]
  exact ⟨f, by simpa using log2_f16_pow hr hrd false false hf (k := 3) (by rw [fl16_fin ha, e]; norm_num)⟩

end Nsimd.Props.Log2Exact
