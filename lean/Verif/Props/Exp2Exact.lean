import Verif.Props.Log2Exact

/-!
# `exp2_u35` of the integers
-/

namespace Nsimd.Props.Exp2Exact
open Nsimd.Hypot Nsimd.F16Arith Nsimd.Sleef Nsimd.DoubleDouble Nsimd.Float Nsimd.MathCalls Nsimd.Round Nsimd.Fp16
open Nsimd.Props.Fp16 Nsimd.Props.F16Arith Nsimd.Props.MathCalls Nsimd.Props.Round Nsimd.Props.Hypot Nsimd.Props.Ulp
open Nsimd.Props.MathF16 Nsimd.Props.MathF16Special

variable {rnd rndd : ℚ → ℚ} {m : Mode}

/-- A power of two in the range of the type. Proof helper. -/
theorem rep_pow {p : ℕ} {emin k : ℤ} (hp : 1 ≤ p) (hk : emin ≤ k) : Rep p emin ((2 : ℚ) ^ k) :=
  ⟨1, k, by rw [abs_one]; exact one_lt_pow₀ (by norm_num) (by omega), hk, by simp⟩

/-- The integer next to an integer. Proof helper. -/
theorem rintk_int {p : ℕ} {emin : ℤ} (h : Nearest p emin rnd) (hp : 20 ≤ p) (hmin : emin ≤ -p - 1) (hm : m.Ok) {k : ℤ}
    (hk : |k| < 2 ^ 11) : rintk rnd m (k : ℚ) = some k := by
  have hk' : |(k : ℚ)| + 1 ≤ 2 ^ 11 := by
    have : |k| + 1 ≤ 2 ^ 11 := hk
    exact_mod_cast this
  obtain ⟨q, h1, h2⟩ := rintk_near h (by omega) hmin hm (y := (k : ℚ)) (j := 11) (by norm_num) (by linarith)
  have h3 : (2 : ℚ) ^ 11 / 2 ^ p / 2 ≤ 2 ^ 11 / 2 ^ 20 / 2 := by
    have : (2 : ℚ) ^ 20 ≤ 2 ^ p := pow_le_pow_right₀ (by norm_num) hp
    gcongr
  have h4 : |(q : ℚ) - k| < 1 := by norm_num at h3 h2 ⊢; linarith
  have h5 : |q - k| < 1 := by exact_mod_cast h4
  rw [Int.abs_lt_one_iff] at h5
  rw [h1, show q = k by omega]

/-- The scaling of 1. Proof helper. -/
theorem ldexp2k_one {p : ℕ} {emin emax k : ℤ} (h : Nearest p emin rnd) (hp : 1 ≤ p) (hmin : emin ≤ 0) (h1 : emin ≤ k) (h2 : k < emax) :
    ldexp2k rnd emax 1 k = .fin (2 ^ k) := by
  have e : k.shiftRight 1 = k / 2 := by
    have := Int.shiftRight_eq_div_pow k 1
    simp only [pow_one, Nat.cast_ofNat] at this
    exact this
  unfold ldexp2k pow2i
  rw [e, mul, one_mul, h.fix (rep_pow hp (by omega)), ← zpow_add₀ (by norm_num), show k / 2 + (k - k / 2) = k by ring, roundFl,
    h.fix (rep_pow hp h1), abs_of_pos (by positivity), if_pos (zpow_lt_zpow_right₀ (by norm_num) h2)]

/-- The last step of the polynomial at 0. Proof helper. -/
theorem mla_zero {p : ℕ} {emin : ℤ} (h : Nearest p emin rnd) (hp : 1 ≤ p) (hmin : emin ≤ 0) (lt : ℚ → ℚ) (hl : lt 1 = 1) (b : Bool) (u : ℚ) :
    (flAlg rnd lt b).mla u 0 ((flAlg rnd lt b).lit 1) = 1 := by
  have z : rnd 0 = 0 := h.fix ⟨0, 0, by simp, hmin, by simp⟩
  have o : rnd 1 = 1 := by simpa using h.fix (rep_pow (k := 0) hp hmin)
  cases b <;> simp [flAlg, mul, add, fma, z, o, hl]

/-- **exp2_u35, f64**: the power of two is exact for every integer whose power is a number of the type, subnormal ones included. -/
theorem xexp2_int (h : Nearest 53 (-1074) rnd) (fused : Bool) (hm : m.Ok) {k : ℤ} (h1 : -1074 ≤ k) (h2 : k < 1024) :
    xexp2 rnd fused m (.fin k) = some (.fin (2 ^ k)) := by
  have hq := rintk_int h (by norm_num) (by norm_num) hm (k := k) (by rw [abs_lt]; constructor <;> norm_num <;> omega)
  have z : rnd 0 = 0 := h.fix ⟨0, 0, by norm_num, by norm_num, by norm_num⟩
  have o : rnd 1 = 1 := by simpa using h.fix (rep_pow (k := 0) (by norm_num) (by norm_num))
  have hs : ∀ b, (flAlg rnd rnd b).sub (k : ℚ) (k : ℚ) = 0 := fun b => by simp [flAlg, sub, z]
  have c1 : (-2000 : ℚ) ≤ k := by exact_mod_cast (show (-2000 : ℤ) ≤ k by omega)
  have c2 : (k : ℚ) < 1024 := by exact_mod_cast h2
  simp only [xexp2, select, hq, Option.map_some, hs, mla_zero h (by norm_num) (by norm_num) rnd o,
    ldexp2k_one h (by norm_num) (by norm_num) h1 h2]
  rw [if_neg (by simpa using c1), if_neg (by simpa using c2)]

/-- **exp2_u35, f32**: the power of two is exact for every integer whose power is a number of the type, subnormal ones included. -/
theorem xexp2f_int (h : Nearest 24 (-149) rnd) (hd : Nearest 53 (-1074) rndd) (fused : Bool) (hm : m.Ok) {k : ℤ} (h1 : -149 ≤ k)
    (h2 : k < 128) : xexp2f rnd fused m rndd (.fin k) = some (.fin (2 ^ k)) := by
  have hq := rintk_int h (by norm_num) (by norm_num) hm (k := k) (by rw [abs_lt]; constructor <;> norm_num <;> omega)
  have z : rnd 0 = 0 := h.fix ⟨0, 0, by norm_num, by norm_num, by norm_num⟩
  have o : rnd (rndd 1) = 1 := Log2.lt_fix h hd (by simpa using rep_pow (p := 24) (emin := -149) (k := 0) (by norm_num) (by norm_num))
  have hs : ∀ b, (flAlg rnd (fun c => rnd (rndd c)) b).sub (k : ℚ) (k : ℚ) = 0 := fun b => by simp [flAlg, sub, z]
  have c1 : (-150 : ℚ) ≤ k := by exact_mod_cast (show (-150 : ℤ) ≤ k by omega)
  have c2 : (k : ℚ) < 128 := by exact_mod_cast h2
  simp only [xexp2f, select, hq, Option.map_some, hs, mla_zero h (by norm_num) (by norm_num) (fun c => rnd (rndd c)) o,
    ldexp2k_one h (by norm_num) (by norm_num) h1 h2]
  rw [if_neg (by simpa using c1), if_neg (by simpa using c2)]

/-- **exp2_u35, f16**: the power of two is exact for every integer whose power is a number of the type, subnormal ones included. -/
theorem exp2_f16_int (h : Nearest 24 (-149) rnd) (hd : Nearest 53 (-1074) rndd) (fused : Bool) (hm : m.Ok) {f : BitVec 32 → BitVec 32}
    (hf : ComputesAll (xexp2f rnd fused m rndd) f) {a : BitVec 16} {k : ℤ} (ha : fl16 a = .fin k) (h1 : -24 ≤ k) (h2 : k < 16) :
    Returns f a (.fin (2 ^ k)) := by
  obtain ⟨x, e1, e2, -⟩ := dec_denotes a
  have hsc : scalarF16 (fun x _ => f x) a a = some (f32ToU16 (f x)) := by simp [scalarF16, e1]
  obtain ⟨z1, z2⟩ : Denotes (f x) (.fin (2 ^ k)) :=
    hf x _ _ e2 (by rw [ha]; exact xexp2f_int h hd fused hm (by omega) (by omega))
  obtain ⟨b, b1, b2⟩ := f16_exists (rep_pow (p := 11) (by norm_num) h1) (by
    rw [abs_of_pos (by positivity)]
    have : (2 : ℚ) ^ k < 2 ^ (16 : ℤ) := zpow_lt_zpow_right₀ (by norm_num) h2
    norm_num at this ⊢; linarith)
  obtain ⟨k1, k2⟩ := f32ToU16_exact z1 b1 (b2.trans z2.symm)
  exact ⟨_, hsc, by simpa [cpuLane2, scalarF16, Cpu.f16Elem] using hsc, by rw [fl16_fin k1, k2, z2]⟩

/-- **log2_u35 and exp2_u35, f32**: the logarithm of the power is the integer. -/
theorem log2_exp2 (h : Nearest 24 (-149) rnd) (hd : Nearest 53 (-1074) rndd) (simd fused : Bool) (hm : m.Ok) {k : ℤ} (h1 : -149 ≤ k)
    (h2 : k < 128) : (xexp2f rnd fused m rndd (.fin k)).map (xlog2f35 rnd rndd simd fused) = some (.fin k) := by
  rw [xexp2f_int h hd fused hm h1 h2, Option.map_some, Log2Exact.xlog2f35_pow h hd simd fused h1 h2]

/-- Concrete cases: the least subnormal numbers of f64 and f32 as powers. -/
example : ∃ r : ℚ → ℚ, xexp2 r true .scalar (.fin (-1074)) = some (.fin (2 ^ (-1074 : ℤ))) := by
  obtain ⟨r, hr⟩ := exists_nearest (p := 53) (by norm_num) (-1074)
  have := xexp2_int hr true (m := .scalar) trivial (k := -1074) (by norm_num) (by norm_num)
  exact ⟨r, by rw [← this]; congr 2⟩

example : ∃ r rd : ℚ → ℚ, xexp2f r true (.simd round) rd (.fin (-149)) = some (.fin (2 ^ (-149 : ℤ))) := by
  obtain ⟨r, hr⟩ := exists_nearest (p := 24) (by norm_num) (-149)
  obtain ⟨rd, hrd⟩ := exists_nearest (p := 53) (by norm_num) (-1074)
  have := xexp2f_int hr hrd true (m := .simd round) (fun y => by rw [abs_sub_comm]; exact abs_sub_round y) (k := -149) (by norm_num) (by norm_num)
  exact ⟨r, rd, by rw [← this]; congr 2⟩

/-- A concrete case: the f16 with value -24. -/
example : ∃ f, Returns f 0xce00#16 (.fin (2 ^ (-24 : ℤ))) := by
  obtain ⟨r, hr⟩ := exists_nearest (p := 24) (by norm_num) (-149)
  obtain ⟨rd, hrd⟩ := exists_nearest (p := 53) (by norm_num) (-1074)
  have hm : (Mode.simd round).Ok := fun y => by rw [abs_sub_comm]; exact abs_sub_round y
  obtain ⟨⟨f, hf⟩, -⟩ := exp_f16_special hr hrd false hm (xexp2f r false (.simd round) rd) (by simp)
  have e : f16Value 0xce00#16 = -24 := by norm_num [f16Value, e16, m16, sgn, BitVec.msb_eq_decide]
  have ha : Finite16 0xce00#16 := by simp [Finite16, e16]
  exact ⟨f, exp2_f16_int hr hrd false hm hf (k := -24) (by rw [fl16_fin ha, e]; norm_num) (by norm_num) (by norm_num)⟩

end Nsimd.Props.Exp2Exact
