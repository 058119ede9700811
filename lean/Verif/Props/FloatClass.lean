import Verif.Model.FloatClass

/-!
# C42: classes of floating point numbers
-/

namespace Nsimd.Props.FloatClass

open Nsimd.FloatClass

/-- Number of bits of the exponent and of the significand: IEEE-754 formats. Specification. -/
structure Format where
  e : Nat
  m : Nat

/-- binary16. Specification. -/
abbrev f16 : Format := ⟨5, 10⟩
/-- binary32. Specification. -/
abbrev f32 : Format := ⟨8, 23⟩
/-- binary64. Specification. -/
abbrev f64 : Format := ⟨11, 52⟩

/-- Biased exponent field. Specification. -/
def Format.exp (f : Format) (b : Nat) : Nat := b / 2 ^ f.m % 2 ^ f.e

/-- Significand field. Specification. -/
def Format.frac (f : Format) (b : Nat) : Nat := b % 2 ^ f.m

/-- The classes of IEEE-754. Specification. -/
inductive Class | zero | subnormal | normal | infinite | nan
  deriving DecidableEq, Repr

/-- Class of a bit pattern. Specification. -/
def Format.class (f : Format) (b : Nat) : Class :=
  if f.exp b = 2 ^ f.e - 1 then (if f.frac b = 0 then .infinite else .nan)
  else if f.exp b = 0 then (if f.frac b = 0 then .zero else .subnormal)
  else .normal

theorem field {w : Nat} (b : BitVec w) (s k : Nat) (hk : k < w) (c : Nat) (hc : c < 2 ^ k) :
    (((b >>> s) &&& BitVec.ofNat w (2 ^ k - 1)) == BitVec.ofNat w c) = decide (b.toNat / 2 ^ s % 2 ^ k = c) := by
  have hpow : 2 ^ k < 2 ^ w := Nat.pow_lt_pow_right (by omega) hk
  have e : ((b >>> s) &&& BitVec.ofNat w (2 ^ k - 1)).toNat = b.toNat / 2 ^ s % 2 ^ k := by
    rw [BitVec.toNat_and, BitVec.toNat_ofNat, Nat.mod_eq_of_lt (by omega), BitVec.toNat_ushiftRight,
      Nat.shiftRight_eq_div_pow, Nat.and_two_pow_sub_one_eq_mod]
  have ec : (BitVec.ofNat w c).toNat = c := by rw [BitVec.toNat_ofNat, Nat.mod_eq_of_lt (by omega)]
  rw [Bool.eq_iff_iff, beq_iff_eq, decide_eq_true_iff]
  constructor
  · intro h
    have := congrArg BitVec.toNat h
    rwa [e, ec] at this
  · intro h
    apply BitVec.eq_of_toNat_eq
    rw [e, ec, h]

theorem shl_zero {w : Nat} (b : BitVec w) (s : Nat) (hs : s ≤ w) :
    ((b <<< s) == 0#w) = decide (b.toNat % 2 ^ (w - s) = 0) := by
  rw [Bool.eq_iff_iff, beq_iff_eq, decide_eq_true_iff]
  have e : (b <<< s).toNat = b.toNat % 2 ^ (w - s) * 2 ^ s := by
    rw [BitVec.toNat_shiftLeft, Nat.shiftLeft_eq]
    have hw : 2 ^ w = 2 ^ (w - s) * 2 ^ s := by rw [← Nat.pow_add, Nat.sub_add_cancel hs]
    rw [hw, Nat.mul_mod_mul_right]
  constructor
  · intro h
    have := congrArg BitVec.toNat h
    rw [e] at this
    have h2 : (0#w).toNat = 0 := by simp
    rw [h2] at this
    rcases Nat.mul_eq_zero.mp this with h | h
    · exact h
    · exact absurd h (by have := Nat.two_pow_pos s; omega)
  · intro h
    apply BitVec.eq_of_toNat_eq
    rw [e, h, Nat.zero_mul]
    simp

/-- The tests of the code, f32. -/
theorem tests32 (b : BitVec 32) :
    (((b >>> 23) &&& 0xFF#32) == 0xFF#32) = decide (f32.exp b.toNat = 255) ∧
    (((b >>> 23) &&& 0xFF#32) == 0#32) = decide (f32.exp b.toNat = 0) ∧
    ((b <<< 9) == 0#32) = decide (f32.frac b.toNat = 0) :=
  ⟨field b 23 8 (by omega) 255 (by omega), field b 23 8 (by omega) 0 (by omega), shl_zero b 9 (by omega)⟩

/-- The tests of the code, f64. -/
theorem tests64 (b : BitVec 64) :
    (((b >>> 52) &&& 0x7FF#64) == 0x7FF#64) = decide (f64.exp b.toNat = 2047) ∧
    (((b >>> 52) &&& 0x7FF#64) == 0#64) = decide (f64.exp b.toNat = 0) ∧
    ((b <<< 12) == 0#64) = decide (f64.frac b.toNat = 0) :=
  ⟨field b 52 11 (by omega) 2047 (by omega), field b 52 11 (by omega) 0 (by omega), shl_zero b 12 (by omega)⟩

/-- The tests of the code, f16: the last one looks at all the bits. -/
theorem tests16 (b : BitVec 16) :
    (((b.setWidth 32 >>> 10) &&& 0x1F#32) == 0x1F#32) = decide (f16.exp b.toNat = 31) ∧
    (((b.setWidth 32 >>> 10) &&& 0x1F#32) == 0#32) = decide (f16.exp b.toNat = 0) ∧
    ((b.setWidth 32 <<< 6) == 0#32) = decide (b.toNat = 0) := by
  have hb := b.isLt
  have e : (b.setWidth 32).toNat = b.toNat := by
    rw [BitVec.toNat_setWidth, Nat.mod_eq_of_lt (by omega)]
  have h1 := field (b.setWidth 32) 10 5 (by omega) 31 (by omega)
  have h2 := field (b.setWidth 32) 10 5 (by omega) 0 (by omega)
  have h3 := shl_zero (b.setWidth 32) 6 (by omega)
  rw [e] at h1 h2 h3
  rw [Nat.mod_eq_of_lt (by omega : b.toNat < 2 ^ (32 - 6))] at h3
  exact ⟨h1, h2, h3⟩

/-- C42 for `isnan`, the part that holds: f32 and f64. Missing: f16, see `isnanF16_class`. -/
theorem isnan_partial :
    (∀ b : BitVec 32, isnanF32 b = true ↔ f32.class b.toNat = .nan) ∧
    (∀ b : BitVec 64, isnanF64 b = true ↔ f64.class b.toNat = .nan) := by
  constructor
  · intro b
    obtain ⟨h1, -, h3⟩ := tests32 b
    unfold isnanF32 Format.class
    rw [bne, h1, h3, show 2 ^ f32.e - 1 = 255 from rfl]
    by_cases he : f32.exp b.toNat = 255 <;> by_cases hf : f32.frac b.toNat = 0 <;> simp [he, hf]
    all_goals split <;> simp
  · intro b
    obtain ⟨h1, -, h3⟩ := tests64 b
    unfold isnanF64 Format.class
    rw [bne, h1, h3, show 2 ^ f64.e - 1 = 2047 from rfl]
    by_cases he : f64.exp b.toNat = 2047 <;> by_cases hf : f64.frac b.toNat = 0 <;> simp [he, hf]
    all_goals split <;> simp

/-- C42 for `isinf`, the part that holds: f32 and f64. Missing: f16, see `isinfF16_never`. -/
theorem isinf_partial :
    (∀ b : BitVec 32, isinfF32 b = true ↔ f32.class b.toNat = .infinite) ∧
    (∀ b : BitVec 64, isinfF64 b = true ↔ f64.class b.toNat = .infinite) := by
  constructor
  · intro b
    obtain ⟨h1, -, h3⟩ := tests32 b
    unfold isinfF32 Format.class
    rw [h1, h3, show 2 ^ f32.e - 1 = 255 from rfl]
    by_cases he : f32.exp b.toNat = 255 <;> by_cases hf : f32.frac b.toNat = 0 <;> simp [he, hf]
    all_goals split <;> simp
  · intro b
    obtain ⟨h1, -, h3⟩ := tests64 b
    unfold isinfF64 Format.class
    rw [h1, h3, show 2 ^ f64.e - 1 = 2047 from rfl]
    by_cases he : f64.exp b.toNat = 2047 <;> by_cases hf : f64.frac b.toNat = 0 <;> simp [he, hf]
    all_goals split <;> simp

/-- What `isnan` computes on f16: NaN or infinity. -/
theorem isnanF16_class (b : BitVec 16) :
    isnanF16 b = true ↔ f16.class b.toNat = .nan ∨ f16.class b.toNat = .infinite := by
  obtain ⟨h1, -, h3⟩ := tests16 b
  have h0 : b.toNat = 0 → ¬ f16.exp b.toNat = 31 := by
    intro h; rw [h]; decide
  unfold isnanF16 Format.class
  rw [bne, h1, h3, show 2 ^ f16.e - 1 = 31 from rfl]
  by_cases he : f16.exp b.toNat = 31 <;> by_cases hf : f16.frac b.toNat = 0 <;> simp [he, hf]
  · exact fun h => h0 h he
  · exact fun h => h0 h he
  all_goals split <;> simp

/-- `isinf` on f16 is always false. -/
theorem isinfF16_never (b : BitVec 16) : isinfF16 b = false := by
  obtain ⟨h1, -, h3⟩ := tests16 b
  have h0 : b.toNat = 0 → ¬ f16.exp b.toNat = 31 := by
    intro h; rw [h]; decide
  unfold isinfF16
  rw [h1, h3]
  by_cases hb : b.toNat = 0
  · rw [decide_eq_false (h0 hb)]; rfl
  · rw [decide_eq_false hb, Bool.and_false]

/-- What `isnormal` computes on f32 and f64: everything but subnormal numbers. -/
theorem isnormal_class :
    (∀ b : BitVec 32, isnormalF32 b = true ↔ f32.class b.toNat ≠ .subnormal) ∧
    (∀ b : BitVec 64, isnormalF64 b = true ↔ f64.class b.toNat ≠ .subnormal) := by
  constructor
  · intro b
    obtain ⟨-, h1, h3⟩ := tests32 b
    unfold isnormalF32 Format.class
    rw [bne, h1, h3, show 2 ^ f32.e - 1 = 255 from rfl]
    by_cases he : f32.exp b.toNat = 0 <;> by_cases hf : f32.frac b.toNat = 0 <;> simp [he, hf]
    all_goals split <;> simp
  · intro b
    obtain ⟨-, h1, h3⟩ := tests64 b
    unfold isnormalF64 Format.class
    rw [bne, h1, h3, show 2 ^ f64.e - 1 = 2047 from rfl]
    by_cases he : f64.exp b.toNat = 0 <;> by_cases hf : f64.frac b.toNat = 0 <;> simp [he, hf]
    all_goals split <;> simp

/-- What `isnormal` computes on f16: subnormal numbers and `-0`. -/
theorem isnormalF16_class (b : BitVec 16) :
    isnormalF16 b = true ↔ f16.class b.toNat = .subnormal ∨ b = 0x8000#16 := by
  obtain ⟨-, h1, h3⟩ := tests16 b
  have hb := b.isLt
  unfold isnormalF16 Format.class
  rw [bne, h1, h3, show 2 ^ f16.e - 1 = 31 from rfl]
  have hm : b = 0x8000#16 ↔ b.toNat = 32768 := by
    constructor
    · intro h; rw [h]; rfl
    · intro h; exact BitVec.eq_of_toNat_eq (by rw [h]; rfl)
  rw [hm]
  have e1 : f16.exp b.toNat = b.toNat / 1024 % 32 := rfl
  have e2 : f16.frac b.toNat = b.toNat % 1024 := rfl
  rw [e1, e2]
  generalize b.toNat = x at *
  by_cases he : x / 1024 % 32 = 0 <;> by_cases hf : x % 1024 = 0 <;> simp [he, hf]
  · omega
  · omega
  · split <;> simp <;> omega
  · split <;> simp <;> omega

/-- C42 is false: the f16 infinity is reported as NaN and not as infinite; 1.0 is not normal as an f16; zero
and infinity are normal as f32 and f64. -/
theorem class_counterexample :
    (f16.class 0x7C00 = .infinite ∧ isnanF16 0x7C00#16 = true ∧ isinfF16 0x7C00#16 = false) ∧
    (f16.class 0x3C00 = .normal ∧ isnormalF16 0x3C00#16 = false) ∧
    (f32.class 0 = .zero ∧ isnormalF32 0#32 = true) ∧
    (f32.class 0x7F800000 = .infinite ∧ isnormalF32 0x7F800000#32 = true) ∧
    (f64.class 0 = .zero ∧ isnormalF64 0#64 = true) := by decide

example : f32.class 0x7FC00001 = .nan ∧ f64.class 0xFFF0000000000000 = .infinite := by decide

end Nsimd.Props.FloatClass
