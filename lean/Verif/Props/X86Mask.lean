import Verif.Model.X86Mask
import Verif.Lemmas.Cpu
import Verif.Props.Popcnt
import Verif.Props.X86Int
import Verif.Props.CpuLoop

/-!
# C14, C13, C17, C18 on x86: logical registers and bit masks
-/

namespace Nsimd.Props.X86
open Nsimd.X86 Nsimd.Props.Popcnt

variable {n w : Nat}

/-- A logical register before AVX-512 stands for the truth values `p`.
Specification, not code of the repo. -/
def Canon (r : Reg n w) (p : Fin n → Bool) : Prop := ∀ i, r i = lane w (p i = true)
/-- An AVX-512 mask stands for the truth values `p`. Specification, not code of the repo. -/
def Bits (k : BitVec n) (p : Fin n → Bool) : Prop := ∀ i : Fin n, k.getLsbD i = p i
/-- Number of true lanes. Specification, not code of the repo. -/
def count (p : Fin n → Bool) : Nat := (Finset.univ.filter fun i => p i = true).card

/-- Extension of the lanes by `false`. Specification, not code of the repo. -/
def ext (p : Fin n → Bool) (i : Nat) : Bool := if h : i < n then p ⟨i, h⟩ else false

theorem ext_val (p : Fin n → Bool) (i : Fin n) : ext p i = p i := by simp [ext]

theorem count_eq (p : Fin n → Bool) : count p = cnt n (ext p) := by
  rw [← card_fin]
  unfold count
  simp only [ext_val]

theorem lane_getLsbD (p : Bool) (j : Nat) (h : j < w) : (lane w (p = true)).getLsbD j = p := by
  cases p <;> simp [lane, h]

theorem lane_msb (p : Bool) (h : 0 < w) : (lane w (p = true)).msb = p := by
  rw [BitVec.msb_eq_getLsbD_last]
  exact lane_getLsbD p _ (by omega)

theorem movemask_bit {r : Reg n w} {p : Fin n → Bool} (h : Canon r p) (hw : 0 < w) (hn : n ≤ 32)
    (j : Nat) : (movemask r).getLsbD j = ext p j := by
  unfold movemask ext
  by_cases hj : j < 32
  · rw [BitVec.getLsbD_ofFnLE, dif_pos hj]
    split
    · rw [h, lane_msb _ hw]
    · rfl
  · rw [BitVec.getLsbD_of_ge _ _ (by omega), dif_neg (by omega)]

theorem movemaskEpi8_bit {r : Reg n w} {p : Fin n → Bool} {k : Nat} (h : Canon r p)
    (hw : w = 8 * k) (hk : 0 < k) (hn : n * k ≤ 32) (j : Nat) :
    (movemaskEpi8 k r).getLsbD j = ext p (j / k) := by
  unfold movemaskEpi8 ext
  by_cases hj : j < 32
  · rw [BitVec.getLsbD_ofFnLE, dif_pos hj]
    simp only []
    split
    · rw [h, lane_getLsbD]
      have := Nat.mod_lt j hk
      omega
    · rfl
  · rw [BitVec.getLsbD_of_ge _ _ (by omega), dif_neg]
    intro hc
    have := (Nat.div_lt_iff_lt_mul hk).mp hc
    omega

theorem eq_const_iff {a : BitVec 32} {q : Nat → Bool} {m : Nat} (hm : m ≤ 32)
    (ha : ∀ j, a.getLsbD j = q j) (hq : ∀ j, m ≤ j → q j = false) :
    a = BitVec.ofNat 32 (2 ^ m - 1) ↔ ∀ j < m, q j = true := by
  constructor
  · intro h j hj
    rw [← ha, h, BitVec.getLsbD_ofNat, Nat.testBit_two_pow_sub_one]
    simp [hj]; omega
  · intro h
    apply BitVec.eq_of_getLsbD_eq
    intro j hj
    rw [ha, BitVec.getLsbD_ofNat, Nat.testBit_two_pow_sub_one]
    by_cases hjm : j < m
    · simp [h j hjm, hjm, hj]
    · simp [hq j (by omega), hjm]

theorem ne_zero_iff {a : BitVec 32} {q : Nat → Bool} {m : Nat} (hm : m ≤ 32)
    (ha : ∀ j, a.getLsbD j = q j) (hq : ∀ j, m ≤ j → q j = false) :
    a ≠ 0#32 ↔ ∃ j < m, q j = true := by
  constructor
  · intro h
    by_contra hc
    apply h
    apply BitVec.eq_of_getLsbD_eq
    intro j _
    rw [ha]
    by_cases hjm : j < m
    · rw [BitVec.getLsbD_zero]
      cases hqj : q j
      · rfl
      · exact absurd ⟨j, hjm, hqj⟩ hc
    · rw [hq j (by omega), BitVec.getLsbD_zero]
  · rintro ⟨j, _, hj⟩ h
    rw [← ha, h, BitVec.getLsbD_zero] at hj
    exact absurd hj (by decide)

theorem ext_all (p : Fin n → Bool) : (∀ j < n, ext p j = true) ↔ ∀ i, p i = true := by
  constructor
  · intro h i; rw [← ext_val p i]; exact h i i.isLt
  · intro h j hj; rw [show ext p j = p ⟨j, hj⟩ by simp [ext, hj]]; exact h _

theorem ext_any (p : Fin n → Bool) : (∃ j < n, ext p j = true) ↔ ∃ i, p i = true := by
  constructor
  · rintro ⟨j, hj, h⟩; exact ⟨⟨j, hj⟩, by rwa [← ext_val p ⟨j, hj⟩]⟩
  · rintro ⟨i, h⟩; exact ⟨i, i.isLt, by rwa [ext_val]⟩

theorem ext_ge (p : Fin n → Bool) (j : Nat) (h : n ≤ j) : ext p j = false := by
  simp [ext, Nat.not_lt.mpr h]

theorem div_all {k : Nat} (hk : 0 < k) (q : Nat → Bool) :
    (∀ j < n * k, q (j / k) = true) ↔ ∀ i < n, q i = true := by
  constructor
  · intro h i hi
    have := h (i * k) (Nat.mul_lt_mul_of_pos_right hi hk)
    rwa [Nat.mul_div_cancel _ hk] at this
  · intro h j hj
    exact h _ ((Nat.div_lt_iff_lt_mul hk).mpr hj)

theorem div_any {k : Nat} (hk : 0 < k) (q : Nat → Bool) :
    (∃ j < n * k, q (j / k) = true) ↔ ∃ i < n, q i = true := by
  constructor
  · rintro ⟨j, hj, h⟩
    exact ⟨_, (Nat.div_lt_iff_lt_mul hk).mpr hj, h⟩
  · rintro ⟨i, hi, h⟩
    exact ⟨i * k, Nat.mul_lt_mul_of_pos_right hi hk, by rwa [Nat.mul_div_cancel _ hk]⟩

theorem cnt_mul {k : Nat} (hk : 0 < k) (q : Nat → Bool) :
    cnt (n * k) (fun j => q (j / k)) = k * cnt n q := by
  induction n with
  | zero => simp [cnt_zero]
  | succ n ih =>
    rw [Nat.succ_mul, cnt_add, ih, cnt_succ, Nat.mul_add]
    congr 1
    rw [cnt_congr (q := fun _ => q n)]
    · cases q n <;> simp [cnt]
    · intro i hi
      rw [Nat.mul_comm n k, Nat.mul_add_div hk, Nat.div_eq_of_lt hi, Nat.add_zero]

theorem epi8_ge (p : Fin n → Bool) {k : Nat} (hk : 0 < k) (j : Nat) (h : n * k ≤ j) :
    ext p (j / k) = false :=
  ext_ge p _ ((Nat.le_div_iff_mul_le hk).mpr h)

theorem ones_epi8 {r : Reg n w} {p : Fin n → Bool} {k : Nat} (h : Canon r p)
    (hw : w = 8 * k) (hk : 0 < k) (hn : n * k ≤ 32) :
    Popcnt.loop (movemaskEpi8 k r) = k * count p := by
  rw [loop_counts, ones_eq_cnt, cnt_congr (q := fun j => ext p (j / k))
    (fun j _ => movemaskEpi8_bit h hw hk hn j)]
  obtain ⟨d, hd⟩ : ∃ d, 32 = n * k + d := ⟨32 - n * k, by omega⟩
  rw [hd, cnt_add, cnt_mul hk, count_eq, cnt_eq_zero (m := d), Nat.add_zero]
  intro i _
  exact epi8_ge p hk _ (by omega)

theorem ones_movemask {r : Reg n w} {p : Fin n → Bool} (h : Canon r p)
    (hw : 0 < w) (hn : n ≤ 32) : Popcnt.loop (movemask r) = count p := by
  rw [loop_counts, ones_eq_cnt, cnt_congr (q := ext p) (fun j _ => movemask_bit h hw hn j)]
  obtain ⟨d, hd⟩ : ∃ d, 32 = n + d := ⟨32 - n, by omega⟩
  rw [hd, cnt_add, count_eq, cnt_eq_zero (m := d), Nat.add_zero]
  intro i _
  exact ext_ge p _ (by omega)

/-! ## C14 on x86 -/

/-- C14, SSE integers (`n` lanes of `k` bytes, 16 bytes in all). -/
theorem sse_all_any {r : Reg n w} {p : Fin n → Bool} {k : Nat} (h : Canon r p)
    (hw : w = 8 * k) (hk : 0 < k) (hn : n * k = 16) :
    (allSse k r = true ↔ ∀ i, p i = true) ∧ (anySse k r = true ↔ ∃ i, p i = true) := by
  have hb := movemaskEpi8_bit h hw hk (by omega)
  constructor
  · have := eq_const_iff (m := 16) (by omega) hb (fun j hj => epi8_ge p hk j (by omega))
    rw [← ext_all, ← div_all hk, hn, ← this]
    simp [allSse]
  · have := ne_zero_iff (m := 16) (by omega) hb (fun j hj => epi8_ge p hk j (by omega))
    rw [← ext_any, ← div_any hk, hn, ← this]
    simp [anySse]

/-- C14, AVX2 integers (32 bytes in all). -/
theorem avx2_all_any {r : Reg n w} {p : Fin n → Bool} {k : Nat} (h : Canon r p)
    (hw : w = 8 * k) (hk : 0 < k) (hn : n * k = 32) :
    (allAvx2 k r = true ↔ ∀ i, p i = true) ∧ (anyAvx2 k r = true ↔ ∃ i, p i = true) := by
  have hb := movemaskEpi8_bit h hw hk (by omega)
  constructor
  · have := eq_const_iff (m := 32) (by omega) hb (fun j hj => epi8_ge p hk j (by omega))
    rw [← ext_all, ← div_all hk, hn, ← this]
    simp [allAvx2]
  · have := ne_zero_iff (m := 32) (by omega) hb (fun j hj => epi8_ge p hk j (by omega))
    rw [← ext_any, ← div_any hk, hn, ← this]
    simp [anyAvx2]

/-- The two halves of a register stand for the two halves of the truth values. -/
theorem canon_halves {m : Nat} {r : Reg (m + m) w} {p : Fin (m + m) → Bool} (h : Canon r p) :
    Canon (lo r) (fun i => p ⟨i, by omega⟩) ∧ Canon (hi r) (fun i => p ⟨m + i, by omega⟩) :=
  ⟨fun _ => h _, fun _ => h _⟩

theorem halves_all {m : Nat} (p : Fin (m + m) → Bool) :
    ((∀ i : Fin m, p ⟨i, by omega⟩ = true) ∧ ∀ i : Fin m, p ⟨m + i, by omega⟩ = true) ↔
      ∀ i, p i = true := by
  constructor
  · rintro ⟨h1, h2⟩ i
    by_cases hi : i.val < m
    · exact h1 ⟨i, hi⟩
    · have := h2 ⟨i - m, by omega⟩
      rwa [show (⟨m + (i.val - m), by omega⟩ : Fin (m + m)) = i from Fin.ext (by simp; omega)] at this
  · intro h; exact ⟨fun _ => h _, fun _ => h _⟩

theorem halves_any {m : Nat} (p : Fin (m + m) → Bool) :
    ((∃ i : Fin m, p ⟨i, by omega⟩ = true) ∨ ∃ i : Fin m, p ⟨m + i, by omega⟩ = true) ↔
      ∃ i, p i = true := by
  constructor
  · rintro (⟨i, h⟩ | ⟨i, h⟩) <;> exact ⟨_, h⟩
  · rintro ⟨i, h⟩
    by_cases hi : i.val < m
    · exact Or.inl ⟨⟨i, hi⟩, h⟩
    · refine Or.inr ⟨⟨i - m, by omega⟩, ?_⟩
      rwa [show (⟨m + (i.val - m), by omega⟩ : Fin (m + m)) = i from Fin.ext (by simp; omega)]

theorem halves_count {m : Nat} (p : Fin (m + m) → Bool) :
    count (fun i : Fin m => p ⟨i, by omega⟩) + count (fun i : Fin m => p ⟨m + i, by omega⟩) =
      count p := by
  rw [count_eq, count_eq, count_eq, cnt_add]
  congr 1 <;> apply cnt_congr <;> intro i hi
  · simp [ext, hi, show i < m + m by omega]
  · simp [ext, hi]

/-- C14, AVX integers: both 128-bit halves. -/
theorem avx_all_any {m : Nat} {r : Reg (m + m) w} {p : Fin (m + m) → Bool} {k : Nat}
    (h : Canon r p) (hw : w = 8 * k) (hk : 0 < k) (hn : m * k = 16) :
    (allAvx k r = true ↔ ∀ i, p i = true) ∧ (anyAvx k r = true ↔ ∃ i, p i = true) := by
  have h1 := sse_all_any (canon_halves h).1 hw hk hn
  have h2 := sse_all_any (canon_halves h).2 hw hk hn
  constructor
  · rw [← halves_all, ← h1.1, ← h2.1, allAvx, Bool.and_eq_true]
  · rw [← halves_any, ← h1.2, ← h2.2, anyAvx, Bool.or_eq_true]

/-- C14, floats on SSE and AVX: 2, 4 or 8 lanes. -/
theorem float_all_any {r : Reg n w} {p : Fin n → Bool} (h : Canon r p) (hw : 0 < w)
    (hn : n = 2 ∨ n = 4 ∨ n = 8) :
    (allF r = true ↔ ∀ i, p i = true) ∧ (anyF r = true ↔ ∃ i, p i = true) := by
  have hb := movemask_bit h hw (by omega)
  have hc : allConst n = BitVec.ofNat 32 (2 ^ n - 1) := by
    rcases hn with rfl | rfl | rfl <;> rfl
  constructor
  · rw [← ext_all, ← eq_const_iff (m := n) (by omega) hb (fun j hj => ext_ge p j hj), ← hc]
    simp [allF]
  · rw [← ext_any, ← ne_zero_iff (m := n) (by omega) hb (fun j hj => ext_ge p j hj)]
    simp [anyF]

/-- C14, AVX-512 masks; lane counts are multiples of 4. -/
theorem avx512_all_any {k : BitVec n} {p : Fin n → Bool} (h : Bits k p) (hn : n % 4 = 0) :
    (all512 k = true ↔ ∀ i, p i = true) ∧ (any512 k = true ↔ ∃ i, p i = true) := by
  have hc : BitVec.ofNat n (16 ^ (n / 4) - 1) = BitVec.allOnes n := by
    have : (16 : Nat) ^ (n / 4) = 2 ^ n := by
      rw [show (16 : Nat) = 2 ^ 4 from rfl, ← Nat.pow_mul]
      congr 1; omega
    rw [this]
    apply BitVec.eq_of_toNat_eq
    rw [BitVec.toNat_ofNat, BitVec.toNat_allOnes, Nat.mod_eq_of_lt]
    have := Nat.two_pow_pos n; omega
  constructor
  · unfold all512
    rw [hc, beq_iff_eq]
    constructor
    · rintro rfl i; rw [← h i]; simp
    · intro hp
      apply BitVec.eq_of_getLsbD_eq
      intro j hj
      have h1 := h ⟨j, hj⟩
      simp only [] at h1
      rw [h1, hp]; simp [hj]
  · unfold any512
    rw [bne_iff_ne]
    constructor
    · intro hk
      by_contra hc
      apply hk
      apply BitVec.eq_of_getLsbD_eq
      intro j hj
      have h1 := h ⟨j, hj⟩
      simp only [] at h1
      rw [h1]
      cases hq : p ⟨j, hj⟩
      · simp
      · exact absurd ⟨_, hq⟩ hc
    · rintro ⟨i, hi⟩ rfl
      rw [← h i] at hi; simp at hi

/-- C14, `f16` logicals: a pair of registers, whatever the architecture. -/
theorem f16_all_any {L : Type} {m : Nat} (all any : L → Bool) (nb : L → Nat) (R : L → (Fin m → Bool) → Prop)
    (ha : ∀ l p, R l p → (all l = true ↔ ∀ i, p i = true) ∧ (any l = true ↔ ∃ i, p i = true) ∧
      nb l = count p)
    (v : L × L) (p : Fin (m + m) → Bool) (h1 : R v.1 fun i => p ⟨i, by omega⟩)
    (h2 : R v.2 fun i => p ⟨m + i, by omega⟩) :
    (allF16 all v = true ↔ ∀ i, p i = true) ∧ (anyF16 any v = true ↔ ∃ i, p i = true) ∧
      nbtrueF16 nb v = count p := by
  obtain ⟨a1, b1, c1⟩ := ha _ _ h1
  obtain ⟨a2, b2, c2⟩ := ha _ _ h2
  refine ⟨?_, ?_, ?_⟩
  · rw [← halves_all, ← a1, ← a2, allF16, Bool.and_eq_true]
  · rw [← halves_any, ← b1, ← b2, anyF16, Bool.or_eq_true]
  · rw [← halves_count, ← c1, ← c2, nbtrueF16]

/-- C14: `nbtrue` on SSE, AVX and AVX2 counts the true lanes, for every lane width. -/
theorem nbtrue_counts :
    (∀ {n : Nat} {r : Reg n 8} {p : Fin n → Bool}, Canon r p → n ≤ 32 → nbtrue8 r = count p) ∧
    (∀ {n : Nat} {r : Reg n 16} {p : Fin n → Bool}, Canon r p → n ≤ 16 → nbtrue16 r = count p) ∧
    (∀ {n w : Nat} {r : Reg n w} {p : Fin n → Bool}, Canon r p → 0 < w → n ≤ 32 →
      nbtrue32 r = count p) ∧
    (∀ {m : Nat} {r : Reg (m + m) 8} {p : Fin (m + m) → Bool}, Canon r p → m ≤ 32 →
      nbtrue8Avx r = count p) ∧
    (∀ {m : Nat} {r : Reg (m + m) 16} {p : Fin (m + m) → Bool}, Canon r p → m ≤ 16 →
      nbtrue16Avx r = count p) := by
  have h8 : ∀ {n : Nat} {r : Reg n 8} {p : Fin n → Bool}, Canon r p → n ≤ 32 →
      nbtrue8 r = count p := by
    intro n r p h hn
    rw [nbtrue8, ones_epi8 h rfl (by omega) (by omega), Nat.one_mul]
  have h16 : ∀ {n : Nat} {r : Reg n 16} {p : Fin n → Bool}, Canon r p → n ≤ 16 →
      nbtrue16 r = count p := by
    intro n r p h hn
    rw [nbtrue16, ones_epi8 h rfl (by omega) (by omega), Nat.shiftRight_eq_div_pow]
    omega
  refine ⟨h8, h16, fun h hw hn => ones_movemask h hw hn, ?_, ?_⟩
  · intro m r p h hm
    rw [nbtrue8Avx, h8 (canon_halves h).1 hm, h8 (canon_halves h).2 hm, halves_count]
  · intro m r p h hm
    rw [nbtrue16Avx, h16 (canon_halves h).1 hm, h16 (canon_halves h).2 hm, halves_count]

/-- C14: `nbtrue` on AVX-512. -/
theorem nbtrue512_counts {k : BitVec n} {p : Fin n → Bool} (h : Bits k p) (hn : n ≤ 64) :
    nbtrue512 k = count p := by
  rw [nbtrue512, loop_counts, ones_eq_cnt, cnt_congr (q := ext p), count_eq]
  · obtain ⟨d, hd⟩ : ∃ d, 64 = n + d := ⟨64 - n, by omega⟩
    rw [hd, cnt_add, cnt_eq_zero (m := d), Nat.add_zero]
    intro i _
    exact ext_ge p _ (by omega)
  · intro j hj
    rw [BitVec.getLsbD_setWidth]
    unfold ext
    split
    · rename_i hjn
      rw [← h ⟨j, hjn⟩]; simp [hj]
    · rw [BitVec.getLsbD_of_ge _ _ (by omega)]; simp

-- 3 of the 8 lanes of a 16-bit SSE register
example : Canon (n := 8) (w := 16)
    (fun i => if i.val % 3 = 0 then 0xffff#16 else 0#16) (fun i => i.val % 3 = 0) ∧
    nbtrue16 (n := 8) (fun i => if i.val % 3 = 0 then 0xffff#16 else 0#16) = 3 ∧
    anySse (n := 8) (w := 16) 2 (fun i => if i.val % 3 = 0 then 0xffff#16 else 0#16) = true ∧
    allSse (n := 8) (w := 16) 2 (fun i => if i.val % 3 = 0 then 0xffff#16 else 0#16) = false := by
  refine ⟨?_, by decide +kernel, by decide +kernel, by decide +kernel⟩
  intro i; unfold lane; simp

/-! ## C13 and C26 on AVX-512 masks -/

/-- C13: the operators on masks act as the boolean operators on each lane. -/
theorem mask_ops {a b : BitVec n} {p q : Fin n → Bool} (ha : Bits a p) (hb : Bits b q) :
    Bits (andl512 a b) (fun i => p i && q i) ∧ Bits (orl512 a b) (fun i => p i || q i) ∧
    Bits (xorl512 a b) (fun i => p i != q i) ∧ Bits (andnotl512 a b) (fun i => p i && !q i) ∧
    Bits (notl512 a) (fun i => !p i) ∧ (∀ x, Bits (set1l512 n x) fun _ => x ≠ 0) := by
  refine ⟨?_, ?_, ?_, ?_, ?_, ?_⟩
  · intro i; simp [andl512, ← ha i, ← hb i]
  · intro i; simp [orl512, ← ha i, ← hb i]
  · intro i; simp [xorl512, ← ha i, ← hb i]
  · intro i; simp [andnotl512, ← ha i, ← hb i]
  · intro i; simp [notl512, ← ha i]
  · intro x i
    unfold set1l512
    by_cases hx : x = 0
    · simp [hx]
    · simp [hx]

/-- C26: `to_mask` turns a mask into the register with the same truth values, and
`if_else1` selects by lane. -/
theorem toMask_ifElse {a : BitVec n} {p : Fin n → Bool} (ha : Bits a p) (w : Nat) {α : Type}
    (x y : Fin n → α) :
    Canon (toMask512 w a) p ∧ ∀ i, ifElse512 a x y i = if p i = true then x i else y i := by
  constructor
  · intro i; simp [toMask512, lane, ← ha i]
  · intro i; simp [ifElse512, ← ha i]

theorem loadl_fold {M α : Type} (e : Cpu.Elem M α) (m : Cpu.Mem M) (pt : Int) (v : Nat → α)
    (j : Nat) (hv : ∀ i, i < j → (m (pt + (i : Nat))).bind e.dec = some (v i)) :
    ∃ k : BitVec n, (List.range j).foldlM (fun (ret : BitVec n) (i : Nat) =>
        (m (pt + (i : Nat))).bind fun x => (e.dec x).map fun v =>
          if e.isZero v then ret else ret ||| (1#n <<< i)) 0#n = some k ∧
      ∀ i, i < n → k.getLsbD i = (decide (i < j) && !e.isZero (v i)) := by
  induction j with
  | zero => exact ⟨0#n, rfl, by simp⟩
  | succ j ih =>
    obtain ⟨k, hk, hb⟩ := ih fun i hi => hv i (by omega)
    have hj := hv j (by omega)
    obtain ⟨x, hx, hd⟩ := Option.bind_eq_some_iff.mp hj
    refine ⟨if e.isZero (v j) then k else k ||| (1#n <<< j), ?_, ?_⟩
    · rw [List.range_succ, List.foldlM_append, hk]
      simp [hx, hd]
    · intro i hi
      have hbi := hb i hi
      by_cases hij : i = j
      · subst hij
        cases hz : e.isZero (v i)
        · simp [hi]
        · simp [hbi, hz]
      · have h1 : decide (i < j + 1) = decide (i < j) := by
          congr 1; apply propext; omega
        rw [h1, ← hbi]
        cases hz : e.isZero (v j)
        · simp only [Bool.false_eq_true, if_false, BitVec.getLsbD_or, BitVec.getLsbD_shiftLeft,
            BitVec.getLsbD_one]
          have : (decide (i < n) && !decide (i < j) && (decide (0 < n) && decide (i - j = 0))) = false := by
            simp only [Bool.and_eq_false_iff, decide_eq_false_iff_not, Bool.not_eq_false',
              decide_eq_true_eq]
            omega
          rw [this, Bool.or_false]
        · simp

/-- C13: `loadl` on AVX-512 reads exactly the elements `p..p+n-1` and sets the lanes whose
element is not zero. -/
theorem loadl512_spec {M α : Type} (e : Cpu.Elem M α) (m : Cpu.Mem M) (pt : Int)
    (v : Fin n → α) (hv : ∀ i : Fin n, (m (pt + (i : Nat))).bind e.dec = some (v i)) :
    ∃ k, loadl512 e n m pt = some k ∧ Bits k (fun i => !e.isZero (v i)) := by
  rcases Nat.eq_zero_or_pos n with hn | hn
  · subst hn; exact ⟨0#0, rfl, fun i => i.elim0⟩
  · obtain ⟨k, hk, hb⟩ := loadl_fold (n := n) e m pt (fun i => if h : i < n then v ⟨i, h⟩ else v ⟨0, hn⟩) n
      (fun i hi => by simpa [hi] using hv ⟨i, hi⟩)
    refine ⟨k, hk, fun i => ?_⟩
    rw [hb i i.isLt]; simp

theorem mask_bit (k : BitVec n) (i : Fin n) : ((k >>> i.val) &&& 1#n ≠ 0#n) ↔ k.getLsbD i = true := by
  have h := bit_toNat k i
  constructor
  · intro hc
    by_contra hk
    apply hc
    apply BitVec.eq_of_toNat_eq
    rw [h, if_neg hk]; simp
  · intro hk hc
    rw [if_pos hk, hc] at h
    simp at h

/-- `storel` on AVX-512 writes one or zero for each lane and nothing else. -/
theorem storel512_spec {M α : Type} (e : Cpu.Elem M α) (m : Cpu.Mem M) (pt : Int) {k : BitVec n}
    {p : Fin n → Bool} (hk : Bits k p) (hm : ∀ i : Fin n, (m (pt + (i : Nat))).isSome) :
    ∃ m', storel512 e m pt k = some m' ∧
      (∀ i : Fin n, m' (pt + (i : Nat)) = some (e.enc (if p i = true then e.one else e.zero))) ∧
      ∀ a, ¬ (pt ≤ a ∧ a < pt + n) → m' a = m a := by
  have hs : (storel512 e m pt k).isSome := by
    unfold storel512
    rw [Cpu.stores_isSome]
    intro x hx a v hv
    have h1 := congrArg Prod.fst (Option.some_inj.mp hv)
    simp only [] at h1
    rw [← h1]
    exact hm ⟨x, List.mem_range.mp hx⟩
  obtain ⟨m', hm'⟩ := Option.isSome_iff_exists.mp hs
  refine ⟨m', hm', ?_, ?_⟩
  · intro i
    refine Cpu.stores_last (List.pairwise_lt_range (n := n)) hm' (List.mem_range.mpr i.isLt) ?_ ?_
    · have := mask_bit k i
      rw [hk i] at this
      rw [if_congr this rfl rfl]
    · intro y _ hy u hu
      have h2 := congrArg Prod.fst (Option.some_inj.mp hu)
      simp only [] at h2
      omega
  · intro a ha
    refine Cpu.stores_frame hm' ?_
    intro y hy u hu
    have h2 := congrArg Prod.fst (Option.some_inj.mp hu)
    have := List.mem_range.mp hy
    simp only [] at h2
    omega

/-- A mask stored and loaded again is unchanged, if 1 and 0 survive the element format. -/
theorem storel_loadl512 {M α : Type} (e : Cpu.Elem M α) (he : e.isZero e.one = false)
    (he0 : e.isZero e.zero = true) (h1 : e.dec (e.enc e.one) = some e.one)
    (h0 : e.dec (e.enc e.zero) = some e.zero) (m : Cpu.Mem M) (pt : Int) (k : BitVec n)
    (hm : ∀ i : Fin n, (m (pt + (i : Nat))).isSome) :
    ∃ m', storel512 e m pt k = some m' ∧ loadl512 e n m' pt = some k := by
  obtain ⟨m', hs, hw, _⟩ := storel512_spec e m pt (k := k) (p := fun i => k.getLsbD i)
    (fun _ => rfl) hm
  obtain ⟨k', hk, hb⟩ := loadl512_spec (n := n) e m' pt
    (fun i => if k.getLsbD i = true then e.one else e.zero) (fun i => by
      rw [hw i, Option.bind_some]; split <;> assumption)
  refine ⟨m', hs, ?_⟩
  rw [hk]
  refine congrArg some (BitVec.eq_of_getLsbD_eq fun j hj => ?_)
  have := hb ⟨j, hj⟩
  simp only [] at this
  rw [this]
  cases k.getLsbD j
  · simp [he0]
  · simp [he]

-- the hypotheses on the element format hold for every type
example : (∀ t : ITy, (Cpu.intElem t).isZero (Cpu.intElem t).one = false ∧
    (Cpu.intElem t).isZero (Cpu.intElem t).zero = true) ∧
    Cpu.f16Elem.isZero Cpu.f16Elem.one = false ∧ Cpu.f16Elem.isZero Cpu.f16Elem.zero = true ∧
    Cpu.f16Elem.dec (Cpu.f16Elem.enc Cpu.f16Elem.one) = some Cpu.f16Elem.one ∧
    Cpu.f16Elem.dec (Cpu.f16Elem.enc Cpu.f16Elem.zero) = some Cpu.f16Elem.zero := by
  refine ⟨?_, by decide +kernel, by decide +kernel, by decide +kernel, by decide +kernel⟩
  intro t; cases t <;> decide

/-! ### `loadl` of `f16` on AVX-512 -/

theorem ffff_bit (i : Fin 16) : (0xFFFF#32).getLsbD i = true := by revert i; decide

/-- The two masks of `f16` `loadl` on AVX-512 say which 16-bit patterns are not zero. -/
theorem loadlF16_bits (m : Cpu.Mem (BitVec 16)) (pt : Int) (v : Fin 32 → BitVec 16)
    (hv : ∀ i : Fin 32, m (pt + (i : Nat)) = some (v i)) :
    ∃ k, loadlF16 m pt = some k ∧
      (∀ i : Fin 16, k.1.getLsbD i = decide (v ⟨i, by omega⟩ ≠ 0#16)) ∧
      ∀ i : Fin 16, k.2.getLsbD i = decide (v ⟨16 + i, by omega⟩ ≠ 0#16) := by
  obtain ⟨k, hk, hb⟩ := loadl512_spec (n := 32) (Cpu.intElem .u16) m pt v (fun i => by
    rw [hv i]; rfl)
  have hz : ∀ x : BitVec 16, (!(Cpu.intElem .u16).isZero x) = decide (x ≠ 0#16) := by
    intro x
    show (!decide (ITy.u16.val x = 0)) = _
    rw [← decide_not]
    congr 1
    apply propext
    rw [not_iff_not]
    show ((x.toNat : Int) = 0) ↔ _
    constructor
    · intro h; exact BitVec.eq_of_toNat_eq (by simp; omega)
    · rintro rfl; rfl
  unfold loadlF16
  rw [hk]
  refine ⟨_, rfl, ?_, ?_⟩
  · intro i
    have h1 := hb ⟨i, by omega⟩
    simp only [hz] at h1
    rw [← h1]
    have : (0xFFFF#32).getLsbD i = true := ffff_bit i
    simp only [BitVec.getLsbD_setWidth, BitVec.getLsbD_and, this, i.isLt, decide_true,
      Bool.true_and, Bool.and_true]
  · intro i
    have h1 := hb ⟨16 + i, by omega⟩
    simp only [hz] at h1
    rw [← h1]
    have : (0xFFFF#32).getLsbD i = true := ffff_bit i
    simp only [BitVec.getLsbD_setWidth, BitVec.getLsbD_and, this, i.isLt, decide_true,
      Bool.true_and, Bool.and_true, BitVec.getLsbD_ushiftRight]

/-- The CPU back end and the AVX-512 one disagree on the truth value of `-0.0`: the AVX-512
`loadl` says true, the comparison of the loaded number with zero says false. -/
theorem loadlF16_negzero_counterexample :
    ∃ m : Cpu.Mem (BitVec 16), ∃ k, ∃ l : Cpu.LVec 8,
      loadlF16 m 0 = some k ∧ k.1.getLsbD 0 = true ∧
      Cpu.loadl Cpu.f16Elem 8 m 0 = some l ∧ l 0 = 0#32 := by
  obtain ⟨k, hk, h1, _⟩ := loadlF16_bits (fun _ => some 0x8000#16) 0 (fun _ => 0x8000#16)
    (fun _ => rfl)
  refine ⟨fun _ => some 0x8000#16, k, fun _ => 0#32, hk, ?_, ?_, rfl⟩
  · have := h1 0
    rw [show ((0 : Fin 16) : Nat) = 0 from rfl] at this
    rw [this]; decide
  · unfold Cpu.loadl
    rw [Cpu.body_eq_some]
    intro i
    show Option.map _ (Cpu.f16Elem.dec 0x8000#16) = some 0#32
    decide +kernel

/-! ## Comparison masks on KNL -/

/-- `split_cmp2` on KNL, 8-bit lanes: bit `i` of the mask is the comparison of lanes `i`. -/
theorem splitCmp8_bits (op : BitVec 8 → BitVec 8 → BitVec 8) (P : BitVec 8 → BitVec 8 → Bool)
    (hop : ∀ x y, op x y = lane 8 (P x y = true)) (a b : Reg 64 8) :
    Bits (splitCmp8 op a b) fun i => P (a i) (b i) := by
  intro i
  unfold splitCmp8 merge8
  have h1 := movemaskEpi8_bit (n := 32) (w := 8) (k := 1)
    (r := fun i => op (lo (m := 32) a i) (lo (m := 32) b i))
    (p := fun i => P (lo (m := 32) a i) (lo (m := 32) b i)) (fun i => hop _ _) rfl (by omega) (by omega)
  have h2 := movemaskEpi8_bit (n := 32) (w := 8) (k := 1)
    (r := fun i => op (hi (m := 32) a i) (hi (m := 32) b i))
    (p := fun i => P (hi (m := 32) a i) (hi (m := 32) b i)) (fun i => hop _ _) rfl (by omega) (by omega)
  have hi64 := i.isLt
  rw [BitVec.getLsbD_or, BitVec.getLsbD_setWidth, BitVec.getLsbD_shiftLeft, BitVec.getLsbD_setWidth,
    h1, h2, Nat.div_one, Nat.div_one]
  unfold ext lo hi
  by_cases h : i.val < 32
  · simp [h]
  · have h3 : i.val - 32 < 32 := by omega
    have h4 : i.val - 32 < 64 := by omega
    have h5 : (⟨32 + (i.val - 32), by omega⟩ : Fin (32 + 32)) = i := Fin.ext (by simp; omega)
    simp only [h, h3, h4, hi64, dif_neg, dif_pos, not_false_eq_true, decide_true, decide_false,
      Bool.not_false, Bool.true_and, Bool.and_false, Bool.false_or, h5]

theorem append_msb16 (x : BitVec 16) : (x ++ x : BitVec 32).msb = x.msb := by
  rw [BitVec.msb_append]; simp

theorem movemask8_bit (r : Reg 8 32) (j : Nat) :
    (movemask r).getLsbD j = if h : j < 8 then (r ⟨j, h⟩).msb else false := by
  unfold movemask
  by_cases hj : j < 32
  · rw [BitVec.getLsbD_ofFnLE, dif_pos hj]
  · rw [BitVec.getLsbD_of_ge _ _ (by omega), dif_neg (by omega)]

/-- The position of the lanes after the exchange of the middle quad words and the unpacks. -/
theorem unpack_order (v : Reg 16 16) (j : Fin 8) :
    (unpackloSelf (permute4x64Lanes 216 v) j).msb = (v ⟨j, by omega⟩).msb ∧
    (unpackhiSelf (permute4x64Lanes 216 v) j).msb = (v ⟨8 + j, by omega⟩).msb := by
  unfold unpackloSelf unpackhiSelf permute4x64Lanes
  constructor
  · rw [append_msb16]
    congr 2
    revert j; decide
  · rw [append_msb16]
    congr 2
    revert j; decide

/-- `split_cmp2` on KNL, 16-bit lanes: bit `i` of the mask is the comparison of lanes `i`. -/
theorem splitCmp16_bits (op : BitVec 16 → BitVec 16 → BitVec 16) (P : BitVec 16 → BitVec 16 → Bool)
    (hop : ∀ x y, op x y = lane 16 (P x y = true)) (a b : Reg 32 16) :
    Bits (splitCmp16 op a b) fun i => P (a i) (b i) := by
  intro i
  have key : ∀ v00 v01 : Reg 16 16, ∀ i : Fin 32, (merge16 v00 v01).getLsbD i =
      if h : i.val < 16 then (v00 ⟨i, h⟩).msb else (v01 ⟨i - 16, by omega⟩).msb := by
    intro v00 v01 i
    have hi32 := i.isLt
    unfold merge16
    simp only [BitVec.getLsbD_or, BitVec.getLsbD_shiftLeft, movemask8_bit, hi32, decide_true,
      Bool.true_and]
    by_cases h8 : i.val < 8
    · simp only [h8, dif_pos, show i.val < 16 by omega, show i.val < 24 by omega, decide_true,
        Bool.not_true, Bool.false_and, Bool.or_false]
      exact (unpack_order v00 ⟨i, h8⟩).1
    · by_cases h16 : i.val < 16
      · have h8' : i.val - 8 < 8 := by omega
        simp only [h8, h8', h16, dif_pos, dif_neg, not_false_eq_true, show i.val < 24 by omega,
          decide_true, decide_false, Bool.not_true, Bool.not_false, Bool.false_and, Bool.true_and,
          Bool.or_false, Bool.false_or]
        rw [(unpack_order v00 ⟨i - 8, h8'⟩).2]
        congr 2; exact Fin.ext (by simp; omega)
      · have h8' : ¬ i.val - 8 < 8 := by omega
        by_cases h24 : i.val < 24
        · have h16' : i.val - 16 < 8 := by omega
          simp only [h8, h8', h16, h16', h24, dif_pos, dif_neg, not_false_eq_true,
            decide_true, decide_false, Bool.not_true, Bool.not_false, Bool.false_and, Bool.true_and,
            Bool.or_false, Bool.false_or]
          exact (unpack_order v01 ⟨i - 16, h16'⟩).1
        · have h16' : ¬ i.val - 16 < 8 := by omega
          have h24' : i.val - 24 < 8 := by omega
          simp only [h8, h8', h16, h16', h24, h24', dif_pos, dif_neg, not_false_eq_true,
            decide_false, Bool.not_false, Bool.true_and,
            Bool.or_false, Bool.false_or]
          rw [(unpack_order v01 ⟨i - 24, h24'⟩).2]
          congr 2; exact Fin.ext (by simp; omega)
  unfold splitCmp16
  rw [key]
  by_cases h : i.val < 16
  · rw [dif_pos h, hop, lane_msb _ (by omega)]; rfl
  · rw [dif_neg h, hop, lane_msb _ (by omega)]
    have h5 : (⟨16 + (i.val - 16), by omega⟩ : Fin (16 + 16)) = i := Fin.ext (by simp; omega)
    simp only [hi, h5]

-- the AVX2 comparisons used on the halves satisfy the hypothesis
example : (∀ x y : BitVec 8, gtWithAdd x y = lane 8 (decide (y.toNat < x.toNat) = true)) ∧
    ∀ x y : BitVec 16, geS x y = lane 16 (decide (y.toInt ≤ x.toInt) = true) := by
  constructor
  · intro x y; rw [(unsigned_cmp_exact (by omega) x y).1]; exact lane_congr (by simp)
  · intro x y; rw [(signed_cmp_exact x y).2.2.1]; exact lane_congr (by simp)

/-! ## C18 on x86 -/

/-- C18: `mask_for_loop_tail(i, n)` on x86 enables lane `k` exactly when `i + k < n`, for every
integer lane type, provided the lane type can hold the lane numbers (`lanes ≤ 64`) and
`n - i` does not overflow `int`. -/
theorem maskForLoopTail_x86 (t : ITy) {lanes : Nat} (hl : lanes ≤ 64) (in0 in1 : Int)
    (h : in1 - in0 < 2 ^ 31) :
    maskForLoopTail t lanes in0 in1 = some fun k : Fin lanes => decide (in0 + (k : Nat) < in1) := by
  unfold maskForLoopTail
  by_cases h1 : in0 ≥ in1
  · rw [if_pos h1]
    refine congrArg some (funext fun k => ?_)
    symm; rw [decide_eq_false_iff_not]; omega
  · rw [if_neg h1]
    have hp : ITy.i32.prom (in1 - in0) = some (in1 - in0) := by
      unfold ITy.prom
      rw [if_pos rfl]
      rw [if_pos]
      constructor <;> simp only [ITy.promW] <;> omega
    rw [hp, Option.bind_some]
    by_cases h2 : in1 - in0 < lanes
    · rw [if_pos h2]
      refine congrArg some (funext fun k => ?_)
      have hv : ∀ x : Int, 0 ≤ x → x < 64 → t.val (t.cast x) = x := by
        intro x hx0 hx1
        unfold ITy.val ITy.cast
        cases t <;> simp only [ITy.sgn, ITy.w, if_true, if_false, Bool.false_eq_true,
          BitVec.toInt_ofInt, BitVec.toNat_ofInt] <;>
          first
          | (rw [Int.bmod_eq_of_le] <;> omega)
          | omega
      rw [hv _ (by omega) (by omega), hv _ (by omega) (by omega)]
      congr 1; apply propext; omega
    · rw [if_neg h2]
      refine congrArg some (funext fun k => ?_)
      symm; rw [decide_eq_true_eq]; omega

/-- The `int` subtraction overflows when `n - i` is not representable: undefined. -/
theorem maskForLoopTail_x86_overflow (t : ITy) (lanes : Nat) (in0 in1 : Int)
    (h : 2 ^ 31 ≤ in1 - in0) : maskForLoopTail t lanes in0 in1 = none := by
  unfold maskForLoopTail
  rw [if_neg (by omega)]
  have hp : ITy.i32.prom (in1 - in0) = none := by
    unfold ITy.prom
    rw [if_pos rfl, if_neg]
    simp only [ITy.promW]
    omega
  rw [hp, Option.bind_none]

/-- C18: where both are defined, the CPU and the x86 masks enable the same lanes. -/
theorem maskForLoopTail_agree (t : ITy) {lanes : Nat} (hl : lanes ≤ 64) (in0 in1 : Int)
    (h0 : 0 ≤ in0) (h1 : in1 < 2 ^ 31) (h2 : in0 + lanes < 2 ^ 31) :
    ∃ c x, Cpu.maskForLoopTail lanes in0 in1 = some c ∧ maskForLoopTail t lanes in0 in1 = some x ∧
      ∀ k, c k ≠ 0#32 ↔ x k = true := by
  obtain ⟨hs, hv⟩ := Cpu.maskForLoopTail_spec lanes in0 in1
  obtain ⟨c, hc⟩ := Option.isSome_iff_exists.mp (hs.mpr fun k => by omega)
  refine ⟨c, _, hc, maskForLoopTail_x86 t hl in0 in1 (by omega), fun k => ?_⟩
  have := hv c hc k
  rw [decide_eq_true_eq]
  by_cases hk : in0 + (k : Nat) < in1
  · rw [this.1 hk]; simp [hk]
  · rw [this.2 hk]; simp [hk]

example : (maskForLoopTail .i8 64 100 163).map (fun x => (x 0, x 62, x 63)) = some (true, true, false) := by
  decide +kernel

end Nsimd.Props.X86
