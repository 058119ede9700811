import Verif.Model.X86Zip
import Verif.Props.X86Deg

/-!
# C23 on x86: zip and unzip

Specification in elements: lane `l` of a register is its bytes `l * w, ..., l * w + w - 1`.
`ziplo` interleaves the lower halves of its arguments, `ziphi` the upper halves, `unziplo`
takes the even elements of the concatenation of its arguments, `unziphi` the odd ones.
-/

namespace Nsimd.Props.X86
open Nsimd.X86

/-- Byte `k` of lane `l`. Specification. -/
def byteLane (w : Nat) (v : Bytes) (l k : Nat) : BitVec 8 := v (l * w + k)

/-- Lane `l` of the concatenation of two registers of `n` lanes of `w` bytes. Specification. -/
def catLane (n w : Nat) (u v : Bytes) (l k : Nat) : BitVec 8 :=
  if l < n then byteLane w u l k else byteLane w v (l - n) k

/-- First lane used by `ziplo` and `ziphi` among `n`. Specification. -/
def zipBase (n : Nat) : Half → Nat
  | .lo => 0
  | .hi => n / 2

/-- Parity of the lanes kept by `unziplo` and `unziphi`. Specification. -/
def parity : Half → Nat
  | .lo => 0
  | .hi => 1

/-- Tabulated origin of the bytes of `zipHalf`. Proof device. -/
def zipCheck (isa : Isa) (t : ETy) (f : Half) : Bool :=
  (List.range (lanes isa t)).all fun l => (List.range t.bytes).all fun k =>
    (zipHalf isa t.bytes f (.inp 0) (.inp 1)).src (l * t.bytes + k) ==
      .byte (l % 2) ((zipBase (lanes isa t) f + l / 2) * t.bytes + k)

/-- Tabulated origin of the bytes of `unzipHalf`. Proof device. -/
def unzipCheck (isa : Isa) (t : ETy) (f : Half) : Bool :=
  (List.range (lanes isa t)).all fun l => (List.range t.bytes).all fun k =>
    let j := 2 * l + parity f
    (unzipHalf isa t.bytes f (.inp 0) (.inp 1)).src (l * t.bytes + k) ==
      if j < lanes isa t then .byte 0 (j * t.bytes + k)
      else .byte 1 ((j - lanes isa t) * t.bytes + k)

theorem zipCheck_all (isa : Isa) (t : ETy) (f : Half) : zipCheck isa t f = true := by
  cases isa <;> cases t <;> cases f <;> decide +kernel

theorem unzipCheck_all (isa : Isa) (t : ETy) (f : Half) : unzipCheck isa t f = true := by
  cases isa <;> cases t <;> cases f <;> decide +kernel

/-- `ziplo`/`ziphi` interleave the lower/upper halves of the arguments, on every x86
instruction set and for every type but f16. -/
theorem zipHalf_interleaves (isa : Isa) (t : ETy) (f : Half) (junk a b : Bytes) (l k : Nat)
    (hl : l < lanes isa t) (hk : k < t.bytes) :
    byteLane t.bytes (run2 (zipHalf isa t.bytes f) junk a b) l k =
      byteLane t.bytes (if l % 2 = 0 then a else b) (zipBase (lanes isa t) f + l / 2) k := by
  have h := zipCheck_all isa t f
  unfold zipCheck at h
  rw [List.all_eq_true] at h
  have h1 := h l (List.mem_range.2 hl)
  rw [List.all_eq_true] at h1
  have h2 := h1 k (List.mem_range.2 hk)
  unfold byteLane run2
  rw [(Sh.eval_src _ junk _ _).2 _ _ (by simpa using h2)]

example : byteLane 2 (run2 (zipHalf .avx2 2 .hi) (fun _ => 9) (fun i => BitVec.ofNat 8 i)
    (fun i => BitVec.ofNat 8 (100 + i))) 5 1 = 121 := by decide +kernel

/-- `unziplo`/`unziphi` keep the even/odd elements of the concatenated arguments, on every x86
instruction set and for every type but f16. -/
theorem unzipHalf_separates (isa : Isa) (t : ETy) (f : Half) (junk a b : Bytes) (l k : Nat)
    (hl : l < lanes isa t) (hk : k < t.bytes) :
    byteLane t.bytes (run2 (unzipHalf isa t.bytes f) junk a b) l k =
      catLane (lanes isa t) t.bytes a b (2 * l + parity f) k := by
  have h := unzipCheck_all isa t f
  unfold unzipCheck at h
  rw [List.all_eq_true] at h
  have h1 := h l (List.mem_range.2 hl)
  rw [List.all_eq_true] at h1
  have h2 := h1 k (List.mem_range.2 hk)
  unfold byteLane run2 catLane byteLane
  by_cases hj : 2 * l + parity f < lanes isa t
  · rw [if_pos hj, (Sh.eval_src _ junk _ _).2 _ _ (by simpa [hj] using h2)]
    rfl
  · rw [if_neg hj, (Sh.eval_src _ junk _ _).2 _ _ (by simpa [hj] using h2)]
    rfl

example : byteLane 1 (run2 (unzipHalf .avx512 1 .hi) (fun _ => 9) (fun i => BitVec.ofNat 8 i)
    (fun i => BitVec.ofNat 8 (100 + i))) 40 0 = 117 := by decide +kernel

theorem lanes_even (isa : Isa) (t : ETy) : 2 * (lanes isa t / 2) = lanes isa t := by
  cases isa <;> cases t <;> decide

/-- Unzipping the two outputs of zip gives the arguments back. -/
theorem unzip_zip (isa : Isa) (t : ETy) (f : Half) (j₁ j₂ j₃ a b : Bytes) (l k : Nat)
    (hl : l < lanes isa t) (hk : k < t.bytes) :
    byteLane t.bytes (run2 (unzipHalf isa t.bytes f) j₁ (run2 (zipHalf isa t.bytes .lo) j₂ a b)
      (run2 (zipHalf isa t.bytes .hi) j₃ a b)) l k =
      byteLane t.bytes (match f with | .lo => a | .hi => b) l k := by
  have he := lanes_even isa t
  have hp0 : parity .lo = 0 := rfl
  have hp1 : parity .hi = 1 := rfl
  rw [unzipHalf_separates isa t f _ _ _ l k hl hk]
  unfold catLane
  by_cases hj : 2 * l + parity f < lanes isa t
  · rw [if_pos hj, zipHalf_interleaves isa t .lo _ _ _ _ k hj hk]
    have hp : (2 * l + parity f) / 2 = l := by cases f <;> omega
    rw [hp]
    unfold zipBase
    rw [Nat.zero_add]
    cases f
    · rw [if_pos (by omega)]
    · rw [if_neg (by omega)]
  · have hj' : 2 * l + parity f - lanes isa t < lanes isa t := by
      cases f <;> omega
    rw [if_neg hj, zipHalf_interleaves isa t .hi _ _ _ _ k hj' hk]
    unfold zipBase
    have hp : lanes isa t / 2 + (2 * l + parity f - lanes isa t) / 2 = l := by
      cases f <;> omega
    dsimp only
    rw [hp]
    cases f
    · rw [if_pos (by omega)]
    · rw [if_neg (by omega)]

example : (5 : Nat) < lanes .avx2 .i16 ∧ (1 : Nat) < ETy.i16.bytes := by decide

/-- Zipping the two outputs of unzip gives the arguments back. -/
theorem zip_unzip (isa : Isa) (t : ETy) (f : Half) (j₁ j₂ j₃ a b : Bytes) (l k : Nat)
    (hl : l < lanes isa t) (hk : k < t.bytes) :
    byteLane t.bytes (run2 (zipHalf isa t.bytes f) j₁ (run2 (unzipHalf isa t.bytes .lo) j₂ a b)
      (run2 (unzipHalf isa t.bytes .hi) j₃ a b)) l k =
      byteLane t.bytes (match f with | .lo => a | .hi => b) l k := by
  have he := lanes_even isa t
  have hb : zipBase (lanes isa t) f + l / 2 < lanes isa t := by
    cases f <;> unfold zipBase <;> dsimp only <;> omega
  rw [zipHalf_interleaves isa t f _ _ _ l k hl hk]
  by_cases hp : l % 2 = 0
  · rw [if_pos hp, unzipHalf_separates isa t .lo _ _ _ _ k hb hk]
    unfold catLane parity zipBase
    cases f
    · dsimp only
      rw [if_pos (by omega)]
      congr 1
      omega
    · dsimp only
      rw [if_neg (by omega)]
      congr 1
      omega
  · rw [if_neg hp, unzipHalf_separates isa t .hi _ _ _ _ k hb hk]
    unfold catLane parity zipBase
    cases f
    · dsimp only
      rw [if_pos (by omega)]
      congr 1
      omega
    · dsimp only
      rw [if_neg (by omega)]
      congr 1
      omega

/-! ### f16: pairs of f32 registers -/

/-- Lane `l` of an f16 vector, a pair of registers of `n` lanes of four bytes.
Specification. -/
def laneF16 (n : Nat) (v : Bytes × Bytes) (l k : Nat) : BitVec 8 := catLane n 4 v.1 v.2 l k

/-- Tabulated origin of the bytes of `zipHalfF16`. Proof device. -/
def zipCheckF16 (isa : Isa) (f : Half) : Bool :=
  let n := lanes isa .f32
  let r := zipHalfF16 isa f (.inp 0, .inp 1) (.inp 2, .inp 3)
  (List.range (2 * n)).all fun l => (List.range 4).all fun k =>
    let j := zipBase (2 * n) f + l / 2
    (if l < n then r.1.src (l * 4 + k) else r.2.src ((l - n) * 4 + k)) ==
      if j < n then .byte (2 * (l % 2)) (j * 4 + k)
      else .byte (2 * (l % 2) + 1) ((j - n) * 4 + k)

/-- Tabulated origin of the bytes of `unzipHalfF16`. Proof device. -/
def unzipCheckF16 (isa : Isa) (f : Half) : Bool :=
  let n := lanes isa .f32
  let r := unzipHalfF16 isa f (.inp 0, .inp 1) (.inp 2, .inp 3)
  (List.range (2 * n)).all fun l => (List.range 4).all fun k =>
    let j := 2 * l + parity f
    (if l < n then r.1.src (l * 4 + k) else r.2.src ((l - n) * 4 + k)) ==
      .byte (j / n) (j % n * 4 + k)

theorem zipCheckF16_all (isa : Isa) (f : Half) : zipCheckF16 isa f = true := by
  cases isa <;> cases f <;> decide +kernel

theorem unzipCheckF16_all (isa : Isa) (f : Half) : unzipCheckF16 isa f = true := by
  cases isa <;> cases f <;> decide +kernel

/-- `ziplo`/`ziphi` of f16 vectors. -/
theorem zipHalfF16_interleaves (isa : Isa) (f : Half) (junk : Bytes) (a b : Bytes × Bytes)
    (l k : Nat) (hl : l < 2 * lanes isa .f32) (hk : k < 4) :
    laneF16 (lanes isa .f32) (run2F16 (zipHalfF16 isa f) junk a b) l k =
      laneF16 (lanes isa .f32) (if l % 2 = 0 then a else b)
        (zipBase (2 * lanes isa .f32) f + l / 2) k := by
  have h := zipCheckF16_all isa f
  unfold zipCheckF16 at h
  dsimp only at h
  rw [List.all_eq_true] at h
  have h1 := h l (List.mem_range.2 hl)
  rw [List.all_eq_true] at h1
  have h2 := h1 k (List.mem_range.2 hk)
  clear h h1
  unfold laneF16 catLane byteLane run2F16
  dsimp only
  rw [beq_iff_eq] at h2
  generalize lanes isa .f32 = n at *
  generalize zipBase (2 * n) f + l / 2 = j at *
  have hm : l % 2 = 0 ∨ l % 2 = 1 := by omega
  split at h2 <;> split at h2 <;> rename_i h3 h4 <;> rw [(Sh.eval_src _ junk _ _).2 _ _ h2] <;>
    rcases hm with hm | hm <;> simp [hm, h3, h4]

example : laneF16 8 (run2F16 (zipHalfF16 .avx .hi) (fun _ => 9)
    (fun i => BitVec.ofNat 8 i, fun i => BitVec.ofNat 8 (100 + i))
    (fun i => BitVec.ofNat 8 (50 + i), fun i => BitVec.ofNat 8 (200 + i))) 3 2 = 206 := by
  decide +kernel

/-- `unziplo`/`unziphi` of f16 vectors: the four f32 registers are concatenated. -/
theorem unzipHalfF16_separates (isa : Isa) (f : Half) (junk : Bytes) (a b : Bytes × Bytes)
    (l k : Nat) (hl : l < 2 * lanes isa .f32) (hk : k < 4) :
    laneF16 (lanes isa .f32) (run2F16 (unzipHalfF16 isa f) junk a b) l k =
      if 2 * l + parity f < 2 * lanes isa .f32 then
        laneF16 (lanes isa .f32) a (2 * l + parity f) k
      else laneF16 (lanes isa .f32) b (2 * l + parity f - 2 * lanes isa .f32) k := by
  have h := unzipCheckF16_all isa f
  unfold unzipCheckF16 at h
  dsimp only at h
  rw [List.all_eq_true] at h
  have h1 := h l (List.mem_range.2 hl)
  rw [List.all_eq_true] at h1
  have h2 := h1 k (List.mem_range.2 hk)
  clear h h1
  have hn : 0 < lanes isa .f32 := by cases isa <;> decide
  have hpar : parity f ≤ 1 := by cases f <;> decide
  unfold laneF16 catLane byteLane run2F16
  dsimp only
  rw [beq_iff_eq] at h2
  generalize lanes isa .f32 = n at *
  have hj : 2 * l + parity f < 4 * n := by omega
  generalize 2 * l + parity f = j at *
  have hcase : j < n ∨ (n ≤ j ∧ j < 2 * n) ∨ (2 * n ≤ j ∧ j < 3 * n) ∨ (3 * n ≤ j) := by omega
  have hd : ∀ q, q * n ≤ j → j < (q + 1) * n → j / n = q ∧ j % n = j - q * n := by
    intro q h1 h2
    have hq : j / n = q := by
      rw [Nat.div_eq_iff hn]
      rw [Nat.add_mul] at h2
      omega
    have := Nat.div_add_mod j n
    rw [hq, Nat.mul_comm] at this
    exact ⟨hq, by omega⟩
  have main : (if l < n then
      (unzipHalfF16 isa f (.inp 0, .inp 1) (.inp 2, .inp 3)).1.eval (fun k =>
        if k = 0 then a.1 else if k = 1 then a.2 else if k = 2 then b.1 else b.2) junk (l * 4 + k)
    else
      (unzipHalfF16 isa f (.inp 0, .inp 1) (.inp 2, .inp 3)).2.eval (fun k =>
        if k = 0 then a.1 else if k = 1 then a.2 else if k = 2 then b.1 else b.2) junk
          ((l - n) * 4 + k)) =
      (if j / n = 0 then a.1 else if j / n = 1 then a.2 else if j / n = 2 then b.1 else b.2)
        (j % n * 4 + k) := by
    split at h2 <;> rename_i h3 <;> simp only [h3, if_true, if_false] <;>
      exact (Sh.eval_src _ junk _ _).2 _ _ h2
  rw [main]
  rcases hcase with h | ⟨h, h'⟩ | ⟨h, h'⟩ | h
  · obtain ⟨h5, h6⟩ := hd 0 (by omega) (by omega)
    rw [h5, h6]
    simp [show j < 2 * n by omega, h]
  · obtain ⟨h5, h6⟩ := hd 1 (by omega) (by omega)
    rw [h5, h6]
    simp [show ¬ j < n by omega, h']
  · obtain ⟨h5, h6⟩ := hd 2 (by omega) (by omega)
    rw [h5, h6]
    simp [show ¬ j < 2 * n by omega, show j - 2 * n < n by omega]
  · obtain ⟨h5, h6⟩ := hd 3 (by omega) (by omega)
    rw [h5, h6]
    simp [show ¬ j < 2 * n by omega, show ¬ j - 2 * n < n by omega,
      show j - 2 * n - n = j - 3 * n by omega]

example : laneF16 8 (run2F16 (unzipHalfF16 .avx .hi) (fun _ => 9)
    (fun i => BitVec.ofNat 8 i, fun i => BitVec.ofNat 8 (100 + i))
    (fun i => BitVec.ofNat 8 (50 + i), fun i => BitVec.ofNat 8 (200 + i))) 13 2 = 214 := by
  decide +kernel

end Nsimd.Props.X86
