import Verif.Model.X86Rev
import Verif.Props.X86Zip

/-!
# C77: reverse on x86

Specification: lane `l` of the result is lane `n - 1 - l` of the argument.
-/

namespace Nsimd.Props.X86Rev
open Nsimd.X86 Nsimd.Props.X86

/-- Tabulated origin of the bytes of `reverse`. Proof device. -/
def revCheck (s : Simd) (t : ETy) : Bool :=
  match reverse s t with
  | none => true
  | some op =>
    (List.range (lanes s.isa t)).all fun l => (List.range t.bytes).all fun k =>
      (op (.inp 0)).src (l * t.bytes + k) ==
        .byte 0 ((lanes s.isa t - 1 - l) * t.bytes + k)

theorem revCheck_all (s : Simd) (t : ETy) : revCheck s t = true := by
  cases s <;> cases t <;> decide +kernel

/-- Wherever the generated code is C, `reverse` puts the lanes in the opposite order. -/
theorem reverse_lanes (s : Simd) (t : ETy) (op : Sh → Sh) (hop : reverse s t = some op)
    (junk a : Bytes) (l k : Nat) (hl : l < lanes s.isa t) (hk : k < t.bytes) :
    byteLane t.bytes (run1 op junk a) l k =
      byteLane t.bytes a (lanes s.isa t - 1 - l) k := by
  have h := revCheck_all s t
  unfold revCheck at h
  rw [hop] at h
  dsimp only at h
  rw [List.all_eq_true] at h
  have h1 := h l (List.mem_range.2 hl)
  rw [List.all_eq_true] at h1
  have h2 := h1 k (List.mem_range.2 hk)
  unfold byteLane run1
  rw [(Sh.eval_src _ junk _ _).2 _ _ (by simpa using h2)]

example : byteLane 2 (run1 rev16Knl (fun _ => 9) (fun i => BitVec.ofNat 8 i)) 3 1 = 57 := by
  decide +kernel

/-- The generated code is C exactly for the types other than f64 and for f64 below AVX-512. -/
theorem reverse_defined (s : Simd) (t : ETy) :
    (∃ op, reverse s t = some op) ↔ ¬ (t = .f64 ∧ s.isa = .avx512) := by
  cases s <;> cases t <;> simp [reverse, Simd.isa]

/-- Reversing twice gives the argument back. -/
theorem reverse_reverse (s : Simd) (t : ETy) (op : Sh → Sh) (hop : reverse s t = some op)
    (j₁ j₂ a : Bytes) (l k : Nat) (hl : l < lanes s.isa t) (hk : k < t.bytes) :
    byteLane t.bytes (run1 op j₁ (run1 op j₂ a)) l k = byteLane t.bytes a l k := by
  rw [reverse_lanes s t op hop _ _ l k hl hk,
    reverse_lanes s t op hop _ _ _ k (by omega) hk]
  congr 1
  omega

example : reverse .skylake .i16 = some rev16Skylake ∧ (31 : Nat) < lanes Isa.avx512 .i16 := by
  refine ⟨rfl, by decide⟩

/-- Tabulated origin of the bytes of `reverseF16`. Proof device. -/
def revCheckF16 (s : Simd) : Bool :=
  match reverseF16 s (.inp 0, .inp 1) with
  | none => false
  | some r =>
    (List.range (lanes s.isa .f32)).all fun l => (List.range 4).all fun k =>
      r.1.src (l * 4 + k) == .byte 0 ((lanes s.isa .f32 - 1 - l) * 4 + k) &&
        r.2.src (l * 4 + k) == .byte 1 ((lanes s.isa .f32 - 1 - l) * 4 + k)

theorem revCheckF16_all (s : Simd) : revCheckF16 s = true := by
  cases s <;> decide +kernel

/-- On f16 vectors `reverse` reverses each of the two registers but does not exchange them:
lane `l` of the lower half comes from lane `n/2 - 1 - l`, lane `n/2 + l` from `n - 1 - l`. -/
theorem reverseF16_halves (s : Simd) (junk : Bytes) (a : Bytes × Bytes) :
    ∃ r, run1F16 (reverseF16 s) junk a = some r ∧
      ∀ l k, l < lanes s.isa .f32 → k < 4 →
        byteLane 4 r.1 l k = byteLane 4 a.1 (lanes s.isa .f32 - 1 - l) k ∧
          byteLane 4 r.2 l k = byteLane 4 a.2 (lanes s.isa .f32 - 1 - l) k := by
  have h := revCheckF16_all s
  unfold revCheckF16 at h
  unfold run1F16
  cases hr : reverseF16 s (.inp 0, .inp 1) with
  | none => rw [hr] at h; simp at h
  | some r =>
    rw [hr] at h
    dsimp only at h
    refine ⟨_, rfl, fun l k hl hk => ?_⟩
    rw [List.all_eq_true] at h
    have h1 := h l (List.mem_range.2 hl)
    rw [List.all_eq_true] at h1
    have h2 := h1 k (List.mem_range.2 hk)
    rw [Bool.and_eq_true] at h2
    unfold byteLane
    dsimp only
    rw [(Sh.eval_src _ junk _ _).2 _ _ (by simpa using h2.1),
      (Sh.eval_src _ junk _ _).2 _ _ (by simpa using h2.2)]
    simp

example : lanes Simd.avx.isa .f32 = 8 := by decide

/-- So on no x86 extension does `reverse` of an f16 vector with distinct halves give the lanes in
the opposite order: lane 0 of the result is the last lane of the first register, not of the
second. -/
theorem reverseF16_counterexample (s : Simd) (junk : Bytes) :
    ∃ (a r : Bytes × Bytes), run1F16 (reverseF16 s) junk a = some r ∧
      laneF16 (lanes s.isa .f32) r 0 0 ≠
        laneF16 (lanes s.isa .f32) a (2 * lanes s.isa .f32 - 1 - 0) 0 := by
  obtain ⟨r, hr, h⟩ := reverseF16_halves s junk (fun _ => 0, fun _ => 1)
  refine ⟨_, r, hr, ?_⟩
  have hn : 0 < lanes s.isa .f32 := by cases s <;> decide
  have h0 := (h 0 0 hn (by decide)).1
  unfold laneF16 catLane
  rw [if_pos hn, if_neg (by omega), h0]
  simp [byteLane]

end Nsimd.Props.X86Rev
