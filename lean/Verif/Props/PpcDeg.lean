import Verif.Model.PpcDeg
import Verif.Props.X86Zip

/-!
# C53, C54 on POWER: degree 2, 3 and 4 loads and stores, zip, unzip, reverse

Specification: `loadN` from `a0` must give register `r` the elements `a0[r], a0[N + r],
a0[2 * N + r], ...` in this order; `storeN` is the inverse.
-/

namespace Nsimd.Props.Ppc
open Nsimd.X86 (Sh Pick Bytes ETy Deg Half)
open Nsimd.Ppc
open Nsimd.Props.X86 (elemByte byteLane catLane zipBase parity)

/-- Number of elements in a register of 16 bytes. Specification. -/
def lanes (t : ETy) : Nat := 16 / t.bytes

/-- Every byte of a load comes from the right element. Proof device. -/
def loadCheck (d : Deg) (t : ETy) : Bool :=
  (List.range d.num).all fun r => (List.range 16).all fun i =>
    let x := elemByte d.num t.bytes (i / t.bytes) r (i % t.bytes)
    ((loadDeg d t).getD r (.inp 0)).src i == .byte (x / 16) (x % 16)

/-- Every byte of a store goes to the right element. Proof device. -/
def storeCheck (d : Deg) (t : ETy) : Bool :=
  (List.range d.num).all fun r => (List.range 16).all fun i =>
    let x := elemByte d.num t.bytes (i / t.bytes) r (i % t.bytes)
    ((storeDeg d t).getD (x / 16) (.inp 0)).src (x % 16) == .byte r i

theorem loadCheck_all (d : Deg) (t : ETy) : loadCheck d t = true := by
  cases d <;> cases t <;> decide +kernel

theorem storeCheck_all (d : Deg) (t : ETy) : storeCheck d t = true := by
  cases d <;> cases t <;> decide +kernel

theorem sizes (t : ETy) : 0 < t.bytes ∧ lanes t * t.bytes = 16 := by
  cases t <;> decide

theorem byte_lt {t : ETy} {l b : Nat} (hl : l < lanes t) (hb : b < t.bytes) :
    l * t.bytes + b < 16 := by
  have hs := (sizes t).2
  have : (l + 1) * t.bytes ≤ lanes t * t.bytes := Nat.mul_le_mul_right _ hl
  rw [Nat.add_mul] at this
  omega

theorem div_mod {t : ETy} {l b : Nat} (hb : b < t.bytes) :
    (l * t.bytes + b) / t.bytes = l ∧ (l * t.bytes + b) % t.bytes = b := by
  have hs := (sizes t).1
  rw [Nat.mul_comm l, Nat.mul_add_div hs, Nat.mul_add_mod, Nat.div_eq_of_lt hb,
    Nat.mod_eq_of_lt hb, Nat.add_zero]
  exact ⟨rfl, rfl⟩

/-- On VMX and VSX every load of degree 2, 3, 4 de-interleaves in memory order: byte `b` of lane
`l` of register `r` is byte `b` of element `l * N + r`. -/
theorem loadDeg_spec (d : Deg) (t : ETy) (m : Bytes) (r l b : Nat) (hr : r < d.num)
    (hl : l < lanes t) (hb : b < t.bytes) :
    byteLane t.bytes (loadRun d t m r) l b = m (elemByte d.num t.bytes l r b) := by
  have h := loadCheck_all d t
  unfold loadCheck at h
  rw [List.all_eq_true] at h
  have h1 := h r (List.mem_range.2 hr)
  rw [List.all_eq_true] at h1
  have h2 := h1 (l * t.bytes + b) (List.mem_range.2 (byte_lt hl hb))
  rw [(div_mod hb).1, (div_mod hb).2] at h2
  unfold byteLane loadRun
  rw [(Sh.eval_src _ _ _ _).2 _ _ (by simpa using h2), Nat.mul_comm, Nat.div_add_mod]

example : byteLane 2 (loadRun .three .i16 (fun x => BitVec.ofNat 8 x) 1) 6 1 = 39 := by
  decide +kernel

theorem elemByte_lt {d : Deg} {t : ETy} {l r b : Nat} (hl : l < lanes t)
    (hr : r < d.num) (hb : b < t.bytes) : elemByte d.num t.bytes l r b < d.num * 16 := by
  have hs := (sizes t).2
  unfold elemByte
  have h1 : l * d.num + r + 1 ≤ lanes t * d.num := by
    have : (l + 1) * d.num ≤ lanes t * d.num := Nat.mul_le_mul_right _ hl
    rw [Nat.add_mul] at this
    omega
  have h2 : (l * d.num + r + 1) * t.bytes ≤ lanes t * d.num * t.bytes :=
    Nat.mul_le_mul_right _ h1
  rw [Nat.add_mul] at h2
  have h3 : lanes t * d.num * t.bytes = d.num * 16 := by
    rw [← hs, Nat.mul_comm (lanes t), Nat.mul_assoc]
  omega

/-- On VMX and VSX every store of degree 2, 3, 4 interleaves in memory order and writes exactly
`N` registers' worth of bytes. -/
theorem storeDeg_spec (d : Deg) (t : ETy) (v : Nat → Bytes) (m : Bytes) :
    (∀ r l b, r < d.num → l < lanes t → b < t.bytes →
      storeRun d t v m (elemByte d.num t.bytes l r b) = byteLane t.bytes (v r) l b) ∧
    ∀ x, d.num * 16 ≤ x → storeRun d t v m x = m x := by
  constructor
  · intro r l b hr hl hb
    have h := storeCheck_all d t
    unfold storeCheck at h
    rw [List.all_eq_true] at h
    have h1 := h r (List.mem_range.2 hr)
    rw [List.all_eq_true] at h1
    have h2 := h1 (l * t.bytes + b) (List.mem_range.2 (byte_lt hl hb))
    rw [(div_mod hb).1, (div_mod hb).2] at h2
    unfold byteLane storeRun
    rw [if_pos (elemByte_lt hl hr hb)]
    exact (Sh.eval_src _ _ _ _).2 _ _ (by simpa using h2)
  · intro x hx
    unfold storeRun
    rw [if_neg (by omega)]

example : storeRun .three .i8 (fun r x => BitVec.ofNat 8 (16 * r + x)) (fun _ => 0) 31 = 26 := by
  decide +kernel

/-- Storing what was loaded reproduces the memory. -/
theorem storeDeg_loadDeg (d : Deg) (t : ETy) (m m' : Bytes) (x : Nat) (hx : x < d.num * 16) :
    storeRun d t (loadRun d t m) m' x = m x := by
  obtain ⟨hw, hs⟩ := sizes t
  have hN : 0 < d.num := by cases d <;> decide
  have hl : x / t.bytes / d.num < lanes t := by
    rw [Nat.div_lt_iff_lt_mul hN, Nat.div_lt_iff_lt_mul hw, Nat.mul_right_comm, hs, Nat.mul_comm]
    exact hx
  have hr : x / t.bytes % d.num < d.num := Nat.mod_lt _ hN
  have hb : x % t.bytes < t.bytes := Nat.mod_lt _ hw
  have hxe : elemByte d.num t.bytes (x / t.bytes / d.num) (x / t.bytes % d.num)
      (x % t.bytes) = x := by
    unfold elemByte
    rw [Nat.mul_comm (x / t.bytes / d.num), Nat.div_add_mod, Nat.mul_comm, Nat.div_add_mod]
  have h := (storeDeg_spec d t (loadRun d t m) m').1 _ _ _ hr hl hb
  rw [loadDeg_spec d t m _ _ _ hr hl hb, hxe] at h
  exact h

example : storeRun .four .i16 (loadRun .four .i16 (fun x => BitVec.ofNat 8 (3 * x)))
    (fun _ => 0) 37 = 111 := by decide +kernel

/-! ### zip, unzip, reverse -/

/-- Tabulated origin of the bytes of `zipHalf`. Proof device. -/
def zipCheck (t : ETy) (f : Half) : Bool :=
  (List.range (lanes t)).all fun l => (List.range t.bytes).all fun k =>
    (zipHalf t.bytes f (.inp 0) (.inp 1)).src (l * t.bytes + k) ==
      .byte (l % 2) ((zipBase (lanes t) f + l / 2) * t.bytes + k)

/-- Tabulated origin of the bytes of `unzipHalf`. Proof device. -/
def unzipCheck (t : ETy) (f : Half) : Bool :=
  (List.range (lanes t)).all fun l => (List.range t.bytes).all fun k =>
    let j := 2 * l + parity f
    (unzipHalf t f (.inp 0) (.inp 1)).src (l * t.bytes + k) ==
      if j < lanes t then .byte 0 (j * t.bytes + k) else .byte 1 ((j - lanes t) * t.bytes + k)

theorem zipCheck_all (t : ETy) (f : Half) : zipCheck t f = true := by
  cases t <;> cases f <;> decide +kernel

theorem unzipCheck_all (t : ETy) (f : Half) : unzipCheck t f = true := by
  cases t <;> cases f <;> decide +kernel

/-- `ziplo`/`ziphi` interleave the lower/upper halves of the arguments. -/
theorem zipHalf_interleaves (t : ETy) (f : Half) (a b : Bytes) (l k : Nat)
    (hl : l < lanes t) (hk : k < t.bytes) :
    byteLane t.bytes (X86.run2 (zipHalf t.bytes f) (fun _ => 0) a b) l k =
      byteLane t.bytes (if l % 2 = 0 then a else b) (zipBase (lanes t) f + l / 2) k := by
  have h := zipCheck_all t f
  unfold zipCheck at h
  rw [List.all_eq_true] at h
  have h1 := h l (List.mem_range.2 hl)
  rw [List.all_eq_true] at h1
  have h2 := h1 k (List.mem_range.2 hk)
  unfold byteLane X86.run2
  rw [(Sh.eval_src _ _ _ _).2 _ _ (by simpa using h2)]

example : byteLane 2 (X86.run2 (zipHalf 2 .hi) (fun _ => 9) (fun i => BitVec.ofNat 8 i)
    (fun i => BitVec.ofNat 8 (100 + i))) 5 1 = 113 := by decide +kernel

/-- `unziplo`/`unziphi` keep the even/odd elements of the concatenated arguments. -/
theorem unzipHalf_separates (t : ETy) (f : Half) (a b : Bytes) (l k : Nat)
    (hl : l < lanes t) (hk : k < t.bytes) :
    byteLane t.bytes (X86.run2 (unzipHalf t f) (fun _ => 0) a b) l k =
      catLane (lanes t) t.bytes a b (2 * l + parity f) k := by
  have h := unzipCheck_all t f
  unfold unzipCheck at h
  rw [List.all_eq_true] at h
  have h1 := h l (List.mem_range.2 hl)
  rw [List.all_eq_true] at h1
  have h2 := h1 k (List.mem_range.2 hk)
  unfold byteLane X86.run2 catLane byteLane
  by_cases hj : 2 * l + parity f < lanes t
  · rw [if_pos hj, (Sh.eval_src _ _ _ _).2 _ _ (by simpa [hj] using h2)]
    rfl
  · rw [if_neg hj, (Sh.eval_src _ _ _ _).2 _ _ (by simpa [hj] using h2)]
    rfl

example : byteLane 4 (X86.run2 (unzipHalf .f32 .hi) (fun _ => 9) (fun i => BitVec.ofNat 8 i)
    (fun i => BitVec.ofNat 8 (100 + i))) 2 1 = 105 := by decide +kernel

theorem lanes_even (t : ETy) : 2 * (lanes t / 2) = lanes t := by
  cases t <;> decide

/-- Unzipping the two outputs of zip gives the arguments back. -/
theorem unzip_zip (t : ETy) (f : Half) (a b : Bytes) (l k : Nat)
    (hl : l < lanes t) (hk : k < t.bytes) :
    byteLane t.bytes (X86.run2 (unzipHalf t f) (fun _ => 0)
      (X86.run2 (zipHalf t.bytes .lo) (fun _ => 0) a b)
      (X86.run2 (zipHalf t.bytes .hi) (fun _ => 0) a b)) l k =
      byteLane t.bytes (match f with | .lo => a | .hi => b) l k := by
  have he := lanes_even t
  have hp0 : parity .lo = 0 := rfl
  have hp1 : parity .hi = 1 := rfl
  rw [unzipHalf_separates t f _ _ l k hl hk]
  unfold catLane
  by_cases hj : 2 * l + parity f < lanes t
  · rw [if_pos hj, zipHalf_interleaves t .lo _ _ _ k hj hk]
    have hp : (2 * l + parity f) / 2 = l := by cases f <;> omega
    rw [hp]
    unfold zipBase
    rw [Nat.zero_add]
    cases f
    · rw [if_pos (by omega)]
    · rw [if_neg (by omega)]
  · have hj' : 2 * l + parity f - lanes t < lanes t := by
      cases f <;> omega
    rw [if_neg hj, zipHalf_interleaves t .hi _ _ _ k hj' hk]
    unfold zipBase
    have hp : lanes t / 2 + (2 * l + parity f - lanes t) / 2 = l := by
      cases f <;> omega
    rw [hp]
    cases f
    · rw [if_pos (by omega)]
    · rw [if_neg (by omega)]

example : byteLane 1 (X86.run2 (unzipHalf .i8 .hi) (fun _ => 0)
    (X86.run2 (zipHalf 1 .lo) (fun _ => 0) (fun i => BitVec.ofNat 8 i)
      (fun i => BitVec.ofNat 8 (100 + i)))
    (X86.run2 (zipHalf 1 .hi) (fun _ => 0) (fun i => BitVec.ofNat 8 i)
      (fun i => BitVec.ofNat 8 (100 + i)))) 11 0 = 111 := by decide +kernel

/-- Lane `l` of an f16 vector, a pair of registers of 4 lanes. Specification. -/
def pairLane (v : Bytes × Bytes) (l k : Nat) : BitVec 8 :=
  if l < 4 then byteLane 4 v.1 l k else byteLane 4 v.2 (l - 4) k

/-- `ziplo`/`ziphi` of f16 vectors interleave the lower/upper halves of the arguments. -/
theorem zipHalfF16_interleaves (f : Half) (a b : Bytes × Bytes) (l k : Nat) (hl : l < 8)
    (hk : k < 4) :
    pairLane (X86.run2F16 (zipHalfF16 f) (fun _ => 0) a b) l k =
      pairLane (if l % 2 = 0 then a else b) (zipBase 8 f + l / 2) k := by
  have h8 : l = 0 ∨ l = 1 ∨ l = 2 ∨ l = 3 ∨ l = 4 ∨ l = 5 ∨ l = 6 ∨ l = 7 := by omega
  have h4 : k = 0 ∨ k = 1 ∨ k = 2 ∨ k = 3 := by omega
  rcases h8 with rfl | rfl | rfl | rfl | rfl | rfl | rfl | rfl <;>
    rcases h4 with rfl | rfl | rfl | rfl <;> cases f <;> rfl

example : pairLane (X86.run2F16 (zipHalfF16 .lo) (fun _ => 0)
    (fun i => BitVec.ofNat 8 i, fun i => BitVec.ofNat 8 (50 + i))
    (fun i => BitVec.ofNat 8 (100 + i), fun i => BitVec.ofNat 8 (150 + i))) 5 2 = 110 := by
  decide +kernel

/-- `unziplo`/`unziphi` of f16 vectors keep the even/odd elements of the concatenated
arguments. -/
theorem unzipHalfF16_separates (f : Half) (a b : Bytes × Bytes) (l k : Nat) (hl : l < 8)
    (hk : k < 4) :
    pairLane (X86.run2F16 (unzipHalfF16 f) (fun _ => 0) a b) l k =
      if 2 * l + parity f < 8 then pairLane a (2 * l + parity f) k
      else pairLane b (2 * l + parity f - 8) k := by
  have h8 : l = 0 ∨ l = 1 ∨ l = 2 ∨ l = 3 ∨ l = 4 ∨ l = 5 ∨ l = 6 ∨ l = 7 := by omega
  have h4 : k = 0 ∨ k = 1 ∨ k = 2 ∨ k = 3 := by omega
  rcases h8 with rfl | rfl | rfl | rfl | rfl | rfl | rfl | rfl <;>
    rcases h4 with rfl | rfl | rfl | rfl <;> cases f <;> rfl

example : pairLane (X86.run2F16 (unzipHalfF16 .hi) (fun _ => 0)
    (fun i => BitVec.ofNat 8 i, fun i => BitVec.ofNat 8 (50 + i))
    (fun i => BitVec.ofNat 8 (100 + i), fun i => BitVec.ofNat 8 (150 + i))) 6 2 = 156 := by
  decide +kernel

/-- `reverse` puts the lanes in the opposite order. -/
theorem reverse_spec (t : ETy) (a : Bytes) (l k : Nat) (hl : l < lanes t) (hk : k < t.bytes) :
    byteLane t.bytes ((reverse1 t (.inp 0)).eval (fun _ => a) (fun _ => 0)) l k =
      byteLane t.bytes a (lanes t - 1 - l) k := by
  have h : ∀ l < lanes t, ∀ k < t.bytes,
      (reverse1 t (.inp 0)).src (l * t.bytes + k) =
        .byte 0 ((lanes t - 1 - l) * t.bytes + k) := by
    cases t <;> decide +kernel
  exact (Sh.eval_src _ _ _ _).2 _ _ (h l hl k hk)

example : byteLane 2 ((reverse1 .i16 (.inp 0)).eval (fun _ i => BitVec.ofNat 8 i) (fun _ => 0))
    1 1 = 13 := by decide +kernel

/-! ### f16 loads and stores -/

/-- Loads of degree `deg` of f16 vectors de-interleave in memory order: lane `l` of register `i`
is the conversion of element `l * deg + i`. -/
theorem loadF16_spec {α : Type} (deg : Nat) (ptr : Nat → α) (i l : Nat) :
    loadF16 deg ptr i (l / 4) (l % 4) = ptr (l * deg + i) := by
  unfold loadF16
  have : i + l / 4 * 4 * deg + l % 4 * deg = l * deg + i := by
    rw [Nat.add_assoc, ← Nat.add_mul, Nat.mul_comm (l / 4), Nat.div_add_mod, Nat.add_comm]
  rw [this]

example : loadF16 3 (fun x => x) 2 (5 / 4) (5 % 4) = 17 := by decide

theorem foldl_writes {σ α : Type} (off : σ → Nat) (val : σ → α) (l : List σ) (m : Nat → α)
    (x : Nat) :
    ((∀ s ∈ l, off s ≠ x) →
      l.foldl (fun m s => fun x => if x = off s then val s else m x) m x = m x) ∧
    ((∀ s ∈ l, ∀ s' ∈ l, off s = off s' → val s = val s') → ∀ s ∈ l, off s = x →
      l.foldl (fun m s => fun x => if x = off s then val s else m x) m x = val s) := by
  induction l generalizing m with
  | nil => simp
  | cons a l ih =>
    constructor
    · intro h
      rw [List.foldl_cons, (ih _).1 fun s hs => h s (List.mem_cons_of_mem _ hs)]
      rw [if_neg]
      exact fun hx => h a (List.mem_cons_self ..) hx.symm
    · intro h s hs hx
      rw [List.foldl_cons]
      by_cases ht : ∃ s' ∈ l, off s' = x
      · obtain ⟨s', hs', hx'⟩ := ht
        rw [(ih _).2 (fun u hu v hv => h u (List.mem_cons_of_mem _ hu) v (List.mem_cons_of_mem _ hv))
          s' hs' hx']
        exact h s' (List.mem_cons_of_mem _ hs') s hs (hx'.trans hx.symm)
      · rw [(ih _).1 fun s' hs' hx' => ht ⟨s', hs', hx'⟩]
        rcases List.mem_cons.1 hs with rfl | hs
        · rw [if_pos hx.symm]
        · exact absurd ⟨s, hs, hx⟩ ht

/-- Stores of degree `deg` of f16 vectors interleave in memory order and write nothing else. -/
theorem storeF16_spec {α : Type} (deg : Nat) (v : Nat → Nat → Nat → α) (m : Nat → α) :
    (∀ i l, i < deg → l < 8 → storeF16 deg v m (l * deg + i) = v i (l / 4) (l % 4)) ∧
    ∀ x, 8 * deg ≤ x → storeF16 deg v m x = m x := by
  have mem : ∀ s : Nat × Nat × Nat,
      s ∈ ((List.range deg).flatMap fun i => (List.range 2).flatMap fun k =>
        (List.range 4).map fun j => (i, k, j)) ↔ s.1 < deg ∧ s.2.1 < 2 ∧ s.2.2 < 4 := by
    intro ⟨i, k, j⟩
    simp only [List.mem_flatMap, List.mem_map, List.mem_range, Prod.mk.injEq]
    constructor
    · rintro ⟨_, h1, _, h2, _, h3, rfl, rfl, rfl⟩
      exact ⟨h1, h2, h3⟩
    · rintro ⟨h1, h2, h3⟩
      exact ⟨i, h1, k, h2, j, h3, rfl, rfl, rfl⟩
  have off : ∀ i k j, storeF16Off deg i k j = deg * (4 * k + j) + i := by
    intro i k j
    unfold storeF16Off
    rw [Nat.add_assoc, ← Nat.add_mul, Nat.mul_comm k, Nat.mul_comm, Nat.add_comm]
  have inj : ∀ s s' : Nat × Nat × Nat, s.1 < deg → s'.1 < deg → s.2.2 < 4 → s'.2.2 < 4 →
      storeF16Off deg s.1 s.2.1 s.2.2 = storeF16Off deg s'.1 s'.2.1 s'.2.2 → s = s' := by
    rintro ⟨i, k, j⟩ ⟨i', k', j'⟩ hi hi' hj hj' h
    rw [off, off] at h
    simp only at h hi hi' hj hj'
    have h1 := congrArg (· % deg) h
    have h2 := congrArg (· / deg) h
    simp only [Nat.mul_add_mod, Nat.mod_eq_of_lt hi, Nat.mod_eq_of_lt hi',
      Nat.mul_add_div (show 0 < deg by omega), Nat.div_eq_of_lt hi, Nat.div_eq_of_lt hi',
      Nat.add_zero] at h1 h2
    have : k = k' ∧ j = j' := by omega
    rw [h1, this.1, this.2]
  constructor
  · intro i l hi hl
    refine (foldl_writes (fun s : Nat × Nat × Nat => storeF16Off deg s.1 s.2.1 s.2.2)
      (fun s => v s.1 s.2.1 s.2.2) _ m _).2 ?_ (i, l / 4, l % 4) ?_ ?_
    · intro s hs s' hs' h
      rw [mem] at hs hs'
      rw [inj s s' hs.1 hs'.1 hs.2.2 hs'.2.2 h]
    · rw [mem]
      simp only
      omega
    · simp only
      rw [off, Nat.div_add_mod, Nat.mul_comm]
  · intro x hx
    refine (foldl_writes (fun s : Nat × Nat × Nat => storeF16Off deg s.1 s.2.1 s.2.2)
      (fun s => v s.1 s.2.1 s.2.2) _ m _).1 ?_
    intro s hs h
    rw [mem] at hs
    simp only [off] at h
    have h4 : 4 * s.2.1 + s.2.2 + 1 ≤ 8 := by omega
    have : deg * (4 * s.2.1 + s.2.2 + 1) ≤ deg * 8 := Nat.mul_le_mul_left _ h4
    rw [Nat.mul_add] at this
    omega

example : storeF16 3 (fun i k j => 100 * i + 10 * k + j) (fun _ => 7) (5 * 3 + 2) = 211 := by
  decide

end Nsimd.Props.Ppc
