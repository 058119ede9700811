import Verif.Lemmas.X86Shuffle

/-!
# C20, C21: degree 2, 3 and 4 loads and stores of the x86 back end

Specification: `loadN` from `a0` must give register `r` the elements `a0[r], a0[N + r],
a0[2 * N + r], ...`; `storeN` is the inverse.  In bytes, byte `i` of register `r` belongs to
memory byte `elemByte N w (i / w) r (i % w)` where `w` is the element size.
-/

namespace Nsimd.Props.X86
open Nsimd.X86

/-- Offset of byte `b` of element `l` of stream `r` among `n` interleaved streams of `w`-byte
elements. Specification. -/
def elemByte (n w l r b : Nat) : Nat := (l * n + r) * w + b

/-- Number of elements in a register. Specification. -/
def lanes (isa : Isa) (t : ETy) : Nat := isa.bytes / t.bytes

/-- The instruction set, degree and element type combinations whose loads and stores keep the
element order. Specification. -/
def ordered : Isa → Deg → ETy → Bool
  | .sse2, _, _ => true
  | .sse42, _, _ => true
  | _, .three, _ => true
  | .avx, .two, t => t == .i16
  | .avx, .four, t => t == .i8 || t == .i16 || t == .i64 || t == .f64
  | .avx2, .two, t => t == .i8
  | .avx2, .four, t => t == .i8 || t == .i64 || t == .f64
  | .avx512, .two, t => t == .i8 || t == .i32 || t == .f32
  | .avx512, .four, t => t != .i16

/-! ### Traces of the code -/

/-- Lane order of a load, read off register 0. Proof device. -/
def loadPerm (isa : Isa) (d : Deg) (t : ETy) (l : Nat) : Nat :=
  match ((loadDeg isa d t).getD 0 (.inp 0)).src (l * t.bytes) with
  | .byte k j => (k * isa.bytes + j) / t.bytes / d.num
  | _ => 0

/-- Inverse of `loadPerm`. Proof device. -/
def permInv (isa : Isa) (d : Deg) (t : ETy) (e : Nat) : Nat :=
  (List.range (lanes isa t)).findIdx (loadPerm isa d t · == e)

/-- Every byte of a load comes from the right stream, lane `loadPerm`. Proof device. -/
def loadCheck (isa : Isa) (d : Deg) (t : ETy) : Bool :=
  (List.range d.num).all fun r => (List.range isa.bytes).all fun i =>
    let x := elemByte d.num t.bytes (loadPerm isa d t (i / t.bytes)) r (i % t.bytes)
    ((loadDeg isa d t).getD r (.inp 0)).src i == .byte (x / isa.bytes) (x % isa.bytes)

/-- Every byte of a store goes to the right stream, lane `loadPerm`. Proof device. -/
def storeCheck (isa : Isa) (d : Deg) (t : ETy) : Bool :=
  (List.range d.num).all fun r => (List.range isa.bytes).all fun i =>
    let x := elemByte d.num t.bytes (loadPerm isa d t (i / t.bytes)) r (i % t.bytes)
    ((storeDeg isa d t).getD (x / isa.bytes) (.inp 0)).src (x % isa.bytes) == .byte r i

/-- `loadPerm` is a permutation of the lanes with inverse `permInv`. Proof device. -/
def permCheck (isa : Isa) (d : Deg) (t : ETy) : Bool :=
  (List.range (lanes isa t)).all fun l =>
    decide (loadPerm isa d t l < lanes isa t) && decide (permInv isa d t l < lanes isa t) &&
      permInv isa d t (loadPerm isa d t l) == l && loadPerm isa d t (permInv isa d t l) == l &&
      (!ordered isa d t || loadPerm isa d t l == l)

theorem loadCheck_all (isa : Isa) (d : Deg) (t : ETy) : loadCheck isa d t = true := by
  cases isa <;> cases d <;> cases t <;> decide +kernel

theorem storeCheck_all (isa : Isa) (d : Deg) (t : ETy) : storeCheck isa d t = true := by
  cases isa <;> cases d <;> cases t <;> decide +kernel

theorem permCheck_all (isa : Isa) (d : Deg) (t : ETy) : permCheck isa d t = true := by
  cases isa <;> cases d <;> cases t <;> decide +kernel

theorem perm_spec (isa : Isa) (d : Deg) (t : ETy) {l : Nat} (hl : l < lanes isa t) :
    loadPerm isa d t l < lanes isa t ∧ permInv isa d t l < lanes isa t ∧
      permInv isa d t (loadPerm isa d t l) = l ∧ loadPerm isa d t (permInv isa d t l) = l ∧
      (ordered isa d t = true → loadPerm isa d t l = l) := by
  have h := permCheck_all isa d t
  unfold permCheck at h
  rw [List.all_eq_true] at h
  have h1 := h l (List.mem_range.2 hl)
  simp only [Bool.and_eq_true, decide_eq_true_eq, beq_iff_eq, Bool.or_eq_true,
    Bool.not_eq_true'] at h1
  obtain ⟨⟨⟨⟨h1, h2⟩, h3⟩, h4⟩, h5⟩ := h1
  refine ⟨h1, h2, h3, h4, fun ho => ?_⟩
  rw [ho] at h5
  simpa using h5

theorem sizes (isa : Isa) (t : ETy) :
    0 < t.bytes ∧ 0 < isa.bytes ∧ lanes isa t * t.bytes = isa.bytes := by
  cases isa <;> cases t <;> decide

theorem elemByte_lt {isa : Isa} {d : Deg} {t : ETy} {l r b : Nat} (hl : l < lanes isa t)
    (hr : r < d.num) (hb : b < t.bytes) : elemByte d.num t.bytes l r b < d.num * isa.bytes := by
  have hs := (sizes isa t).2.2
  unfold elemByte
  have h1 : l * d.num + r + 1 ≤ lanes isa t * d.num := by
    have : (l + 1) * d.num ≤ lanes isa t * d.num := Nat.mul_le_mul_right _ hl
    rw [Nat.add_mul] at this
    omega
  have h2 : (l * d.num + r + 1) * t.bytes ≤ lanes isa t * d.num * t.bytes :=
    Nat.mul_le_mul_right _ h1
  rw [Nat.add_mul] at h2
  have h3 : lanes isa t * d.num * t.bytes = d.num * isa.bytes := by
    rw [← hs, Nat.mul_comm (lanes isa t), Nat.mul_assoc]
  omega

theorem lane_lt {isa : Isa} {t : ETy} {i : Nat} (hi : i < isa.bytes) :
    i / t.bytes < lanes isa t := by
  obtain ⟨h1, _, h3⟩ := sizes isa t
  rw [Nat.div_lt_iff_lt_mul h1, h3]
  exact hi

theorem loadRun_eq (isa : Isa) (d : Deg) (t : ETy) (junk m : Bytes) {r i : Nat}
    (hr : r < d.num) (hi : i < isa.bytes) :
    loadRun isa d t junk m r i =
      m (elemByte d.num t.bytes (loadPerm isa d t (i / t.bytes)) r (i % t.bytes)) := by
  have h := loadCheck_all isa d t
  unfold loadCheck at h
  rw [List.all_eq_true] at h
  have h1 := h r (List.mem_range.2 hr)
  rw [List.all_eq_true] at h1
  have h2 := h1 i (List.mem_range.2 hi)
  unfold loadRun
  rw [(Sh.eval_src _ junk _ i).2 _ _ (by simpa using h2)]
  rw [Nat.mul_comm, Nat.div_add_mod]

theorem storeRun_eq (isa : Isa) (d : Deg) (t : ETy) (junk : Bytes) (v : Nat → Bytes) (m : Bytes)
    {r i : Nat} (hr : r < d.num) (hi : i < isa.bytes) :
    storeRun isa d t junk v m
        (elemByte d.num t.bytes (loadPerm isa d t (i / t.bytes)) r (i % t.bytes)) = v r i := by
  have h := storeCheck_all isa d t
  unfold storeCheck at h
  rw [List.all_eq_true] at h
  have h1 := h r (List.mem_range.2 hr)
  rw [List.all_eq_true] at h1
  have h2 := h1 i (List.mem_range.2 hi)
  unfold storeRun
  rw [if_pos (elemByte_lt (perm_spec isa d t (lane_lt hi)).1 hr
    (Nat.mod_lt _ (sizes isa t).1))]
  exact (Sh.eval_src _ junk _ _).2 _ _ (by simpa using h2)

/-! ### C20 -/

/-- Every load of degree 2, 3, 4 puts the elements of stream `r` in register `r`, in an order
of the lanes that is the same for all registers; the order is the memory order for the
combinations listed in `ordered`. -/
theorem loadDeg_streams (isa : Isa) (d : Deg) (t : ETy) :
    ∃ π : Nat → Nat,
      (∀ l < lanes isa t, π l < lanes isa t) ∧
      (∀ l < lanes isa t, ∀ l' < lanes isa t, π l = π l' → l = l') ∧
      (ordered isa d t = true → ∀ l < lanes isa t, π l = l) ∧
      ∀ (junk m : Bytes) (r l b : Nat), r < d.num → l < lanes isa t → b < t.bytes →
        loadRun isa d t junk m r (l * t.bytes + b) = m (elemByte d.num t.bytes (π l) r b) := by
  refine ⟨loadPerm isa d t, fun l hl => (perm_spec isa d t hl).1, fun l hl l' hl' h => ?_,
    fun ho l hl => (perm_spec isa d t hl).2.2.2.2 ho, fun junk m r l b hr hl hb => ?_⟩
  · rw [← (perm_spec isa d t hl).2.2.1, h, (perm_spec isa d t hl').2.2.1]
  · have hs := sizes isa t
    have hi : l * t.bytes + b < isa.bytes := by
      have : (l + 1) * t.bytes ≤ lanes isa t * t.bytes := Nat.mul_le_mul_right _ hl
      rw [Nat.add_mul] at this
      omega
    rw [loadRun_eq isa d t junk m hr hi, Nat.mul_comm l, Nat.mul_add_div hs.1,
      Nat.mul_add_mod, Nat.div_eq_of_lt hb, Nat.mod_eq_of_lt hb, Nat.add_zero]

example : loadRun .avx2 .two .i8 (fun _ => 7) (fun x => BitVec.ofNat 8 x) 1 3 = 7 := by
  decide +kernel

/-- The load keeps memory order exactly for the combinations listed in `ordered`. -/
theorem loadDeg_order_iff (isa : Isa) (d : Deg) (t : ETy) :
    (∀ (junk m : Bytes) (r l b : Nat), r < d.num → l < lanes isa t → b < t.bytes →
        loadRun isa d t junk m r (l * t.bytes + b) = m (elemByte d.num t.bytes l r b)) ↔
      ordered isa d t = true := by
  constructor
  · intro h
    have key : ∀ r < d.num, ∀ l < lanes isa t,
        loadRun isa d t (fun _ => 0) (fun x => BitVec.ofNat 8 x) r (l * t.bytes + 0) =
          BitVec.ofNat 8 (elemByte d.num t.bytes l r 0) :=
      fun r hr l hl => h _ _ r l 0 hr hl (sizes isa t).1
    clear h
    revert key
    cases isa <;> cases d <;> cases t <;> decide +kernel
  · intro ho junk m r l b hr hl hb
    obtain ⟨π, _, _, h3, h4⟩ := loadDeg_streams isa d t
    rw [h4 junk m r l b hr hl hb, h3 ho l hl]

/-- AVX `load2` of f32 returns `a0[0], a0[2], a0[8], a0[10], ...` in register 0: lane 2 is
element 8 of memory instead of element 4. -/
theorem load2_avx_f32_counterexample :
    ¬ ∀ (junk m : Bytes) (r l b : Nat), r < Deg.two.num → l < lanes .avx .f32 →
      b < ETy.f32.bytes →
      loadRun .avx .two .f32 junk m r (l * ETy.f32.bytes + b) =
        m (elemByte Deg.two.num ETy.f32.bytes l r b) := by
  rw [loadDeg_order_iff]
  decide

/-! ### C21 -/

/-- Every store of degree 2, 3, 4 writes stream `r` from register `r`, in an order of the lanes
that is the same for all registers, and nothing outside its `N` registers' worth of bytes;
the order is the memory order for the combinations listed in `ordered`. -/
theorem storeDeg_streams (isa : Isa) (d : Deg) (t : ETy) :
    ∃ π : Nat → Nat,
      (∀ l < lanes isa t, π l < lanes isa t) ∧
      (∀ l < lanes isa t, ∀ l' < lanes isa t, π l = π l' → l = l') ∧
      (ordered isa d t = true → ∀ l < lanes isa t, π l = l) ∧
      (∀ (junk : Bytes) (v : Nat → Bytes) (m : Bytes) (r l b : Nat),
        r < d.num → l < lanes isa t → b < t.bytes →
        storeRun isa d t junk v m (elemByte d.num t.bytes (π l) r b) =
          v r (l * t.bytes + b)) ∧
      ∀ (junk : Bytes) (v : Nat → Bytes) (m : Bytes) (x : Nat), d.num * isa.bytes ≤ x →
        storeRun isa d t junk v m x = m x := by
  refine ⟨loadPerm isa d t, fun l hl => (perm_spec isa d t hl).1, fun l hl l' hl' h => ?_,
    fun ho l hl => (perm_spec isa d t hl).2.2.2.2 ho, fun junk v m r l b hr hl hb => ?_,
    fun junk v m x hx => ?_⟩
  · rw [← (perm_spec isa d t hl).2.2.1, h, (perm_spec isa d t hl').2.2.1]
  · have hs := sizes isa t
    have hi : l * t.bytes + b < isa.bytes := by
      have : (l + 1) * t.bytes ≤ lanes isa t * t.bytes := Nat.mul_le_mul_right _ hl
      rw [Nat.add_mul] at this
      omega
    have h := storeRun_eq isa d t junk v m hr hi
    rw [Nat.mul_comm l, Nat.mul_add_div hs.1, Nat.mul_add_mod, Nat.div_eq_of_lt hb,
      Nat.mod_eq_of_lt hb, Nat.add_zero] at h
    rw [h, Nat.mul_comm]
  · unfold storeRun
    rw [if_neg (by omega)]

/-- The store keeps memory order exactly for the combinations listed in `ordered`. -/
theorem storeDeg_order_iff (isa : Isa) (d : Deg) (t : ETy) :
    (∀ (junk : Bytes) (v : Nat → Bytes) (m : Bytes) (r l b : Nat),
        r < d.num → l < lanes isa t → b < t.bytes →
        storeRun isa d t junk v m (elemByte d.num t.bytes l r b) = v r (l * t.bytes + b)) ↔
      ordered isa d t = true := by
  constructor
  · intro h
    have key : ∀ r < d.num, ∀ l < lanes isa t,
        storeRun isa d t (fun _ => 0) (fun r x => BitVec.ofNat 8 (64 * r + x)) (fun _ => 0)
          (elemByte d.num t.bytes l r 0) = BitVec.ofNat 8 (64 * r + (l * t.bytes + 0)) :=
      fun r hr l hl => h _ _ _ r l 0 hr hl (sizes isa t).1
    clear h
    revert key
    cases isa <;> cases d <;> cases t <;> decide +kernel
  · intro ho junk v m r l b hr hl hb
    obtain ⟨π, _, _, h3, h4, _⟩ := storeDeg_streams isa d t
    rw [← h4 junk v m r l b hr hl hb, h3 ho l hl]

/-- Storing what was loaded reproduces the memory, on every instruction set and for every
type, whatever the lane order. -/
theorem storeDeg_loadDeg (isa : Isa) (d : Deg) (t : ETy) (junk junk' m m' : Bytes) (x : Nat)
    (hx : x < d.num * isa.bytes) :
    storeRun isa d t junk (loadRun isa d t junk' m) m' x = m x := by
  obtain ⟨hw, hR, hs⟩ := sizes isa t
  have hN : 0 < d.num := by cases d <;> decide
  have he : x / t.bytes < lanes isa t * d.num := by
    rw [Nat.div_lt_iff_lt_mul hw, Nat.mul_right_comm, hs, Nat.mul_comm]
    exact hx
  have hq : x / t.bytes / d.num < lanes isa t := by
    rw [Nat.div_lt_iff_lt_mul hN]
    exact he
  have hr : x / t.bytes % d.num < d.num := Nat.mod_lt _ hN
  have hb : x % t.bytes < t.bytes := Nat.mod_lt _ hw
  obtain ⟨_, hl, _, hpi, _⟩ := perm_spec isa d t hq
  generalize hle : permInv isa d t (x / t.bytes / d.num) = l at *
  have hi : l * t.bytes + x % t.bytes < isa.bytes := by
    have : (l + 1) * t.bytes ≤ lanes isa t * t.bytes := Nat.mul_le_mul_right _ hl
    rw [Nat.add_mul] at this
    omega
  have h1 : (l * t.bytes + x % t.bytes) / t.bytes = l := by
    rw [Nat.mul_comm, Nat.mul_add_div hw, Nat.div_eq_of_lt hb, Nat.add_zero]
  have h2 : (l * t.bytes + x % t.bytes) % t.bytes = x % t.bytes := by
    rw [Nat.mul_comm, Nat.mul_add_mod, Nat.mod_eq_of_lt hb]
  have hxe : elemByte d.num t.bytes (x / t.bytes / d.num) (x / t.bytes % d.num)
      (x % t.bytes) = x := by
    unfold elemByte
    rw [Nat.mul_comm (x / t.bytes / d.num), Nat.div_add_mod, Nat.mul_comm, Nat.div_add_mod]
  have hst := storeRun_eq isa d t junk (loadRun isa d t junk' m) m' hr hi
  rw [h1, h2, hpi, hxe, loadRun_eq isa d t junk' m hr hi, h1, h2, hpi, hxe] at hst
  exact hst

example : storeRun .avx .two .f32 (fun _ => 1) (loadRun .avx .two .f32 (fun _ => 2)
    (fun x => BitVec.ofNat 8 (3 * x))) (fun _ => 0) 37 = 111 := by decide +kernel

/-- Loading what was stored gives the registers back, on every instruction set and for every
type, whatever the lane order. -/
theorem loadDeg_storeDeg (isa : Isa) (d : Deg) (t : ETy) (junk junk' : Bytes) (v : Nat → Bytes)
    (m : Bytes) (r i : Nat) (hr : r < d.num) (hi : i < isa.bytes) :
    loadRun isa d t junk (storeRun isa d t junk' v m) r i = v r i := by
  rw [loadRun_eq isa d t junk _ hr hi, storeRun_eq isa d t junk' v m hr hi]

example : loadRun .avx512 .four .i16 (fun _ => 1) (storeRun .avx512 .four .i16 (fun _ => 2)
    (fun r x => BitVec.ofNat 8 (5 * r + x)) (fun _ => 0)) 3 40 = 55 := by decide +kernel

end Nsimd.Props.X86
