import Verif.Model.X86Cvt
import Verif.Lemmas.Cpu
import Verif.Lemmas.ScalarInt
import Mathlib.Data.Fin.VecNotation
import Mathlib.Tactic.FinCases
import Mathlib.Tactic.Linarith
import Mathlib.Tactic.NormNum

/-!
# C68: conversions on x86
-/

namespace Nsimd.Props.X86Cvt

open Nsimd Nsimd.X86 Nsimd.Cpu Nsimd.Round Nsimd.X86Cvt

variable {n : Nat} {α β : Type}

/-- The lanes of `a` converted by `f` are those of the first and then of the second register. Specification. -/
def UpTo (f : α → β) (a : Vec (n + n) α) (r : Vec n β × Vec n β) : Prop :=
  ∀ k : Fin n, r.1 k = f (a ⟨k, by omega⟩) ∧ r.2 k = f (a ⟨n + k, by omega⟩)

/-- The same for the lanes of two registers converted into one. Specification. -/
def DownTo (f : α → β) (a b : Vec n α) (r : Vec (n + n) β) : Prop :=
  ∀ k : Fin n, r ⟨k, by omega⟩ = f (a k) ∧ r ⟨n + k, by omega⟩ = f (b k)

/-- `v` is the value of the float `f` with its fractional part discarded: the conversion of C, defined only
if that value is one of `t`. Specification. -/
def CCast (t : ITy) (f : Fl) (v : BitVec t.w) : Prop :=
  ∃ q : ℚ, f = .fin q ∧ 0 ≤ q * t.val v ∧ |(t.val v : ℚ)| ≤ |q| ∧ |q| < |(t.val v : ℚ)| + 1

/-- Rounding `q` to nearest, ties to even, gives the same integer `z` as truncation. Specification. -/
def SameRounded (q : ℚ) (z : ℤ) : Prop := |q - z| < 1 / 2 ∨ (|q - z| = 1 / 2 ∧ z % 2 = 0)

/-! ### Moving lanes -/

theorem setr_spec (a b : Vec n α) (k : Fin n) :
    setr a b ⟨k, by omega⟩ = a k ∧ setr a b ⟨n + k, by omega⟩ = b k := by
  unfold setr
  constructor
  · rw [dif_pos (show k.val < n from k.isLt)]
  · rw [dif_neg (show ¬ n + k.val < n by omega)]
    congr 1
    exact Fin.ext (by simp)

theorem lo_setr (a b : Vec n α) : lo (setr a b) = a := funext fun k => (setr_spec a b k).1
theorem hi_setr (a b : Vec n α) : hi (setr a b) = b := funext fun k => (setr_spec a b k).2

theorem downTo_setr (f : α → β) (a b : Vec n α) : DownTo f a b (setr (fun i => f (a i)) (fun i => f (b i))) :=
  fun k => setr_spec (fun i => f (a i)) (fun i => f (b i)) k

theorem downTo_map (f : α → β) (a b : Vec n α) : DownTo f a b (fun i => f (setr a b i)) := fun k =>
  ⟨congrArg f (setr_spec a b k).1, congrArg f (setr_spec a b k).2⟩

theorem splitTrick_spec (f : α → β) (op : Vec (n + n) α → Vec n β × Vec n β) (hop : ∀ a, UpTo f a (op a))
    (a : Vec (n + n + (n + n)) α) : UpTo f a (splitTrick op a) := by
  have key : ∀ (v : Vec (n + n) α) (k : Fin (n + n)), setr (op v).1 (op v).2 k = f (v k) := by
    intro v k
    unfold setr
    split
    · rename_i h
      exact (hop v ⟨k, h⟩).1
    · rename_i h
      rw [(hop v ⟨k - n, by omega⟩).2]
      congr 2
      exact Fin.ext (by simp only; omega)
  intro k
  exact ⟨key (lo a) k, key (hi a) k⟩

theorem emulate_some (f : α → β) (a : Vec n α) :
    emulate (fun v => some (f v)) a = some fun i => f (a i) := body_some _

/-! ### Integers -/

theorem unpack_ext (s d : ITy) (h : s.w + s.w = d.w) (x : BitVec s.w) :
    ((if s.sgn then cmpgt 0 x else 0#s.w) ++ x).cast h = d.cast (s.val x) := by
  unfold ITy.cast ITy.val cmpgt
  apply BitVec.eq_of_toNat_eq
  rw [BitVec.toNat_cast, BitVec.toNat_append, BitVec.toNat_ofInt]
  have hx := x.isLt
  have hsh : ∀ m : Nat, m <<< s.w ||| x.toNat = m * 2 ^ s.w + x.toNat := by
    intro m
    rw [← Nat.shiftLeft_add_eq_or_of_lt hx, Nat.shiftLeft_eq]
  rw [hsh]
  cases hs : s.sgn
  · rw [if_neg (by simp), if_neg (by simp)]
    cases s <;> cases d <;> simp [ITy.w] at * <;> omega
  · rw [if_pos rfl, if_pos rfl]
    rw [BitVec.toInt_eq_toNat_cond]
    have h0' : ((0 : BitVec s.w)).toInt = 0 := by simp
    rw [h0']
    clear h0' hsh
    cases s <;> cases d <;> simp only [ITy.w, ITy.sgn, reduceCtorEq] at * <;> first
      | omega
      | (split <;> split <;> simp only [BitVec.toNat_allOnes, BitVec.toNat_ofNat] <;> omega)

theorem cvtep_ext (s d : ITy) (x : BitVec s.w) :
    (if s.sgn then x.signExtend d.w else x.setWidth d.w) = d.cast (s.val x) := by
  unfold ITy.cast ITy.val
  split
  · rfl
  · apply BitVec.eq_of_toNat_eq
    rw [BitVec.toNat_setWidth, BitVec.toNat_ofInt]
    omega

theorem upcvtSse_spec (s d : ITy) (h : s.w + s.w = d.w) (a : Reg (n + n) s.w) :
    UpTo (fun v => d.cast (s.val v)) a (upcvtSse s d h a) := by
  intro k
  unfold upcvtSse unpacklo unpackhi lo hi
  have e := unpack_ext s d h
  split
  · rename_i hs
    rw [hs] at e
    exact ⟨e _, e _⟩
  · rename_i hs
    have hs : s.sgn = false := by simpa using hs
    rw [hs] at e
    exact ⟨e _, e _⟩

theorem upcvtIntr_spec (s d : ITy) (a : Reg (n + n) s.w) :
    UpTo (fun v => d.cast (s.val v)) a (upcvtIntr s d a) := fun _ =>
  ⟨cvtep_ext s d _, cvtep_ext s d _⟩

/-- C68, `upcvt` between integer types: on every extension the lanes in order, with the same value (modulo
the width of the destination). -/
theorem upcvtII_spec (x : Ext) (s d : ITy) (h : s.w + s.w = d.w) (a : Reg (n + n + (n + n)) s.w) :
    UpTo (fun v => d.cast (s.val v)) a (upcvtII x s d h a) := by
  cases x
  · exact upcvtSse_spec s d h a
  · exact upcvtSse_spec s d h a
  · exact splitTrick_spec _ _ (upcvtSse_spec s d h) a
  · exact upcvtIntr_spec s d a
  · cases s
    · exact splitTrick_spec _ _ (upcvtIntr_spec .i8 d) a
    · exact upcvtIntr_spec _ d a
    · exact upcvtIntr_spec _ d a
    · exact splitTrick_spec _ _ (upcvtIntr_spec .i64 d) a
    · exact splitTrick_spec _ _ (upcvtIntr_spec .u8 d) a
    · exact upcvtIntr_spec _ d a
    · exact upcvtIntr_spec _ d a
    · exact splitTrick_spec _ _ (upcvtIntr_spec .u64 d) a
  · exact upcvtIntr_spec s d a

/-- A negative byte keeps its value in i16 and becomes 0xff80 in u16, and 0x80 if it was unsigned. -/
example : (upcvtII .avx .i8 .u16 rfl (n := 8) fun _ => 0x80#8).2 9 = 0xff80#16 ∧
    (upcvtII .knl .u8 .i16 rfl (n := 16) fun _ => 0x80#8).1 9 = 0x80#16 := by decide

theorem trunc_eq_cast (s d : ITy) (hd : d.w ≤ s.w) (x : BitVec s.w) :
    x.setWidth d.w = d.cast (s.val x) := by
  unfold ITy.val ITy.cast
  apply BitVec.eq_of_toNat_eq
  rw [BitVec.toNat_ofInt, BitVec.toNat_setWidth]
  split
  · rw [BitVec.toInt_eq_toNat_cond]
    cases s <;> cases d <;> simp only [ITy.w] at * <;> omega
  · omega

/-- C68, `downcvt` between integer types: the lanes of both registers in order, each reduced to the
destination type. -/
theorem downcvtII_spec (x : Ext) (s d : ITy) (h : s.w = d.w + d.w) (a b : Reg n s.w) :
    ∃ r, downcvtII x s d a b = some r ∧ DownTo (fun v => d.cast (s.val v)) a b r := by
  have e1 : (some (setr (fun i => (a i).setWidth d.w) (fun i => (b i).setWidth d.w)) :
      Option (Reg (n + n) d.w)) =
      some (setr (fun i => d.cast (s.val (a i))) (fun i => d.cast (s.val (b i)))) := by
    congr 1
    have hc := trunc_eq_cast s d (by omega)
    congr 1 <;> funext i <;> exact hc _
  have e2 : downcvtEmul (fun v => some (d.cast (s.val v))) a b =
      some fun i => d.cast (s.val (setr a b i)) := emulate_some _ _
  have good1 : ∃ r, (some (setr (fun i => (a i).setWidth d.w) (fun i => (b i).setWidth d.w)) :
      Option (Reg (n + n) d.w)) = some r ∧ DownTo (fun v => d.cast (s.val v)) a b r :=
    ⟨_, e1, downTo_setr (fun v => d.cast (s.val v)) a b⟩
  have good2 : ∃ r, downcvtEmul (fun v => some (d.cast (s.val v))) a b = some r ∧
      DownTo (fun v => d.cast (s.val v)) a b r := ⟨_, e2, downTo_map (fun v => d.cast (s.val v)) a b⟩
  unfold downcvtII
  cases x
  · exact good2
  · exact good2
  · exact good2
  · exact good2
  · dsimp only; split
    · exact good1
    · exact good2
  · dsimp only; split
    · exact good1
    · exact good2

example : (downcvtII .skylake .i32 .i16 (n := 1) ![0x12345678#32] ![0xffff8000#32]).map
    (fun r => (r 0, r 1)) = some (0x5678#16, 0x8000#16) := by decide
example : (downcvtII .sse2 .u32 .i16 (n := 1) ![0x12345678#32] ![0xffff8000#32]).map
    (fun r => (r 0, r 1)) = some (0x5678#16, 0x8000#16) := by decide

/-- C68, `cvt` between integer types: every lane reduced to the destination type. -/
theorem cvtII_spec (s d : ITy) (h : s.w = d.w) (a : Reg n s.w) (k : Fin n) :
    cvtII s d h a k = d.cast (s.val (a k)) := by
  unfold cvtII
  rw [← trunc_eq_cast s d (by omega)]
  apply BitVec.eq_of_toNat_eq
  rw [BitVec.toNat_cast, BitVec.toNat_setWidth, Nat.mod_eq_of_lt (by rw [← h]; exact (a k).isLt)]

example : cvtII .i8 .u8 rfl (n := 2) ![0xff#8, 1#8] 0 = ITy.u8.cast (-1) := by decide

/-! ### Integers to floats -/

/-- C68, `cvt` of integers to the float type of their size: every lane is rounded once. -/
theorem cvtIF_spec (x : Ext) (rnd : ℚ → ℚ) (s : ITy) (a : Reg n s.w) :
    cvtIF x rnd s a = some fun k => .fin (rnd (s.val (a k))) := by
  unfold cvtIF
  split
  · rfl
  · exact emulate_some _ _

theorem cvtep_val (s : ITy) (h : s.w ≤ 16) (x : BitVec s.w) : ITy.i32.val (ITy.i32.cast (s.val x)) = s.val x := by
  have hx := x.isLt
  have hb : -2 ^ 16 < s.val x ∧ s.val x < 2 ^ 16 := by
    unfold ITy.val
    rw [BitVec.toInt_eq_toNat_cond]
    cases s <;> simp [ITy.w] at * <;> omega
  exact ITy.val_cast .i32 _ (by show -2147483648 ≤ _; omega) (by show _ ≤ 2147483647; omega)

/-- C68, `cvt` of 16-bit integers to f16, whose lanes are f32: every lane is rounded once, and through_epi32
does not change the value. -/
theorem cvtI16F16_spec (x : Ext) (rnd : ℚ → ℚ) (s : ITy) (h : s.w ≤ 16) (a : Reg (n + n) s.w) :
    ∃ r, cvtI16F16 x rnd s a = some r ∧ UpTo (fun v => .fin (rnd (s.val v))) a r := by
  have e : ∀ y : BitVec s.w, castIF rnd .i32 (if s.sgn then y.signExtend ITy.i32.w else y.setWidth ITy.i32.w) =
      .fin (rnd (s.val y)) := by
    intro y
    unfold castIF
    rw [cvtep_ext s .i32, cvtep_val s h]
  have hh : lo (unpackhi64Self a) = hi a := lo_setr _ _
  have ee : ∀ v : Reg n s.w, emulate (fun v => some (castIF rnd s v)) v = some fun i => .fin (rnd (s.val (v i))) :=
    fun v => emulate_some (fun v => castIF rnd s v) v
  unfold cvtI16F16
  cases x
  · dsimp only
    rw [ee, ee]
    exact ⟨_, rfl, fun k => ⟨rfl, rfl⟩⟩
  · refine ⟨_, rfl, fun k => ⟨e _, ?_⟩⟩
    dsimp only
    rw [hh]
    exact e _
  · dsimp only
    rw [ee, ee]
    exact ⟨_, rfl, fun k => ⟨rfl, rfl⟩⟩
  · exact ⟨_, rfl, fun k => ⟨e _, e _⟩⟩
  · exact ⟨_, rfl, fun k => ⟨e _, e _⟩⟩
  · exact ⟨_, rfl, fun k => ⟨e _, e _⟩⟩

/-- C68, `upcvt` of i32 to f64: the lanes in order, exactly. -/
theorem upcvtI32F64_spec (a : Reg 4 32) (b : Reg (n + n) 32) :
    UpTo (n := 2) (fun v => Fl.fin (ITy.i32.val v)) a (upcvtI32F64Sse a) ∧
    UpTo (fun v => Fl.fin (ITy.i32.val v)) b (upcvtI32F64 b) := by
  refine ⟨fun k => ?_, fun k => ⟨rfl, rfl⟩⟩
  match k with
  | 0 => exact ⟨rfl, rfl⟩
  | 1 => exact ⟨rfl, rfl⟩

/-- C68, `upcvt` of integers to floats through the integer type of double size: every lane is rounded once,
from its exact value. -/
theorem upcvtIF_spec (x : Ext) (rnd : ℚ → ℚ) (s m : ITy) (h : s.w + s.w = m.w) (hm : m.sgn = s.sgn)
    (a : Reg (n + n + (n + n)) s.w) :
    ∃ r, upcvtIF x rnd s m h a = some r ∧ UpTo (fun v => .fin (rnd (s.val v))) a r := by
  have hv : ∀ v : BitVec s.w, m.val (m.cast (s.val v)) = s.val v := by
    intro v
    have hx := v.isLt
    apply ITy.val_cast
    · cases s <;> cases m <;> simp [ITy.w, ITy.sgn, ITy.minv, ITy.val, BitVec.toInt_eq_toNat_cond] at * <;> omega
    · cases s <;> cases m <;> simp [ITy.w, ITy.sgn, ITy.maxv, ITy.val, BitVec.toInt_eq_toNat_cond] at * <;> omega
  unfold upcvtIF
  simp only [cvtIF_spec, Option.bind_eq_bind, Option.bind_some]
  refine ⟨_, rfl, fun k => ?_⟩
  obtain ⟨h1, h2⟩ := upcvtII_spec x s m h a k
  dsimp only at h1 h2 ⊢
  rw [h1, h2, hv, hv]
  exact ⟨rfl, rfl⟩

/-- C68, `upcvt` of 8-bit integers to f16: the lanes in order over the four halves. -/
theorem upcvtI8F16_spec (x : Ext) (rnd : ℚ → ℚ) (s m : ITy) (h : s.w + s.w = m.w) (hm : m.sgn = s.sgn)
    (h8 : s.w = 8) (a : Reg (n + n + (n + n)) s.w) :
    ∃ r, upcvtI8F16 x rnd s m h a = some r ∧
      UpTo (fun v => Fl.fin (rnd (s.val v))) (lo a) r.1 ∧ UpTo (fun v => Fl.fin (rnd (s.val v))) (hi a) r.2 := by
  have hv : ∀ v : BitVec s.w, m.val (m.cast (s.val v)) = s.val v := by
    intro v
    have hx := v.isLt
    apply ITy.val_cast
    · cases s <;> cases m <;> simp [ITy.w, ITy.sgn, ITy.minv, ITy.val, BitVec.toInt_eq_toNat_cond] at * <;> omega
    · cases s <;> cases m <;> simp [ITy.w, ITy.sgn, ITy.maxv, ITy.val, BitVec.toInt_eq_toNat_cond] at * <;> omega
  obtain ⟨r0, e0, u0⟩ := cvtI16F16_spec x rnd m (by omega) (upcvtII x s m h a).1
  obtain ⟨r1, e1, u1⟩ := cvtI16F16_spec x rnd m (by omega) (upcvtII x s m h a).2
  have hup := upcvtII_spec x s m h a
  refine ⟨(r0, r1), ?_, fun k => ?_, fun k => ?_⟩
  · show (cvtI16F16 x rnd m (upcvtII x s m h a).1 >>= fun v0 =>
      cvtI16F16 x rnd m (upcvtII x s m h a).2 >>= fun v1 => pure (v0, v1)) = _
    rw [e0, e1]
    rfl
  · obtain ⟨h1, h2⟩ := u0 k
    rw [h1, h2]
    dsimp only
    rw [(hup ⟨k, by omega⟩).1, (hup ⟨n + k, by omega⟩).1, hv, hv]
    exact ⟨rfl, rfl⟩
  · obtain ⟨h1, h2⟩ := u1 k
    rw [h1, h2]
    dsimp only
    rw [(hup ⟨k, by omega⟩).2, (hup ⟨n + k, by omega⟩).2, hv, hv]
    exact ⟨rfl, rfl⟩

/-- Lane 5 of 8 bytes is lane 1 of the first half of the second register. -/
example : ∃ r, upcvtI8F16 .sse42 id .i8 .i16 rfl (n := 2) (fun k => BitVec.ofNat 8 (k * 50)) = some r ∧
    r.2.1 1 = .fin (-6) := by
  obtain ⟨r, h, -, u⟩ := upcvtI8F16_spec .sse42 id .i8 .i16 rfl rfl rfl (n := 2) (fun k => BitVec.ofNat 8 (k * 50))
  refine ⟨r, h, ?_⟩
  rw [(u 1).1]
  have : ITy.i8.val (hi (n := 2 + 2) (fun k => BitVec.ofNat 8 (k * 50)) ⟨1, by omega⟩) = -6 := by decide
  simp only [id]
  erw [this]
  norm_num

/-- C68, `downcvt` of 32-bit integers to f16. -/
theorem downcvt32F16_spec (x : Ext) (rnd : ℚ → ℚ) (s : ITy) (a b : Reg n s.w) :
    downcvt32F16 x rnd s a b =
      some (fun k => .fin (rnd (s.val (a k))), fun k => .fin (rnd (s.val (b k)))) := by
  unfold downcvt32F16
  simp only [cvtIF_spec, Option.bind_eq_bind, Option.bind_some]
  rfl

example : ∃ r, upcvtIF .avx id .u16 .u32 rfl (n := 2) (fun _ => 0xffff#16) = some r ∧ r.2 3 = .fin 65535 := by
  obtain ⟨r, h, u⟩ := upcvtIF_spec .avx id .u16 .u32 rfl rfl (n := 2) (fun _ => 0xffff#16)
  refine ⟨r, h, ?_⟩
  rw [(u 3).2]
  have : ITy.u16.val 0xffff#16 = 65535 := by decide
  simp [this]

/-- C68, `downcvt` of 64-bit integers to f32: every lane is rounded once, except for i64 on AVX-512 where
this holds for values of i32 only. Missing: the other values, see `downcvt64F32_counterexample`. -/
theorem downcvt64F32_spec_partial (x : Ext) (rnd : ℚ → ℚ) (s : ITy) (h : s.w = 64) (a b : Reg n s.w)
    (hx : ((x = .knl ∨ x = .skylake) ∧ s.sgn) → ∀ k,
      (-2 ^ 31 ≤ s.val (a k) ∧ s.val (a k) < 2 ^ 31) ∧ -2 ^ 31 ≤ s.val (b k) ∧ s.val (b k) < 2 ^ 31) :
    ∃ r, downcvt64F32 x rnd s h a b = some r ∧ DownTo (fun v => Fl.fin (rnd (s.val v))) a b r := by
  have emul : ∃ r, downcvtEmul (fun v => some (castIF rnd s v)) a b = some r ∧
      DownTo (fun v => Fl.fin (rnd (s.val v))) a b r :=
    ⟨_, emulate_some (fun v => castIF rnd s v) _, downTo_map (fun v => Fl.fin (rnd (s.val v))) a b⟩
  have intr : s.sgn → (x = .knl ∨ x = .skylake) →
      ∃ r, some (downcvtI64F32_512 rnd (fun i => (a i).cast h) (fun i => (b i).cast h)) = some r ∧
        DownTo (fun v => Fl.fin (rnd (s.val v))) a b r := by
    intro hs hx'
    have hr := hx ⟨hx', hs⟩
    have hv : ∀ y : BitVec s.w, -2 ^ 31 ≤ s.val y → s.val y < 2 ^ 31 →
        ITy.i32.val (((y.cast h)).setWidth 32) = s.val y := by
      intro y h1 h2
      have e : (y.cast h).setWidth 32 = ITy.i32.cast (s.val y) := by
        rw [← trunc_eq_cast s .i32 (by rw [h]; decide)]
        apply BitVec.eq_of_toNat_eq
        simp [ITy.w]
      rw [e]
      exact ITy.val_cast .i32 _ (by show -2147483648 ≤ _; omega) (by show _ ≤ 2147483647; omega)
    refine ⟨_, rfl, fun k => ?_⟩
    have := setr_spec (fun i => ((a i).cast h).setWidth 32) (fun i => ((b i).cast h).setWidth 32) k
    unfold downcvtI64F32_512
    dsimp only
    rw [this.1, this.2, hv _ (hr k).1.1 (hr k).1.2, hv _ (hr k).2.1 (hr k).2.2]
    exact ⟨rfl, rfl⟩
  unfold downcvt64F32
  cases x
  · exact emul
  · exact emul
  · exact emul
  · exact emul
  · dsimp only; split
    · exact intr ‹_› (.inl rfl)
    · exact emul
  · dsimp only; split
    · exact intr ‹_› (.inr rfl)
    · exact emul

example : ((Ext.knl = .knl ∨ Ext.knl = .skylake) ∧ ITy.i64.sgn) ∧ -2 ^ 31 ≤ ITy.i64.val (-5#64) ∧
    ITy.i64.val (-5#64) < 2 ^ 31 := by decide

/-- C68, the finding: on AVX-512 `downcvt` of i64 to f32 keeps the low 32 bits of every value only, so that
2^32 + v becomes v for all values v of i32. -/
theorem downcvt64F32_counterexample (x : Ext) (hx : x = .knl ∨ x = .skylake) (rnd : ℚ → ℚ) (v : BitVec 32) :
    ∃ r, downcvt64F32 x rnd .i64 rfl (n := n) (fun _ => BitVec.ofInt 64 (2 ^ 32 + v.toInt))
        (fun _ => BitVec.ofInt 64 (2 ^ 32 + v.toInt)) = some r ∧
      (∀ k, r k = .fin (rnd v.toInt)) ∧ ITy.i64.val (BitVec.ofInt 64 (2 ^ 32 + v.toInt)) ≠ v.toInt := by
  have hlow : (BitVec.ofInt 64 (2 ^ 32 + v.toInt)).setWidth 32 = v := by
    apply BitVec.eq_of_toInt_eq
    rw [BitVec.toInt_eq_toNat_bmod, BitVec.toInt_eq_toNat_cond]
    have hv := v.isLt
    simp only [BitVec.toNat_setWidth, BitVec.toNat_ofInt, Int.bmod]
    split <;> split <;> omega
  refine ⟨fun _ => .fin (rnd v.toInt), ?_, fun _ => rfl, ?_⟩
  · have : downcvtI64F32_512 rnd (n := n) (fun _ => BitVec.ofInt 64 (2 ^ 32 + v.toInt))
        (fun _ => BitVec.ofInt 64 (2 ^ 32 + v.toInt)) = fun _ => .fin (rnd v.toInt) := by
      funext k
      unfold downcvtI64F32_512 setr
      dsimp only
      split <;> · rw [hlow]; rfl
    rcases hx with rfl | rfl <;> exact congrArg some this
  · show (BitVec.ofInt 64 (2 ^ 32 + v.toInt)).toInt ≠ _
    rw [BitVec.toInt_ofInt]
    have h1 := v.toInt_lt
    have h2 := v.le_toInt
    simp only [Int.bmod] at *
    split <;> omega

/-! ### Floats to integers -/

theorem truncZ_nonneg {q : ℚ} (h : 0 ≤ q) : 0 ≤ truncZ q ∧ (truncZ q : ℚ) ≤ q ∧ q < truncZ q + 1 := by
  unfold truncZ
  rw [if_pos h]
  exact ⟨Int.floor_nonneg.mpr h, Int.floor_le q, Int.lt_floor_add_one q⟩

theorem truncZ_neg {q : ℚ} (h : q < 0) : truncZ q ≤ 0 ∧ q ≤ truncZ q ∧ (truncZ q : ℚ) - 1 < q := by
  unfold truncZ
  rw [if_neg (not_le.mpr h)]
  refine ⟨Int.ceil_le.mpr (by simpa using h.le), Int.le_ceil q, ?_⟩
  have := Int.ceil_lt_add_one q
  linarith

theorem truncZ_unique {q : ℚ} {z : ℤ} (h0 : 0 ≤ q * z) (h1 : |(z : ℚ)| ≤ |q|) (h2 : |q| < |(z : ℚ)| + 1) :
    z = truncZ q := by
  rcases le_or_gt 0 q with h | h
  · have hz : (0 : ℚ) ≤ z := by
      by_contra hz
      have hz := not_le.mp hz
      rcases h.eq_or_lt with h' | h'
      · rw [← h', abs_zero] at h1
        have := abs_pos.mpr hz.ne
        linarith
      · have := mul_neg_of_pos_of_neg h' hz
        linarith
    rw [abs_of_nonneg h, abs_of_nonneg hz] at *
    unfold truncZ
    rw [if_pos h]
    exact (Int.floor_eq_iff.mpr ⟨h1, h2⟩).symm
  · have hz : (z : ℚ) ≤ 0 := by
      by_contra hz
      have := mul_neg_of_neg_of_pos h (not_le.mp hz)
      linarith
    rw [abs_of_neg h, abs_of_nonpos hz] at *
    unfold truncZ
    rw [if_neg (not_le.mpr h)]
    exact (Int.ceil_eq_iff.mpr ⟨by linarith, by linarith⟩).symm

theorem truncZ_exists (q : ℚ) :
    0 ≤ q * truncZ q ∧ |(truncZ q : ℚ)| ≤ |q| ∧ |q| < |(truncZ q : ℚ)| + 1 := by
  rcases le_or_gt 0 q with h | h
  · obtain ⟨a, b, c⟩ := truncZ_nonneg h
    have a' : (0 : ℚ) ≤ truncZ q := by exact_mod_cast a
    rw [abs_of_nonneg h, abs_of_nonneg a']
    exact ⟨mul_nonneg h a', b, c⟩
  · obtain ⟨a, b, c⟩ := truncZ_neg h
    have a' : (truncZ q : ℚ) ≤ 0 := by exact_mod_cast a
    rw [abs_of_neg h, abs_of_nonpos a']
    exact ⟨mul_nonneg_of_nonpos_of_nonpos h.le a', by linarith, by linarith⟩

theorem castFI_iff (t : ITy) (f : Fl) (v : BitVec t.w) : castFI t f = some v ↔ CCast t f v := by
  constructor
  · intro h
    unfold castFI at h
    split at h
    · rename_i q
      split at h
      · rename_i hr
        obtain rfl := Option.some.inj h
        refine ⟨q, rfl, ?_⟩
        rw [ITy.val_cast t _ hr.1 hr.2]
        exact truncZ_exists q
      · simp at h
    · simp at h
  · rintro ⟨q, rfl, h0, h1, h2⟩
    have e := truncZ_unique h0 h1 h2
    unfold castFI
    dsimp only
    rw [if_pos (by rw [← e]; exact ⟨ITy.val_lb t v, ITy.val_ub t v⟩), ← e, ITy.cast_val]

theorem emulate_iff (f : α → Option β) (a : Vec n α) (r : Vec n β) :
    emulate f a = some r ↔ ∀ k, f (a k) = some (r k) := body_eq_some

/-- C68, `cvt` of floats to integers where there is no instruction (u32, i64, u64 below the AVX-512 that has
one): defined exactly if the conversion of C is for every lane, and then that. -/
theorem cvtFI_emulated (x : Ext) (d : ITy) (h : usesInstr x d = false) (a : Vec n Fl) (r : Reg n d.w) :
    cvtFI x d a = some r ↔ ∀ k, CCast d (a k) (r k) := by
  unfold cvtFI
  rw [if_neg (by simp [h]), emulate_iff]
  exact forall_congr' fun k => castFI_iff d _ _

example : CCast .u32 (.fin (7 / 2)) 3#32 := ⟨7 / 2, rfl, by
  have : ITy.u32.val 3#32 = 3 := by decide
  rw [this]; norm_num, by
  have : ITy.u32.val 3#32 = 3 := by decide
  rw [this]; norm_num [abs_of_pos], by
  have : ITy.u32.val 3#32 = 3 := by decide
  rw [this]; norm_num [abs_of_pos]⟩

theorem rne_eq_trunc_iff (q : ℚ) : rne q = truncZ q ↔ SameRounded q (truncZ q) := by
  have f1 := Int.floor_le q
  have f2 := Int.lt_floor_add_one q
  unfold SameRounded
  rcases le_or_gt 0 q with h | h
  · have e : truncZ q = ⌊q⌋ := by unfold truncZ; rw [if_pos h]
    rw [e, abs_of_nonneg (by linarith)]
    unfold rne
    split_ifs with h1 h2 h3
    · exact ⟨fun _ => .inl h1, fun _ => rfl⟩
    · refine ⟨fun h => by omega, fun h => ?_⟩
      rcases h with h | h
      · exact absurd h h1
      · linarith [h.1]
    · exact ⟨fun _ => .inr ⟨le_antisymm (not_lt.mp h2) (not_lt.mp h1), h3⟩, fun _ => rfl⟩
    · refine ⟨fun h => by omega, fun h => ?_⟩
      rcases h with h | h
      · exact absurd h h1
      · exact absurd h.2 h3
  · have e : truncZ q = ⌈q⌉ := by unfold truncZ; rw [if_neg (not_le.mpr h)]
    rw [e]
    by_cases hi : q = ⌊q⌋
    · have hc : ⌈q⌉ = ⌊q⌋ := by rw [hi]; simp
      rw [hc]
      have hz : q - ⌊q⌋ = 0 := by linarith
      unfold rne
      rw [hz]
      simp
    · have hlt : (⌊q⌋ : ℚ) < q := lt_of_le_of_ne f1 (Ne.symm hi)
      have hc : ⌈q⌉ = ⌊q⌋ + 1 := Int.ceil_eq_iff.mpr ⟨by push_cast; linarith, by push_cast; linarith⟩
      rw [hc]
      push_cast
      rw [abs_of_nonpos (by linarith)]
      unfold rne
      split_ifs with h1 h2 h3
      · refine ⟨fun h => by omega, fun h => ?_⟩
        rcases h with h | h
        · linarith
        · linarith [h.1]
      · exact ⟨fun _ => .inl (by linarith), fun _ => rfl⟩
      · refine ⟨fun h => by omega, fun h => ?_⟩
        rcases h with h | h
        · linarith
        · have := h.2; omega
      · exact ⟨fun _ => .inr ⟨by linarith, by omega⟩, fun _ => rfl⟩

theorem rne_range {q : ℚ} {a b : ℤ} (h1 : (a : ℚ) ≤ q) (h2 : q ≤ b) : a ≤ rne q ∧ rne q ≤ b := by
  have fa : a ≤ ⌊q⌋ := Int.le_floor.mpr h1
  have fb : ⌊q⌋ ≤ b := Int.floor_le_iff.mpr (by linarith)
  have up : q - ⌊q⌋ ≠ 0 → ⌊q⌋ + 1 ≤ b := by
    intro hne
    rcases fb.eq_or_lt with h | h
    · have f1 := Int.floor_le q
      rw [h] at hne f1
      exact absurd (by linarith) hne
    · omega
  unfold rne
  split_ifs with c1 c2 c3
  · exact ⟨fa, fb⟩
  · have := up (by linarith); omega
  · exact ⟨fa, fb⟩
  · have := up (by linarith); omega

/-- C68, `cvt` of floats to integers where there is an instruction (i32 on all extensions): for values
between the limits of the type the result is that of C exactly if rounding to nearest and truncation agree.
Missing: the other values, see `cvtFI_counterexample`. -/
theorem cvtFI_instr_partial (x : Ext) (d : ITy) (h : usesInstr x d) (a : Vec n Fl) :
    ∃ r, cvtFI x d a = some r ∧ ∀ k q v, a k = .fin q → (d.minv : ℚ) ≤ q → q ≤ d.maxv →
      CCast d (a k) v → (r k = v ↔ SameRounded q (d.val v)) := by
  unfold cvtFI
  rw [if_pos h]
  refine ⟨_, rfl, fun k q v hq h1 h2 hc => ?_⟩
  obtain ⟨q', hq', c0, c1, c2⟩ := hc
  obtain rfl : q = q' := by rw [hq] at hq'; exact Fl.fin.inj hq'
  have e := truncZ_unique c0 c1 c2
  have hr := rne_range h1 h2
  rw [hq, e, ← rne_eq_trunc_iff, ← e]
  unfold cvtI
  dsimp only
  rw [if_pos hr]
  constructor
  · rintro rfl
    exact (ITy.val_cast d _ hr.1 hr.2).symm
  · intro h
    rw [h, ITy.cast_val]

/-- Integral values, however large within i32, and values such as 5/4 are converted as in C. -/
example (z : ℤ) : SameRounded z z ∧ SameRounded (5 / 4) 1 ∧ SameRounded (5 / 2) 2 ∧ SameRounded (-1 / 2) 0 := by
  refine ⟨.inl (by simp), .inl ?_, .inr ⟨?_, by decide⟩, .inr ⟨?_, by decide⟩⟩ <;> norm_num [abs_of_nonneg, abs_of_neg]

/-- C68, the finding: on every x86 extension `cvt` of the f32 3/2 to i32 is 2, and that of -7/4 is -2, where
C (and `scalar`, `cpu`) give 1 and -1. -/
theorem cvtFI_counterexample (x : Ext) :
    (∃ r, cvtFI x .i32 (n := n) (fun _ => .fin (3 / 2)) = some r ∧ ∀ k, r k = 2#32) ∧
    CCast .i32 (.fin (3 / 2)) 1#32 ∧
    (∃ r, cvtFI x .i32 (n := n) (fun _ => .fin (-7 / 4)) = some r ∧ ∀ k, r k = -2#32) ∧
    CCast .i32 (.fin (-7 / 4)) (-1#32) := by
  have e1 : cvtI .i32 (.fin (3 / 2)) = 2#32 := by
    have hf : ⌊(3 / 2 : ℚ)⌋ = 1 := by norm_num [Int.floor_eq_iff]
    have : rne (3 / 2) = 2 := by unfold rne; rw [hf]; norm_num
    unfold cvtI
    dsimp only
    rw [this]
    decide
  have e2 : cvtI .i32 (.fin (-7 / 4)) = -2#32 := by
    have hf : ⌊(-7 / 4 : ℚ)⌋ = -2 := by norm_num [Int.floor_eq_iff]
    have : rne (-7 / 4) = -2 := by unfold rne; rw [hf]; norm_num
    unfold cvtI
    dsimp only
    rw [this]
    decide
  have v1 : ITy.i32.val 1#32 = 1 := by decide
  have v2 : ITy.i32.val (-1#32) = -1 := by decide
  refine ⟨⟨_, if_pos (by cases x <;> rfl), fun k => e1⟩, ⟨_, rfl, ?_⟩,
    ⟨_, if_pos (by cases x <;> rfl), fun k => e2⟩, ⟨_, rfl, ?_⟩⟩
  · rw [v1]; norm_num [abs_of_nonneg]
  · rw [v2]; norm_num [abs_of_nonneg, abs_of_neg]

/-- C68, `cvt` of f16 to i16, u16: the conversion of C of all lanes of the two halves in order, defined
exactly if that is. -/
theorem cvtF16I16_spec (d : ITy) (a : Vec n Fl × Vec n Fl) (r : Reg (n + n) d.w) :
    cvtF16I16 d a = some r ↔
      ∀ k : Fin n, CCast d (a.1 k) (r ⟨k, by omega⟩) ∧ CCast d (a.2 k) (r ⟨n + k, by omega⟩) := by
  constructor
  · intro h
    unfold cvtF16I16 at h
    simp only [Option.bind_eq_bind, Option.bind_eq_some_iff, Option.pure_def, Option.some.injEq] at h
    obtain ⟨o0, h0, o1, h1, rfl⟩ := h
    intro k
    have := setr_spec o0 o1 k
    rw [this.1, this.2, ← castFI_iff, ← castFI_iff]
    exact ⟨(emulate_iff _ _ _).mp h0 k, (emulate_iff _ _ _).mp h1 k⟩
  · intro h
    unfold cvtF16I16
    have h0 : emulate (castFI d) a.1 = some (lo r) := (emulate_iff _ _ _).mpr fun k => (castFI_iff ..).mpr (h k).1
    have h1 : emulate (castFI d) a.2 = some (hi r) := (emulate_iff _ _ _).mpr fun k => (castFI_iff ..).mpr (h k).2
    rw [h0, h1]
    refine congrArg some (funext fun k => ?_)
    unfold setr lo hi
    split
    · rfl
    · congr 1; exact Fin.ext (by simp only; omega)

/-- C68, `downcvt` of floats to integers: the conversion of C of all lanes of the two registers in order,
defined exactly if that is. -/
theorem downcvtFI_spec (d : ITy) (a b : Vec n Fl) (r : Reg (n + n) d.w) :
    downcvtFI d a b = some r ↔
      ∀ k : Fin n, CCast d (a k) (r ⟨k, by omega⟩) ∧ CCast d (b k) (r ⟨n + k, by omega⟩) := by
  unfold downcvtFI downcvtEmul
  rw [emulate_iff]
  constructor
  · intro h k
    have s := setr_spec a b k
    have h0 := h ⟨k, by omega⟩
    have h1 := h ⟨n + k, by omega⟩
    rw [s.1, castFI_iff] at h0
    rw [s.2, castFI_iff] at h1
    exact ⟨h0, h1⟩
  · intro h k
    rw [castFI_iff]
    unfold setr
    split
    · rename_i hk
      exact (h ⟨k, hk⟩).1
    · rename_i hk
      have := (h ⟨k - n, by omega⟩).2
      have e : (⟨n + (k.val - n), by omega⟩ : Fin (n + n)) = k := Fin.ext (by simp only; omega)
      rw [e] at this
      exact this

/-- C68, `downcvt` of f16 to i8, u8: the conversion of C of the lanes of the four halves in order, defined
exactly if that is. -/
theorem downcvtF16I8_spec (d : ITy) (a b : Vec n Fl × Vec n Fl) (r : Reg (n + n + (n + n)) d.w) :
    downcvtF16I8 d a b = some r ↔ ∀ k : Fin n,
      (CCast d (a.1 k) (r ⟨k, by omega⟩) ∧ CCast d (a.2 k) (r ⟨n + k, by omega⟩)) ∧
      CCast d (b.1 k) (r ⟨n + n + k, by omega⟩) ∧ CCast d (b.2 k) (r ⟨n + n + (n + k), by omega⟩) := by
  have e : downcvtF16I8 d a b = downcvtFI d (setr a.1 a.2) (setr b.1 b.2) := rfl
  rw [e, downcvtFI_spec]
  constructor
  · intro h k
    have sa := setr_spec a.1 a.2 k
    have sb := setr_spec b.1 b.2 k
    have h0 := h ⟨k, by omega⟩
    have h1 := h ⟨n + k, by omega⟩
    rw [sa.1, sb.1] at h0
    rw [sa.2, sb.2] at h1
    exact ⟨⟨h0.1, h1.1⟩, h0.2, h1.2⟩
  · intro h k
    by_cases hk : k.val < n
    · have := h ⟨k, hk⟩
      have sa := (setr_spec a.1 a.2 ⟨k, hk⟩).1
      have sb := (setr_spec b.1 b.2 ⟨k, hk⟩).1
      dsimp only at sa sb
      rw [show k = ⟨k.val, by omega⟩ from rfl, sa, sb]
      exact ⟨this.1.1, this.2.1⟩
    · have := h ⟨k - n, by omega⟩
      have sa := (setr_spec a.1 a.2 ⟨k - n, by omega⟩).2
      have sb := (setr_spec b.1 b.2 ⟨k - n, by omega⟩).2
      dsimp only at sa sb this
      have e : n + (k.val - n) = k.val := by omega
      simp only [e] at sa sb this
      rw [show k = ⟨k.val, by omega⟩ from rfl, sa, sb]
      exact ⟨this.1.2, this.2.2⟩

/-- Truncated, in range: 255.9 fits u8, -0.5 becomes 0. -/
example : CCast .u8 (.fin (2559 / 10)) 255#8 ∧ CCast .u8 (.fin (-1 / 2)) 0#8 := by
  have v1 : ITy.u8.val 255#8 = 255 := by decide
  have v2 : ITy.u8.val 0#8 = 0 := by decide
  refine ⟨⟨_, rfl, ?_⟩, ⟨_, rfl, ?_⟩⟩
  · rw [v1]; norm_num [abs_of_nonneg]
  · rw [v2]; norm_num [abs_of_neg]

/-- C68, `upcvt` of f16 to i32, u32 is `cvt` of f32 to that type on both halves. -/
theorem upcvtF16I32_spec (x : Ext) (d : ITy) (a : Vec n Fl × Vec n Fl) (r : Reg n d.w × Reg n d.w) :
    upcvtF16I32 x d a = some r ↔ cvtFI x d a.1 = some r.1 ∧ cvtFI x d a.2 = some r.2 := by
  unfold upcvtF16I32
  simp only [Option.bind_eq_bind, Option.bind_eq_some_iff, Option.pure_def, Option.some.injEq]
  constructor
  · rintro ⟨o0, h0, o1, h1, rfl⟩
    exact ⟨h0, h1⟩
  · rintro ⟨h0, h1⟩
    exact ⟨r.1, h0, r.2, h1, rfl⟩

/-- C68, `upcvt` of f32 to i64, u64 goes through the 32-bit type: right for values between the limits of the
32-bit type, where that conversion is. Missing: all others, see `upcvtFI_counterexample`. -/
theorem upcvtFI_spec_partial (x : Ext) (m d : ITy) (h : m.w + m.w = d.w)
    (a : Vec (n + n + (n + n)) Fl) (z : Fin (n + n + (n + n)) → ℤ)
    (ha : ∀ k, ∃ q, a k = .fin q ∧ (m.minv : ℚ) ≤ q ∧ q ≤ m.maxv ∧ CCast m (.fin q) (m.cast (z k)) ∧
      m.minv ≤ z k ∧ z k ≤ m.maxv ∧ (usesInstr x m → SameRounded q (z k))) :
    ∃ r, upcvtFI x m d h a = some r ∧ ∀ k : Fin (n + n),
      r.1 k = d.cast (z ⟨k, by omega⟩) ∧ r.2 k = d.cast (z ⟨n + n + k, by omega⟩) := by
  have hcvt : cvtFI x m a = some fun k => m.cast (z k) := by
    cases hu : usesInstr x m
    · rw [cvtFI_emulated x m hu]
      intro k
      obtain ⟨q, e, -, -, hc, -⟩ := ha k
      rw [e]; exact hc
    · obtain ⟨r, hr, hl⟩ := cvtFI_instr_partial x m hu a
      rw [hr]
      refine congrArg some (funext fun k => ?_)
      obtain ⟨q, e, h1, h2, hc, hz1, hz2, hs⟩ := ha k
      refine (hl k q _ e h1 h2 (by rw [e]; exact hc)).mpr ?_
      rw [ITy.val_cast m _ hz1 hz2]
      exact hs hu
  unfold upcvtFI
  rw [hcvt]
  refine ⟨_, rfl, fun k => ?_⟩
  obtain ⟨u1, u2⟩ := upcvtII_spec x m d h (fun k => m.cast (z k)) k
  rw [u1, u2]
  obtain ⟨_, -, -, -, -, p1, p2, -⟩ := ha ⟨k, by omega⟩
  obtain ⟨_, -, -, -, -, p3, p4, -⟩ := ha ⟨n + n + k, by omega⟩
  dsimp only
  rw [ITy.val_cast m _ p1 p2, ITy.val_cast m _ p3 p4]
  exact ⟨rfl, rfl⟩

/-- All lanes -5: meets the hypothesis for i64 on every extension. -/
example (x : Ext) : ∃ q : ℚ, (Fl.fin (-5)) = .fin q ∧ (ITy.i32.minv : ℚ) ≤ q ∧ q ≤ ITy.i32.maxv ∧
    CCast .i32 (.fin q) (ITy.i32.cast (-5)) ∧ ITy.i32.minv ≤ -5 ∧ -5 ≤ ITy.i32.maxv ∧
    (usesInstr x .i32 → SameRounded q (-5)) := by
  have v : ITy.i32.val (ITy.i32.cast (-5)) = -5 := by decide
  have m1 : ITy.i32.minv = -2147483648 := by decide
  have m2 : ITy.i32.maxv = 2147483647 := by decide
  refine ⟨-5, rfl, by rw [m1]; norm_num, by rw [m2]; norm_num, ⟨_, rfl, ?_⟩, by decide, by decide,
    fun _ => .inl (by norm_num)⟩
  rw [v]; norm_num [abs_of_neg]

/-- C68, the finding: on every x86 extension `upcvt` of f32 to i64 gives -2^31 for every value from 2^31 on,
although all of them below 2^63 are values of i64. -/
theorem upcvtFI_counterexample (x : Ext) (q : ℚ) (hq : 2 ^ 31 ≤ q) :
    ∃ r, upcvtFI x .i32 .i64 rfl (n := n) (fun _ => .fin q) = some r ∧
      ∀ k, r.1 k = BitVec.ofInt 64 (-2 ^ 31) ∧ r.2 k = BitVec.ofInt 64 (-2 ^ 31) := by
  have hr := rne_range (a := 2 ^ 31) (b := ⌈q⌉) (by push_cast; exact hq) (Int.le_ceil q)
  have e : cvtI .i32 (.fin q) = ITy.i32.cast ITy.i32.minv := by
    unfold cvtI
    dsimp only
    rw [if_neg, if_pos (by rfl)]
    have m2 : ITy.i32.maxv = 2147483647 := by decide
    rw [m2]
    omega
  have hc : cvtFI x .i32 (n := n + n + (n + n)) (fun _ => .fin q) = some fun _ => ITy.i32.cast ITy.i32.minv := by
    unfold cvtFI
    rw [if_pos (by cases x <;> rfl)]
    exact congrArg some (funext fun _ => e)
  unfold upcvtFI
  rw [hc]
  refine ⟨_, rfl, fun k => ?_⟩
  obtain ⟨u1, u2⟩ := upcvtII_spec x .i32 .i64 rfl (fun _ : Fin (n + n + (n + n)) => ITy.i32.cast ITy.i32.minv) k
  rw [u1, u2]
  beta_reduce
  decide

/-- 2^40 is such a value, and the conversion of C is defined for it. -/
example : CCast .i64 (.fin (2 ^ 40)) (BitVec.ofInt 64 (2 ^ 40)) ∧ (2 : ℚ) ^ 31 ≤ 2 ^ 40 := by
  have v : ITy.i64.val (BitVec.ofInt 64 (2 ^ 40)) = 2 ^ 40 := by decide
  refine ⟨⟨_, rfl, ?_⟩, by norm_num⟩
  rw [v]; norm_num [abs_of_nonneg]

/-- C68, the same for u64: from 2^32 on the conversion is undefined below AVX-512, and 2^32 - 1 there. -/
theorem upcvtFU_counterexample (x : Ext) (q : ℚ) (hq : 2 ^ 32 ≤ q) :
    if x = .knl ∨ x = .skylake then
      ∃ r, upcvtFI x .u32 .u64 rfl (n := n) (fun _ => .fin q) = some r ∧
        ∀ k, r.1 k = BitVec.ofNat 64 (2 ^ 32 - 1) ∧ r.2 k = BitVec.ofNat 64 (2 ^ 32 - 1)
    else 0 < n → upcvtFI x .u32 .u64 rfl (n := n) (fun _ => .fin q) = none := by
  have m2 : ITy.u32.maxv = 4294967295 := by decide
  have hu : usesInstr x .u32 = decide (x = .knl ∨ x = .skylake) := by cases x <;> rfl
  split
  · rename_i hx
    have hr := rne_range (a := 2 ^ 32) (b := ⌈q⌉) (by push_cast; exact hq) (Int.le_ceil q)
    have e : cvtI .u32 (.fin q) = ITy.u32.cast ITy.u32.maxv := by
      unfold cvtI
      dsimp only
      rw [if_neg, if_neg (by decide)]
      rw [m2]
      omega
    have hc : cvtFI x .u32 (n := n + n + (n + n)) (fun _ => .fin q) =
        some fun _ => ITy.u32.cast ITy.u32.maxv := by
      unfold cvtFI
      rw [if_pos (by rw [hu]; exact decide_eq_true hx)]
      exact congrArg some (funext fun _ => e)
    unfold upcvtFI
    rw [hc]
    refine ⟨_, rfl, fun k => ?_⟩
    obtain ⟨u1, u2⟩ := upcvtII_spec x .u32 .u64 rfl (fun _ : Fin (n + n + (n + n)) => ITy.u32.cast ITy.u32.maxv) k
    rw [u1, u2]
    beta_reduce
    decide
  · rename_i hx
    intro hn
    have hc : cvtFI x .u32 (n := n + n + (n + n)) (fun _ => .fin q) = none := by
      rw [Option.eq_none_iff_forall_ne_some]
      intro r hr
      rw [cvtFI_emulated x .u32 (by rw [hu]; exact decide_eq_false hx)] at hr
      have := (castFI_iff _ _ _).mpr (hr ⟨0, by omega⟩)
      unfold castFI at this
      dsimp only at this
      have ht : (2 : ℤ) ^ 32 ≤ truncZ q := by
        unfold truncZ
        rw [if_pos (by linarith)]
        exact Int.le_floor.mpr (by push_cast; exact hq)
      rw [if_neg (by rw [m2]; omega)] at this
      simp at this
    unfold upcvtFI
    rw [hc]
    rfl

/-! ### Floats to floats -/

/-- C68, `upcvt` of f32 to f64: the lanes in order. -/
theorem upcvtF32F64_spec (x : Ext) (a : Vec 4 Fl) (b : Vec (2 + 2 + (2 + 2)) Fl) :
    UpTo (n := 2) id a (upcvtF32F64Sse a) ∧ UpTo id b (upcvtF32F64 x b) := by
  have hs : ∀ a : Vec 4 Fl, UpTo (n := 2) id a (upcvtF32F64Sse a) := by
    intro a k
    match k with
    | 0 => exact ⟨rfl, rfl⟩
    | 1 => exact ⟨rfl, rfl⟩
  refine ⟨hs a, ?_⟩
  cases x
  case avx => exact splitTrick_spec (n := 2) id upcvtF32F64Sse hs b
  all_goals exact fun k => ⟨rfl, rfl⟩

/-- C68, `downcvt` of f64 to f32: the lanes of both registers in order, each rounded. -/
theorem downcvtF64F32_spec (narrow : Fl → Fl) (a b : Vec 2 Fl) (c d : Vec n Fl) :
    DownTo narrow a b (downcvtF64F32Sse narrow a b) ∧ DownTo narrow c d (downcvtF64F32 narrow c d) := by
  refine ⟨fun k => ?_, downTo_setr narrow c d⟩
  match k with
  | 0 => exact ⟨rfl, rfl⟩
  | 1 => exact ⟨rfl, rfl⟩

/-- C68, `upcvt` of f16 to f32 and `downcvt` back: the lanes in order. The lanes of an f16 vector are
held as f32, so `downcvt` does not round; the rounding happens when the vector is stored. -/
theorem f16F32_spec (a b : Vec n Fl) (k : Fin n) :
    (upcvtF16F32 (a, b)).1 k = a k ∧ (upcvtF16F32 (a, b)).2 k = b k ∧
    (downcvtF32F16 a b).1 k = a k ∧ (downcvtF32F16 a b).2 k = b k := ⟨rfl, rfl, rfl, rfl⟩

/-- C68: where `cvt` between floats and integers uses an instruction, which rounds to nearest: i32
everywhere, u32 on AVX-512, i64 and u64 on AVX-512 Skylake. -/
theorem usesInstr_iff (x : Ext) (t : ITy) :
    usesInstr x t = true ↔ t = .i32 ∨ (t = .u32 ∧ (x = .knl ∨ x = .skylake)) ∨
      ((t = .i64 ∨ t = .u64) ∧ x = .skylake) := by
  cases x <;> cases t <;> decide

end Nsimd.Props.X86Cvt
