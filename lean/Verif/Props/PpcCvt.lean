import Verif.Model.PpcCvt
import Verif.Props.ArmCvt
import Verif.Props.Ppc

/-!
# C85: conversions between integers and floats on POWER
-/

namespace Nsimd.Props.PpcCvt

open Nsimd Nsimd.Cpu Nsimd.Round Nsimd.PpcCvt
open Nsimd.X86 (Reg)
open Nsimd.Ppc (Ext fromLanes)
open Nsimd.X86Cvt (castFI emulate lo hi setr)
open Nsimd.Props.X86Cvt (UpTo DownTo CCast castFI_iff emulate_iff)
open Nsimd.Props.ArmCvt (UpRel DownRel SatCast Ieee exists_ieee fcvtz_spec satCast_eq fcvtz_eq ieee_exact
  ccast_wide setr_lohi round_twice_f16)
open Nsimd.Props.Ppc (fromLanes_eq_some)
open Nsimd.Props.Fp16 (NaN16 e16 m16 f16_roundtrip)

variable {n : Nat} {α β : Type}

/-! ### Integers to wider integers -/

theorem widen_val (s m : ITy) (hw : s.w < m.w) (hs : s.sgn = true → m.sgn = true) (x : BitVec s.w) :
    m.val (if s.sgn then x.signExtend m.w else x.signExtend m.w &&& BitVec.ofNat m.w (2 ^ s.w - 1)) =
      s.val x := by
  have e : (if s.sgn then x.signExtend m.w else x.signExtend m.w &&& BitVec.ofNat m.w (2 ^ s.w - 1)) =
      m.cast (s.val x) := by
    have := Props.Ppc.upcvt_spec (n := 1) s m (fun _ => x) 0
    rw [dif_pos (show (0 : Fin (1 * 2)).val < 1 by decide)] at this
    rw [← this]
    unfold Ppc.upcvt Ppc.upcvtS Ppc.upcvtU Ppc.vecUnpack
    split <;> rfl
  rw [e]
  have h1 := ITy.val_lb s x
  have h2 := ITy.val_ub s x
  apply ITy.val_cast <;>
  · cases s <;> cases m <;> simp only [ITy.w, ITy.sgn, ITy.minv, ITy.maxv] at * <;>
      first | omega | simp at hs

theorem upcvtII_val (s m : ITy) (hw : s.w < m.w) (hs : s.sgn = true → m.sgn = true) (a : Reg (n + n) s.w)
    (k : Fin n) : m.val ((upcvtII s m a).1 k) = s.val (a ⟨k, by omega⟩) ∧
      m.val ((upcvtII s m a).2 k) = s.val (a ⟨n + k, by omega⟩) := by
  rw [← widen_val s m hw hs, ← widen_val s m hw hs]
  unfold upcvtII
  split <;> exact ⟨rfl, rfl⟩

/-! ### Integers to floats -/

/-- C85, integers to floats of the same size: exact up to the precision of the float. -/
theorem cvtIF_exact {p : Nat} {emin emax : ℤ} {r : ℚ → Fl} (hr : Ieee p emin emax r) (hp : 1 ≤ p)
    (he : emin ≤ 0) (hx : (p : ℤ) < emax) (s : ITy) (a : Reg n s.w) (k : Fin n) (h : |s.val (a k)| ≤ 2 ^ p) :
    PpcCvt.cvtIF r s a k = .fin (s.val (a k)) :=
  ieee_exact hr hp he hx _ h

example : |ITy.i32.val 0x00ffffff#32| ≤ 2 ^ 24 := by decide

theorem abs16 (s : ITy) (hs : s.w ≤ 16) (v : BitVec s.w) : |s.val v| ≤ 2 ^ 24 := by
  have h1 := ITy.val_lb s v
  have h2 := ITy.val_ub s v
  rw [abs_le]
  cases s <;> simp only [ITy.w, ITy.minv, ITy.maxv, ITy.sgn] at * <;> constructor <;> omega

theorem exact16 {r32 : ℚ → Fl} (hr : Ieee 24 (-149) 128 r32) (s : ITy) (hs : s.w ≤ 16) (v : BitVec s.w) :
    r32 (s.val v) = .fin (s.val v) :=
  ieee_exact hr (by norm_num) (by norm_num) (by norm_num) _ (abs16 s hs v)

/-- C85, `cvt` of i16 to f16: all lanes in order, exactly. -/
theorem cvtI16F16_spec {r32 : ℚ → Fl} (hr : Ieee 24 (-149) 128 r32) (a : Reg (n + n) 16) :
    UpTo (fun v => Fl.fin (ITy.i16.val v)) a (cvtI16F16 r32 a) := by
  intro k
  have h := upcvtII_val .i16 .i32 (by decide) (by decide) a k
  unfold cvtI16F16
  dsimp only
  exact ⟨(congrArg (fun z : ℤ => r32 z) h.1).trans (exact16 hr .i16 (by decide) _),
    (congrArg (fun z : ℤ => r32 z) h.2).trans (exact16 hr .i16 (by decide) _)⟩

/-- C85, `cvt` of u16 to f16: all lanes in order, exactly; the sign extension of the unpacking is undone. -/
theorem cvtU16F16_spec {r32 : ℚ → Fl} (hr : Ieee 24 (-149) 128 r32) (a : Reg (n + n) 16) :
    UpTo (fun v => Fl.fin (ITy.u16.val v)) a (cvtU16F16 r32 a) := by
  intro k
  have h := upcvtII_val .u16 .i32 (by decide) (by decide) a k
  unfold cvtU16F16
  dsimp only
  exact ⟨(congrArg (fun z : ℤ => r32 z) h.1).trans (exact16 hr .u16 (by decide) _),
    (congrArg (fun z : ℤ => r32 z) h.2).trans (exact16 hr .u16 (by decide) _)⟩

/-- C85, `upcvt` of i8, u8 to f16: the four quarters in order, exactly. -/
theorem upcvt8F16_spec {r32 : ℚ → Fl} (hr : Ieee 24 (-149) 128 r32) (s : ITy) (hs : s.w = 8)
    (a : Reg (n + n + (n + n)) s.w) :
    UpTo (fun v => Fl.fin (s.val v)) (lo a) (upcvt8F16 r32 s a).1 ∧
    UpTo (fun v => Fl.fin (s.val v)) (hi a) (upcvt8F16 r32 s a).2 := by
  have h := upcvtII_val s .i16 (by rw [hs]; decide) (fun _ => rfl) a
  have h0 := cvtI16F16_spec hr (upcvtII s .i16 a).1
  have h1 := cvtI16F16_spec hr (upcvtII s .i16 a).2
  refine ⟨fun k => ?_, fun k => ?_⟩
  · have := h0 k
    dsimp only at this
    rw [(h ⟨k, by omega⟩).1, (h ⟨n + k, by omega⟩).1] at this
    exact this
  · have := h1 k
    dsimp only at this
    rw [(h ⟨k, by omega⟩).2, (h ⟨n + k, by omega⟩).2] at this
    exact this

/-- C85, `upcvt` of i16, u16 to f32: all lanes in order, exactly. -/
theorem upcvt16F32_spec {r32 : ℚ → Fl} (hr : Ieee 24 (-149) 128 r32) (s m : ITy) (hs : s.w = 16)
    (hm : m.w = 32) (hg : m.sgn = s.sgn) (a : Reg (n + n) s.w) :
    UpTo (fun v => Fl.fin (s.val v)) a (upcvt16F32 r32 s m a) := by
  intro k
  have h := upcvtII_val s m (by omega) (fun e => by rw [hg, e]) a k
  exact ⟨(congrArg (fun z : ℤ => r32 z) h.1).trans (exact16 hr s (by omega) _),
    (congrArg (fun z : ℤ => r32 z) h.2).trans (exact16 hr s (by omega) _)⟩

example : ∃ r32, Ieee 24 (-149) 128 r32 ∧ ITy.u16.w = 16 ∧ ITy.u32.w = 32 ∧ ITy.u32.sgn = ITy.u16.sgn := by
  obtain ⟨r32, h⟩ := exists_ieee 24 (by norm_num) (-149) 128
  exact ⟨r32, h, rfl, rfl, rfl⟩

/-! ### Lane by lane -/

/-- C85, conversion lane by lane to the larger size: defined exactly if every lane is, and then in order. -/
theorem upcvtCast_iff (f : α → Option β) (a : Vec (2 + 2) α) (r : Vec 2 β × Vec 2 β) :
    upcvtCast f a = some r ↔ UpRel (fun x y => f x = some y) a r := by
  unfold upcvtCast
  constructor
  · intro h
    obtain ⟨v0, h0, h⟩ := Option.bind_eq_some_iff.mp h
    obtain ⟨v1, h1, h⟩ := Option.bind_eq_some_iff.mp h
    injection h with h
    subst h
    exact fun k => ⟨(fromLanes_eq_some ..).mp h0 k, (fromLanes_eq_some ..).mp h1 k⟩
  · intro h
    rw [(fromLanes_eq_some _ r.1).mpr fun k => (h k).1, (fromLanes_eq_some _ r.2).mpr fun k => (h k).2]
    rfl

/-- C85, conversion lane by lane to the smaller size. -/
theorem downcvtCast_iff (f : α → Option β) (a b : Vec 2 α) (r : Vec (2 + 2) β) :
    downcvtCast f a b = some r ↔ DownRel (fun x y => f x = some y) a b r := by
  unfold downcvtCast
  rw [fromLanes_eq_some]
  constructor
  · intro h k
    have h0 := h ⟨k, by omega⟩
    have h1 := h ⟨2 + k, by omega⟩
    rw [dif_pos k.isLt] at h0
    rw [dif_neg (show ¬ 2 + k.val < 2 by omega)] at h1
    refine ⟨h0, Eq.trans (congrArg (fun x => f (b x)) (Fin.ext ?_)) h1⟩
    simp only; omega
  · intro h k
    by_cases hk : k.val < 2
    · rw [dif_pos hk]
      exact (h ⟨k, hk⟩).1
    · rw [dif_neg hk]
      refine (h ⟨k - 2, by omega⟩).2.trans (congrArg (fun x => some (r x)) (Fin.ext ?_))
      simp only; omega

/-- C85, `upcvt` of f32 to i64, u64: the conversion of C of every lane, defined exactly if that is. -/
theorem upcvtF32I_iff (d : ITy) (a : Vec (2 + 2) Fl) (r : Reg 2 d.w × Reg 2 d.w) :
    upcvtF32I d a = some r ↔ UpRel (CCast d) a r := by
  unfold upcvtF32I
  rw [upcvtCast_iff]
  exact forall_congr' fun k => and_congr (castFI_iff ..) (castFI_iff ..)

/-- C85, `upcvt` of f32 to f64: all lanes in order, unchanged. -/
theorem upcvtF32F64_spec (a : Vec (2 + 2) Fl) : ∃ r, upcvtF32F64 a = some r ∧ UpTo id a r :=
  ⟨(fun k => a ⟨k, by omega⟩, fun k => a ⟨2 + k, by omega⟩), (upcvtCast_iff ..).mpr fun _ => ⟨rfl, rfl⟩,
    fun _ => ⟨rfl, rfl⟩⟩

/-- C85, `upcvt` of i32, u32 to f64: all lanes in order, exactly. -/
theorem upcvt32F64_spec {r64 : ℚ → Fl} (hr : Ieee 53 (-1074) 1024 r64) (s m : ITy) (hs : s.w = 32)
    (hm : m.w = 64) (hg : m.sgn = s.sgn) (a : Reg (2 + 2) s.w) :
    ∃ r, upcvt32F64 r64 s m a = some r ∧ UpTo (fun v => Fl.fin (s.val v)) a r := by
  have key : ∀ v : BitVec s.w, r64 (m.val (m.cast (s.val v))) = .fin (s.val v) := by
    intro v
    have h1 := ITy.val_lb s v
    have h2 := ITy.val_ub s v
    have e : m.val (m.cast (s.val v)) = s.val v := by
      apply ITy.val_cast <;>
      · cases s <;> cases m <;> simp only [ITy.w, ITy.sgn, ITy.minv, ITy.maxv] at * <;>
          first | omega | simp at hg
    rw [e]
    refine ieee_exact hr (by norm_num) (by norm_num) (by norm_num) _ ?_
    rw [abs_le]
    cases s <;> simp only [ITy.w, ITy.minv, ITy.maxv, ITy.sgn] at * <;> constructor <;> omega
  have h := (upcvtCast_iff (fun v => some (m.cast (s.val v))) a
    (fun k => m.cast (s.val (a ⟨k, by omega⟩)), fun k => m.cast (s.val (a ⟨2 + k, by omega⟩)))).mpr
      fun _ => ⟨rfl, rfl⟩
  unfold upcvt32F64
  rw [h]
  exact ⟨_, rfl, fun k => ⟨key _, key _⟩⟩

/-- C85, `downcvt` of f64 to i32, u32: the conversion of C of every lane, defined exactly if that is. -/
theorem downcvtF64I_iff (d : ITy) (a b : Vec 2 Fl) (r : Reg (2 + 2) d.w) :
    downcvtF64I d a b = some r ↔ DownRel (CCast d) a b r := by
  unfold downcvtF64I
  rw [downcvtCast_iff]
  exact forall_congr' fun k => and_congr (castFI_iff ..) (castFI_iff ..)

/-- C85, `downcvt` of f64 to f32: all lanes in order, rounded once; infinities and NaN are kept. -/
theorem downcvtF64F32_spec (r32 : ℚ → Fl) (a b : Vec 2 Fl) :
    ∃ r, downcvtF64F32 r32 a b = some r ∧ DownTo (ArmCvt.narrow r32) a b r := by
  refine ⟨setr (fun k => ArmCvt.narrow r32 (a k)) (fun k => ArmCvt.narrow r32 (b k)), ?_,
    Props.X86Cvt.downTo_setr _ a b⟩
  refine (downcvtCast_iff ..).mpr fun k => ?_
  have := Props.X86Cvt.downTo_setr (ArmCvt.narrow r32) a b k
  exact ⟨congrArg some this.1.symm, congrArg some this.2.symm⟩

/-- C85, `downcvt` of i64, u64 to f32: all lanes in order, rounded once. -/
theorem downcvtI64F32_spec (r32 : ℚ → Fl) (s : ITy) (a b : Reg 2 s.w) :
    ∃ r, downcvtI64F32 r32 s a b = some r ∧ DownTo (fun v => r32 (s.val v)) a b r := by
  have hd := Props.X86Cvt.downTo_setr (fun v => r32 (s.val v)) a b
  exact ⟨_, (downcvtCast_iff ..).mpr fun k => ⟨congrArg some (hd k).1.symm, congrArg some (hd k).2.symm⟩, hd⟩

/-! ### Floats to integers by instructions -/

theorem vecCt_eq (t : ITy) (nan : BitVec t.w) (f : Fl) (v : BitVec t.w) (h : CCast t f v) :
    vecCt t nan f = v := by
  obtain ⟨q, rfl, hq⟩ := h
  exact fcvtz_eq t _ v ⟨q, rfl, hq⟩

/-- C85, `cvt` of floats to integers: where the conversion of C is defined for all lanes it is computed. -/
theorem cvtFI_spec (x : Ext) (d : ITy) (nan : BitVec d.w) (a : Vec n Fl) (r : Reg n d.w)
    (h : ∀ k, CCast d (a k) (r k)) : PpcCvt.cvtFI x d nan a = some r := by
  unfold PpcCvt.cvtFI
  split
  · exact (emulate_iff _ _ _).mpr fun k => (castFI_iff ..).mpr (h k)
  · exact congrArg some (funext fun k => vecCt_eq d nan _ _ (h k))

/-- C85, `cvt` of floats to integers elsewhere: undefined for 64 bits on VMX, otherwise saturation except
for NaN. -/
theorem cvtFI_sat (x : Ext) (d : ITy) (nan : BitVec d.w) (a : Vec n Fl) :
    (x = .vmx ∧ d.w = 64 → ∀ r, PpcCvt.cvtFI x d nan a = some r → ∀ k, CCast d (a k) (r k)) ∧
    (¬ (x = .vmx ∧ d.w = 64) → ∃ r, PpcCvt.cvtFI x d nan a = some r ∧
      ∀ k, a k ≠ .nan → SatCast d (a k) (r k)) := by
  unfold PpcCvt.cvtFI
  constructor
  · intro h r e
    rw [if_pos (by unfold Ppc.emulated; exact decide_eq_true h)] at e
    exact fun k => (castFI_iff ..).mp ((emulate_iff _ _ _).mp e k)
  · intro h
    rw [if_neg (by unfold Ppc.emulated; rw [decide_eq_false h]; decide)]
    refine ⟨_, rfl, fun k hk => ?_⟩
    have := fcvtz_spec d (a k)
    generalize a k = f at this hk
    cases f with
    | nan => exact absurd rfl hk
    | inf s => exact this
    | fin q => exact this

example : CCast .u64 (.fin (9 / 2)) (4#64) := by
  have v : ITy.u64.val (4#64) = 4 := by decide
  exact ⟨_, rfl, by rw [v]; norm_num [abs_of_nonneg]⟩

theorem vecPack_eq (m d : ITy) (hw : m.w = 2 * d.w) (hs : m.sgn = d.sgn) (nan : BitVec m.w) (a b : Vec n Fl)
    (r : Reg (n + n) d.w) (h : DownRel (CCast d) a b r) :
    vecPack d.w (fun i => vecCt m nan (a i)) (fun i => vecCt m nan (b i)) = r := by
  refine setr_lohi r _ _ fun k => ?_
  have h0 := ccast_wide m d hw hs _ _ (h k).1
  have h1 := ccast_wide m d hw hs _ _ (h k).2
  dsimp only
  rw [vecCt_eq m nan _ _ h0.1, vecCt_eq m nan _ _ h1.1]
  exact ⟨h0.2, h1.2⟩

/-- C85, `cvt` of f16 to i16, u16: where the conversion of C is defined for all lanes it is computed. -/
theorem cvtF16I_spec (m d : ITy) (hw : m.w = 2 * d.w) (hs : m.sgn = d.sgn) (nan : BitVec m.w)
    (a : Vec n Fl × Vec n Fl) (r : Reg (n + n) d.w) (h : DownRel (CCast d) a.1 a.2 r) :
    PpcCvt.cvtF16I m d nan a = r :=
  vecPack_eq m d hw hs nan _ _ r h

/-- C85, `downcvt` of f32 to i16, u16: the same. -/
theorem downcvtF32I_spec (m d : ITy) (hw : m.w = 2 * d.w) (hs : m.sgn = d.sgn) (nan : BitVec m.w)
    (a b : Vec n Fl) (r : Reg (n + n) d.w) (h : DownRel (CCast d) a b r) :
    downcvtF32I m d nan a b = r :=
  vecPack_eq m d hw hs nan a b r h

/-- The instruction sequence saturates at 32 bits and then drops the upper half: 65537 becomes 1, which is
neither saturated nor an error. The conversion of C is undefined there. -/
theorem downcvtF32I_overflow (nan : BitVec 32) :
    downcvtF32I (n := 1) .u32 .u16 nan (fun _ => .fin 65537) (fun _ => .fin 65537) = fun _ => 1#16 := by
  have hc : CCast .u32 (.fin 65537) 65537#32 := by
    have v : ITy.u32.val (65537#32) = 65537 := by decide
    exact ⟨_, rfl, by rw [v]; norm_num [abs_of_nonneg]⟩
  unfold downcvtF32I vecPack
  refine setr_lohi _ _ _ fun k => ?_
  dsimp only
  rw [vecCt_eq .u32 nan _ _ hc]
  exact ⟨rfl, rfl⟩

/-- C85, `upcvt` of f16 to i32, u32. -/
theorem upcvtF16I_spec (d : ITy) (nan : BitVec d.w) (a : Vec n Fl × Vec n Fl) (r : Reg n d.w × Reg n d.w)
    (h0 : ∀ k, CCast d (a.1 k) (r.1 k)) (h1 : ∀ k, CCast d (a.2 k) (r.2 k)) :
    PpcCvt.upcvtF16I d nan a = r :=
  Prod.ext (funext fun k => vecCt_eq d nan _ _ (h0 k)) (funext fun k => vecCt_eq d nan _ _ (h1 k))

/-- C85, `downcvt` of f16 to i8, u8: the conversion of C of the lanes of the four quarters in order. -/
theorem downcvtF16I_spec (m d : ITy) (hd : d.w = 8) (hw : m.w = 32) (hs : m.sgn = d.sgn) (nan : BitVec m.w)
    (a b : Vec n Fl × Vec n Fl) (r : Reg (n + n + (n + n)) d.w) (ha : DownRel (CCast d) a.1 a.2 (lo r))
    (hb : DownRel (CCast d) b.1 b.2 (hi r)) : PpcCvt.downcvtF16I m d nan a b = r := by
  have key : ∀ (f : Fl) (v : BitVec d.w), CCast d f v → ((vecCt m nan f).setWidth 16).setWidth d.w = v := by
    intro f v h
    have h1 := ITy.val_lb d v
    have h2 := ITy.val_ub d v
    have e : m.val (m.cast (d.val v)) = d.val v := by
      apply ITy.val_cast <;>
      · cases d <;> cases m <;> simp only [ITy.w, ITy.sgn, ITy.minv, ITy.maxv] at * <;>
          first | omega | simp at hs
    have hc : CCast m f (m.cast (d.val v)) := by
      obtain ⟨q, rfl, hq⟩ := h
      exact ⟨q, rfl, by rw [e]; exact hq⟩
    rw [vecCt_eq m nan _ _ hc, BitVec.setWidth_setWidth_of_le _ (by omega),
      Props.Arm.setWidth_eq_cast m d (by omega), e, ITy.cast_val]
  unfold PpcCvt.downcvtF16I vecPack
  refine setr_lohi r _ _ fun k => ?_
  by_cases hk : k.val < n
  · have h0 := (ha ⟨k, hk⟩).1
    have h1 := (hb ⟨k, hk⟩).1
    unfold setr
    dsimp only
    rw [dif_pos hk, dif_pos hk]
    exact ⟨key _ _ h0, key _ _ h1⟩
  · have h0 := (ha ⟨k - n, by omega⟩).2
    have h1 := (hb ⟨k - n, by omega⟩).2
    unfold setr
    dsimp only
    rw [dif_neg hk, dif_neg hk, key _ _ h0, key _ _ h1]
    refine ⟨congrArg r (Fin.ext ?_), congrArg r (Fin.ext ?_)⟩ <;> simp only <;> omega

/-! ### The f16 held in two f32 registers -/

/-- C85, `downcvt` of i32, u32 to f16: after storing, which rounds each lane to f16, the value rounded
once. -/
theorem downcvtI32F16_spec {r32 r16 : ℚ → Fl} (h32 : Ieee 24 (-149) 128 r32) (h16 : Ieee 11 (-24) 16 r16)
    (s : ITy) (hs : s.w = 32) (a b : Reg n s.w) :
    (∀ k, ArmCvt.narrow r16 ((downcvtI32F16 r32 s a b).1 k) = r16 (s.val (a k))) ∧
    ∀ k, ArmCvt.narrow r16 ((downcvtI32F16 r32 s a b).2 k) = r16 (s.val (b k)) := by
  have key : ∀ v : BitVec s.w, ArmCvt.narrow r16 (r32 (s.val v)) = r16 (s.val v) := by
    intro v
    refine round_twice_f16 h32 h16 _ ?_
    have h1 := ITy.val_lb s v
    have h2 := ITy.val_ub s v
    rw [abs_le]
    cases s <;> simp only [ITy.w, ITy.minv, ITy.maxv, ITy.sgn] at * <;> constructor <;> omega
  exact ⟨fun k => key _, fun k => key _⟩

/-- `downcvt` of f32 to f16 does not round before the lanes are stored: converted back they are unchanged,
whereas 2049 is not a number of f16. -/
theorem downcvt_upcvt_f16 (a b : Vec n Fl) : upcvtF16F32 (downcvtF32F16 a b) = (a, b) ∧
    ∀ r16, Ieee 11 (-24) 16 r16 → ArmCvt.narrow r16 (.fin 2049) ≠ .fin 2049 := by
  refine ⟨rfl, ?_⟩
  rintro r16 ⟨rnd, hn, h⟩ hc
  change r16 2049 = _ at hc
  rw [h] at hc
  split at hc
  · injection hc with hc
    have hr := hn.rep 2049
    rw [hc] at hr
    have hm : Float.Mult 1 2049 := Float.mult_of_ge hr (by norm_num [abs_of_pos])
    obtain ⟨k, hk⟩ := hm
    have : (2049 : ℤ) = k * 2 := by
      have : ((2049 : ℤ) : ℚ) = ((k * 2 : ℤ) : ℚ) := by push_cast; linarith
      exact_mod_cast this
    omega
  · cases hc

/-- C85, `reinterpret` of i16, u16 to f16 and back: the same bits in every lane that is not a NaN, and a NaN
becomes the NaN 0xffff. -/
theorem reinterpret_roundtrip (s d : ITy) (hs : s.w = 16) (hd : d.w = 16) (a : Reg (4 + 4) s.w) :
    ∃ v r, PpcCvt.reinterpretToF16 s a = some v ∧ PpcCvt.reinterpretFromF16 d v = some r ∧ ∀ k,
      (¬ NaN16 ((a k).cast hs) → (r k).cast hd = (a k).cast hs) ∧
      (NaN16 ((a k).cast hs) → (r k).cast hd = 0xffff#16) := by
  have ec : ∀ x : BitVec s.w, ITy.u16.cast (s.val x) = x.cast hs := by
    intro x
    refine (Props.Arm.setWidth_eq_cast s .u16 (show ITy.u16.w ≤ s.w by rw [hs]) x).symm.trans ?_
    apply BitVec.eq_of_toNat_eq
    have := x.isLt
    simp only [BitVec.toNat_setWidth, BitVec.toNat_cast]
    exact Nat.mod_eq_of_lt (Nat.lt_of_lt_of_eq this (congrArg (fun w => 2 ^ w) hs))
  have ed : ∀ x : BitVec 16, (d.cast (ITy.u16.val x)).cast hd = x := by
    intro x
    rw [← Props.Arm.setWidth_eq_cast .u16 d (show d.w ≤ ITy.u16.w by rw [hd]) x]
    apply BitVec.eq_of_toNat_eq
    have := x.isLt
    simp only [BitVec.toNat_setWidth, BitVec.toNat_cast]
    rw [hd]
    exact Nat.mod_eq_of_lt this
  have rt : ∀ x : BitVec s.w, ∃ r, Nsimd.Fp16.u16ToF32 (ITy.u16.cast (s.val x)) = some r ∧
      (¬ NaN16 (x.cast hs) → (d.cast (ITy.u16.val (Nsimd.Fp16.f32ToU16 r))).cast hd = x.cast hs) ∧
      (NaN16 (x.cast hs) → (d.cast (ITy.u16.val (Nsimd.Fp16.f32ToU16 r))).cast hd = 0xffff#16) := by
    intro x
    obtain ⟨r, h0, h1, h2⟩ := f16_roundtrip (x.cast hs)
    refine ⟨r, by rw [ec]; exact h0, fun hn => ?_, fun hn => ?_⟩
    · rw [ed]; exact h1 hn
    · rw [ed]; exact h2 hn
  choose g hg using rt
  refine ⟨(fun k => g (a ⟨k, by omega⟩), fun k => g (a ⟨4 + k, by omega⟩)),
    fun k => d.cast (ITy.u16.val (Nsimd.Fp16.f32ToU16 (g (a k)))), ?_, ?_, fun k => (hg (a k)).2⟩
  · unfold PpcCvt.reinterpretToF16
    rw [(fromLanes_eq_some (fun i : Fin 4 => Nsimd.Fp16.u16ToF32 (ITy.u16.cast (s.val (a ⟨i, by omega⟩))))
        (fun k => g (a ⟨k, by omega⟩))).mpr fun k => (hg _).1,
      (fromLanes_eq_some (fun i : Fin 4 => Nsimd.Fp16.u16ToF32 (ITy.u16.cast (s.val (a ⟨4 + i, by omega⟩))))
        (fun k => g (a ⟨4 + k, by omega⟩))).mpr fun k => (hg _).1]
    rfl
  · refine (fromLanes_eq_some ..).mpr fun k => ?_
    by_cases hk : k.val < 4
    · rw [dif_pos hk]
    · rw [dif_neg hk]
      refine congrArg (fun x => some (d.cast (ITy.u16.val (Nsimd.Fp16.f32ToU16 (g (a x)))))) (Fin.ext ?_)
      simp only; omega

example : ¬ NaN16 (0x3c00#16) ∧ NaN16 (0x7e01#16) := by
  unfold NaN16 e16 m16; decide

end Nsimd.Props.PpcCvt
