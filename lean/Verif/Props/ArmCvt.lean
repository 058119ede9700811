import Verif.Model.ArmCvt
import Verif.Lemmas.Float
import Verif.Props.X86Cvt
import Verif.Props.Arm
import Verif.Props.Fp16Order
import Verif.Props.ScalarArith

/-!
# C84: conversions between integers and floats on ARM
-/

namespace Nsimd.Props.ArmCvt

open Nsimd Nsimd.X86 Nsimd.Cpu Nsimd.Round Nsimd.ArmCvt
open Nsimd.X86Cvt (truncZ castFI emulate lo hi setr)
open Nsimd.Props.X86Cvt (UpTo DownTo CCast setr_spec truncZ_exists truncZ_unique castFI_iff emulate_iff
  downTo_setr)
open Nsimd.Float (Nearest exists_nearest)
open Nsimd.Props.Round (Rep)
open Nsimd.Props.Fp16 (NaN16 e16 m16 f16_roundtrip)

variable {n : Nat} {α β : Type}

/-! ### Specifications -/

/-- The lanes of `a` are related to those of the first and then of the second register. Specification. -/
def UpRel (R : α → β → Prop) (a : Vec (n + n) α) (r : Vec n β × Vec n β) : Prop :=
  ∀ k : Fin n, R (a ⟨k, by omega⟩) (r.1 k) ∧ R (a ⟨n + k, by omega⟩) (r.2 k)

/-- The same for the lanes of two registers converted into one. Specification. -/
def DownRel (R : α → β → Prop) (a b : Vec n α) (r : Vec (n + n) β) : Prop :=
  ∀ k : Fin n, R (a k) (r ⟨k, by omega⟩) ∧ R (b k) (r ⟨n + k, by omega⟩)

/-- `z` is `q` with its fractional part discarded. Specification. -/
def IsTrunc (q : ℚ) (z : ℤ) : Prop := 0 ≤ q * z ∧ |(z : ℚ)| ≤ |q| ∧ |q| < |(z : ℚ)| + 1

/-- Conversion to an integer with saturation; NaN becomes 0. Specification. -/
def SatCast (t : ITy) (f : Fl) (v : BitVec t.w) : Prop :=
  (f = .nan → t.val v = 0) ∧ (∀ s, f = .inf s → t.val v = if s then t.minv else t.maxv) ∧
    ∀ q, f = .fin q → ∃ z, IsTrunc q z ∧ t.val v = clampTo t.minv t.maxv z

/-- A conversion to the binary format of precision `p`, smallest exponent `emin` and numbers below `2^emax`:
a nearest number of the format with unbounded exponents, or an infinity if that is too large. `f32` is
`Ieee 24 (-149) 128`, `f64` is `Ieee 53 (-1074) 1024`, `f16` is `Ieee 11 (-24) 16`. Specification. -/
def Ieee (p : Nat) (emin emax : ℤ) (r : ℚ → Fl) : Prop :=
  ∃ rnd, Nearest p emin rnd ∧ ∀ x, r x = if |rnd x| < 2 ^ emax then .fin (rnd x) else .inf (decide (x < 0))

theorem exists_ieee (p : Nat) (hp : 1 ≤ p) (emin emax : ℤ) : ∃ r, Ieee p emin emax r := by
  obtain ⟨rnd, h⟩ := exists_nearest hp emin
  exact ⟨_, rnd, h, fun x => rfl⟩

/-! ### Floats to integers -/

theorem minv_nonpos (t : ITy) : t.minv ≤ 0 ∧ 0 ≤ t.maxv := by cases t <;> decide

theorem minv_le_maxv (t : ITy) : t.minv ≤ t.maxv := (minv_nonpos t).1.trans (minv_nonpos t).2

/-- C84, the conversion instructions truncate and saturate. -/
theorem fcvtz_spec (t : ITy) (f : Fl) : SatCast t f (fcvtz t f) := by
  have hm := minv_nonpos t
  have hl := minv_le_maxv t
  refine ⟨?_, ?_, ?_⟩
  · rintro rfl
    exact ITy.val_cast t 0 hm.1 hm.2
  · rintro s rfl
    unfold fcvtz
    cases s
    · exact ITy.val_cast t _ hl le_rfl
    · exact ITy.val_cast t _ le_rfl hl
  · rintro q rfl
    refine ⟨truncZ q, truncZ_exists q, ?_⟩
    unfold fcvtz clampTo
    dsimp only
    split
    · exact ITy.val_cast t _ le_rfl hl
    · split
      · exact ITy.val_cast t _ hl le_rfl
      · exact ITy.val_cast t _ (by omega) (by omega)

theorem isTrunc_unique {q : ℚ} {y z : ℤ} (hy : IsTrunc q y) (hz : IsTrunc q z) : y = z :=
  (truncZ_unique hy.1 hy.2.1 hy.2.2).trans (truncZ_unique hz.1 hz.2.1 hz.2.2).symm

/-- Saturation determines the result, and where the conversion of C is defined it is that. -/
theorem satCast_eq (t : ITy) (f : Fl) (v v' : BitVec t.w) (h : CCast t f v) (h' : SatCast t f v') : v' = v := by
  obtain ⟨q, rfl, hq⟩ := h
  obtain ⟨z, hz, e⟩ := h'.2.2 q rfl
  refine ITy.val_inj t (e.trans ?_)
  rw [isTrunc_unique hz hq]
  unfold clampTo
  rw [if_neg (by have := ITy.val_lb t v; omega), if_neg (by have := ITy.val_ub t v; omega)]

theorem fcvtz_eq (t : ITy) (f : Fl) (v : BitVec t.w) (h : CCast t f v) : fcvtz t f = v :=
  satCast_eq t f v _ h (fcvtz_spec t f)

example : CCast .i32 (.fin (-7 / 4)) (-1#32) := by
  have v2 : ITy.i32.val (-1#32) = -1 := by decide
  exact ⟨_, rfl, by rw [v2]; norm_num [abs_of_nonneg, abs_of_neg]⟩

/-- C84, `cvt` of floats to integers: where the conversion of C is defined for all lanes it is computed, on
every extension. -/
theorem cvtFI_spec (x : Ext) (d : ITy) (a : Vec n Fl) (r : Reg n d.w) (h : ∀ k, CCast d (a k) (r k)) :
    ArmCvt.cvtFI x d a = some r := by
  unfold ArmCvt.cvtFI
  split
  · exact (emulate_iff _ _ _).mpr fun k => (castFI_iff ..).mpr (h k)
  · exact congrArg some (funext fun k => fcvtz_eq d _ _ (h k))

/-- C84, `cvt` of floats to integers elsewhere: saturation, but undefined for 64 bits on neon128. -/
theorem cvtFI_sat (x : Ext) (d : ITy) (a : Vec n Fl) (r : Reg n d.w) :
    ArmCvt.cvtFI x d a = some r ↔
      if x = .neon128 ∧ d.w = 64 then ∀ k, CCast d (a k) (r k) else ∀ k, SatCast d (a k) (r k) := by
  unfold ArmCvt.cvtFI
  split
  · rw [emulate_iff]
    exact forall_congr' fun k => castFI_iff ..
  · rw [Option.some.injEq]
    constructor
    · rintro rfl k
      exact fcvtz_spec d _
    · intro h
      refine funext fun k => ITy.val_inj d ?_
      have h1 := fcvtz_spec d (a k)
      have h2 := h k
      generalize fcvtz d (a k) = u at h1
      generalize a k = f at h1 h2
      cases f with
      | nan => rw [h1.1 rfl, h2.1 rfl]
      | inf s => rw [h1.2.1 s rfl, h2.2.1 s rfl]
      | fin q =>
        obtain ⟨y, hy, ey⟩ := h1.2.2 q rfl
        obtain ⟨z, hz, ez⟩ := h2.2.2 q rfl
        rw [ey, ez, isTrunc_unique hy hz]

/-- 3e9 saturates as i32; the same double is undefined as a 64-bit value only from 2^63 on. -/
example : (ArmCvt.cvtFI (n := 1) .aarch64 .i32 fun _ => .fin 3000000000) = some fun _ => 0x7fffffff#32 := by
  unfold ArmCvt.cvtFI
  rw [if_neg (by decide)]
  refine congrArg some (funext fun _ => ?_)
  have : truncZ 3000000000 = 3000000000 := by
    refine (truncZ_unique (z := 3000000000) ?_ ?_ ?_).symm <;> norm_num [abs_of_pos]
  unfold fcvtz
  dsimp only
  rw [this]
  decide

/-- C84, `cvt` of the f16 held in two f32 registers: the conversion of C of all lanes of the two halves in
order, defined exactly if that is. -/
theorem cvtF16I_spec (d : ITy) (a : Vec n Fl × Vec n Fl) (r : Reg (n + n) d.w) :
    cvtF16I d a = some r ↔ DownRel (CCast d) a.1 a.2 r :=
  Props.X86Cvt.cvtF16I16_spec d a r

/-! ### Moving lanes on SVE -/

theorem svcvtWide_zip1 (f : α → β) (a : Vec (n + n) α) (k : Fin n) :
    svcvtWide f (zip1Self a) k = f (a ⟨k, by omega⟩) := by
  unfold svcvtWide zip1Self
  exact congrArg (fun x => f (a x)) (Fin.ext (by simp only; omega))

theorem svcvtWide_zip2 (f : α → β) (a : Vec (n + n) α) (k : Fin n) :
    svcvtWide f (zip2Self a) k = f (a ⟨n + k, by omega⟩) := by
  unfold svcvtWide zip2Self
  exact congrArg (fun x => f (a x)) (Fin.ext (by simp only; omega))

theorem uzp1_spec (a b : Vec (n + n) α) (k : Fin n) :
    uzp1 a b ⟨k, by omega⟩ = a ⟨2 * k, by omega⟩ ∧ uzp1 a b ⟨n + k, by omega⟩ = b ⟨2 * k, by omega⟩ := by
  unfold uzp1
  constructor
  · rw [dif_pos (show k.val < n from k.isLt)]
  · rw [dif_neg (show ¬ n + k.val < n by omega)]
    exact congrArg b (Fin.ext (by simp only; omega))

theorem svcvtNarrow_even (f : α → β) (junk : Vec (n + n) β) (a : Vec n α) (k : Fin n) :
    svcvtNarrow f junk a ⟨2 * k, by omega⟩ = f (a k) := by
  unfold svcvtNarrow
  rw [if_pos (by simp only; omega)]
  exact congrArg (fun x => f (a x)) (Fin.ext (by simp only; omega))

theorem uzp1_narrow (f : α → β) (junk junk' : Vec (n + n) β) (a b : Vec n α) :
    DownTo f a b (uzp1 (svcvtNarrow f junk a) (svcvtNarrow f junk' b)) := fun k => by
  rw [(uzp1_spec _ _ k).1, (uzp1_spec _ _ k).2]
  exact ⟨svcvtNarrow_even f junk a k, svcvtNarrow_even f junk' b k⟩

theorem svHalves_even (w' : Nat) {w : Nat} (r : Reg n w) (k : Fin n) :
    svHalves w' r ⟨2 * k, by omega⟩ = (r k).setWidth w' := by
  unfold svHalves
  have h1 : (⟨2 * k.val / 2, by omega⟩ : Fin n) = k := Fin.ext (show 2 * k.val / 2 = k.val by omega)
  simp only
  rw [h1, show 2 * k.val % 2 = 0 by omega, Nat.mul_zero, BitVec.ushiftRight_zero]

/-! ### Integers to floats -/

/-- C84, integers of at most `p` bits are converted exactly to a float of precision `p`. -/
theorem ieee_exact {p : Nat} {emin emax : ℤ} {r : ℚ → Fl} (hr : Ieee p emin emax r) (hp : 1 ≤ p)
    (he : emin ≤ 0) (hx : (p : ℤ) < emax) (z : ℤ) (hz : |z| ≤ 2 ^ p) : r z = .fin z := by
  obtain ⟨rnd, hn, hr⟩ := hr
  have hz' : |(z : ℚ)| ≤ 2 ^ p := by
    have : ((|z| : ℤ) : ℚ) ≤ ((2 ^ p : ℤ) : ℚ) := by exact_mod_cast hz
    push_cast at this
    exact this
  have e : rnd z = z := hn.fix (Float.rep_of_mult hp he ⟨z, by simp⟩ (by simpa using hz'))
  rw [hr, e, if_pos]
  refine hz'.trans_lt ?_
  rw [← zpow_natCast]
  exact zpow_lt_zpow_right₀ (by norm_num) hx

theorem movl_val (s m : ITy) (hw : m.w = 2 * s.w) (hs : m.sgn = s.sgn) (x : BitVec s.w) :
    m.val (Arm.movl s.sgn x) = s.val x := by
  have e : (Arm.movl s.sgn x : BitVec m.w) = m.cast (s.val x) := by
    unfold Arm.movl ITy.val ITy.cast
    split
    · rfl
    · apply BitVec.eq_of_toNat_eq
      simp [BitVec.toNat_ofInt, BitVec.toNat_setWidth]
  have h1 := ITy.val_lb s x
  have h2 := ITy.val_ub s x
  rw [e]
  apply ITy.val_cast <;>
  · cases s <;> cases m <;> simp only [ITy.w, ITy.sgn, ITy.minv, ITy.maxv] at * <;>
      first | omega | simp at hs

/-- C84, `upcvt` of integers to floats: all lanes in order, each with exactly its value. The hypotheses on `p`
are those of i8, u8 to f16; i16, u16 to f32; i32, u32 to f64. -/
theorem upcvtIF_spec {p : Nat} {emin emax : ℤ} {r : ℚ → Fl} (hr : Ieee p emin emax r) (he : emin ≤ 0)
    (hx : (p : ℤ) < emax) (s m : ITy) (hp : s.w ≤ p) (hw : m.w = 2 * s.w) (hs : m.sgn = s.sgn)
    (a : Reg (n + n) s.w) : UpTo (fun v => Fl.fin (s.val v)) a (ArmCvt.upcvtIF r s m a) := by
  have key : ∀ v : BitVec s.w, r (m.val (Arm.movl s.sgn v)) = .fin (s.val v) := by
    intro v
    rw [movl_val s m hw hs]
    have h1 := ITy.val_lb s v
    have h2 := ITy.val_ub s v
    have : |s.val v| ≤ 2 ^ s.w := by
      rw [abs_le]
      cases s <;> simp only [ITy.w, ITy.minv, ITy.maxv, ITy.sgn] at * <;> constructor <;> omega
    refine ieee_exact hr ?_ he hx _ (this.trans (pow_le_pow_right₀ (by norm_num) hp))
    have : 1 ≤ s.w := by cases s <;> decide
    omega
  exact fun k => ⟨key _, key _⟩

example : ∃ r32 r64 r16, Ieee 24 (-149) 128 r32 ∧ Ieee 53 (-1074) 1024 r64 ∧ Ieee 11 (-24) 16 r16 ∧
    ITy.i16.w ≤ 24 ∧ ITy.u32.w ≤ 53 ∧ ITy.u8.w ≤ 11 := by
  obtain ⟨r32, h32⟩ := exists_ieee 24 (by norm_num) (-149) 128
  obtain ⟨r64, h64⟩ := exists_ieee 53 (by norm_num) (-1074) 1024
  obtain ⟨r16, h16⟩ := exists_ieee 11 (by norm_num) (-24) 16
  exact ⟨r32, r64, r16, h32, h64, h16, by decide, by decide, by decide⟩

/-- C84, `cvt` of i16, u16 to the f16 held in two f32 registers: all lanes in order, exactly. -/
theorem cvtIF16_spec {r32 : ℚ → Fl} (hr : Ieee 24 (-149) 128 r32) (s : ITy) (hs : s.w ≤ 16)
    (a : Reg (n + n) s.w) : UpTo (fun v => Fl.fin (s.val v)) a (cvtIF16 r32 s a) := by
  have key : ∀ v : BitVec s.w, r32 (s.val v) = .fin (s.val v) := by
    intro v
    have h1 := ITy.val_lb s v
    have h2 := ITy.val_ub s v
    refine ieee_exact hr (by norm_num) (by norm_num) (by norm_num) _ ?_
    rw [abs_le]
    cases s <;> simp only [ITy.w, ITy.minv, ITy.maxv, ITy.sgn] at * <;> constructor <;> omega
  exact fun k => ⟨key _, key _⟩

/-- C84, `upcvt` of i8, u8 to the f16 held in two f32 registers: the four quarters in order, exactly. -/
theorem upcvtIF16_spec {r32 : ℚ → Fl} (hr : Ieee 24 (-149) 128 r32) (s m : ITy) (hw : s.w = 8)
    (hm : m.w = 2 * s.w) (hs : m.sgn = s.sgn) (a : Reg (n + n + (n + n)) s.w) :
    UpTo (fun v => Fl.fin (s.val v)) (lo a) (upcvtIF16 r32 s m a).1 ∧
    UpTo (fun v => Fl.fin (s.val v)) (hi a) (upcvtIF16 r32 s m a).2 := by
  have h0 := cvtIF16_spec hr m (by omega) (movl s m (lo a))
  have h1 := cvtIF16_spec hr m (by omega) (movl s m (hi a))
  have e : ∀ v : BitVec s.w, m.val (Arm.movl s.sgn v) = s.val v := movl_val s m hm hs
  refine ⟨fun k => ?_, fun k => ?_⟩
  · have := h0 k
    simp only [movl, e] at this
    exact this
  · have := h1 k
    simp only [movl, e] at this
    exact this

/-! ### Floats to floats -/

/-- C84, `upcvt` of floats: all lanes in order, unchanged. -/
theorem upcvtFF_spec (x : Ext) (a : Vec (n + n) Fl) : UpTo id a (upcvtFF x a) := by
  intro k
  cases x
  · exact ⟨rfl, rfl⟩
  · exact ⟨rfl, rfl⟩
  · exact ⟨svcvtWide_zip1 id a k, svcvtWide_zip2 id a k⟩

/-- C84, `downcvt` of floats: all lanes in order, rounded once; infinities and NaN are kept. -/
theorem downcvtFF_spec (x : Ext) (r : ℚ → Fl) (junk junk' : Vec (n + n) Fl) (a b : Vec n Fl) :
    DownTo (narrow r) a b (downcvtFF x r junk junk' a b) := by
  cases x
  · exact downTo_setr _ a b
  · exact downTo_setr _ a b
  · exact uzp1_narrow _ junk junk' a b

/-! ### Floats to larger or smaller integers -/

/-- C84, `upcvt` of floats to integers: where the conversion of C is defined for all lanes it is computed. -/
theorem upcvtFI_spec (x : Ext) (d : ITy) (a : Vec (n + n) Fl) (r : Reg n d.w × Reg n d.w)
    (h : UpRel (CCast d) a r) : ArmCvt.upcvtFI x d a = some r := by
  have h0 : ∀ k, CCast d (lo a k) (r.1 k) := fun k => (h k).1
  have h1 : ∀ k, CCast d (hi a k) (r.2 k) := fun k => (h k).2
  cases x
  · unfold ArmCvt.upcvtFI
    dsimp only [upcvtFF]
    rw [cvtFI_spec _ d _ _ h0, cvtFI_spec _ d _ _ h1]
    rfl
  · unfold ArmCvt.upcvtFI
    dsimp only [upcvtFF]
    rw [cvtFI_spec _ d _ _ h0, cvtFI_spec _ d _ _ h1]
    rfl
  · refine congrArg some (Prod.ext (funext fun k => ?_) (funext fun k => ?_))
    · exact (svcvtWide_zip1 _ a k).trans (fcvtz_eq d _ _ (h k).1)
    · exact (svcvtWide_zip2 _ a k).trans (fcvtz_eq d _ _ (h k).2)

/-- C84, `upcvt` of the f16 held in two f32 registers to integers. -/
theorem upcvtF16I_spec (x : Ext) (d : ITy) (a : Vec n Fl × Vec n Fl) (r : Reg n d.w × Reg n d.w)
    (h0 : ∀ k, CCast d (a.1 k) (r.1 k)) (h1 : ∀ k, CCast d (a.2 k) (r.2 k)) :
    upcvtF16I x d a = some r := by
  unfold upcvtF16I
  rw [cvtFI_spec x d _ _ h0, cvtFI_spec x d _ _ h1]
  rfl

theorem ccast_wide (m d : ITy) (hw : m.w = 2 * d.w) (hs : m.sgn = d.sgn) (f : Fl) (v : BitVec d.w)
    (h : CCast d f v) : CCast m f (m.cast (d.val v)) ∧ (m.cast (d.val v)).setWidth d.w = v := by
  have h1 := ITy.val_lb d v
  have h2 := ITy.val_ub d v
  have e : m.val (m.cast (d.val v)) = d.val v := by
    apply ITy.val_cast <;>
    · cases d <;> cases m <;> simp only [ITy.w, ITy.sgn, ITy.minv, ITy.maxv] at * <;>
        first | omega | simp at hs
  constructor
  · obtain ⟨q, rfl, hq⟩ := h
    exact ⟨q, rfl, by rw [e]; exact hq⟩
  · rw [Props.Arm.setWidth_eq_cast m d (by omega), e, ITy.cast_val]

theorem setr_lohi (r : Vec (n + n) α) (a b : Vec n α) (h : ∀ k : Fin n, a k = r ⟨k, by omega⟩ ∧
    b k = r ⟨n + k, by omega⟩) : setr a b = r := by
  funext k
  unfold setr
  split
  · rename_i hk
    exact (h ⟨k, hk⟩).1
  · rename_i hk
    refine (h ⟨k - n, by omega⟩).2.trans ?_
    exact congrArg r (Fin.ext (by simp only; omega))

theorem uzp1_lohi (r a b : Vec (n + n) α) (h : ∀ k : Fin n, a ⟨2 * k, by omega⟩ = r ⟨k, by omega⟩ ∧
    b ⟨2 * k, by omega⟩ = r ⟨n + k, by omega⟩) : uzp1 a b = r := by
  funext k
  unfold uzp1
  split
  · rename_i hk
    exact (h ⟨k, hk⟩).1
  · rename_i hk
    refine (h ⟨k - n, by omega⟩).2.trans ?_
    exact congrArg r (Fin.ext (by simp only; omega))

/-- C84, `downcvt` of floats to integers: where the conversion of C is defined for all lanes it is computed. -/
theorem downcvtFI_spec (x : Ext) (m d : ITy) (hw : m.w = 2 * d.w) (hs : m.sgn = d.sgn) (a b : Vec n Fl)
    (r : Reg (n + n) d.w) (h : DownRel (CCast d) a b r) : ArmCvt.downcvtFI x m d a b = some r := by
  have ha : ∀ k : Fin n, CCast m (a k) (m.cast (d.val (r ⟨k, by omega⟩))) := fun k =>
    (ccast_wide m d hw hs _ _ (h k).1).1
  have hb : ∀ k : Fin n, CCast m (b k) (m.cast (d.val (r ⟨n + k, by omega⟩))) := fun k =>
    (ccast_wide m d hw hs _ _ (h k).2).1
  unfold ArmCvt.downcvtFI
  rw [cvtFI_spec x m a (fun k => m.cast (d.val (r ⟨k, by omega⟩))) ha,
    cvtFI_spec x m b (fun k => m.cast (d.val (r ⟨n + k, by omega⟩))) hb]
  have hs0 : ∀ k : Fin n, (m.cast (d.val (r ⟨k, by omega⟩))).setWidth d.w = r ⟨k, by omega⟩ := fun k =>
    (ccast_wide m d hw hs _ _ (h k).1).2
  have hs1 : ∀ k : Fin n, (m.cast (d.val (r ⟨n + k, by omega⟩))).setWidth d.w = r ⟨n + k, by omega⟩ := fun k =>
    (ccast_wide m d hw hs _ _ (h k).2).2
  cases x
  · exact congrArg some (setr_lohi r _ _ fun k => ⟨hs0 k, hs1 k⟩)
  · exact congrArg some (setr_lohi r _ _ fun k => ⟨hs0 k, hs1 k⟩)
  · refine congrArg some (uzp1_lohi r _ _ fun k => ?_)
    rw [svHalves_even, svHalves_even]
    exact ⟨hs0 k, hs1 k⟩

/-- C84, `downcvt` of the f16 held in two f32 registers to i8, u8. -/
theorem downcvtF16I_spec (m d : ITy) (hw : m.w = 2 * d.w) (hs : m.sgn = d.sgn) (a b : Vec n Fl × Vec n Fl)
    (r : Reg (n + n + (n + n)) d.w) (ha : DownRel (CCast d) a.1 a.2 (lo r))
    (hb : DownRel (CCast d) b.1 b.2 (hi r)) : downcvtF16I m d a b = some r := by
  have ha' : cvtF16I m a = some fun k => m.cast (d.val (lo r k)) :=
    (cvtF16I_spec m a _).mpr fun k =>
      ⟨(ccast_wide m d hw hs _ _ (ha k).1).1, (ccast_wide m d hw hs _ _ (ha k).2).1⟩
  have hb' : cvtF16I m b = some fun k => m.cast (d.val (hi r k)) :=
    (cvtF16I_spec m b _).mpr fun k =>
      ⟨(ccast_wide m d hw hs _ _ (hb k).1).1, (ccast_wide m d hw hs _ _ (hb k).2).1⟩
  have e : ∀ v : BitVec d.w, (m.cast (d.val v)).setWidth d.w = v := by
    intro v
    have h1 := ITy.val_lb d v
    have h2 := ITy.val_ub d v
    have e : m.val (m.cast (d.val v)) = d.val v := by
      apply ITy.val_cast <;>
      · cases d <;> cases m <;> simp only [ITy.w, ITy.sgn, ITy.minv, ITy.maxv] at * <;>
          first | omega | simp at hs
    rw [Props.Arm.setWidth_eq_cast m d (by omega), e, ITy.cast_val]
  unfold downcvtF16I
  rw [ha', hb']
  exact congrArg some (setr_lohi r _ _ fun k => ⟨e _, e _⟩)

/-! ### Integers to smaller floats -/

/-- C84, `downcvt` of integers to floats on SVE: all lanes in order, rounded once. -/
theorem downcvtIF_sve (rw rn : ℚ → Fl) (s : ITy) (junk junk' : Vec (n + n) Fl) (a b : Reg n s.w) :
    DownTo (fun v => rn (s.val v)) a b (downcvtIF .sve rw rn s junk junk' a b) :=
  uzp1_narrow _ junk junk' a b

theorem downcvtIF_neon (x : Ext) (hx : x ≠ .sve) (rw rn : ℚ → Fl) (s : ITy) (junk junk' : Vec (n + n) Fl)
    (a b : Reg n s.w) :
    DownTo (fun v => narrow rn (rw (s.val v))) a b (downcvtIF x rw rn s junk junk' a b) := by
  cases x
  · exact fun k => downcvtFF_spec .neon128 rn junk junk' (ArmCvt.cvtIF rw s a) (ArmCvt.cvtIF rw s b) k
  · exact fun k => downcvtFF_spec .aarch64 rn junk junk' (ArmCvt.cvtIF rw s a) (ArmCvt.cvtIF rw s b) k
  · exact absurd rfl hx

/-- Rounding an integer to f32 and then to f16 is rounding it to f16. -/
theorem round_twice_f16 {r32 r16 : ℚ → Fl} (h32 : Ieee 24 (-149) 128 r32) (h16 : Ieee 11 (-24) 16 r16)
    (z : ℤ) (hz : |z| ≤ 2 ^ 32) : narrow r16 (r32 z) = r16 z := by
  rcases le_or_gt |z| (2 ^ 24) with h | h
  · rw [ieee_exact h32 (by norm_num) (by norm_num) (by norm_num) z h]
    rfl
  obtain ⟨f, hf, h32⟩ := h32
  obtain ⟨g, hg, h16⟩ := h16
  have hq : (2 : ℚ) ^ 24 < |(z : ℚ)| := by
    have : ((2 ^ 24 : ℤ) : ℚ) < ((|z| : ℤ) : ℚ) := by exact_mod_cast h
    push_cast at this
    exact this
  have hq' : |(z : ℚ)| ≤ 2 ^ 32 := by
    have : ((|z| : ℤ) : ℚ) ≤ ((2 ^ 32 : ℤ) : ℚ) := by exact_mod_cast hz
    push_cast at this
    exact this
  -- the magnitude survives both roundings, and the sign
  have big : ∀ {p : Nat} {emin : ℤ} {rnd : ℚ → ℚ}, Nearest p emin rnd → 1 ≤ p → p ≤ 24 → emin ≤ 0 →
      ∀ x : ℚ, (2 ^ 24 ≤ x → 2 ^ 24 ≤ rnd x) ∧ (x ≤ -2 ^ 24 → rnd x ≤ -2 ^ 24) := by
    intro p emin rnd hn hp hp' he x
    have hr : Rep p emin ((2 : ℚ) ^ 24) := by
      refine Float.rep_of_mult (e := (24 - p : ℕ)) hp (by omega) ⟨2 ^ p, ?_⟩ ?_
      · push_cast; rw [zpow_natCast, ← pow_add]; congr 1; omega
      · rw [abs_of_pos (by positivity), zpow_natCast, ← pow_add]
        exact le_of_eq (by congr 1; omega)
    constructor
    · intro hx
      have := hn.mono hx
      rwa [hn.fix hr] at this
    · intro hx
      have := hn.mono hx
      rwa [hn.fix (Props.Round.rep_neg hr)] at this
  have inf16 : ∀ x : ℚ, (2 ^ 24 ≤ x → r16 x = .inf false) ∧ (x ≤ -2 ^ 24 → r16 x = .inf true) := by
    intro x
    have hb := big hg (by norm_num) (by norm_num) (by norm_num) x
    constructor
    · intro hx
      have := hb.1 hx
      rw [h16, if_neg (by rw [abs_of_nonneg (by linarith [show (0:ℚ) < 2 ^ 24 by norm_num])]; norm_num at this ⊢; linarith),
        decide_eq_false (by norm_num at hx ⊢; linarith)]
    · intro hx
      have := hb.2 hx
      rw [h16, if_neg (by rw [abs_of_nonpos (by norm_num at this ⊢; linarith)]; norm_num at this ⊢; linarith),
        decide_eq_true (by norm_num at hx ⊢; linarith)]
  have fit : |f z| < 2 ^ (128 : ℤ) := by
    have hn : Nearest 24 (-149) f := hf
    have := hn.half_ulp (by norm_num) (e := 8) (by norm_num) (x := (z : ℚ)) (by norm_num at hq' ⊢; linarith)
    rw [_root_.abs_le] at this
    rw [_root_.abs_le] at hq'
    rw [abs_lt]
    norm_num at this hq' ⊢
    constructor <;> linarith [this.1, this.2, hq'.1, hq'.2]
  rw [h32, if_pos fit]
  show r16 (f z) = r16 z
  have hb := big hf (by norm_num) (by norm_num) (by norm_num) z
  rcases le_total 0 (z : ℚ) with h0 | h0
  · rw [abs_of_nonneg h0] at hq
    rw [(inf16 (f z)).1 (hb.1 hq.le), (inf16 z).1 hq.le]
  · rw [abs_of_nonpos h0] at hq
    rw [(inf16 (f z)).2 (hb.2 (by linarith)), (inf16 z).2 (by linarith)]

/-- C84, `downcvt` of i32, u32 to f16 with half precision instructions: all lanes in order, as if rounded
once, although NEON rounds to f32 first. -/
theorem downcvtIF_f16 {r32 r16 : ℚ → Fl} (h32 : Ieee 24 (-149) 128 r32) (h16 : Ieee 11 (-24) 16 r16) (x : Ext)
    (s : ITy) (hs : s.w = 32) (junk junk' : Vec (n + n) Fl) (a b : Reg n s.w) :
    DownTo (fun v => r16 (s.val v)) a b (downcvtIF x r32 r16 s junk junk' a b) := by
  by_cases hx : x = .sve
  · subst hx
    exact downcvtIF_sve r32 r16 s junk junk' a b
  have key : ∀ v : BitVec s.w, narrow r16 (r32 (s.val v)) = r16 (s.val v) := by
    intro v
    refine round_twice_f16 h32 h16 _ ?_
    have h1 := ITy.val_lb s v
    have h2 := ITy.val_ub s v
    rw [abs_le]
    cases s <;> simp only [ITy.w, ITy.minv, ITy.maxv, ITy.sgn] at * <;> constructor <;> omega
  have := downcvtIF_neon x hx r32 r16 s junk junk' a b
  intro k
  rw [(this k).1, (this k).2]
  exact ⟨key _, key _⟩

/-- C84, `downcvt` of i32, u32 to f16 without half precision instructions: all lanes in order; the registers hold f32,
and rounding them to f16, which a store does, is rounding the integers once. Integers below `2^24` are held exactly. -/
theorem downcvtIF16_spec {r32 r16 : ℚ → Fl} (h32 : Ieee 24 (-149) 128 r32) (h16 : Ieee 11 (-24) 16 r16)
    (s : ITy) (hs : s.w = 32) (a b : Reg n s.w) :
    (∀ k, narrow r16 ((downcvtIF16 r32 s a b).1 k) = r16 (s.val (a k)) ∧
      narrow r16 ((downcvtIF16 r32 s a b).2 k) = r16 (s.val (b k))) ∧
    ∀ k, (|s.val (a k)| ≤ 2 ^ 24 → (downcvtIF16 r32 s a b).1 k = .fin (s.val (a k))) ∧
      (|s.val (b k)| ≤ 2 ^ 24 → (downcvtIF16 r32 s a b).2 k = .fin (s.val (b k))) := by
  have key : ∀ v : BitVec s.w, narrow r16 (r32 (s.val v)) = r16 (s.val v) := by
    intro v
    refine round_twice_f16 h32 h16 _ ?_
    have h1 := ITy.val_lb s v
    have h2 := ITy.val_ub s v
    rw [abs_le]
    cases s <;> simp only [ITy.w, ITy.minv, ITy.maxv, ITy.sgn] at * <;> constructor <;> omega
  exact ⟨fun k => ⟨key _, key _⟩, fun k => ⟨ieee_exact h32 (by norm_num) (by norm_num) (by norm_num) _,
    ieee_exact h32 (by norm_num) (by norm_num) (by norm_num) _⟩⟩

/-- C84, `downcvt` of i64, u64 to f32: rounded once for values of at most 53 bits, on every extension.
Missing: larger values on NEON, see `downcvtIF_f32_counterexample`; on SVE `downcvtIF_sve` has them. -/
theorem downcvtIF_f32_partial {r64 : ℚ → Fl} (h64 : Ieee 53 (-1074) 1024 r64) (r32 : ℚ → Fl) (x : Ext)
    (s : ITy) (junk junk' : Vec (n + n) Fl) (a b : Reg n s.w)
    (ha : ∀ k, |s.val (a k)| ≤ 2 ^ 53) (hb : ∀ k, |s.val (b k)| ≤ 2 ^ 53) :
    DownTo (fun v => r32 (s.val v)) a b (downcvtIF x r64 r32 s junk junk' a b) := by
  by_cases hx : x = .sve
  · subst hx
    exact downcvtIF_sve r64 r32 s junk junk' a b
  have := downcvtIF_neon x hx r64 r32 s junk junk' a b
  intro k
  rw [(this k).1, (this k).2]
  dsimp only
  rw [ieee_exact h64 (by norm_num) (by norm_num) (by norm_num) _ (ha k),
    ieee_exact h64 (by norm_num) (by norm_num) (by norm_num) _ (hb k)]
  exact ⟨rfl, rfl⟩

example : |ITy.i64.val 0x001fffffffffffff#64| ≤ 2 ^ 53 := by decide

theorem nearest_unique {p : Nat} {emin : ℤ} {rnd : ℚ → ℚ} (h : Nearest p emin rnd) (hp : 1 ≤ p) {e : ℤ}
    (he : emin ≤ e - 1) {x y : ℚ} (hx : 2 ^ p * 2 ^ (e - 1) ≤ |x|) (hy : Rep p emin y) (hm : Float.Mult e y)
    (hd : |x - y| < 2 ^ e / 2) : rnd x = y := by
  have h1 : Float.Mult e (rnd x) := Float.mult_of_ge (h.rep x) (h.neg_bound hp he hx)
  obtain ⟨k, hk⟩ := h1.sub hm
  have h2 := h.near x y hy
  have h3 : |rnd x - y| < 2 ^ e := by
    rw [show rnd x - y = (x - y) - (x - rnd x) by ring]
    refine (abs_sub _ _).trans_lt ?_
    linarith
  rw [hk, abs_mul, abs_of_pos (Float.two_zpow_pos e)] at h3
  have h4 : |(k : ℚ)| < 1 := by
    by_contra hc
    have := mul_le_mul_of_nonneg_right (not_lt.mp hc) (Float.two_zpow_pos e).le
    linarith
  have h5 : |k| < 1 := by exact_mod_cast h4
  have h6 : k = 0 := by rw [abs_lt] at h5; omega
  rw [h6] at hk
  push_cast at hk
  linarith

/-- C84 fails for `downcvt` of 64-bit integers to f32 on NEON: the value is first rounded to f64, so that
2^62 + 2^38 + 1 and 2^62 + 2^38 - 1, which lie on different sides of the middle of two floats, give the same
float. Whatever the rule for ties, one of them is wrong. -/
theorem downcvtIF_f32_counterexample {r64 r32 : ℚ → Fl} (h64 : Ieee 53 (-1074) 1024 r64)
    (h32 : Ieee 24 (-149) 128 r32) (x : Ext) (hx : x ≠ .sve) (junk junk' : Vec (1 + 1) Fl) :
    ¬ DownTo (n := 1) (fun v => r32 (ITy.i64.val v)) (fun _ => 0x4000004000000001#64)
      (fun _ => 0x4000003fffffffff#64) (downcvtIF (n := 1) x r64 r32 .i64 junk junk'
        (fun _ => 0x4000004000000001#64) (fun _ => 0x4000003fffffffff#64)) := by
  intro h
  have h1 := h 0
  have h2 := downcvtIF_neon x hx r64 r32 .i64 junk junk' (n := 1) (fun _ => 0x4000004000000001#64)
    (fun _ => 0x4000003fffffffff#64) 0
  rw [h1.1, h1.2] at h2
  clear h1 h
  have va : ITy.i64.val 0x4000004000000001#64 = 2 ^ 62 + 2 ^ 38 + 1 := by decide
  have vb : ITy.i64.val 0x4000003fffffffff#64 = 2 ^ 62 + 2 ^ 38 - 1 := by decide
  simp only [va, vb] at h2
  clear va vb
  obtain ⟨f, hf, h64⟩ := h64
  obtain ⟨g, hg, h32⟩ := h32
  have e1 : f (2 ^ 62 + 2 ^ 38 + 1) = 2 ^ 62 + 2 ^ 38 := by
    refine nearest_unique hf (by norm_num) (e := 10) (by norm_num) ?_ ?_ ⟨2 ^ 52 + 2 ^ 28, by norm_num⟩ ?_
    · rw [abs_of_pos (by norm_num)]; norm_num
    · exact ⟨2 ^ 52 + 2 ^ 28, 10, by norm_num [abs_of_pos], by norm_num, by norm_num⟩
    · norm_num
  have e2 : f (2 ^ 62 + 2 ^ 38 - 1) = 2 ^ 62 + 2 ^ 38 := by
    refine nearest_unique hf (by norm_num) (e := 10) (by norm_num) ?_ ?_ ⟨2 ^ 52 + 2 ^ 28, by norm_num⟩ ?_
    · rw [abs_of_pos (by norm_num)]; norm_num
    · exact ⟨2 ^ 52 + 2 ^ 28, 10, by norm_num [abs_of_pos], by norm_num, by norm_num⟩
    · norm_num
  have e3 : g (2 ^ 62 + 2 ^ 38 + 1) = 2 ^ 62 + 2 ^ 39 := by
    refine nearest_unique hg (by norm_num) (e := 39) (by norm_num) ?_ ?_ ⟨2 ^ 23 + 1, by norm_num⟩ ?_
    · rw [abs_of_pos (by norm_num)]; norm_num
    · exact ⟨2 ^ 23 + 1, 39, by norm_num [abs_of_pos], by norm_num, by norm_num⟩
    · rw [abs_lt]; norm_num
  have e4 : g (2 ^ 62 + 2 ^ 38 - 1) = 2 ^ 62 := by
    refine nearest_unique hg (by norm_num) (e := 39) (by norm_num) ?_ ?_ ⟨2 ^ 23, by norm_num⟩ ?_
    · rw [abs_of_pos (by norm_num)]; norm_num
    · exact ⟨2 ^ 23, 39, by norm_num [abs_of_pos], by norm_num, by norm_num⟩
    · rw [abs_lt]; norm_num
  have c1 : ((2 ^ 62 + 2 ^ 38 + 1 : ℤ) : ℚ) = 2 ^ 62 + 2 ^ 38 + 1 := by norm_num
  have c2 : ((2 ^ 62 + 2 ^ 38 - 1 : ℤ) : ℚ) = 2 ^ 62 + 2 ^ 38 - 1 := by norm_num
  rw [c1, c2] at h2
  have big : |(2 : ℚ) ^ 62 + 2 ^ 38| < 2 ^ (1024 : ℤ) :=
    lt_trans (b := 2 ^ (64 : ℤ)) (by rw [abs_of_pos (by norm_num)]; norm_num)
      (zpow_lt_zpow_right₀ (by norm_num) (by norm_num))
  have w1 : r64 (2 ^ 62 + 2 ^ 38 + 1) = .fin (2 ^ 62 + 2 ^ 38) := by
    rw [h64, e1, if_pos big]
  have w2 : r64 (2 ^ 62 + 2 ^ 38 - 1) = .fin (2 ^ 62 + 2 ^ 38) := by
    rw [h64, e2, if_pos big]
  have w3 : r32 (2 ^ 62 + 2 ^ 38 + 1) = .fin (2 ^ 62 + 2 ^ 39) := by
    rw [h32, e3, if_pos (by rw [abs_of_pos (by norm_num)]; norm_num)]
  have w4 : r32 (2 ^ 62 + 2 ^ 38 - 1) = .fin (2 ^ 62) := by
    rw [h32, e4, if_pos (by rw [abs_of_pos (by norm_num)]; norm_num)]
  rw [w1, w2, w3, w4] at h2
  have := h2.1.trans h2.2.symm
  injection this with this
  norm_num at this

/-! ### Reinterpretation of the f16 held in two f32 registers -/

/-- C84, `reinterpret` of i16, u16 to f16 and back: the same bits in every lane that is not a NaN, and a NaN
stays one. -/
theorem reinterpret_roundtrip (s d : ITy) (hs : s.w = 16) (hd : d.w = 16) (a : Reg (n + n) s.w) :
    ∃ v, reinterpretToF16 s a = some v ∧ ∀ k,
      (¬ NaN16 ((a k).cast hs) → (reinterpretFromF16 d v k).cast hd = (a k).cast hs) ∧
      (NaN16 ((a k).cast hs) → (reinterpretFromF16 d v k).cast hd = 0xffff#16) := by
  have ec : ∀ x : BitVec s.w, ITy.u16.cast (s.val x) = x.cast hs := by
    intro x
    refine (Props.Arm.setWidth_eq_cast s .u16 (show ITy.u16.w ≤ s.w by rw [hs]) x).symm.trans ?_
    apply BitVec.eq_of_toNat_eq
    have := x.isLt
    simp only [BitVec.toNat_setWidth, BitVec.toNat_cast]
    exact Nat.mod_eq_of_lt (Nat.lt_of_lt_of_eq this (congrArg (fun w => 2 ^ w) hs))
  have ed : ∀ x : BitVec 16, (d.cast (ITy.u16.val x)).cast hd = x := by
    intro x
    rw [← Props.Arm.setWidth_eq_cast .u16 d (show d.w ≤ ITy.u16.w by rw [hd]) x]
    apply BitVec.eq_of_toNat_eq
    have := x.isLt
    simp only [BitVec.toNat_setWidth, BitVec.toNat_cast]
    rw [hd]
    exact Nat.mod_eq_of_lt this
  have rt : ∀ x : BitVec s.w, ∃ r, Nsimd.Fp16.u16ToF32 (ITy.u16.cast (s.val x)) = some r ∧
      (¬ NaN16 (x.cast hs) → (d.cast (ITy.u16.val (Nsimd.Fp16.f32ToU16 r))).cast hd = x.cast hs) ∧
      (NaN16 (x.cast hs) → (d.cast (ITy.u16.val (Nsimd.Fp16.f32ToU16 r))).cast hd = 0xffff#16) := by
    intro x
    obtain ⟨r, h0, h1, h2⟩ := f16_roundtrip (x.cast hs)
    refine ⟨r, by rw [ec]; exact h0, fun hn => ?_, fun hn => ?_⟩
    · rw [ed]; exact h1 hn
    · rw [ed]; exact h2 hn
  choose g hg using rt
  refine ⟨(fun k => g (lo a k), fun k => g (hi a k)), ?_, fun k => ?_⟩
  · unfold reinterpretToF16
    have e0 := (emulate_iff (fun v => Nsimd.Fp16.u16ToF32 (ITy.u16.cast (s.val v))) (lo a)
      (fun k => g (lo a k))).mpr fun k => (hg (lo a k)).1
    have e1 := (emulate_iff (fun v => Nsimd.Fp16.u16ToF32 (ITy.u16.cast (s.val v))) (hi a)
      (fun k => g (hi a k))).mpr fun k => (hg (hi a k)).1
    rw [e0, e1]
    rfl
  · have e : reinterpretFromF16 d (fun k => g (lo a k), fun k => g (hi a k)) k =
        d.cast (ITy.u16.val (Nsimd.Fp16.f32ToU16 (g (a k)))) := by
      unfold reinterpretFromF16 setr
      split
      · rfl
      · exact congrArg (fun x => d.cast (ITy.u16.val (Nsimd.Fp16.f32ToU16 (g (a x)))))
          (Fin.ext (by simp only; omega))
    rw [e]
    exact (hg (a k)).2

example : ¬ NaN16 (0x3c00#16) ∧ NaN16 (0x7e01#16) := by
  unfold NaN16 e16 m16; decide

end Nsimd.Props.ArmCvt
