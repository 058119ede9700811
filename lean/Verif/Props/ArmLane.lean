import Verif.Model.ArmLane
import Verif.Props.ArmMem
import Verif.Props.Ppc
import Verif.Props.ScalarArith
import Verif.Props.X86Mem

/-!
# C73, C74: integer arithmetic and logicals of the ARM back end
-/

namespace Nsimd.Props.ArmLane
open Nsimd.Arm
open Nsimd.X86 (Reg cat halves)
open Nsimd.Cpu (Vec LBin body_eq_some)
open Nsimd.Props.X86Mem (Canonical truth)
open Nsimd.Props.Ppc (meaning)
open Nsimd.ITy

variable {n w : Nat} {α : Type}

/-! ### C73: integer arithmetic -/

/-- `r` is the value `v` reduced modulo `2^w` to the range of the type.
Specification, not code of the repo. -/
def IsMod (t : ITy) (r : BitVec t.w) (v : Int) : Prop :=
  t.minv ≤ t.val r ∧ t.val r ≤ t.maxv ∧ t.val r % 2 ^ t.w = v % 2 ^ t.w

theorem isMod_of {t : ITy} {r : BitVec t.w} {v : Int} (h : t.cast v = r) : IsMod t r v :=
  ⟨val_lb t r, val_ub t r, by rw [← h, val_cast_mod]⟩

theorem cast_add (t : ITy) (a b : BitVec t.w) : t.cast (t.val a + t.val b) = a + b := by
  conv_rhs => rw [← cast_val t a, ← cast_val t b]
  unfold ITy.cast; exact BitVec.ofInt_add ..

theorem cast_mul (t : ITy) (a b : BitVec t.w) : t.cast (t.val a * t.val b) = a * b := by
  conv_rhs => rw [← cast_val t a, ← cast_val t b]
  unfold ITy.cast; exact BitVec.ofInt_mul ..

theorem cast_neg (t : ITy) (a : BitVec t.w) : t.cast (- t.val a) = - a := by
  conv_rhs => rw [← cast_val t a]
  unfold ITy.cast; exact BitVec.ofInt_neg ..

theorem cast_sub (t : ITy) (a b : BitVec t.w) : t.cast (t.val a - t.val b) = a - b := by
  rw [BitVec.sub_eq_add_neg, ← cast_neg, Int.sub_eq_add_neg]
  conv_rhs => rw [← cast_val t a]
  unfold ITy.cast; exact BitVec.ofInt_add ..

/-- The operators made of one instruction wrap, on every type. -/
theorem wrap_spec (t : ITy) (a b : Reg n t.w) (i : Fin n) :
    IsMod t (addI a b i) (t.val (a i) + t.val (b i)) ∧
    IsMod t (subI a b i) (t.val (a i) - t.val (b i)) ∧
    IsMod t (mulI a b i) (t.val (a i) * t.val (b i)) ∧
    IsMod t (negI a i) (- t.val (a i)) :=
  ⟨isMod_of (cast_add ..), isMod_of (cast_sub ..), isMod_of (cast_mul ..), isMod_of (cast_neg ..)⟩

example : addI (n := 2) ![0x7f#8, 3#8] ![1#8, 4#8] 0 = 0x80#8 ∧ negI (n := 1) ![0x80#8] 0 = 0x80#8 := by
  decide

theorem bind_prom {t : ITy} {v : Int} {r : BitVec t.w}
    (h : (do return t.cast (← t.prom v)) = some r) : t.cast v = r := by
  cases hp : t.prom v with
  | none => rw [hp] at h; cases h
  | some p =>
    rw [hp] at h
    have : t.cast p = r := by simpa using h
    rw [← this, prom_cast hp]

/-- Where the scalar operators are defined, the vector operators return the same. -/
theorem scalar_agree (t : ITy) (a b : Reg n t.w) (i : Fin n) (r : BitVec t.w) :
    (Scalar.add t (a i) (b i) = some r → addI a b i = r) ∧
    (Scalar.sub t (a i) (b i) = some r → subI a b i = r) ∧
    (Scalar.mul t (a i) (b i) = some r → mulI a b i = r) ∧
    (Scalar.neg t (a i) = some r → negI a i = r) :=
  ⟨fun h => by rw [← bind_prom h, cast_add]; rfl, fun h => by rw [← bind_prom h, cast_sub]; rfl,
    fun h => by rw [← bind_prom h, cast_mul]; rfl, fun h => by rw [← bind_prom h, cast_neg]; rfl⟩

example : Scalar.mul .i32 7#32 (-3#32) = some (-21#32) := by decide

/-- The emulated operators return in every lane what the scalar operator returns, and are undefined
if that is undefined on some lane. -/
theorem emulated_spec (t : ITy) (a b r : Reg n t.w) :
    (mul64 t a b = some r ↔ ∀ i, Scalar.mul t (a i) (b i) = some (r i)) ∧
    (divEmul t a b = some r ↔ ∀ i, Scalar.div t (a i) (b i) = some (r i)) ∧
    (neg64 t a = some r ↔ ∀ i, Scalar.neg t (a i) = some (r i)) := by
  unfold mul64 divEmul neg64 emulateOp2 emulateOp1
  simp only [body_eq_some, and_self]

theorem abs64_spec (a r : Reg n 64) :
    abs64 a = some r ↔ ∀ i, Scalar.abs .i64 (a i) = some (r i) := by
  unfold abs64 emulateOp1
  exact body_eq_some ..

example : mul64 .i64 ![3#64, -4#64] ![5#64, 6#64] = some ![15#64, -24#64] := by
  rw [(emulated_spec .i64 _ _ _).1]; decide

/-- Emulated products of `i64` and the opposite and absolute value of the smallest `i64` are
undefined while every other product and opposite is the exact value. -/
theorem emulated_i64 (a b : Reg n 64) :
    ((∃ r, mul64 .i64 a b = some r) ↔
      ∀ i, -2 ^ 63 ≤ (a i).toInt * (b i).toInt ∧ (a i).toInt * (b i).toInt < 2 ^ 63) ∧
    ((∃ r, neg64 .i64 a = some r) ↔ ∀ i, (a i).toInt ≠ -2 ^ 63) ∧
    ((∃ r, abs64 a = some r) ↔ ∀ i, (a i).toInt ≠ -2 ^ 63) := by
  have ex : ∀ f : Fin n → Option (BitVec 64), (∃ r, Cpu.body f = some r) ↔ ∀ i, ∃ r, f i = some r := by
    intro f
    constructor
    · rintro ⟨r, h⟩ i
      exact ⟨r i, (body_eq_some ..).mp h i⟩
    · intro h
      choose r hr using h
      exact ⟨r, (body_eq_some ..).mpr hr⟩
  have pr : ∀ v : Int, (∃ r, (do return ITy.i64.cast (← ITy.i64.prom v)) = some r) ↔
      -2 ^ 63 ≤ v ∧ v < 2 ^ 63 := by
    intro v
    simp only [ITy.prom, ITy.promSgn, ITy.promW, if_true]
    norm_num
    by_cases h : -9223372036854775808 ≤ v ∧ v < 9223372036854775808
    · rw [if_pos h]
      exact ⟨fun _ => h, fun _ => ⟨_, rfl⟩⟩
    · rw [if_neg h]
      exact ⟨fun hx => by obtain ⟨_, hx⟩ := hx; simp at hx, fun h' => absurd h' h⟩
  have lo : ∀ i, -2 ^ 63 ≤ (a i).toInt := fun i => BitVec.le_toInt (a i)
  have hi : ∀ i, (a i).toInt < 2 ^ 63 := fun i => BitVec.toInt_lt
  refine ⟨?_, ?_, ?_⟩
  · unfold mul64 emulateOp2
    rw [ex]
    exact forall_congr' fun i => pr _
  · unfold neg64 emulateOp1
    rw [ex]
    refine forall_congr' fun i => (pr _).trans ?_
    have := lo i; have := hi i
    show -2 ^ 63 ≤ -(a i).toInt ∧ -(a i).toInt < 2 ^ 63 ↔ _
    omega
  · unfold abs64 emulateOp1
    rw [ex]
    refine forall_congr' fun i => ?_
    have h1 := lo i; have h2 := hi i
    by_cases h : (a i).toInt ≥ 0
    · have : ITy.i64.val (a i) ≥ 0 := h
      simp only [Scalar.abs, ITy.sgn, if_true, if_pos this]
      exact ⟨fun _ => by omega, fun _ => ⟨_, rfl⟩⟩
    · have : ¬ ITy.i64.val (a i) ≥ 0 := h
      simp only [Scalar.abs, ITy.sgn, if_true, if_neg this]
      refine (pr _).trans ?_
      show -2 ^ 63 ≤ -(a i).toInt ∧ -(a i).toInt < 2 ^ 63 ↔ _
      omega

example : (-2 : Int) ^ 63 ≤ (3#64).toInt * (5#64).toInt := by decide

/-- Division on SVE: the scalar quotient where that is defined, zero for a zero divisor and the
smallest value for its quotient by -1. -/
theorem divSve_spec (t : ITy) (a b : Reg n t.w) (i : Fin n) :
    (∀ r, Scalar.div t (a i) (b i) = some r → divSve t a b i = r) ∧
    (t.val (b i) = 0 → divSve t a b i = 0#t.w) ∧
    (t.val (b i) ≠ 0 → IsMod t (divSve t a b i) (Int.tdiv (t.val (a i)) (t.val (b i)))) := by
  refine ⟨fun r h => ?_, fun h => ?_, fun h => ?_⟩
  · by_cases hb : t.val (b i) = 0
    · simp [Scalar.div, hb] at h
    · simp only [Scalar.div, if_neg hb] at h
      unfold divSve svdiv
      rw [if_neg hb]
      exact bind_prom h
  · unfold divSve svdiv; rw [if_pos h]
  · unfold divSve svdiv; rw [if_neg h]; exact isMod_of rfl

example : divSve (n := 1) .i32 ![-7#32] ![2#32] 0 = -3#32 ∧
    divSve (n := 1) .i32 ![0x80000000#32] ![-1#32] 0 = 0x80000000#32 := by decide

/-- Absolute values: the exact value except for the smallest signed value, which is unchanged. -/
theorem abs_spec (t : ITy) (a : Reg n t.w) (i : Fin n) :
    IsMod t (absI t a i) |t.val (a i)| ∧
    (∀ r, Scalar.abs t (a i) = some r → absI t a i = r) ∧
    (t.sgn = true → t.val (a i) = t.minv → absI t a i = a i) := by
  have key : t.cast |t.val (a i)| = absI t a i := by
    unfold absI
    by_cases hs : t.sgn = true
    · have hv : t.val (a i) = (a i).toInt := by unfold ITy.val; rw [if_pos hs]
      simp only [if_pos hs, vabs]
      by_cases h : (a i).toInt < 0
      · rw [if_pos h, abs_of_neg (by rw [hv]; exact h), cast_neg]
      · rw [if_neg h, abs_of_nonneg (by rw [hv]; omega), cast_val]
    · have hv : t.val (a i) = (a i).toNat := by unfold ITy.val; rw [if_neg hs]
      simp only [if_neg hs]
      rw [abs_of_nonneg (by rw [hv]; omega), cast_val]
  refine ⟨isMod_of key, fun r h => ?_, fun hs h => ?_⟩
  · rw [← key]
    unfold Scalar.abs at h
    by_cases hs : t.sgn = true
    · by_cases h0 : t.val (a i) ≥ 0
      · rw [abs_of_nonneg h0]
        simpa [hs, h0] using h
      · rw [abs_of_neg (by omega)]
        simp only [if_pos hs, if_neg h0] at h
        exact bind_prom h
    · rw [if_neg hs] at h
      have hv : t.val (a i) = (a i).toNat := by unfold ITy.val; rw [if_neg hs]
      rw [abs_of_nonneg (by rw [hv]; omega), cast_val]
      simpa using h
  · rw [← key, h]
    conv_rhs => rw [← cast_val t (a i), h]
    apply cast_eq_of_mod
    cases t <;> simp_all [ITy.minv, ITy.sgn, ITy.w]

example : absI (n := 1) .i16 ![-5#16] 0 = 5#16 ∧ absI (n := 1) .i8 ![0x80#8] 0 = 0x80#8 := by decide

/-- Minima and maxima by instructions and emulated ones, on every integer type. -/
theorem minmax_spec (t : ITy) (a b : Reg n t.w) (i : Fin n) :
    t.val (minI t a b i) = min (t.val (a i)) (t.val (b i)) ∧
    t.val (maxI t a b i) = max (t.val (a i)) (t.val (b i)) ∧
    t.val (min64 t a b i) = min (t.val (a i)) (t.val (b i)) ∧
    t.val (max64 t a b i) = max (t.val (a i)) (t.val (b i)) ∧
    minI t a b i = Scalar.min t (a i) (b i) ∧ maxI t a b i = Scalar.max t (a i) (b i) := by
  have h1 : t.val (minI t a b i) = min (t.val (a i)) (t.val (b i)) := by
    unfold minI vmin; split <;> omega
  have h2 : t.val (maxI t a b i) = max (t.val (a i)) (t.val (b i)) := by
    unfold maxI vmax; split <;> omega
  refine ⟨h1, h2, ?_, ?_, val_inj t ?_, val_inj t ?_⟩
  · unfold min64; split <;> omega
  · unfold max64; split <;> omega
  · rw [h1]; unfold Scalar.min; split <;> omega
  · rw [h2]; unfold Scalar.max; split <;> omega

example : minI (n := 1) .i8 ![0xff#8] ![1#8] 0 = 0xff#8 ∧ min64 (n := 1) .u64 ![-1#64] ![1#64] 0 = 1#64 := by
  decide

/-- Saturated sums and differences: the exact value clamped to the range of the type; sums are those
of the scalar operator. -/
theorem saturate_spec (t : ITy) (a b : Reg n t.w) (i : Fin n) :
    t.val (adds t a b i) = clampTo t.minv t.maxv (t.val (a i) + t.val (b i)) ∧
    t.val (subs t a b i) = clampTo t.minv t.maxv (t.val (a i) - t.val (b i)) ∧
    Scalar.adds t (a i) (b i) = some (adds t a b i) := by
  have key : ∀ v, t.val (sat t v) = clampTo t.minv t.maxv v := by
    intro v
    have h0 : t.minv ≤ t.maxv := by cases t <;> decide
    unfold sat
    rw [val_cast t _ (by omega) (by omega)]
    unfold clampTo
    split
    · omega
    · split <;> omega
  refine ⟨key _, key _, ?_⟩
  obtain ⟨r, h1, h2⟩ := adds_saturates t (a i) (b i)
  rw [h1]
  congr 1
  apply val_inj t
  rw [h2]
  exact (key _).symm

example : adds (n := 1) .i8 ![100#8] ![100#8] 0 = 127#8 ∧ subs (n := 1) .i8 ![1#8] ![0x80#8] 0 = 127#8 := by
  decide

/-- `iota`: lane `i` holds `i` modulo `2^w`. -/
theorem iota_spec (t : ITy) (i : Fin n) :
    IsMod t (iota t n i) i.val ∧ iotaSve t.w n i = iota t n i := by
  refine ⟨isMod_of rfl, ?_⟩
  unfold iotaSve svindex iota ITy.cast
  apply BitVec.eq_of_toNat_eq
  simp

example : iotaSve 8 4 3 = 3#8 := by decide

/-- `notb` through 32-bit halves is the complement. -/
theorem notb64_spec (a : Reg n 64) : notb64 a = notb a := by
  funext i
  apply BitVec.eq_of_getElem_eq
  intro k hk
  show ((~~~ (a i).extractLsb' 32 32) ++ (~~~ (a i).extractLsb' 0 32) : BitVec (32 + 32))[k] =
    (~~~ (a i))[k]
  rw [BitVec.getElem_append]
  split
  · rw [BitVec.getElem_not, BitVec.getElem_not, BitVec.getElem_extractLsb']
    simp [BitVec.getLsbD_eq_getElem hk]
  · rw [BitVec.getElem_not, BitVec.getElem_not, BitVec.getElem_extractLsb',
      show 32 + (k - 32) = k by omega, BitVec.getLsbD_eq_getElem hk]

example : notb64 (n := 1) ![0x0123456789abcdef#64] 0 = 0xfedcba9876543210#64 := by decide

/-- The bitwise operators are those of the scalar back end on every lane. -/
theorem bitwise_spec (t : ITy) (a b : Reg n t.w) (i : Fin n) :
    andb a b i = Scalar.andb t (a i) (b i) ∧ orb a b i = Scalar.orb t (a i) (b i) ∧
    xorb a b i = Scalar.xorb t (a i) (b i) ∧ andnotb a b i = Scalar.andnotb t (a i) (b i) ∧
    notb a i = Scalar.notb t (a i) := ⟨rfl, rfl, rfl, rfl, rfl⟩

example : andnotb (n := 1) ![0xff#8] ![0x0f#8] 0 = 0xf0#8 := by decide

/-! ### C74: logicals -/

/-- `l` is the logical vector with the truth values `v`: lanes all ones or zero.
Specification, not code of the repo. -/
def Represents (l : Reg n w) (v : Fin n → Bool) : Prop :=
  ∀ i, l i = if v i then BitVec.allOnes w else 0#w

/-- A logical vector has one meaning. -/
theorem represents_inj (hw : 0 < w) {l : Reg n w} {v v' : Fin n → Bool} (h : Represents l v)
    (h' : Represents l v') : v = v' := by
  funext i
  have := (h i).symm.trans (h' i)
  have ne : BitVec.allOnes w ≠ 0#w := by
    intro hc
    have := congrArg BitVec.toNat hc
    rw [BitVec.toNat_allOnes] at this
    have : 2 ^ 1 ≤ 2 ^ w := Nat.pow_le_pow_right (by norm_num) hw
    simp at *
    omega
  cases hv : v i <;> cases hv' : v' i <;> simp_all

theorem represents_not {l : Reg n w} {v : Fin n → Bool} (h : Represents l v) :
    Represents (notl l) fun i => !(v i) := by
  intro i
  show ~~~ l i = _
  rw [h i]
  by_cases hv : v i = true <;> simp [hv]

theorem ones_eq (w : Nat) : BitVec.ofInt w (-1) = BitVec.allOnes w := by
  rw [show (-1 : Int) = -(1 : Nat) by rfl, BitVec.ofInt_neg]
  apply BitVec.eq_of_toNat_eq
  rw [BitVec.toNat_allOnes]
  rcases w with _ | w
  · rfl
  · have : 2 ^ 1 ≤ 2 ^ (w + 1) := Nat.pow_le_pow_right (by norm_num) (by omega)
    simp [BitVec.toNat_neg]

theorem compl_zero (w : Nat) : ~~~ 0#w = BitVec.allOnes w := by simp

/-- Comparisons: lane `i` of every form is true iff the relation holds between lanes `i`. -/
theorem cmp_spec (w : Nat) (rel : α → α → Bool) (a b : Vec n α) :
    Represents (Arm.cmp w rel a b) (fun i => rel (a i) (b i)) ∧
    Represents (cmpSveEmul w rel a b) (fun i => rel (a i) (b i)) ∧
    (∀ i, cmpSve rel a b i = rel (a i) (b i)) := by
  refine ⟨fun i => ?_, fun i => ?_, fun i => rfl⟩
  · unfold Arm.cmp vcmp maskLane; rfl
  · unfold cmpSveEmul fromPredicate svsel svcmp
    simp only [compl_zero]

theorem cmp64_spec (rel : α → α → Bool) (a b : Vec 2 α) :
    Represents (cmp64 rel a b) fun i => rel (a i) (b i) := by
  intro i
  unfold cmp64
  match i with
  | 0 => rfl
  | 1 => rfl

theorem cmpF16_spec (rel : α → α → Bool) (a b : Vec n α × Vec n α) :
    Represents (cat (cmpF16 rel a b).1 (cmpF16 rel a b).2) fun i =>
      rel (cat a.1 a.2 i) (cat b.1 b.2 i) := by
  rw [Represents, X86Mem.forall_halves]
  refine ⟨fun i => ?_, fun i => ?_⟩
  · simp only [X86Mem.cat_lo]; exact (cmp_spec 32 rel a.1 b.1).1 i
  · simp only [X86Mem.cat_hi]; exact (cmp_spec 32 rel a.2 b.2).1 i

example : Arm.cmp 8 (Scalar.lt .i8) (n := 2) ![-1#8, 3#8] ![1#8, 3#8] 0 = 0xff#8 ∧
    Arm.cmp 8 (Scalar.lt .i8) (n := 2) ![-1#8, 3#8] ![1#8, 3#8] 1 = 0#8 := by decide

/-- `ne` is true iff `eq` is false; with the IEEE relation a NaN therefore differs from itself. -/
theorem ne_spec (w : Nat) (eq : α → α → Bool) (a b : Vec n α) :
    Represents (ne w eq a b) (fun i => !(eq (a i) (b i))) ∧
    (∀ i, neSve eq a b i = !(eq (a i) (b i))) :=
  ⟨represents_not (cmp_spec w eq a b).1, fun _ => rfl⟩

theorem ne64_spec (eq : α → α → Bool) (a b : Vec 2 α) :
    Represents (ne64 eq a b) fun i => !(eq (a i) (b i)) := by
  unfold ne64
  rw [notb64_spec]
  exact represents_not (cmp64_spec eq a b)

example : ne 8 (Scalar.eq .i8) (n := 1) ![2#8] ![3#8] 0 = 0xff#8 := by decide

/-- The logical operators act on the truth values. -/
theorem lop_spec (o : LBin) {a b : Reg n w} {u v : Fin n → Bool} (ha : Represents a u)
    (hb : Represents b v) :
    Represents (lop2 o a b) (fun i => meaning o (u i) (v i)) ∧
    Represents (notl a) (fun i => !(u i)) := by
  refine ⟨fun i => ?_, represents_not ha⟩
  have h1 := ha i; have h2 := hb i
  cases o <;> simp only [lop2, andb, orb, xorb, andnotb, h1, h2, meaning] <;>
    by_cases hu : u i = true <;> by_cases hv : v i = true <;> simp [hu, hv]

theorem lopF16_spec (o : LBin) {a b : Reg n 32 × Reg n 32} {u v : Fin (n + n) → Bool}
    (ha : Represents (cat a.1 a.2) u) (hb : Represents (cat b.1 b.2) v) :
    Represents (cat (lop2F16 o a b).1 (lop2F16 o a b).2) fun i => meaning o (u i) (v i) := by
  have e : cat (lop2F16 o a b).1 (lop2F16 o a b).2 = lop2 o (cat a.1 a.2) (cat b.1 b.2) := by
    funext i
    unfold lop2F16
    cases o <;> simp only [lop2, andb, orb, xorb, andnotb, cat] <;> split <;> rfl
  rw [e]
  exact (lop_spec o ha hb).1

theorem lopSve_spec (o : LBin) (a b : Fin n → Bool) (i : Fin n) :
    lop2Sve o a b i = meaning o (a i) (b i) ∧ notlSve a i = !(a i) := by
  refine ⟨?_, rfl⟩
  unfold lop2Sve meaning
  cases o <;> cases a i <;> cases b i <;> rfl

example : Represents (n := 2) (w := 8) ![0xff#8, 0#8] ![true, false] := by
  intro i; match i with | 0 => rfl | 1 => rfl

/-- `set1l`. -/
theorem set1l_spec (b : Int) :
    Represents (set1l n w b) (fun _ => decide (b ≠ 0)) ∧ set1lSve n b = fun _ => decide (b ≠ 0) := by
  refine ⟨fun i => ?_, ?_⟩
  · unfold set1l
    rw [ones_eq]
    by_cases h : b = 0 <;> simp [h]
  · unfold set1lSve svtrue
    by_cases h : b = 0 <;> simp [h]

example : set1l 4 8 1 2 = 0xff#8 := by decide

/-- With emulated logicals, converting predicates to registers and back is the identity, and so is
the other order on the registers that are logicals. -/
theorem predicate_spec (hw : 0 < w) (p : Fin n → Bool) :
    Represents (fromPredicate w p) p ∧ toPredicate (fromPredicate w p) = p ∧
    ∀ l : Reg n w, Represents l p → toPredicate l = p ∧ fromPredicate w (toPredicate l) = l := by
  have h1 : Represents (fromPredicate w p) p := fun i => by
    unfold fromPredicate svsel; simp only [compl_zero]
  have ne : BitVec.allOnes w ≠ 0#w := by
    intro hc
    have := represents_inj (n := 1) hw (l := fun _ => 0#w) (v := fun _ => true) (v' := fun _ => false)
      (fun i => hc.symm) (fun i => rfl)
    exact absurd (congrFun this 0) (by decide)
  have h2 : ∀ l : Reg n w, Represents l p → toPredicate l = p := by
    intro l h
    funext i
    unfold toPredicate svcmp
    rw [h i, compl_zero]
    cases p i
    · simp [ne.symm]
    · simp
  refine ⟨h1, h2 _ h1, fun l h => ⟨h2 l h, ?_⟩⟩
  rw [h2 l h]
  funext i
  rw [h1 i, h i]

example : toPredicate (n := 2) (w := 8) ![0xff#8, 0#8] = ![true, false] := by
  funext i; match i with | 0 => rfl | 1 => rfl

/-- Selection takes the lane of the first vector where the logical is true. -/
theorem ifElse_spec {l : Reg n w} {v : Fin n → Bool} (h : Represents l v) (a b : Reg n w) (i : Fin n) :
    ifElse1 l a b i = if v i then a i else b i := by
  unfold ifElse1 vbsl
  rw [h i]
  cases v i <;> simp

theorem ifElseF16_spec {l : Reg n 32 × Reg n 32} {v : Fin (n + n) → Bool}
    (h : Represents (cat l.1 l.2) v) (a b : Reg n 32 × Reg n 32) (i : Fin (n + n)) :
    cat (ifElse1F16 l a b).1 (ifElse1F16 l a b).2 i =
      if v i then cat a.1 a.2 i else cat b.1 b.2 i := by
  have e : cat (ifElse1F16 l a b).1 (ifElse1F16 l a b).2 =
      ifElse1 (cat l.1 l.2) (cat a.1 a.2) (cat b.1 b.2) := by
    funext i
    unfold ifElse1F16
    simp only [ifElse1, vbsl, cat]; split <;> rfl
  rw [e]
  exact ifElse_spec h _ _ i

theorem ifElseF64_spec {l : Reg 2 64} {v : Fin 2 → Bool} (h : Represents l v) (a b : Vec 2 α)
    (i : Fin 2) : ifElse1F64 l a b i = if v i then a i else b i := by
  have key : ∀ i, (l i != 0#64) = v i := fun i => by rw [h i]; cases v i <;> decide
  unfold ifElse1F64
  match i with
  | 0 => show (if l 0 != 0#64 then _ else _) = _; rw [key]
  | 1 => show (if l 1 != 0#64 then _ else _) = _; rw [key]

theorem ifElseSve_spec (hw : 0 < w) {l : Reg n w} {v : Fin n → Bool} (h : Represents l v)
    (a b : Vec n α) (i : Fin n) :
    ifElse1Sve v a b i = (if v i then a i else b i) ∧
    ifElse1SveEmul l a b i = if v i then a i else b i := by
  refine ⟨rfl, ?_⟩
  unfold ifElse1SveEmul
  rw [((predicate_spec hw v).2.2 l h).1]
  rfl

example : ifElse1 (n := 2) ![0xff#8, 0#8] ![1#8, 2#8] ![3#8, 4#8] 1 = 4#8 := by decide

/-- Logicals and masks: the mask of a logical has all ones in true lanes; a mask is true in its
non-zero lanes; going to a mask and back is the identity. -/
theorem mask_spec {l : Reg n w} {v : Fin n → Bool} (h : Represents l v) (a : Reg n w) :
    Represents (toMask l) v ∧ Represents (toMaskSve w v) v ∧
    Represents (toLogical a) (truth a) ∧ toLogicalSve a = truth a := by
  refine ⟨h, fun i => ?_, (ne_spec w _ a _).1, rfl⟩
  unfold toMaskSve svsel
  simp only [ones_eq]

theorem toLogical64_spec (a : Reg 2 64) : Represents (toLogical64 a) (truth a) := ne64_spec _ _ _

theorem toLogical_toMask (hw : 0 < w) {l : Reg n w} {v : Fin n → Bool} (h : Represents l v) :
    toLogical (toMask l) = l ∧ toLogicalSve (toMaskSve w v) = v := by
  have ht : ∀ m : Reg n w, Represents m v → truth m = v := by
    intro m hm
    refine represents_inj hw (l := m) (fun i => ?_) hm
    unfold truth
    rw [hm i]
    cases v i
    · simp
    · simp only [if_true]
      split
      · rfl
      · rename_i hc
        simpa using hc
  refine ⟨?_, ?_⟩
  · funext i
    rw [(mask_spec h (toMask l)).2.2.1 i, ht (toMask l) h, h i]
  · rw [(mask_spec h (toMaskSve w v)).2.2.2]
    exact ht _ (mask_spec h l).2.1

example : toLogical (n := 2) ![5#8, 0#8] 0 = 0xff#8 ∧ toLogical (n := 2) ![5#8, 0#8] 1 = 0#8 := by decide

/-- `reinterpretl` between f16 (two f32 registers) and the 16-bit integers keeps the truth values. -/
theorem reinterpretl_spec {l : Reg (n + n) 16} {v : Fin (n + n) → Bool} (h : Represents l v)
    {l' : Reg n 32 × Reg n 32} (h' : Represents (cat l'.1 l'.2) v) :
    Represents (cat (reinterpretlToF16 l).1 (reinterpretlToF16 l).2) v ∧
    Represents (reinterpretlFromF16 l') v := by
  constructor
  · unfold reinterpretlToF16
    rw [Represents, X86Mem.forall_halves]
    refine ⟨fun i => ?_, fun i => ?_⟩
    · rw [X86Mem.cat_lo]
      unfold halves
      simp only [h _]
      cases v ⟨i, by omega⟩ <;> decide
    · rw [X86Mem.cat_hi]
      unfold halves
      simp only [h _]
      cases v ⟨n + i, by omega⟩ <;> decide
  · intro i
    unfold reinterpretlFromF16
    rw [h' i]
    cases v i <;> decide

example : (reinterpretlToF16 (n := 1) (![0xffff#16, 0#16] : Fin 2 → _)).1 0 = 0xffffffff#32 := by decide

/-- Logical vectors in memory: the vector stored for a logical has the value one in true lanes and
zero in false lanes; a loaded lane is true unless it equals zero; storing then loading gives the
logical back as soon as one differs from zero. -/
theorem logMem_spec {l : Reg n w} {v : Fin n → Bool} (h : Represents l v) (one zero : BitVec w)
    (eq : BitVec w → BitVec w → Bool) (h1 : eq one zero = false) (h0 : eq zero zero = true) :
    (∀ i, storel one zero l i = if v i then one else zero) ∧
    (∀ i, storelSve one zero v i = if v i then one else zero) ∧
    (∀ a : Reg n w, Represents (loadl w eq zero a) fun i => !(eq (a i) zero)) ∧
    (∀ a : Reg n w, loadlSve eq zero a = fun i => !(eq (a i) zero)) ∧
    loadl w eq zero (storel one zero l) = l ∧
    loadlSve eq zero (storelSve one zero v) = v := by
  have hs : ∀ i, storel one zero l i = if v i then one else zero := fun i => ifElse_spec h _ _ i
  refine ⟨hs, fun i => rfl, fun a => represents_not (cmp_spec w eq a _).1, fun a => rfl, ?_, ?_⟩
  · funext i
    have := represents_not (cmp_spec w eq (storel one zero l) fun _ => zero).1 i
    unfold loadl
    rw [this]
    beta_reduce
    rw [hs i, h i]
    cases v i <;> simp [h1, h0]
  · funext i
    show (!(eq (storelSve one zero v i) zero)) = v i
    show (!(eq (if v i then one else zero) zero)) = v i
    cases v i <;> simp [h1, h0]

example : Scalar.eq .i8 1#8 0#8 = false ∧ Scalar.eq .i8 0#8 0#8 = true := by decide

/-- `reverse`: lane `i` is lane `n - 1 - i`, on NEON (also for 64-bit types and f16 in two f32
registers) and SVE. -/
theorem reverse_spec {k : Nat} (v : Vec (k + k) α) (i : Fin (k + k)) :
    reverse v i = v ⟨k + k - 1 - i, by omega⟩ ∧ reverseSve v i = v ⟨k + k - 1 - i, by omega⟩ := by
  constructor
  · unfold reverse swapHalves cat halves
    dsimp only
    by_cases hi : i.val < k
    · rw [dif_pos hi]
      unfold vrev64
      rw [dif_neg (by simp)]
      congr 1
      apply Fin.ext
      simp
      omega
    · rw [dif_neg hi]
      unfold vrev64
      rw [dif_pos (by show i.val - k < k; omega)]
      congr 1
      apply Fin.ext
      simp
      omega
  · unfold reverseSve
    congr 1
    apply Fin.ext
    simp [Fin.rev]
    omega

theorem reverse64_spec (v : Vec (1 + 1) α) (i : Fin (1 + 1)) :
    reverse64 v i = v ⟨1 - i, by omega⟩ := by
  match i with
  | 0 => rfl
  | 1 => rfl

theorem reverseF16_spec {k : Nat} (v : Vec (k + k) α × Vec (k + k) α) (i : Fin ((k + k) + (k + k))) :
    cat (reverseF16 v).1 (reverseF16 v).2 i =
      cat v.1 v.2 ⟨(k + k) + (k + k) - 1 - i, by omega⟩ := by
  unfold reverseF16 cat
  dsimp only
  by_cases hi : i.val < k + k
  · rw [dif_pos hi, dif_neg (by omega), (reverse_spec _ _).1]
    refine congrArg v.2 (Fin.ext ?_)
    simp
    omega
  · rw [dif_neg hi, dif_pos (by omega), (reverse_spec _ _).1]
    refine congrArg v.1 (Fin.ext ?_)
    simp
    omega

example : reverse (k := 2) (![1, 2, 3, 4] : Fin 4 → Nat) 1 = 3 := by decide

end Nsimd.Props.ArmLane
