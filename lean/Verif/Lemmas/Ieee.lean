import Verif.Lemmas.FloatLane
import Verif.Lemmas.Fp16
import Mathlib.Algebra.Order.Floor.Semiring
import Mathlib.Analysis.Real.Sqrt
import Mathlib.Tactic.Linarith
import Mathlib.Tactic.FieldSimp

/-!
# IEEE-754 arithmetic on f32 and f64 patterns

Reference operations, rounding to nearest, ties to even, computed from the exact result.  A processor that follows
IEEE-754 agrees with them up to the choice of a NaN (`IsIeee`).
-/

namespace Nsimd.Props.Ieee
open Nsimd Nsimd.FloatLane Nsimd.Props.FloatLane
open Nsimd.Fp16 (mag mag_strictMono mag_succ mag_of_lt mag_of_parts)

/-! ### Rounding of a magnitude -/

/-- The largest `k` whose magnitude is at most `n`. Specification (IEEE-754). -/
def below (M n : Nat) : Nat :=
  if n < 2 ^ (M + 1) then n else (n.log2 - M) * 2 ^ M + n / 2 ^ (n.log2 - M)

theorem below_spec (M n : Nat) : mag M (below M n) ≤ n ∧ n < mag M (below M n + 1) := by
  unfold below
  by_cases h : n < 2 ^ (M + 1)
  · rw [if_pos h, mag_succ, mag_of_lt M n h]
    exact ⟨le_rfl, Nat.lt_add_of_pos_right (Nat.two_pow_pos _)⟩
  · rw [if_neg h]
    rw [not_lt] at h
    have hn : n ≠ 0 := by have := Nat.two_pow_pos (M + 1); omega
    have hl : M + 1 ≤ n.log2 := (Nat.le_log2 hn).mpr h
    obtain ⟨e, he⟩ : ∃ e, n.log2 = M + e := ⟨n.log2 - M, by omega⟩
    have hlo : 2 ^ (M + e) ≤ n := he ▸ Nat.log2_self_le hn
    have hhi : n < 2 ^ (M + e + 1) := he ▸ Nat.lt_log2_self
    rw [he, Nat.add_sub_cancel_left]
    have hpe := Nat.two_pow_pos e
    have q1 : 2 ^ M ≤ n / 2 ^ e := by rw [Nat.le_div_iff_mul_le hpe, ← pow_add]; exact hlo
    have q2 : n / 2 ^ e < 2 ^ M * 2 := by
      rw [Nat.div_lt_iff_lt_mul hpe]
      calc n < 2 ^ (M + e + 1) := hhi
        _ = 2 ^ M * 2 * 2 ^ e := by ring
    obtain ⟨r, hr⟩ : ∃ r, n / 2 ^ e = 2 ^ M + r := ⟨n / 2 ^ e - 2 ^ M, by omega⟩
    have hk : e * 2 ^ M + n / 2 ^ e = (e + 1) * 2 ^ M + r := by rw [hr]; ring
    have hrl : r < 2 ^ M := by omega
    have hq : ((e + 1) * 2 ^ M + r) / 2 ^ M = e + 1 := by
      rw [Nat.mul_comm, Nat.mul_add_div (Nat.two_pow_pos _), Nat.div_eq_of_lt hrl, Nat.add_zero]
    rw [mag_succ, hk, hq, mag_of_parts M (e + 1) r (by omega) hrl, Nat.add_sub_cancel, ← hr]
    have := Nat.div_add_mod n (2 ^ e)
    have := Nat.mod_lt n hpe
    rw [Nat.mul_comm]
    omega

/-- The `k` whose magnitude is nearest to a number between the integers `n` and `n + 1`, ties to even; `c` compares
twice the number. Specification (IEEE-754). -/
def near (M n : Nat) (c : Nat → Ordering) : Nat :=
  let k := below M n
  match c (mag M k + mag M (k + 1)) with
  | .lt => k
  | .gt => k + 1
  | .eq => if k % 2 = 0 then k else k + 1

/-- Rounding of `x`, in units of the smallest positive number. Specification (IEEE-754). -/
def rnd (M : Nat) (x : ℚ) : Nat := near M ⌊x⌋₊ fun y => compare (2 * x) y

section near
variable {K : Type} [Field K] [LinearOrder K] [IsStrictOrderedRing K]

omit [IsStrictOrderedRing K] in
theorem near_cases (M n : Nat) (c : Nat → Ordering) (x : K) (hc : ∀ z : Nat, c z = compare (2 * x) (z : K)) :
    let k := below M n
    let s : K := mag M k + mag M (k + 1)
    (2 * x < s ∧ near M n c = k) ∨ (s < 2 * x ∧ near M n c = k + 1) ∨
      (2 * x = s ∧ near M n c = if k % 2 = 0 then k else k + 1) := by
  intro k s
  have hs : ((mag M k + mag M (k + 1) : ℕ) : K) = s := by push_cast; rfl
  have e : near M n c = match c (mag M k + mag M (k + 1)) with
    | .lt => k
    | .gt => k + 1
    | .eq => if k % 2 = 0 then k else k + 1 := rfl
  rw [e, hc, hs]
  rcases lt_trichotomy (2 * x) s with h | h | h
  · rw [compare_lt_iff_lt.mpr h]; exact .inl ⟨h, rfl⟩
  · rw [compare_eq_iff_eq.mpr h]; exact .inr (.inr ⟨h, rfl⟩)
  · rw [compare_gt_iff_gt.mpr h]; exact .inr (.inl ⟨h, rfl⟩)

/-- The rounded magnitude is a nearest one, with an even mantissa if two are nearest. -/
theorem near_nearest (M n : Nat) (c : Nat → Ordering) (x : K) (hc : ∀ z : Nat, c z = compare (2 * x) (z : K))
    (hn : (n : K) ≤ x) (hn' : x < n + 1) (j : Nat) :
    |(mag M (near M n c) : K) - x| ≤ |(mag M j : K) - x| ∧
    (|(mag M (near M n c) : K) - x| = |(mag M j : K) - x| → j = near M n c ∨ near M n c % 2 = 0) := by
  have h1 : (mag M (below M n) : K) ≤ x := (Nat.cast_le.mpr (below_spec M n).1).trans hn
  have h2 : x < (mag M (below M n + 1) : K) := by
    have h3 : (n : K) + 1 ≤ mag M (below M n + 1) := by exact_mod_cast (below_spec M n).2
    linarith
  have hc := near_cases M n c x hc
  simp only at hc
  generalize near M n c = r at *
  set k := below M n
  have mono := mag_strictMono M
  have hlow : j ≤ k → (mag M j : K) ≤ mag M k := fun h => Nat.cast_le.mpr (mono.monotone h)
  have hlow' : j < k → (mag M j : K) < mag M k := fun h => Nat.cast_lt.mpr (mono h)
  have hhi : k + 1 ≤ j → (mag M (k + 1) : K) ≤ mag M j := fun h => Nat.cast_le.mpr (mono.monotone h)
  have hhi' : k + 1 < j → (mag M (k + 1) : K) < mag M j := fun h => Nat.cast_lt.mpr (mono h)
  have ak : |(mag M k : K) - x| = x - mag M k := by rw [abs_of_nonpos (by linarith)]; ring
  have ak1 : |(mag M (k + 1) : K) - x| = mag M (k + 1) - x := abs_of_nonneg (by linarith)
  have aj : (j ≤ k ∧ |(mag M j : K) - x| = x - mag M j) ∨ (k + 1 ≤ j ∧ |(mag M j : K) - x| = mag M j - x) := by
    rcases Nat.lt_or_ge k j with h | h
    · exact .inr ⟨h, abs_of_nonneg (by linarith [hhi h])⟩
    · exact .inl ⟨h, by rw [abs_of_nonpos (by linarith [hlow h])]; ring⟩
  rcases hc with ⟨hs, hr⟩ | ⟨hs, hr⟩ | ⟨hs, hr⟩
  · rw [hr, ak]
    rcases aj with ⟨hj, ej⟩ | ⟨hj, ej⟩
    · rw [ej]
      refine ⟨by linarith [hlow hj], fun e => .inl ?_⟩
      by_contra hne
      linarith [hlow' (by omega)]
    · rw [ej]
      exact ⟨by linarith [hhi hj], fun e => by linarith [hhi hj]⟩
  · rw [hr, ak1]
    rcases aj with ⟨hj, ej⟩ | ⟨hj, ej⟩
    · rw [ej]
      exact ⟨by linarith [hlow hj], fun e => by linarith [hlow hj]⟩
    · rw [ej]
      refine ⟨by linarith [hhi hj], fun e => .inl ?_⟩
      by_contra hne
      linarith [hhi' (by omega)]
  · have hb : |(mag M r : K) - x| = x - mag M k := by
      rw [hr]; split
      · exact ak
      · rw [ak1]; linarith
    have heven : r % 2 = 0 := by rw [hr]; split <;> omega
    rw [hb]
    refine ⟨?_, fun _ => .inr heven⟩
    rcases aj with ⟨hj, ej⟩ | ⟨hj, ej⟩
    · rw [ej]; linarith [hlow hj]
    · rw [ej]; linarith [hhi hj]

end near

theorem rnd_cases (M : Nat) (x : ℚ) :
    let k := below M ⌊x⌋₊
    let s : ℚ := mag M k + mag M (k + 1)
    (2 * x < s ∧ rnd M x = k) ∨ (s < 2 * x ∧ rnd M x = k + 1) ∨
      (2 * x = s ∧ rnd M x = if k % 2 = 0 then k else k + 1) :=
  near_cases M ⌊x⌋₊ _ x fun _ => rfl

theorem rnd_nearest (M : Nat) {x : ℚ} (hx : 0 ≤ x) (j : Nat) :
    |(mag M (rnd M x) : ℚ) - x| ≤ |(mag M j : ℚ) - x| ∧
    (|(mag M (rnd M x) : ℚ) - x| = |(mag M j : ℚ) - x| → j = rnd M x ∨ rnd M x % 2 = 0) :=
  near_nearest M ⌊x⌋₊ _ x (fun _ => rfl) (Nat.floor_le hx) (Nat.lt_floor_add_one x) j

theorem below_mono (M : Nat) {m n : Nat} (h : m ≤ n) : below M m ≤ below M n := by
  have h1 := (below_spec M m).1
  have h2 := (below_spec M n).2
  have := (mag_strictMono M).lt_iff_lt.mp (h1.trans_lt (h.trans_lt h2))
  omega

theorem rnd_mono (M : Nat) {x y : ℚ} (h : x ≤ y) : rnd M x ≤ rnd M y := by
  have hk := below_mono M (Nat.floor_mono h)
  have hx := rnd_cases M x
  have hy := rnd_cases M y
  simp only at hx hy
  rcases hk.eq_or_lt with e | l
  · rw [← e] at hy
    rcases hx with ⟨a, b⟩ | ⟨a, b⟩ | ⟨a, b⟩ <;> rcases hy with ⟨c, d⟩ | ⟨c, d⟩ | ⟨c, d⟩ <;> rw [b, d] <;>
      first
        | exact le_rfl
        | (exfalso; linarith)
        | (split <;> omega)
        | omega
  · have : rnd M x ≤ below M ⌊x⌋₊ + 1 := by
      rcases hx with ⟨_, b⟩ | ⟨_, b⟩ | ⟨_, b⟩ <;> rw [b] <;> first | omega | (split <;> omega)
    have : below M ⌊y⌋₊ ≤ rnd M y := by
      rcases hy with ⟨_, b⟩ | ⟨_, b⟩ | ⟨_, b⟩ <;> rw [b] <;> first | omega | (split <;> omega)
    omega

theorem rnd_mag (M k : Nat) : rnd M (mag M k) = k := by
  have h := (rnd_nearest M (x := mag M k) (Nat.cast_nonneg _) k).1
  rw [sub_self, abs_zero, abs_nonpos_iff, sub_eq_zero, Nat.cast_inj] at h
  exact (mag_strictMono M).injective h

theorem rnd_zero (M : Nat) : rnd M 0 = 0 := by
  have h := rnd_mag M 0
  rwa [show mag M 0 = 0 by simp [mag], Nat.cast_zero] at h

/-! ### Patterns -/

variable {t : FTy}

/-- Fields of the infinities. Specification (IEEE-754). -/
def infBody (t : FTy) : Nat := (2 ^ t.e - 1) * 2 ^ t.m

/-- Pattern of a sign and the other fields, infinity if these are too large. Specification (IEEE-754). -/
def mk (t : FTy) (s : Bool) (k : Nat) : BitVec t.w :=
  BitVec.ofNat t.w (min k (infBody t) + if s then 2 ^ (t.w - 1) else 0)

/-- The default NaN. Specification (IEEE-754). -/
def qnan (t : FTy) : BitVec t.w := BitVec.ofNat t.w (infBody t + 2 ^ (t.m - 1))

theorem infBody_lt (t : FTy) : 0 < infBody t ∧ infBody t < 2 ^ (t.w - 1) := by cases t <;> decide

theorem mk_spec (t : FTy) (s : Bool) (k : Nat) : (mk t s k).msb = s ∧ body t (mk t s k) = min k (infBody t) := by
  have h := (infBody_lt t).2
  have hk : min k (infBody t) ≤ infBody t := Nat.min_le_right _ _
  unfold mk
  generalize min k (infBody t) = u at hk ⊢
  generalize infBody t = I at h hk
  constructor
  · rw [BitVec.msb_eq_decide, BitVec.toNat_ofNat]
    cases t <;> cases s <;> simp only [FTy.w, ITy.w] at * <;> simp <;> omega
  · rw [body, BitVec.toNat_ofNat]
    cases t <;> cases s <;> simp only [FTy.w, ITy.w] at * <;> simp <;> omega

theorem mk_body {a : BitVec t.w} (h : body t a ≤ infBody t) : mk t a.msb (body t a) = a :=
  ext_body (mk_spec t _ _).1 ((mk_spec t _ _).2.trans (Nat.min_eq_left h))

theorem fneg_mk (s : Bool) (k : Nat) : fneg t (mk t s k) = mk t (!s) k :=
  ext_body (by rw [msb_fneg, (mk_spec t _ _).1, (mk_spec t _ _).1])
    (by rw [body_fneg, (mk_spec t _ _).2, (mk_spec t _ _).2])

theorem fneg_fneg (a : BitVec t.w) : fneg t (fneg t a) = a :=
  ext_body (by rw [msb_fneg, msb_fneg, Bool.not_not]) (by rw [body_fneg, body_fneg])

theorem isNaN_qnan (t : FTy) : isNaN t (qnan t) = true := by cases t <;> decide

theorem isNaN_mk (s : Bool) (k : Nat) : isNaN t (mk t s k) = false := by
  rw [isNaN, (mk_spec t s k).2, decide_eq_false_iff_not, not_lt]
  exact Nat.min_le_right _ _

theorem isNaN_fneg (a : BitVec t.w) : isNaN t (fneg t a) = isNaN t a := isNaN_body (body_fneg t a)

/-- Equal, or both NaN: IEEE-754 leaves sign and payload of a NaN open. Specification. -/
def Same (x y : BitVec t.w) : Prop := x = y ∨ (isNaN t x = true ∧ isNaN t y = true)

theorem Same.refl (x : BitVec t.w) : Same x x := .inl rfl
theorem Same.of_eq {x y : BitVec t.w} (h : x = y) : Same x y := .inl h
theorem Same.symm {x y : BitVec t.w} (h : Same x y) : Same y x := h.elim (fun e => .inl e.symm) fun e => .inr e.symm
theorem Same.isNaN {x y : BitVec t.w} (h : Same x y) : isNaN t x = isNaN t y := by
  rcases h with rfl | ⟨h1, h2⟩
  · rfl
  · rw [h1, h2]
theorem Same.trans {x y z : BitVec t.w} (h : Same x y) (h' : Same y z) : Same x z := by
  rcases h with rfl | ⟨h1, h2⟩
  · exact h'
  · exact .inr ⟨h1, h'.isNaN ▸ h2⟩
theorem Same.eq {x y : BitVec t.w} (h : Same x y) (hn : FloatLane.isNaN t x = false) : x = y := by
  rcases h with h | ⟨h, -⟩
  · exact h
  · rw [hn] at h; cases h
theorem Same.fneg {x y : BitVec t.w} (h : Same x y) : Same (fneg t x) (fneg t y) := by
  rcases h with rfl | ⟨h1, h2⟩
  · exact .refl _
  · exact .inr ⟨by rw [isNaN_fneg, h1], by rw [isNaN_fneg, h2]⟩
theorem Same.fl {x y : BitVec t.w} (h : Same x y) : fl t x = fl t y := by
  rcases h with rfl | ⟨h1, h2⟩
  · rfl
  · have : ∀ z : BitVec t.w, FloatLane.isNaN t z = true → Props.FloatLane.fl t z = .nan := by
      intro z hz
      rcases fl_cases t z with ⟨-, h⟩ | ⟨h, -⟩ | ⟨h, -⟩
      · exact h
      · rw [hz] at h; cases h
      · rw [hz] at h; cases h
    rw [this x h1, this y h2]

/-! ### The operations -/

/-- Infinite. Specification (IEEE-754). -/
def isInf (a : BitVec t.w) : Bool := decide (body t a = infBody t)
/-- Zero. Specification (IEEE-754). -/
def isZero (a : BitVec t.w) : Bool := decide (body t a = 0)
/-- Magnitude in units of the smallest positive number. Specification (IEEE-754). -/
def um (a : BitVec t.w) : Nat := mag t.m (body t a)
/-- Value in units of the smallest positive number. Specification (IEEE-754). -/
def uv (a : BitVec t.w) : ℤ := if a.msb then -(um a : ℤ) else um a
/-- The smallest positive number. Specification (IEEE-754). -/
def ulp (t : FTy) : ℚ := (2 : ℚ) ^ emin t

/-- Rounding of an exact result in units of the smallest positive number; `z` is the sign of an exact zero.
Specification (IEEE-754). -/
def signed (t : FTy) (z : Bool) (q : ℚ) : BitVec t.w :=
  if q = 0 then mk t z 0 else mk t (decide (q < 0)) (rnd t.m |q|)

/-- Sum. Specification (IEEE-754). -/
def add (a b : BitVec t.w) : BitVec t.w :=
  if isNaN t a || isNaN t b then qnan t
  else if isInf a then (if isInf b && (a.msb != b.msb) then qnan t else a)
  else if isInf b then b
  else signed t (a.msb && b.msb) (uv a + uv b)

/-- Difference. Specification (IEEE-754). -/
def sub (a b : BitVec t.w) : BitVec t.w := add a (fneg t b)

/-- Product. Specification (IEEE-754). -/
def mul (a b : BitVec t.w) : BitVec t.w :=
  if isNaN t a || isNaN t b then qnan t
  else if isInf a || isInf b then (if isZero a || isZero b then qnan t else mk t (a.msb ^^ b.msb) (infBody t))
  else mk t (a.msb ^^ b.msb) (rnd t.m (um a * um b * ulp t))

/-- Quotient. Specification (IEEE-754). -/
def div (a b : BitVec t.w) : BitVec t.w :=
  if isNaN t a || isNaN t b then qnan t
  else if isInf a then (if isInf b then qnan t else mk t (a.msb ^^ b.msb) (infBody t))
  else if isInf b then mk t (a.msb ^^ b.msb) 0
  else if isZero b then (if isZero a then qnan t else mk t (a.msb ^^ b.msb) (infBody t))
  else mk t (a.msb ^^ b.msb) (rnd t.m (um a / (um b * ulp t)))

/-- `a * b + c`, rounded once. Specification (IEEE-754). -/
def fma (a b c : BitVec t.w) : BitVec t.w :=
  if isNaN t a || isNaN t b || isNaN t c then qnan t
  else if isInf a || isInf b then
    (if isZero a || isZero b || (isInf c && ((a.msb ^^ b.msb) != c.msb)) then qnan t
     else mk t (a.msb ^^ b.msb) (infBody t))
  else if isInf c then c
  else signed t ((a.msb ^^ b.msb) && c.msb) (uv a * uv b * ulp t + uv c)

/-- Square root: the root of `um a * ulp` is compared with integers by squaring. Specification (IEEE-754). -/
def sqrt (a : BitVec t.w) : BitVec t.w :=
  if isNaN t a then qnan t
  else if isZero a then a
  else if a.msb then qnan t
  else if isInf a then a
  else
    let y := um a * 2 ^ (-emin t).toNat
    mk t false (near t.m (Nat.sqrt y) fun z => compare (4 * y) (z * z))

/-- The processor computes the reference up to the choice of a NaN. Specification (IEEE-754). -/
structure IsIeee (A : Arith t) : Prop where
  add : ∀ a b, Same (A.add a b) (add a b)
  sub : ∀ a b, Same (A.sub a b) (sub a b)
  mul : ∀ a b, Same (A.mul a b) (mul a b)
  div : ∀ a b, Same (A.div a b) (div a b)
  sqrt : ∀ a, Same (A.sqrt a) (sqrt a)
  fma : ∀ a b c, Same (A.fma a b c) (fma a b c)

/-- The reference as a processor. Specification. -/
def ref (t : FTy) : Arith t := ⟨add, sub, mul, div, sqrt, fma⟩

theorem ref_isIeee (t : FTy) : IsIeee (ref t) :=
  ⟨fun _ _ => .refl _, fun _ _ => .refl _, fun _ _ => .refl _, fun _ _ => .refl _, fun _ => .refl _,
    fun _ _ _ => .refl _⟩

/-! ### Algebra -/

theorem isInf_fneg (a : BitVec t.w) : isInf (fneg t a) = isInf a := by rw [isInf, isInf, body_fneg]
theorem isZero_fneg (a : BitVec t.w) : isZero (fneg t a) = isZero a := by rw [isZero, isZero, body_fneg]
theorem um_fneg (a : BitVec t.w) : um (fneg t a) = um a := by rw [um, um, body_fneg]
theorem uv_fneg (a : BitVec t.w) : uv (fneg t a) = -uv a := by
  rw [uv, uv, um_fneg, msb_fneg]; cases a.msb <;> simp

theorem add_comm (a b : BitVec t.w) : add a b = add b a := by
  have hinf : isInf a = true → isInf b = true → a.msb = b.msb → a = b := fun h1 h2 h3 => by
    rw [isInf, decide_eq_true_eq] at h1 h2
    exact ext_body h3 (h1.trans h2.symm)
  unfold add
  rw [Bool.or_comm, Bool.and_comm a.msb, _root_.add_comm (uv a : ℚ)]
  cases ha : isInf a <;> cases hb : isInf b <;> simp only [Bool.true_and, Bool.false_and, Bool.false_eq_true, if_false,
    if_true]
  by_cases h : a.msb = b.msb
  · rw [hinf ha hb h]
  · have : (a.msb != b.msb) = true ∧ (b.msb != a.msb) = true := by
      constructor <;> rw [bne_iff_ne]
      · exact h
      · exact Ne.symm h
    rw [this.1, this.2]
    simp only [if_true]

theorem mul_comm (a b : BitVec t.w) : mul a b = mul b a := by
  unfold mul
  rw [Bool.or_comm, Bool.or_comm (isInf a), Bool.or_comm (isZero a), Bool.xor_comm, _root_.mul_comm (um a : ℚ)]

theorem fma_comm (a b c : BitVec t.w) : fma a b c = fma b a c := by
  unfold fma
  rw [Bool.or_comm (isNaN t a), Bool.or_comm (isInf a), Bool.or_comm (isZero a), Bool.xor_comm a.msb,
    _root_.mul_comm (uv a : ℚ)]

theorem fma_neg (a b c : BitVec t.w) : fma (fneg t a) b c = fma a (fneg t b) c := by
  unfold fma
  rw [isNaN_fneg, isNaN_fneg, isInf_fneg, isInf_fneg, isZero_fneg, isZero_fneg, uv_fneg, uv_fneg, msb_fneg, msb_fneg]
  have : ((!a.msb) ^^ b.msb) = (a.msb ^^ !b.msb) := by simp
  rw [this]
  push_cast
  rw [neg_mul, mul_neg]

theorem fma_neg_neg (a b c : BitVec t.w) : fma (fneg t a) (fneg t b) c = fma a b c := by
  rw [fma_neg, fneg_fneg]

theorem mul_neg (a b : BitVec t.w) : Same (mul (fneg t a) b) (fneg t (mul a b)) := by
  unfold mul
  rw [isNaN_fneg, isInf_fneg, isZero_fneg, um_fneg, msb_fneg]
  have hq : Same (qnan t) (fneg t (qnan t)) := .inr ⟨isNaN_qnan t, by rw [isNaN_fneg, isNaN_qnan]⟩
  have : ((!a.msb) ^^ b.msb) = !(a.msb ^^ b.msb) := by simp
  rw [this]
  split
  · exact hq
  · split
    · split
      · exact hq
      · exact .of_eq (fneg_mk _ _).symm
    · exact .of_eq (fneg_mk _ _).symm

theorem add_congr {a a' b b' : BitVec t.w} (ha : Same a a') (hb : Same b b') : add a b = add a' b' := by
  rcases ha with rfl | ⟨h1, h2⟩
  · rcases hb with rfl | ⟨h1, h2⟩
    · rfl
    · simp [add, h1, h2]
  · simp [add, h1, h2]

theorem mul_congr {a a' b b' : BitVec t.w} (ha : Same a a') (hb : Same b b') : mul a b = mul a' b' := by
  rcases ha with rfl | ⟨h1, h2⟩
  · rcases hb with rfl | ⟨h1, h2⟩
    · rfl
    · simp [mul, h1, h2]
  · simp [mul, h1, h2]

theorem sub_congr {a a' b b' : BitVec t.w} (ha : Same a a') (hb : Same b b') : sub a b = sub a' b' :=
  add_congr ha hb.fneg

theorem div_congr {a a' b b' : BitVec t.w} (ha : Same a a') (hb : Same b b') : div a b = div a' b' := by
  rcases ha with rfl | ⟨h1, h2⟩
  · rcases hb with rfl | ⟨h1, h2⟩
    · rfl
    · simp [div, h1, h2]
  · simp [div, h1, h2]

theorem sqrt_congr {a a' : BitVec t.w} (ha : Same a a') : sqrt a = sqrt a' := by
  rcases ha with rfl | ⟨h1, h2⟩
  · rfl
  · simp [sqrt, h1, h2]

/-! ### Values -/

theorem ulp_pos (t : FTy) : 0 < ulp t := zpow_pos (by norm_num) _

/-- Rounding to nearest, ties to even, without bound on the exponent. Specification (IEEE-754). -/
def rq (t : FTy) (q : ℚ) : ℚ := (if q < 0 then -(mag t.m (rnd t.m |q / ulp t|) : ℚ) else mag t.m (rnd t.m |q / ulp t|)) * ulp t

theorem abs_rq (t : FTy) (q : ℚ) : |rq t q| = mag t.m (rnd t.m |q / ulp t|) * ulp t := by
  rw [rq, abs_mul, abs_of_pos (ulp_pos t)]
  split
  · rw [abs_neg, Nat.abs_cast]
  · rw [Nat.abs_cast]

theorem value_uv (a : BitVec t.w) : value t a = uv a * ulp t := by
  rw [value_mag, uv, um, ulp]; split <;> push_cast <;> rfl

theorem abs_uv (a : BitVec t.w) : |(uv a : ℚ)| = um a := by
  rw [uv]; split
  · push_cast; rw [abs_neg, Nat.abs_cast]
  · rw [Int.cast_natCast, Nat.abs_cast]

theorem rq_neg (q : ℚ) : rq t (-q) = -rq t q := by
  rcases lt_trichotomy q 0 with h | h | h
  · have h' : ¬ -q < 0 := by linarith
    rw [rq, rq, neg_div, abs_neg, if_neg h', if_pos h]; ring
  · subst h; simp [rq, rnd_zero, mag]
  · have h' : -q < 0 := by linarith
    rw [rq, rq, neg_div, abs_neg, if_pos h', if_neg (by linarith)]; ring

theorem rq_nonneg {q : ℚ} (h : 0 ≤ q) : rq t q = mag t.m (rnd t.m (q / ulp t)) * ulp t := by
  rw [rq, if_neg (by linarith), abs_of_nonneg (div_nonneg h (ulp_pos t).le)]

theorem rq_mono_nonneg {p q : ℚ} (hp : 0 ≤ p) (h : p ≤ q) : rq t p ≤ rq t q := by
  rw [rq_nonneg hp, rq_nonneg (hp.trans h), mul_le_mul_iff_left₀ (ulp_pos t), Nat.cast_le,
    (mag_strictMono t.m).le_iff_le]
  exact rnd_mono _ (div_le_div_of_nonneg_right h (ulp_pos t).le)

theorem rq_sign {q : ℚ} (h : 0 ≤ q) : 0 ≤ rq t q := by
  rw [rq_nonneg h]; exact mul_nonneg (Nat.cast_nonneg _) (ulp_pos t).le

/-- The magnitudes are the numbers of the format. -/
theorem rep_mag {q : ℚ} (h : Round.Rep (t.m + 1) (emin t) q) : ∃ k, |q| = mag t.m k * ulp t := by
  obtain ⟨μ, e, hμ, he, rfl⟩ := h
  obtain ⟨k, hk⟩ := exists_mag t.m (e - emin t).toNat μ.natAbs (by zify; exact hμ)
  refine ⟨k, ?_⟩
  have h2 : (2 : ℚ) ^ e = 2 ^ (e - emin t).toNat * ulp t := by
    rw [ulp, ← zpow_natCast, ← zpow_add₀ (by norm_num)]; congr 1; omega
  rw [abs_mul, abs_of_pos (zpow_pos (by norm_num : (0 : ℚ) < 2) e), hk, h2]
  push_cast
  rw [Nat.cast_natAbs]; push_cast; ring

theorem rq_fix {q : ℚ} (h : Round.Rep (t.m + 1) (emin t) q) : rq t q = q := by
  obtain ⟨k, hk⟩ := rep_mag h
  have hu := (ulp_pos t).ne'
  have e : |q / ulp t| = mag t.m k := by
    rw [abs_div, abs_of_pos (ulp_pos t), hk, mul_div_assoc, div_self hu, mul_one]
  rw [rq, e, rnd_mag]
  rcases lt_or_ge q 0 with h0 | h0
  · rw [if_pos h0, neg_mul, ← hk, abs_of_neg h0, neg_neg]
  · rw [if_neg (not_lt.mpr h0), ← hk, abs_of_nonneg h0]

theorem rq_rounding (t : FTy) : Round.Rounding (t.m + 1) (emin t) (rq t) := by
  refine ⟨fun p q h => ?_, fun q h => rq_fix h⟩
  rcases le_total 0 p with hp | hp
  · exact rq_mono_nonneg hp h
  · have n1 := rq_sign (t := t) (q := -p) (by linarith)
    rw [rq_neg] at n1
    rcases le_total 0 q with hq | hq
    · linarith [rq_sign (t := t) hq]
    · have := rq_mono_nonneg (t := t) (p := -q) (q := -p) (by linarith) (by linarith)
      rw [rq_neg, rq_neg] at this
      linarith

/-- The rounding is to a nearest number of the format. -/
theorem rq_nearest (t : FTy) (q z : ℚ) (hz : Round.Rep (t.m + 1) (emin t) z) : |rq t q - q| ≤ |z - q| := by
  have pos : ∀ q z : ℚ, 0 ≤ q → Round.Rep (t.m + 1) (emin t) z → |rq t q - q| ≤ |z - q| := by
    intro q z hq hz
    obtain ⟨k, hk⟩ := rep_mag hz
    have hu := ulp_pos t
    have h := (rnd_nearest t.m (x := q / ulp t) (div_nonneg hq hu.le) k).1
    have e : ∀ u : ℚ, |u * ulp t - q| = |u - q / ulp t| * ulp t := by
      intro u
      rw [show u * ulp t - q = (u - q / ulp t) * ulp t by
        rw [sub_mul, div_mul_cancel₀ _ hu.ne'], abs_mul, abs_of_pos hu]
    rw [rq_nonneg hq, e]
    calc _ ≤ |(mag t.m k : ℚ) - q / ulp t| * ulp t := mul_le_mul_of_nonneg_right h hu.le
      _ = |(|z|) - q| := by rw [hk, e]
      _ ≤ |z - q| := by
        have := abs_abs_sub_abs_le z q
        rwa [abs_of_nonneg hq] at this
  rcases le_total 0 q with hq | hq
  · exact pos q z hq hz
  · have := pos (-q) (-z) (by linarith) (Round.rep_neg hz)
    rw [rq_neg] at this
    rwa [show -rq t q - -q = -(rq t q - q) by ring, abs_neg, show -z - -q = -(z - q) by ring, abs_neg] at this

/-- The datum of a pattern made of a sign and fields. -/
theorem fl_mk (s : Bool) (k : Nat) :
    fl t (mk t s k) = if k < infBody t then .fin ((if s then -(mag t.m k : ℚ) else mag t.m k) * ulp t) else .inf s := by
  obtain ⟨h1, h2⟩ := mk_spec t s k
  rcases fl_cases t (mk t s k) with ⟨n, -⟩ | ⟨-, h, hb⟩ | ⟨-, h, hb⟩
  · rw [isNaN_mk] at n; cases n
  · rw [h, h1, if_neg]
    rw [h2, ← infBody] at hb; omega
  · rw [h2, ← infBody] at hb
    have hk : k < infBody t := by omega
    rw [h, if_pos hk, value_mag, h1, h2, Nat.min_eq_left hk.le, ulp]

/-- Largest finite value. -/
theorem maxv_eq (t : FTy) : maxv t = mag t.m (infBody t - 1) * ulp t := rfl

theorem lt_inf_iff (k : Nat) : k < infBody t ↔ (mag t.m k : ℚ) * ulp t ≤ maxv t := by
  rw [maxv_eq, mul_le_mul_iff_left₀ (ulp_pos t), Nat.cast_le, (mag_strictMono t.m).le_iff_le]
  have := (infBody_lt t).1
  omega

/-- A rounded result: the nearest number, or an infinity when it is too large. -/
theorem fl_signed (z : Bool) (q : ℚ) :
    fl t (signed t z q) =
      if |rq t (q * ulp t)| ≤ maxv t then .fin (rq t (q * ulp t)) else .inf (decide (q * ulp t < 0)) := by
  have hu := ulp_pos t
  have e : q * ulp t / ulp t = q := by rw [mul_div_assoc, div_self hu.ne', mul_one]
  have hs : q * ulp t < 0 ↔ q < 0 := by rw [mul_neg_iff]; constructor <;> intro h <;> [skip; right] <;>
    first | exact ⟨h, hu⟩ | (rcases h with ⟨_, h⟩ | ⟨h, _⟩ <;> [linarith; exact h])
  have hi := lt_inf_iff (t := t) (rnd t.m |q|)
  rw [abs_rq, e]
  rw [signed]
  by_cases h0 : q = 0
  · subst h0
    rw [if_pos rfl, fl_mk, if_pos (infBody_lt t).1, abs_zero, rnd_zero]
    have : mag t.m 0 = 0 := by simp [mag]
    rw [this]
    have hm : (0 : ℚ) ≤ maxv t := by rw [maxv_eq]; exact mul_nonneg (Nat.cast_nonneg _) hu.le
    simp [hm, rq, rnd_zero, this]
  · rw [if_neg h0, fl_mk]
    by_cases hk : rnd t.m |q| < infBody t
    · rw [if_pos hk, if_pos (hi.mp hk), rq, e]
      simp only [hs, decide_eq_true_eq]
    · rw [if_neg hk, if_neg (fun h => hk (hi.mpr h))]
      simp only [hs]

theorem not_special {a : BitVec t.w} {p : ℚ} (h : fl t a = .fin p) :
    isNaN t a = false ∧ isInf a = false ∧ p = uv a * ulp t := by
  rcases fl_cases t a with ⟨-, h'⟩ | ⟨-, h', -⟩ | ⟨hn, h', hb⟩ <;> rw [h] at h'
  · cases h'
  · cases h'
  · injection h' with h'
    exact ⟨hn, by rw [isInf, decide_eq_false_iff_not]; exact hb.ne, by rw [h', value_uv]⟩

theorem is_inf {a : BitVec t.w} {s : Bool} (h : fl t a = .inf s) :
    isNaN t a = false ∧ isInf a = true ∧ a.msb = s := by
  rcases fl_cases t a with ⟨-, h'⟩ | ⟨hn, h', hb⟩ | ⟨-, h', -⟩ <;> rw [h] at h'
  · cases h'
  · injection h' with h'
    exact ⟨hn, by rw [isInf, decide_eq_true_eq]; exact hb, h'.symm⟩
  · cases h'

theorem is_nan {a : BitVec t.w} (h : fl t a = .nan) : isNaN t a = true := by
  rcases fl_cases t a with ⟨hn, -⟩ | ⟨-, h', -⟩ | ⟨-, h', -⟩
  · exact hn
  · rw [h] at h'; cases h'
  · rw [h] at h'; cases h'

theorem fl_qnan (t : FTy) : fl t (qnan t) = .nan := by
  rcases fl_cases t (qnan t) with ⟨-, h⟩ | ⟨h, -⟩ | ⟨h, -⟩
  · exact h
  · rw [isNaN_qnan] at h; cases h
  · rw [isNaN_qnan] at h; cases h

/-- The sum of two numbers is the nearest number to the exact sum, or an infinity. -/
theorem add_fl {a b : BitVec t.w} {p q : ℚ} (ha : fl t a = .fin p) (hb : fl t b = .fin q) :
    fl t (add a b) = if |rq t (p + q)| ≤ maxv t then .fin (rq t (p + q)) else .inf (decide (p + q < 0)) := by
  obtain ⟨a1, a2, a3⟩ := not_special ha
  obtain ⟨b1, b2, b3⟩ := not_special hb
  rw [add, a1, a2, b1, b2]
  simp only [Bool.or_self, Bool.false_eq_true, if_false]
  rw [fl_signed, a3, b3, add_mul]

theorem mk_signed {s : Bool} {x q : ℚ} (hx : 0 < x) (hq : q = if s then -x else x) :
    mk t s (rnd t.m x) = signed t false q := by
  subst hq
  cases s
  · simp only [Bool.false_eq_true, if_false]
    rw [signed, if_neg hx.ne', abs_of_pos hx, decide_eq_false (by linarith)]
  · simp only [if_true]
    rw [signed, if_neg (by linarith), abs_neg, abs_of_pos hx, decide_eq_true (by linarith)]

theorem um_pos {a : BitVec t.w} (h : uv a ≠ 0) : 0 < um a := by
  rw [Nat.pos_iff_ne_zero]
  intro e
  apply h
  rw [uv, e]; simp

/-- The product of two numbers is the nearest number to the exact product, or an infinity. -/
theorem mul_fl {a b : BitVec t.w} {p q : ℚ} (ha : fl t a = .fin p) (hb : fl t b = .fin q) (h0 : p * q ≠ 0) :
    fl t (mul a b) = if |rq t (p * q)| ≤ maxv t then .fin (rq t (p * q)) else .inf (decide (p * q < 0)) := by
  obtain ⟨a1, a2, a3⟩ := not_special ha
  obtain ⟨b1, b2, b3⟩ := not_special hb
  have hu := ulp_pos t
  rw [mul, a1, a2, b1, b2]
  simp only [Bool.or_self, Bool.false_eq_true, if_false]
  have na : uv a ≠ 0 := fun h => h0 (by rw [a3, h]; simp)
  have nb : uv b ≠ 0 := fun h => h0 (by rw [b3, h]; simp)
  have pa : (0 : ℚ) < um a := by exact_mod_cast um_pos na
  have pb : (0 : ℚ) < um b := by exact_mod_cast um_pos nb
  rw [mk_signed (q := uv a * uv b * ulp t) (mul_pos (mul_pos pa pb) hu), fl_signed,
    show p * q = uv a * uv b * ulp t * ulp t by rw [a3, b3]; ring]
  rw [uv, uv]
  cases a.msb <;> cases b.msb <;> simp

/-- The quotient of two numbers is the nearest number to the exact quotient, or an infinity. -/
theorem div_fl {a b : BitVec t.w} {p q : ℚ} (ha : fl t a = .fin p) (hb : fl t b = .fin q) (h0 : p ≠ 0) (h1 : q ≠ 0) :
    fl t (div a b) = if |rq t (p / q)| ≤ maxv t then .fin (rq t (p / q)) else .inf (decide (p / q < 0)) := by
  obtain ⟨a1, a2, a3⟩ := not_special ha
  obtain ⟨b1, b2, b3⟩ := not_special hb
  have hu := ulp_pos t
  have na : uv a ≠ 0 := fun h => h0 (by rw [a3, h]; simp)
  have nb : uv b ≠ 0 := fun h => h1 (by rw [b3, h]; simp)
  have pa : (0 : ℚ) < um a := by exact_mod_cast um_pos na
  have pb : (0 : ℚ) < um b := by exact_mod_cast um_pos nb
  have hz : isZero b = false := by
    rw [isZero, decide_eq_false_iff_not]
    intro h
    have := um_pos nb
    rw [um, h] at this
    simp [mag] at this
  rw [div, a1, a2, b1, b2, hz]
  simp only [Bool.or_self, Bool.false_eq_true, if_false]
  rw [mk_signed (q := uv a / (uv b * ulp t)) (div_pos pa (mul_pos pb hu)), fl_signed,
    show p / q = uv a / (uv b * ulp t) * ulp t by rw [a3, b3]; field_simp]
  rw [uv, uv]
  cases a.msb <;> cases b.msb <;> simp [div_neg, neg_div]

/-- The multiply-add of three numbers is the nearest number to the exact result, or an infinity. -/
theorem fma_fl {a b c : BitVec t.w} {p q r : ℚ} (ha : fl t a = .fin p) (hb : fl t b = .fin q) (hc : fl t c = .fin r) :
    fl t (fma a b c) =
      if |rq t (p * q + r)| ≤ maxv t then .fin (rq t (p * q + r)) else .inf (decide (p * q + r < 0)) := by
  obtain ⟨a1, a2, a3⟩ := not_special ha
  obtain ⟨b1, b2, b3⟩ := not_special hb
  obtain ⟨c1, c2, c3⟩ := not_special hc
  rw [fma, a1, a2, b1, b2, c1, c2]
  simp only [Bool.or_self, Bool.false_eq_true, if_false]
  rw [fl_signed, a3, b3, c3, show (uv a * uv b * ulp t + uv c) * ulp t = uv a * ulp t * (uv b * ulp t) + uv c * ulp t by ring]

theorem fl_zero_iff {a : BitVec t.w} {p : ℚ} (ha : fl t a = .fin p) : isZero a = true ↔ p = 0 := by
  obtain ⟨-, -, h⟩ := not_special ha
  have hm : um a = 0 ↔ body t a = 0 := by
    rw [um, show (0 : ℕ) = mag t.m 0 by simp [mag], (mag_strictMono t.m).injective.eq_iff]
    simp [mag]
  rw [isZero, decide_eq_true_eq, ← hm, h, mul_eq_zero, or_iff_left (ulp_pos t).ne', ← abs_eq_zero, abs_uv, Nat.cast_eq_zero]

/-- The square root of a positive number is a number, and a nearest one to the real root. -/
theorem sqrt_fl {a : BitVec t.w} {p : ℚ} (ha : fl t a = .fin p) (h0 : 0 < p) :
    ∃ y : ℚ, fl t (sqrt a) = .fin y ∧
      ∀ z : ℚ, Round.Rep (t.m + 1) (emin t) z → |(y : ℝ) - Real.sqrt p| ≤ |(z : ℝ) - Real.sqrt p| := by
  obtain ⟨a1, a2, a3⟩ := not_special ha
  have hu := ulp_pos t
  have hz : isZero a = false := by
    rw [Bool.eq_false_iff, Ne, fl_zero_iff ha]; exact h0.ne'
  have hs : a.msb = false := by
    by_contra h
    rw [Bool.not_eq_false] at h
    rw [a3, uv, if_pos h] at h0
    push_cast at h0
    nlinarith [(Nat.cast_nonneg (um a) : (0 : ℚ) ≤ um a)]
  have hum : p = um a * ulp t := by rw [a3, uv, hs]; simp
  rw [sqrt, a1, hz, hs, a2]
  simp only [Bool.false_eq_true, if_false]
  set y := um a * 2 ^ (-emin t).toNat with hy
  set x := Real.sqrt y with hx
  have hx0 : 0 ≤ x := Real.sqrt_nonneg _
  have hxx : x * x = y := Real.mul_self_sqrt (Nat.cast_nonneg _)
  -- the root of the number, in units
  have hr : Real.sqrt p = x * (ulp t : ℝ) := by
    have hu' : (0 : ℝ) ≤ (ulp t : ℝ) := by exact_mod_cast hu.le
    rw [Real.sqrt_eq_iff_mul_self_eq (by exact_mod_cast h0.le) (mul_nonneg hx0 hu')]
    have h2 : (2 : ℚ) ^ (-emin t).toNat * ulp t = 1 := by
      rw [ulp, ← zpow_natCast, ← zpow_add₀ (by norm_num),
        show ((-emin t).toNat : ℤ) + emin t = 0 by cases t <;> rfl, zpow_zero]
    have h3 : (y : ℚ) * ulp t * ulp t = p := by
      rw [hum, hy]; push_cast
      rw [mul_assoc (um a : ℚ), h2, mul_one]
    have h4 : ((y : ℚ) * ulp t * ulp t : ℝ) = p := by exact_mod_cast h3
    symm
    calc x * (ulp t : ℝ) * (x * ulp t) = x * x * ulp t * ulp t := by ring
      _ = p := by rw [hxx]; exact_mod_cast h4
  have hc : ∀ z : Nat, compare (4 * y) (z * z) = compare (2 * x) (z : ℝ) := by
    intro z
    have hz0 : (0 : ℝ) ≤ z := Nat.cast_nonneg z
    have h4 : ((4 * y : ℕ) : ℝ) = (2 * x) * (2 * x) := by push_cast; rw [← hxx]; ring
    have hzz : ((z * z : ℕ) : ℝ) = (z : ℝ) * z := by push_cast; ring
    rcases lt_trichotomy (2 * x) (z : ℝ) with h | h | h
    · rw [compare_lt_iff_lt.mpr h, compare_lt_iff_lt, ← Nat.cast_lt (α := ℝ), h4, hzz]
      exact mul_self_lt_mul_self (by linarith) h
    · rw [compare_eq_iff_eq.mpr h, compare_eq_iff_eq, ← Nat.cast_inj (R := ℝ), h4, hzz, h]
    · rw [compare_gt_iff_gt.mpr h, compare_gt_iff_gt, ← Nat.cast_lt (α := ℝ), h4, hzz]
      exact mul_self_lt_mul_self hz0 h
  have hn1 : ((Nat.sqrt y : ℕ) : ℝ) ≤ x := Real.nat_sqrt_le_real_sqrt
  have hn2 : x < (Nat.sqrt y : ℕ) + 1 := by
    have := Real.real_sqrt_lt_nat_sqrt_succ (a := y)
    exact_mod_cast this
  have hnear := near_nearest t.m (Nat.sqrt y) (fun z => compare (4 * y) (z * z)) x hc hn1 hn2
  set k := near t.m (Nat.sqrt y) fun z => compare (4 * y) (z * z)
  -- no overflow
  have hmax : x ≤ (mag t.m (infBody t - 1) : ℝ) := by
    rw [hx]
    apply Real.sqrt_le_iff.mpr
    refine ⟨Nat.cast_nonneg _, ?_⟩
    have h1 : um a ≤ mag t.m (infBody t - 1) := by
      rw [um, (mag_strictMono t.m).le_iff_le]
      have hb : body t a < infBody t := by
        rcases fl_cases t a with ⟨-, h'⟩ | ⟨-, h', -⟩ | ⟨-, -, hb⟩
        · rw [ha] at h'; cases h'
        · rw [ha] at h'; cases h'
        · exact hb
      omega
    have h2 : 2 ^ (-emin t).toNat ≤ mag t.m (infBody t - 1) := by
      have hle : (-emin t).toNat * 2 ^ t.m ≤ infBody t - 1 := by cases t <;> decide
      refine le_trans ?_ ((mag_strictMono t.m).monotone hle)
      have := mag_of_parts t.m (-emin t).toNat 0 (by cases t <;> decide) (Nat.two_pow_pos _)
      rw [Nat.add_zero] at this
      rw [this, Nat.add_zero, ← pow_add]
      exact Nat.pow_le_pow_right (by norm_num) (by cases t <;> decide)
    have h3 := Nat.mul_le_mul h1 h2
    rw [← hy] at h3
    rw [pow_two]
    exact_mod_cast h3
  have hk : k < infBody t := by
    have h := (hnear (infBody t - 1)).1
    rw [abs_of_nonneg (by linarith : (0 : ℝ) ≤ (mag t.m (infBody t - 1) : ℝ) - x)] at h
    have h' := (abs_le.mp h).2
    have h2 : (mag t.m k : ℝ) ≤ mag t.m (infBody t - 1) := by linarith
    rw [Nat.cast_le, (mag_strictMono t.m).le_iff_le] at h2
    have := (infBody_lt t).1
    omega
  refine ⟨mag t.m k * ulp t, by rw [fl_mk, if_pos hk]; rfl, ?_⟩
  intro z hz
  obtain ⟨j, hj⟩ := rep_mag hz
  have hu' : (0 : ℝ) < (ulp t : ℝ) := by exact_mod_cast hu
  have e : ∀ u : ℝ, |u * ulp t - x * ulp t| = |u - x| * ulp t := by
    intro u; rw [← sub_mul, abs_mul, abs_of_pos hu']
  rw [hr]
  push_cast
  rw [e]
  calc _ ≤ |(mag t.m j : ℝ) - x| * ulp t := mul_le_mul_of_nonneg_right (hnear j).1 hu'.le
    _ = |(|(z : ℝ)|) - x * ulp t| := by
      rw [← e]
      have : |(z : ℝ)| = mag t.m j * ulp t := by exact_mod_cast hj
      rw [this]
    _ ≤ |(z : ℝ) - x * ulp t| := by
      have := abs_abs_sub_abs_le (z : ℝ) (x * ulp t)
      rwa [abs_of_nonneg (mul_nonneg hx0 hu'.le)] at this

end Nsimd.Props.Ieee
