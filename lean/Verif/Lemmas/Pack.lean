import Verif.Model.Pack
import Verif.Lemmas.Cpu

/-! Helper lemmas about packs. -/

namespace Nsimd.Pack
open Nsimd.Cpu

variable {R A B C M α β : Type} {L K N n : Nat}

/-- Register number `i` of a pack, counted from `car`. Specification. -/
def reg : {N : Nat} → Pack R N → Nat → R
  | _, .one c, _ => c
  | _, .more c _, 0 => c
  | _, .more _ d, i + 1 => reg d i

/-- Lane `k` of the concatenation of the registers, `la a i` being lane `i` of register `a`.
Proof device, not code of the repo. -/
def flatL (la : A → Fin L → β) (a : Pack A N) (k : Fin (N * L)) : β :=
  la (reg a (k / L)) ⟨k % L, Nat.mod_lt _ (Nat.pos_of_mul_pos_left (Nat.lt_of_le_of_lt (Nat.zero_le _) k.isLt))⟩

/-- The concatenation of the registers of a pack. Specification. -/
def flat (a : Pack (Fin L → β) N) : Fin (N * L) → β := flatL (fun v => v) a

@[simp] theorem reg_zero (a : Pack R N) : reg a 0 = a.car := by cases a <;> rfl
@[simp] theorem reg_succ (a : Pack R (n + 2)) (i : Nat) : reg a (i + 1) = reg a.cdr i := by
  cases a; rfl

theorem eq_one (a : Pack R 1) : a = .one a.car := by cases a; rfl
theorem eq_more (a : Pack R (n + 2)) : a = .more a.car a.cdr := by cases a; rfl

/-- The pack with given registers. Proof device, not code of the repo. -/
def ofReg (f : Nat → R) : (n : Nat) → Pack R (n + 1)
  | 0 => .one (f 0)
  | n + 1 => .more (f 0) (ofReg (fun i => f (i + 1)) n)

theorem reg_ofReg (f : Nat → R) (n i : Nat) (h : i < n + 1) : reg (ofReg f n) i = f i := by
  induction n generalizing f i with
  | zero => obtain rfl : i = 0 := by omega
            rfl
  | succ n ih =>
    cases i with
    | zero => rfl
    | succ i => exact ih _ i (by omega)

theorem reg_ext {a b : Pack R N} (h : ∀ i < N, reg a i = reg b i) : a = b := by
  induction a with
  | one c =>
    cases b with
    | one d => have := h 0 (by omega); simp only [reg] at this; rw [this]
  | more c a ih =>
    cases b with
    | more d b =>
      have h0 := h 0 (by omega)
      simp only [reg] at h0
      rw [h0, ih (b := b) fun i hi => by have := h (i + 1) (by omega); simpa only [reg] using this]

theorem unroll1_eq_some {f : Int → A → Option R} {s : Int} {p : Int} {a : Pack A N}
    {r : Pack R N} :
    unroll1 f s N p a = some r ↔ ∀ i < N, f (p + i * s) (reg a i) = some (reg r i) := by
  induction N using Nat.strongRecOn generalizing p with
  | ind N ih =>
    match N, a, r, ih with
    | 1, .one a, .one r, _ =>
      simp only [unroll1, Pack.car, reg, Option.map_eq_some_iff]
      constructor
      · rintro ⟨x, hx, hr⟩ i hi
        obtain rfl : i = 0 := by omega
        cases hr
        simpa using hx
      · intro h
        exact ⟨r, by simpa using h 0 (by omega), rfl⟩
    | n + 2, .more a as, .more r rs, ih =>
      simp only [unroll1, Pack.car, Pack.cdr, Option.bind_eq_some_iff, Option.map_eq_some_iff]
      constructor
      · rintro ⟨x, hx, y, hy, hr⟩ i hi
        cases hr
        rw [ih (n + 1) (by omega)] at hy
        cases i with
        | zero => simpa [reg] using hx
        | succ i =>
          have := hy i (by omega)
          simp only [reg]
          rw [← this]
          congr 1
          push_cast
          rw [Int.add_mul]
          omega
      · intro h
        refine ⟨r, by simpa [reg] using h 0 (by omega), rs, ?_, rfl⟩
        rw [ih (n + 1) (by omega)]
        intro i hi
        have := h (i + 1) (by omega)
        simp only [reg] at this
        rw [← this]
        congr 1
        push_cast
        rw [Int.add_mul]
        omega

theorem unroll1_const {f : A → Option R} (s s' p p' : Int) (a : Pack A N) :
    unroll1 (fun _ => f) s N p a = unroll1 (fun _ => f) s' N p' a := by
  apply Option.ext
  intro r
  rw [unroll1_eq_some, unroll1_eq_some]

/-- Pack of units. Proof device, not code of the repo. -/
def units (n : Nat) : Pack Unit (n + 1) := ofReg (fun _ => ()) n

/-- Pack of pairs of registers. Proof device, not code of the repo. -/
def zipP : {N : Nat} → Pack A N → Pack B N → Pack (A × B) N
  | 0, a, _ => nomatch a
  | 1, a, b => .one (a.car, b.car)
  | _ + 2, a, b => .more (a.car, b.car) (zipP a.cdr b.cdr)

theorem reg_zipP (a : Pack A N) (b : Pack B N) (i : Nat) :
    reg (zipP a b) i = (reg a i, reg b i) := by
  induction N using Nat.strongRecOn generalizing i with
  | ind N ih =>
    match N, a, b, ih with
    | 1, .one a, .one b, _ => rfl
    | n + 2, .more a as, .more b bs, ih =>
      cases i with
      | zero => rfl
      | succ i => exact ih (n + 1) (by omega) as bs i

theorem unroll0_eq (f : Int → Option R) (s p : Int) (n : Nat) :
    unroll0 f s (n + 1) p = unroll1 (fun q (_ : Unit) => f q) s (n + 1) p (units n) := by
  induction n generalizing p with
  | zero => rfl
  | succ n ih =>
    unfold unroll0 unroll1
    rw [ih]
    rfl

theorem unroll2_eq (f : Int → A → B → Option R) (s p : Int) (a : Pack A N) (b : Pack B N) :
    unroll2 f s N p a b = unroll1 (fun q (x : A × B) => f q x.1 x.2) s N p (zipP a b) := by
  induction N using Nat.strongRecOn generalizing p with
  | ind N ih =>
    match N, a, b, ih with
    | 1, .one a, .one b, _ => rfl
    | n + 2, .more a as, .more b bs, ih =>
      simp only [unroll2, unroll1, zipP, Pack.car, Pack.cdr]
      rw [ih (n + 1) (by omega)]

theorem unroll3_eq (f : Int → A → B → C → Option R) (s p : Int) (a : Pack A N) (b : Pack B N)
    (c : Pack C N) :
    unroll3 f s N p a b c =
      unroll1 (fun q (x : A × B × C) => f q x.1 x.2.1 x.2.2) s N p (zipP a (zipP b c)) := by
  induction N using Nat.strongRecOn generalizing p with
  | ind N ih =>
    match N, a, b, c, ih with
    | 1, .one a, .one b, .one c, _ => rfl
    | n + 2, .more a as, .more b bs, .more c cs, ih =>
      simp only [unroll3, unroll1, zipP, Pack.car, Pack.cdr]
      rw [ih (n + 1) (by omega)]

theorem div_lane {i l L : Nat} (h : l < L) : (i * L + l) / L = i := by
  rw [Nat.mul_comm, Nat.mul_add_div (by omega), Nat.div_eq_of_lt h, Nat.add_zero]
theorem mod_lane {i l L : Nat} (h : l < L) : (i * L + l) % L = l := by
  rw [Nat.mul_comm, Nat.mul_add_mod, Nat.mod_eq_of_lt h]
theorem lane_lt {i l L N : Nat} (hi : i < N) (h : l < L) : i * L + l < N * L := by
  have : (i + 1) * L ≤ N * L := Nat.mul_le_mul_right _ hi
  rw [Nat.add_mul] at this
  omega
theorem div_lt {k L N : Nat} (h : k < N * L) : k / L < N := by
  have hL : 0 < L := Nat.pos_of_mul_pos_left (Nat.lt_of_le_of_lt (Nat.zero_le _) h)
  rwa [Nat.div_lt_iff_lt_mul hL]

theorem flat_lane (a : Pack (Fin L → β) N) (i l : Nat) (hi : i < N) (hl : l < L) :
    flat a ⟨i * L + l, lane_lt hi hl⟩ = reg a i ⟨l, hl⟩ := by
  unfold flat flatL
  simp only [div_lane hl, mod_lane hl]

theorem flat_inj {a b : Pack (Fin L → β) N} (h : flat a = flat b) : a = b := by
  refine reg_ext fun i hi => ?_
  funext l
  rw [← flat_lane a i l hi l.isLt, ← flat_lane b i l hi l.isLt, h]

theorem flat_surj (v : Fin ((n + 1) * L) → β) : ∃ a : Pack (Fin L → β) (n + 1), flat a = v := by
  by_cases hL : 0 < L
  · refine ⟨ofReg (fun i (l : Fin L) => if h : i * L + l < (n + 1) * L then
      v ⟨i * L + l, h⟩ else v ⟨0, Nat.mul_pos (Nat.succ_pos n) hL⟩) n, ?_⟩
    funext k
    unfold flat flatL
    rw [reg_ofReg _ _ _ (div_lt k.isLt)]
    have : k / L * L + k % L = k := by rw [Nat.mul_comm]; exact Nat.div_add_mod _ _
    simp only [this, k.isLt, dif_pos]
  · refine ⟨ofReg (fun _ l => absurd l.isLt (by omega)) n, ?_⟩
    funext k
    have := k.isLt
    obtain rfl : L = 0 := by omega
    simp at this

/-- Load-like templates: lane by lane form of the unrolled operator. -/
theorem unroll1_flat (la : A → Fin L → β) (f : Int → A → Option (Fin L → α))
    (g : Int → Nat → β → Option α) (hf : ∀ q a, f q a = body fun i => g q i (la a i))
    (s p : Int) (a : Pack A (n + 1)) :
    (unroll1 f s (n + 1) p a).map flat =
      body fun k : Fin ((n + 1) * L) => g (p + (k / L : Nat) * s) (k % L) (flatL la a k) := by
  apply Option.ext
  intro v
  rw [Option.map_eq_some_iff, body_eq_some]
  constructor
  · rintro ⟨r, hr, rfl⟩ k
    rw [unroll1_eq_some] at hr
    have h := hr (k / L) (div_lt k.isLt)
    rw [hf, body_eq_some] at h
    exact h ⟨k % L, _⟩
  · intro h
    obtain ⟨r, rfl⟩ := flat_surj v
    refine ⟨r, ?_, rfl⟩
    rw [unroll1_eq_some]
    intro i hi
    rw [hf, body_eq_some]
    intro l
    have h' := h ⟨i * L + l, lane_lt hi l.isLt⟩
    rw [flat_lane r i l hi l.isLt] at h'
    unfold flatL at h'
    simp only [div_lane l.isLt, mod_lane l.isLt] at h'
    exact h'

theorem lane_addr (p : Int) (k L : Nat) : p + (k / L : Nat) * (L : Int) + (k % L : Nat) = p + k := by
  have : k / L * L + k % L = k := by rw [Nat.mul_comm]; exact Nat.div_add_mod _ _
  have h2 : ((k / L : Nat) : Int) * (L : Int) + (k % L : Nat) = k := by exact_mod_cast this
  rw [Int.add_assoc, h2]

theorem len_eq (L : Nat) : len_ L = (L : Int) := by simp [len_, len]

/-! ### Stores -/

theorem stores_id {ι : Type} (l : List ι) (act : ι → Option (Int × M)) (m : Mem M) :
    stores l act m = stores (l.map act) id m := by
  unfold stores
  rw [List.foldlM_map]
  rfl

theorem stores_append {ι : Type} (l l' : List ι) (act : ι → Option (Int × M)) (m : Mem M) :
    stores (l ++ l') act m = (stores l act m).bind (stores l' act) := by
  unfold stores
  rw [List.foldlM_append]
  rfl

theorem flatMap_finRange {X : Type} (F : Nat → List X) (n : Nat) :
    ((List.finRange n).flatMap fun k : Fin n => F k) = (List.range n).flatMap F := by
  rw [← List.map_coe_finRange_eq_range, List.flatMap_map]


/-- Store-like templates: lane by lane form of the unrolled operator. -/
theorem unrollSt1_flat (la : A → Fin L → β) (f : Int → A → Mem M → Option (Mem M))
    (acts : Int → Nat → β → List (Option (Int × M)))
    (hf : ∀ q a m, f q a m =
      stores ((List.finRange L).flatMap fun i : Fin L => acts q i (la a i)) id m)
    (s p : Int) (a : Pack A (n + 1)) (m : Mem M) :
    unrollSt1 f s (n + 1) p a m =
      stores ((List.finRange ((n + 1) * L)).flatMap fun k : Fin ((n + 1) * L) =>
        acts (p + (k / L : Nat) * s) (k % L) (flatL la a k)) id m := by
  by_cases hL : 0 < L
  · have hd : ∀ (n : Nat) (p : Int) (a : Pack A (n + 1)) (m : Mem M),
        unrollSt1 f s (n + 1) p a m =
        stores ((List.range ((n + 1) * L)).flatMap fun k =>
          acts (p + (k / L : Nat) * s) (k % L) (la (reg a (k / L)) ⟨k % L, Nat.mod_lt _ hL⟩))
          id m := by
      intro n
      have hbase : ∀ (p : Int) (a : A), ((List.finRange L).flatMap fun i : Fin L => acts p i (la a i)) =
          (List.range L).flatMap fun k => acts p (k % L) (la a ⟨k % L, Nat.mod_lt _ hL⟩) := by
        intro p a
        rw [← flatMap_finRange]
        refine List.flatMap_congr fun i _ => ?_
        have : (i : Nat) % L = i := Nat.mod_eq_of_lt i.isLt
        simp only [this]
      induction n with
      | zero =>
        intro p a m
        unfold unrollSt1
        rw [hf, hbase, show (0 + 1) * L = L by omega]
        congr 1
        refine List.flatMap_congr fun k hk => ?_
        rw [Nat.div_eq_of_lt (List.mem_range.1 hk)]
        simp
      | succ n ih =>
        intro p a m
        unfold unrollSt1
        rw [hf, hbase]
        have hsplit : (n + 1 + 1) * L = L + (n + 1) * L := by rw [Nat.add_mul, Nat.one_mul, Nat.add_comm]
        rw [hsplit, List.range_add, List.flatMap_append, stores_append]
        congr 1
        · congr 1
          refine List.flatMap_congr fun k hk => ?_
          rw [Nat.div_eq_of_lt (List.mem_range.1 hk)]
          simp
        · funext m
          rw [ih, List.flatMap_map]
          congr 1
          refine List.flatMap_congr fun k hk => ?_
          have h1 : (L + k) / L = k / L + 1 := by
            rw [Nat.add_div_left _ hL]
          have h2 : (L + k) % L = k % L := Nat.add_mod_left _ _
          simp only [h1, h2, reg_succ]
          congr 1
          push_cast
          rw [Int.add_mul]
          omega
    rw [hd]
    rw [← flatMap_finRange (fun k =>
          acts (p + (k / L : Nat) * s) (k % L) (la (reg a (k / L)) ⟨k % L, Nat.mod_lt _ hL⟩))]
    rfl
  · obtain rfl : L = 0 := by omega
    have h0 : ∀ (n : Nat) (p : Int) (a : Pack A (n + 1)) (m : Mem M),
        unrollSt1 f s (n + 1) p a m = some m := by
      intro n
      induction n with
      | zero => intro p a m; unfold unrollSt1; rw [hf]; rfl
      | succ n ih => intro p a m; unfold unrollSt1; rw [hf]; exact ih _ _ _
    rw [h0]
    rfl

theorem unrollSt2_eq (f : Int → A → B → Mem M → Option (Mem M)) (s p : Int) (a : Pack A N)
    (b : Pack B N) (m : Mem M) :
    unrollSt2 f s N p a b m =
      unrollSt1 (fun q (x : A × B) => f q x.1 x.2) s N p (zipP a b) m := by
  induction N using Nat.strongRecOn generalizing p m with
  | ind N ih =>
    match N, a, b, ih with
    | 1, .one a, .one b, _ => rfl
    | n + 2, .more a as, .more b bs, ih =>
      simp only [unrollSt2, unrollSt1, zipP, Pack.car, Pack.cdr]
      congr 1
      funext m
      rw [ih (n + 1) (by omega)]

/-- Pack of the tuples of registers of several packs. Proof device, not code of the repo. -/
def tup : {N : Nat} → Packx A K (N + 1) → Pack (Fin K → A) (N + 1)
  | 0, a => .one fun j => (a j).car
  | _ + 1, a => .more (fun j => (a j).car) (tup fun j => (a j).cdr)

theorem reg_tup (a : Packx A K (n + 1)) (i : Nat) : reg (tup a) i = fun j => reg (a j) i := by
  induction n generalizing i with
  | zero =>
    unfold tup
    simp only [reg]
    funext j
    rw [eq_one (a j)]
    rfl
  | succ n ih =>
    unfold tup
    cases i with
    | zero =>
      simp only [reg]
      funext j
      rw [eq_more (a j)]
      rfl
    | succ i =>
      simp only [reg]
      rw [ih]
      funext j
      rw [reg_succ]

theorem unrollStx_eq (f : Int → (Fin K → A) → Mem M → Option (Mem M)) (s p : Int)
    (a : Packx A K (n + 1)) (m : Mem M) :
    unrollStx f s (n + 1) p a m = unrollSt1 f s (n + 1) p (tup a) m := by
  induction n generalizing p m with
  | zero => rfl
  | succ n ih =>
    unfold unrollStx unrollSt1
    unfold tup
    simp only [Pack.car, Pack.cdr]
    congr 1
    funext m
    rw [ih]

/-- Packs from a pack of tuples. Proof device, not code of the repo. -/
def untup : {N : Nat} → Pack (Fin K → A) (N + 1) → Packx A K (N + 1)
  | 0, a => fun j => .one (a.car j)
  | _ + 1, a => fun j => .more (a.car j) (untup a.cdr j)

theorem reg_untup (a : Pack (Fin K → A) (n + 1)) (j : Fin K) (i : Nat) :
    reg (untup a j) i = reg a i j := by
  induction n generalizing i with
  | zero => cases a; rfl
  | succ n ih =>
    cases a with
    | more c d =>
      cases i with
      | zero => rfl
      | succ i => exact ih d i

theorem unrollx0_eq (f : Int → Option (Fin K → R)) (s p : Int) (n : Nat) :
    unrollx0 f s (n + 1) p = (unroll0 f s (n + 1) p).map untup := by
  induction n generalizing p with
  | zero =>
    unfold unrollx0 unroll0
    rw [Option.map_map]
    rfl
  | succ n ih =>
    unfold unrollx0 unroll0
    rw [ih, Option.map_bind]
    congr 1
    funext car
    simp only [Option.map_map, Function.comp]
    rfl

end Nsimd.Pack
