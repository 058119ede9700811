import Verif.Lemmas.Pack
import Verif.Props.CpuMem
import Mathlib.Algebra.BigOperators.Fin

/-!
# C27, C28: unrolled packs

Specification: `flat v` is the vector of `N * L` lanes whose lane `i * L + l` is lane `l` of
register `i` of the pack `v` (`flat_spec`).  An operator behaves as on one long vector when it
commutes with `flat`, the right-hand side being the operator of the base API with `N * L`
lanes.
-/

namespace Nsimd.Props.Pack
open Nsimd.Cpu Nsimd.Pack

variable {M α β γ δ : Type} {L K N n : Nat}

/-- `flat` is the concatenation of the registers in order. -/
theorem flat_spec (v : Pack (Vec L α) N) (i l : Nat) (hi : i < N) (hl : l < L) :
    flat v ⟨i * L + l, lane_lt hi hl⟩ = reg v i ⟨l, hl⟩ := flat_lane v i l hi hl

example : flat (Pack.more ![(10 : Nat), 11] (.more ![20, 21] (.one ![30, 31]))) (3 : Fin 6) = 21 := by
  decide

/-! ## C27 -/

theorem units_flat (k : Fin ((n + 1) * L)) : flatL (fun (_ : Unit) _ => ()) (units n) k = () := rfl

/-- `load` reads `N * len` consecutive elements. -/
theorem load_long (e : Elem M α) (m : Mem M) (p : Int) :
    (Nsimd.Pack.load e (n + 1) L m p).map flat = Cpu.load e ((n + 1) * L) m p := by
  unfold Nsimd.Pack.load Cpu.load
  rw [unroll0_eq, unroll1_flat (fun (_ : Unit) _ => ()) _
    (fun q i _ => (m (q + i)).bind e.dec) (fun _ _ => rfl)]
  refine body_congr fun k => ?_
  rw [len_eq, lane_addr]

/-- `loadl` reads `N * len` consecutive elements. -/
theorem loadl_long (e : Elem M α) (m : Mem M) (p : Int) :
    (Nsimd.Pack.loadl e (n + 1) L m p).map flat = Cpu.loadl e ((n + 1) * L) m p := by
  unfold Nsimd.Pack.loadl Cpu.loadl
  rw [unroll0_eq, unroll1_flat (fun (_ : Unit) _ => ()) _
    (fun q i _ => ((m (q + i)).bind e.dec).map fun x => ITy.u32.cast (if e.isZero x then 0 else -1))
    (fun _ _ => rfl)]
  refine body_congr fun k => ?_
  rw [len_eq, lane_addr]

/-- Lanes of a pair of registers. Specification, not code of the repo. -/
def la2 (x : (Fin L → α) × (Fin L → β)) (i : Fin L) : α × β := (x.1 i, x.2 i)

/-- Lanes of three registers. Specification, not code of the repo. -/
def la3 (x : (Fin L → α) × (Fin L → β) × (Fin L → γ)) (i : Fin L) : α × β × γ :=
  (x.1 i, x.2.1 i, x.2.2 i)

theorem flatL_zip (a : Pack (Fin L → α) N) (b : Pack (Fin L → β) N) (k : Fin (N * L)) :
    flatL la2 (zipP a b) k = (flat a k, flat b k) := by
  unfold flatL la2 flat flatL
  rw [reg_zipP]

theorem flatL_zip3 (a : Pack (Fin L → α) N) (b : Pack (Fin L → β) N) (c : Pack (Fin L → γ) N)
    (k : Fin (N * L)) :
    flatL la3 (zipP a (zipP b c)) k = (flat a k, flat b k, flat c k) := by
  unfold flatL la3 flat flatL
  rw [reg_zipP, reg_zipP]

/-- `masko_load` on a pack is `masko_load` on the long vector. -/
theorem maskoLoad_long (e : Elem M α) (l : Pack (LVec L) (n + 1)) (m : Mem M) (p : Int)
    (o : Pack (Vec L α) (n + 1)) :
    (Nsimd.Pack.maskoLoad e l m p o).map flat = Cpu.maskoLoad e (flat l) m p (flat o) := by
  unfold Nsimd.Pack.maskoLoad
  rw [unroll2_eq, unroll1_flat la2 (f := fun q (x : LVec L × Vec L α) => Cpu.maskoLoad e x.1 m q x.2)
    (fun q i x => if x.1 ≠ 0#32 then (m (q + i)).bind e.dec else some x.2) (fun _ _ => rfl)]
  unfold Cpu.maskoLoad
  refine body_congr fun k => ?_
  rw [len_eq, lane_addr, flatL_zip]

/-- `maskz_load` on a pack is `maskz_load` on the long vector. -/
theorem maskzLoad_long (e : Elem M α) (l : Pack (LVec L) (n + 1)) (m : Mem M) (p : Int) :
    (Nsimd.Pack.maskzLoad e l m p).map flat = Cpu.maskzLoad e (flat l) m p := by
  unfold Nsimd.Pack.maskzLoad Cpu.maskzLoad
  rw [unroll1_flat (fun l => l) _
    (fun q i x => if x ≠ 0#32 then (m (q + i)).bind e.dec else some e.zero) (fun _ _ => rfl)]
  refine body_congr fun k => ?_
  rw [len_eq, lane_addr]
  rfl

theorem flatMap_single {ι X : Type} (l : List ι) (f : ι → X) :
    (l.flatMap fun x => [f x]) = l.map f := by
  induction l with
  | nil => rfl
  | cons x l ih => rw [List.flatMap_cons, ih]; rfl

/-- `store` writes `N * len` consecutive elements, in the same order as the long store. -/
theorem store_long (e : Elem M α) (m : Mem M) (p : Int) (v : Pack (Vec L α) (n + 1)) :
    Nsimd.Pack.store e m p v = Cpu.store e m p (flat v) := by
  unfold Nsimd.Pack.store Cpu.store
  rw [unrollSt1_flat (fun v => v) _ (fun q i x => [some (q + i, e.enc x)])
    (fun q a m => by rw [flatMap_single, ← stores_id]), flatMap_single, ← stores_id]
  congr 1
  funext k
  rw [len_eq, lane_addr]
  rfl

/-- `storel` writes `N * len` consecutive elements. -/
theorem storel_long (e : Elem M α) (m : Mem M) (p : Int) (v : Pack (LVec L) (n + 1)) :
    Nsimd.Pack.storel e m p v = Cpu.storel e m p (flat v) := by
  unfold Nsimd.Pack.storel Cpu.storel
  rw [unrollSt1_flat (fun v => v) _
    (fun q i x => [some (q + i, e.enc (if x = 0#32 then e.zero else e.one))])
    (fun q a m => by rw [flatMap_single, ← stores_id]), flatMap_single, ← stores_id]
  congr 1
  funext k
  rw [len_eq, lane_addr]
  rfl

/-- `mask_store` on a pack is `mask_store` on the long vector. -/
theorem maskStore_long (e : Elem M α) (l : Pack (LVec L) (n + 1)) (m : Mem M) (p : Int)
    (v : Pack (Vec L α) (n + 1)) :
    Nsimd.Pack.maskStore e l m p v = Cpu.maskStore e (flat l) m p (flat v) := by
  unfold Nsimd.Pack.maskStore Cpu.maskStore
  rw [unrollSt2_eq, unrollSt1_flat la2 _
    (fun q i x => [if x.1 ≠ 0#32 then some (q + i, e.enc x.2) else none])
    (fun q a m => by rw [flatMap_single, ← stores_id]; rfl), flatMap_single, ← stores_id]
  congr 1
  funext k
  rw [len_eq, lane_addr, flatL_zip]

/-- `load2`, `load3`, `load4` on a pack read `K * N * len` elements and deinterleave them into
`K` long vectors. -/
theorem loadDeg_long (e : Elem M α) (m : Mem M) (p : Int) :
    (Nsimd.Pack.loadDeg e K (n + 1) L m p).map (fun v j => flat (v j)) =
      Cpu.loadDeg e K ((n + 1) * L) m p := by
  unfold Nsimd.Pack.loadDeg
  rw [unrollx0_eq, unroll0_eq, Option.map_map]
  apply Option.ext
  intro v
  rw [Option.map_eq_some_iff, Props.Cpu.loadDeg_reads]
  have haddr : ∀ (i l j : Nat),
      p + (i : Int) * (lenx K 1 L : Nat) + (K * l + j : Nat) = p + (K * (i * L + l) + j : Nat) := by
    intro i l j
    unfold lenx
    push_cast
    ring
  constructor
  · rintro ⟨r, hr, rfl⟩ j k
    rw [unroll1_eq_some] at hr
    have h := (Props.Cpu.loadDeg_reads e K m _ _).1 (hr (k / L) (div_lt k.isLt)) j
      ⟨k % L, Nat.mod_lt _ (Nat.pos_of_mul_pos_left (Nat.lt_of_le_of_lt (Nat.zero_le _) k.isLt))⟩
    rw [haddr, Nat.mul_comm (k / L), Nat.div_add_mod] at h
    simp only [Function.comp, flat, flatL, reg_untup]
    exact h
  · intro h
    have hs : ∀ j, ∃ a : Pack (Fin L → α) (n + 1), flat a = v j := fun j => flat_surj _
    choose a ha using hs
    refine ⟨tup a, ?_, ?_⟩
    · rw [unroll1_eq_some]
      intro i hi
      rw [Props.Cpu.loadDeg_reads]
      intro j l
      have h' := h j ⟨i * L + l, lane_lt hi l.isLt⟩
      rw [← ha, flat_lane (a j) i l hi l.isLt] at h'
      rw [haddr, reg_tup]
      exact h'
    · funext j
      rw [← ha]
      simp only [Function.comp]
      congr 1
      refine reg_ext fun i hi => ?_
      rw [reg_untup, reg_tup]

/-- `store2`, `store3`, `store4` on packs interleave the `K` long vectors. -/
theorem storeDeg_long (e : Elem M α) (m : Mem M) (p : Int) (v : Packx (Vec L α) K (n + 1)) :
    Nsimd.Pack.storeDeg e m p v = Cpu.storeDeg e m p fun j => flat (v j) := by
  unfold Nsimd.Pack.storeDeg Cpu.storeDeg
  have hlist : ∀ {n : Nat} (act : Fin n → Fin K → Option (Int × M)) (m : Mem M),
      stores ((List.finRange n).flatMap fun i => (List.finRange K).map fun j => (i, j))
        (fun x => act x.1 x.2) m =
      stores ((List.finRange n).flatMap fun i => (List.finRange K).map fun j => act i j) id m := by
    intro n act m
    rw [stores_id, List.map_flatMap]
    simp only [List.map_map]
    rfl
  rw [unrollStx_eq, unrollSt1_flat (fun (x : Fin K → Fin L → α) i j => x j i) _
    (fun q i x => (List.finRange K).map fun j : Fin K => some (q + (K * i + j : Nat), e.enc (x j)))
    (fun q a m => by rw [← hlist]), ← hlist (fun (k : Fin ((n + 1) * L)) (j : Fin K) =>
      some (p + (k / L : Nat) * (K * len_ L) + (K * (k % L) + j : Nat),
        e.enc (flatL (fun (x : Fin K → Fin L → α) i j => x j i) (tup v) k j)))]
  congr 1
  funext x
  obtain ⟨k, j⟩ := x
  have haddr : p + (k / L : Nat) * (K * len_ L) + (K * (k % L) + j : Nat) =
      p + (K * k + j : Nat) := by
    rw [len_eq]
    have h1 : (k / L : Nat) * L + (k % L : Nat) = (k : Nat) := by
      rw [Nat.mul_comm]; exact Nat.div_add_mod _ _
    conv_rhs => rw [← h1]
    push_cast
    ring
  rw [haddr]
  unfold flatL flat flatL
  rw [reg_tup]

/-- Lane-wise operators with one vector argument. -/
theorem map1_long (f : Vec L α → Option (Vec L β)) (g : α → Option β)
    (hf : ∀ a, f a = body fun i => g (a i)) (a : Pack (Vec L α) (n + 1)) :
    (map1 f a).map flat = body fun k => g (flat a k) := by
  unfold map1
  rw [unroll1_flat (fun v => v) _ (fun _ _ x => g x) (fun _ a => hf a)]
  rfl

/-- Lane-wise operators with two vector arguments. -/
theorem map2_long (f : Vec L α → Vec L β → Option (Vec L γ)) (g : α → β → Option γ)
    (hf : ∀ a b, f a b = body fun i => g (a i) (b i)) (a : Pack (Vec L α) (n + 1))
    (b : Pack (Vec L β) (n + 1)) :
    (map2 f a b).map flat = body fun k => g (flat a k) (flat b k) := by
  unfold map2
  rw [unroll2_eq, unroll1_flat la2 _ (fun _ _ x => g x.1 x.2) (fun _ a => hf a.1 a.2)]
  refine body_congr fun k => ?_
  rw [flatL_zip]

/-- Lane-wise operators with three vector arguments. -/
theorem map3_long (f : Vec L α → Vec L β → Vec L γ → Option (Vec L δ))
    (g : α → β → γ → Option δ) (hf : ∀ a b c, f a b c = body fun i => g (a i) (b i) (c i))
    (a : Pack (Vec L α) (n + 1)) (b : Pack (Vec L β) (n + 1)) (c : Pack (Vec L γ) (n + 1)) :
    (map3 f a b c).map flat = body fun k => g (flat a k) (flat b k) (flat c k) := by
  unfold map3
  rw [unroll3_eq, unroll1_flat la3 _ (fun _ _ x => g x.1 x.2.1 x.2.2)
    (fun _ a => hf a.1 a.2.1 a.2.2)]
  refine body_congr fun k => ?_
  rw [flatL_zip3]

/-- The operators of the base API commute with `flat`: integer arithmetic, the `scalar_impl`
operators, shifts, comparisons, logical operators, selection. -/
theorem lanewise_long (t : ITy) (a b : Pack (Vec L (BitVec t.w)) (n + 1))
    (f1 : BitVec t.w → Option (BitVec t.w)) (f2 : BitVec t.w → BitVec t.w → Option (BitVec t.w))
    (f3 : BitVec t.w → BitVec t.w → BitVec t.w → Option (BitVec t.w))
    (c : Pack (Vec L (BitVec t.w)) (n + 1)) (op : BitVec t.w → BitVec t.w → Bool)
    (fs : BitVec t.w → Int → Option (BitVec t.w)) (s : Int)
    (l l' : Pack (LVec L) (n + 1)) :
    (map2 (Cpu.add t) a b).map flat = Cpu.add t (flat a) (flat b) ∧
    (map2 (Cpu.sub t) a b).map flat = Cpu.sub t (flat a) (flat b) ∧
    (map2 (Cpu.mul t) a b).map flat = Cpu.mul t (flat a) (flat b) ∧
    (map2 (Cpu.div t) a b).map flat = Cpu.div t (flat a) (flat b) ∧
    (map1 (Cpu.scalar1 f1) a).map flat = Cpu.scalar1 f1 (flat a) ∧
    (map2 (Cpu.scalar2 f2) a b).map flat = Cpu.scalar2 f2 (flat a) (flat b) ∧
    (map3 (Cpu.scalar3 f3) a b c).map flat = Cpu.scalar3 f3 (flat a) (flat b) (flat c) ∧
    (map1 (fun a => Cpu.scalarShift fs a s) a).map flat = Cpu.scalarShift fs (flat a) s ∧
    (map2 (fun a b => some (Cpu.cmp2 op a b)) a b).map flat =
      some (Cpu.cmp2 op (flat a) (flat b)) ∧
    (map2 (fun a b => some (Cpu.andl a b)) l l').map flat = some (Cpu.andl (flat l) (flat l')) ∧
    (map2 (fun a b => some (Cpu.orl a b)) l l').map flat = some (Cpu.orl (flat l) (flat l')) ∧
    (map2 (fun a b => some (Cpu.xorl a b)) l l').map flat = some (Cpu.xorl (flat l) (flat l')) ∧
    (map2 (fun a b => some (Cpu.andnotl a b)) l l').map flat =
      some (Cpu.andnotl (flat l) (flat l')) ∧
    (map1 (fun a => some (Cpu.notl a)) l).map flat = some (Cpu.notl (flat l)) ∧
    (map3 (fun l a b => some (Cpu.ifElse1 l a b)) l a b).map flat =
      some (Cpu.ifElse1 (flat l) (flat a) (flat b)) := by
  refine ⟨?_, ?_, ?_, ?_, ?_, ?_, ?_, ?_, ?_, ?_, ?_, ?_, ?_, ?_, ?_⟩
  · exact map2_long _ (fun x y => (t.prom (t.val x + t.val y)).map t.cast) (fun _ _ => rfl) a b
  · exact map2_long _ (fun x y => (t.prom (t.val x - t.val y)).map t.cast) (fun _ _ => rfl) a b
  · exact map2_long _ (fun x y => (t.prom (t.val x * t.val y)).map t.cast) (fun _ _ => rfl) a b
  · exact map2_long _ (fun x y => if t.val y = 0 then none
      else (t.prom (Int.tdiv (t.val x) (t.val y))).map t.cast) (fun _ _ => rfl) a b
  · exact map1_long _ f1 (fun _ => rfl) a
  · exact map2_long _ f2 (fun _ _ => rfl) a b
  · exact map3_long _ f3 (fun _ _ _ => rfl) a b c
  · exact map1_long _ (fun x => fs x s) (fun _ => rfl) a
  · exact (map2_long _ (fun x y => some (ITy.u32.cast (if op x y then -1 else 0)))
      (fun a b => (body_some (cmp2 op a b)).symm) a b).trans (body_some _)
  · exact (map2_long _ (fun x y => some (x &&& y))
      (fun a b => (body_some (andl a b)).symm) l l').trans (body_some _)
  · exact (map2_long _ (fun x y => some (x ||| y))
      (fun a b => (body_some (orl a b)).symm) l l').trans (body_some _)
  · exact (map2_long _ (fun x y => some (x ^^^ y))
      (fun a b => (body_some (xorl a b)).symm) l l').trans (body_some _)
  · exact (map2_long _ (fun x y => some (x &&& ~~~ y))
      (fun a b => (body_some (andnotl a b)).symm) l l').trans (body_some _)
  · exact (map1_long _ (fun x => some (~~~ x))
      (fun a => (body_some (notl a)).symm) l).trans (body_some _)
  · exact (map3_long _ (fun x y z => some (if x ≠ 0#32 then y else z))
      (fun a b c => (body_some (ifElse1 a b c)).symm) l a b).trans (body_some _)

/-- `a += b` and the other assignment operators give `a + b`. -/
theorem assign_long (f : Vec L α → Vec L α → Option (Vec L α)) (g : α → α → Option α)
    (hf : ∀ a b, f a b = body fun i => g (a i) (b i)) (a b : Pack (Vec L α) (n + 1)) :
    (assign f (n + 1) a b).map flat = body fun k => g (flat a k) (flat b k) := by
  rw [← map2_long f g hf]
  congr 1
  induction n with
  | zero => rfl
  | succ n ih =>
    unfold assign map2 unroll2
    rw [ih]
    rfl

/-- `pack(s)` has every lane equal to `s`. -/
theorem splat_long (e : Elem M α) (x : M) :
    (Nsimd.Pack.splat e (n + 1) L x).map flat = Cpu.set1 e ((n + 1) * L) x := by
  unfold Nsimd.Pack.splat
  rw [unroll0_eq, unroll1_flat (fun (_ : Unit) _ => ()) (fun _ _ => Cpu.set1 e L x)
    (fun _ _ _ => e.dec x) (fun _ _ => rfl)]
  rfl

/-! ### Reductions -/

theorem forall_lane {P : Fin (N * L) → Prop} :
    (∀ k, P k) ↔ ∀ i (hi : i < N) (l : Fin L), P ⟨i * L + l, lane_lt hi l.isLt⟩ := by
  constructor
  · intro h i hi l; exact h _
  · intro h k
    have := h (k / L) (div_lt k.isLt)
      ⟨k % L, Nat.mod_lt _ (Nat.pos_of_mul_pos_left (Nat.lt_of_le_of_lt (Nat.zero_le _) k.isLt))⟩
    have hk : k / L * L + k % L = k := by rw [Nat.mul_comm]; exact Nat.div_add_mod _ _
    simpa only [hk] using this

theorem cpu_all_iff (a : LVec N) : Cpu.all a ≠ 0 ↔ ∀ i, a i = BitVec.allOnes 32 := by
  unfold Cpu.all
  rw [ite_ne_right_iff, List.all_eq_true]
  constructor
  · rintro ⟨h, _⟩ i; simpa using h i (List.mem_finRange i)
  · intro h; exact ⟨fun i _ => by simp [h i], by decide⟩

theorem cpu_any_iff (a : LVec N) : Cpu.any a ≠ 0 ↔ ∃ i, a i = BitVec.allOnes 32 := by
  unfold Cpu.any
  rw [ite_ne_right_iff, List.any_eq_true]
  constructor
  · rintro ⟨⟨i, _, h⟩, _⟩; exact ⟨i, by simpa using h⟩
  · rintro ⟨i, h⟩; exact ⟨⟨i, List.mem_finRange i, by simp [h]⟩, by decide⟩

theorem all_regs (a : Pack (LVec L) (n + 1)) :
    Nsimd.Pack.all (n + 1) a ≠ 0 ↔ ∀ i < n + 1, ∀ l, reg a i l = BitVec.allOnes 32 := by
  induction n with
  | zero =>
    unfold Nsimd.Pack.all
    rw [cpu_all_iff]
    constructor
    · intro h i hi l
      obtain rfl : i = 0 := by omega
      simpa using h l
    · intro h l; simpa using h 0 (by omega) l
  | succ n ih =>
    unfold Nsimd.Pack.all
    rw [ite_ne_right_iff, cpu_all_iff, ih]
    constructor
    · rintro ⟨⟨h0, h1⟩, _⟩ i hi l
      cases i with
      | zero => simpa using h0 l
      | succ i => rw [reg_succ]; exact h1 i (by omega) l
    · intro h
      refine ⟨⟨fun l => by simpa using h 0 (by omega) l, fun i hi l => ?_⟩, by decide⟩
      have := h (i + 1) (by omega) l
      rwa [reg_succ] at this

theorem any_regs (a : Pack (LVec L) (n + 1)) :
    Nsimd.Pack.any (n + 1) a ≠ 0 ↔ ∃ i, i < n + 1 ∧ ∃ l, reg a i l = BitVec.allOnes 32 := by
  induction n with
  | zero =>
    unfold Nsimd.Pack.any
    rw [cpu_any_iff]
    constructor
    · rintro ⟨l, h⟩; exact ⟨0, by omega, l, by simpa using h⟩
    · rintro ⟨i, hi, l, h⟩
      obtain rfl : i = 0 := by omega
      exact ⟨l, by simpa using h⟩
  | succ n ih =>
    unfold Nsimd.Pack.any
    rw [ite_ne_right_iff, cpu_any_iff, ih]
    constructor
    · rintro ⟨⟨l, h⟩ | ⟨i, hi, l, h⟩, _⟩
      · exact ⟨0, by omega, l, by simpa using h⟩
      · exact ⟨i + 1, by omega, l, by rwa [reg_succ]⟩
    · rintro ⟨i, hi, l, h⟩
      refine ⟨?_, by decide⟩
      cases i with
      | zero => exact Or.inl ⟨l, by simpa using h⟩
      | succ i => exact Or.inr ⟨i, by omega, l, by rwa [reg_succ] at h⟩

/-- `all` and `any` on a pack answer for all its lanes. -/
theorem all_any_long (a : Pack (LVec L) (n + 1)) :
    (Nsimd.Pack.all (n + 1) a ≠ 0 ↔ Cpu.all (flat a) ≠ 0) ∧
    (Nsimd.Pack.any (n + 1) a ≠ 0 ↔ Cpu.any (flat a) ≠ 0) := by
  rw [all_regs, any_regs, cpu_all_iff, cpu_any_iff]
  refine ⟨?_, ?_⟩
  · rw [forall_lane]
    constructor <;> intro h i hi l
    · rw [flat_spec a i l hi l.isLt]; exact h i hi l
    · have := h i hi l
      rwa [flat_spec a i l hi l.isLt] at this
  · rw [← not_iff_not]
    simp only [not_exists, not_and]
    rw [forall_lane]
    constructor <;> intro h i hi l
    · rw [flat_spec a i l hi l.isLt]; exact h i hi l
    · have := h i hi l
      rwa [flat_spec a i l hi l.isLt] at this

theorem sum_lanes {S : Type} [AddCommMonoid S] (v : Fin ((n + 1 + 1) * L) → S) :
    ∑ k, v k = (∑ l : Fin L, v ⟨l, by have := l.isLt; rw [Nat.add_mul]; omega⟩) +
      ∑ k : Fin ((n + 1) * L), v ⟨L + k, by
        have := k.isLt; have h : (n + 1 + 1) * L = (n + 1) * L + L := Nat.succ_mul _ _; omega⟩ := by
  have h : L + (n + 1) * L = (n + 1 + 1) * L := by rw [Nat.add_mul (n + 1) 1]; omega
  rw [← Fin.sum_congr' v h, Fin.sum_univ_add]
  rfl

/-- In exact arithmetic (any commutative monoid), `addv` on a pack adds all its lanes. -/
theorem addv_long {S : Type} [AddCommMonoid S] [Inhabited S] (a : Pack (Vec L S) (n + 1)) :
    Nsimd.Pack.addv (fun v => ∑ i, v i) (n + 1) a = ∑ k, flat a k := by
  induction n with
  | zero =>
    unfold Nsimd.Pack.addv
    have h : L = (0 + 1) * L := by omega
    rw [← Fin.sum_congr' (flat a) h]
    refine Finset.sum_congr rfl fun i _ => ?_
    unfold flat flatL
    simp only [Fin.val_cast, Nat.div_eq_of_lt i.isLt, Nat.mod_eq_of_lt i.isLt, reg_zero]
  | succ n ih =>
    unfold Nsimd.Pack.addv
    rw [ih, sum_lanes]
    congr 1
    · refine Finset.sum_congr rfl fun i _ => ?_
      unfold flat flatL
      simp only [Nat.div_eq_of_lt i.isLt, Nat.mod_eq_of_lt i.isLt, reg_zero]
    · refine Finset.sum_congr rfl fun k _ => ?_
      have hL : 0 < L := Nat.pos_of_mul_pos_left (Nat.lt_of_le_of_lt (Nat.zero_le _) k.isLt)
      unfold flat flatL
      have h1 : (L + (k : Nat)) / L = k / L + 1 := Nat.add_div_left _ hL
      have h2 : (L + (k : Nat)) % L = k % L := Nat.add_mod_left _ _
      simp only [h1, h2, reg_succ]

theorem cpu_nbtrue_sum (a : LVec N) :
    Cpu.nbtrue a = ∑ i, if a i = BitVec.allOnes 32 then (1 : Int) else 0 := by
  unfold Cpu.nbtrue
  rw [← List.sum_ofFn, ← List.foldl_map (f := fun i => if a i = BitVec.allOnes 32 then (1 : Int) else 0)
    (g := fun x y => x + y), List.sum_eq_foldl, List.ofFn_eq_map]

/-- `nbtrue` on a pack counts all its lanes. -/
theorem nbtrue_long (a : Pack (LVec L) (n + 1)) :
    Nsimd.Pack.nbtrue (n + 1) a = Cpu.nbtrue (flat a) := by
  have key : ∀ {n : Nat} (a : Pack (LVec L) (n + 1)), Nsimd.Pack.nbtrue (n + 1) a =
      ∑ k, if flat a k = BitVec.allOnes 32 then (1 : Int) else 0 := by
    intro n a
    induction n with
    | zero =>
      unfold Nsimd.Pack.nbtrue
      rw [cpu_nbtrue_sum]
      have h : L = (0 + 1) * L := by omega
      rw [← Fin.sum_congr' (fun k => if flat a k = BitVec.allOnes 32 then (1 : Int) else 0) h]
      refine Finset.sum_congr rfl fun i _ => ?_
      unfold flat flatL
      simp only [Fin.val_cast, Nat.div_eq_of_lt i.isLt, Nat.mod_eq_of_lt i.isLt, reg_zero]
    | succ n ih =>
      unfold Nsimd.Pack.nbtrue
      rw [ih, sum_lanes, cpu_nbtrue_sum]
      congr 1
      · refine Finset.sum_congr rfl fun i _ => ?_
        unfold flat flatL
        simp only [Nat.div_eq_of_lt i.isLt, Nat.mod_eq_of_lt i.isLt, reg_zero]
      · refine Finset.sum_congr rfl fun k _ => ?_
        have hL : 0 < L := Nat.pos_of_mul_pos_left (Nat.lt_of_le_of_lt (Nat.zero_le _) k.isLt)
        unfold flat flatL
        have h1 : (L + (k : Nat)) / L = k / L + 1 := Nat.add_div_left _ hL
        have h2 : (L + (k : Nat)) % L = k % L := Nat.add_mod_left _ _
        simp only [h1, h2, reg_succ]
  rw [key, cpu_nbtrue_sum]

/-- A pack of three registers of two lanes: all lanes true but one. -/
example : Nsimd.Pack.nbtrue 3 (.more ![-1#32, -1#32] (.more ![-1#32, 0#32] (.one ![-1#32, -1#32]))) = 5 := by
  decide

/-- Loading three registers of two lanes reads six elements. -/
example : (Nsimd.Pack.load (intElem .u8) 3 2 (fun a => some (BitVec.ofInt 8 (10 * a))) 1).map flat =
    some ![10#8, 20#8, 30#8, 40#8, 50#8, 60#8] := by
  rw [load_long]
  decide

/-! ## C28

What the position-dependent operators do on `N` registers, for every `N`: register `r` works
with the base pointer advanced by `r * len` elements, and with the same scalar arguments. -/

/-- Lane `k` of a `gather` reads offset `r * len + off k`, `r` the number of its register. -/
theorem gather_reads (e : Elem M α) (m : Mem M) (p : Int) (off : Pack (Vec L Int) (n + 1)) :
    (Nsimd.Pack.gather e m p off).map flat =
      Cpu.gather e m p fun k : Fin ((n + 1) * L) => ((k / L : Nat) : Int) * L + flat off k := by
  unfold Nsimd.Pack.gather Cpu.gather
  rw [unroll1_flat (fun v => v) _ (fun q _ o => (m (q + o)).bind e.dec) (fun _ _ => rfl)]
  refine body_congr fun k => ?_
  rw [len_eq, add_assoc]
  rfl

/-- Lane `k` of a `scatter` writes offset `r * len + off k`. -/
theorem scatter_writes (e : Elem M α) (m : Mem M) (p : Int) (off : Pack (Vec L Int) (n + 1))
    (v : Pack (Vec L α) (n + 1)) :
    Nsimd.Pack.scatter e m p off v =
      Cpu.scatter e m p (fun k : Fin ((n + 1) * L) => ((k / L : Nat) : Int) * L + flat off k)
        (flat v) := by
  unfold Nsimd.Pack.scatter Cpu.scatter
  rw [unrollSt2_eq, unrollSt1_flat la2 _ (fun q _ x => [some (q + x.1, e.enc x.2)])
    (fun q a m => by rw [flatMap_single, ← stores_id]; rfl), flatMap_single, ← stores_id]
  congr 1
  funext k
  rw [len_eq, add_assoc, flatL_zip]

/-- Lane `k` of a `gather_linear` reads offset `r * len + (k % len) * step`. -/
theorem gatherLinear_reads (e : Elem M α) (m : Mem M) (p step : Int) :
    (Nsimd.Pack.gatherLinear e (n + 1) L m p step).map flat =
      body fun k : Fin ((n + 1) * L) => (ITy.i32.prom ((k % L : Nat) * step)).bind fun o =>
        (m (p + (((k / L : Nat) : Int) * L + o))).bind e.dec := by
  unfold Nsimd.Pack.gatherLinear
  rw [unroll0_eq, unroll1_flat (fun (_ : Unit) _ => ()) (fun q _ => Cpu.gatherLinear e L m q step)
    (fun q i _ => (ITy.i32.prom ((i : Nat) * step)).bind fun k => (m (q + k)).bind e.dec)
    (fun _ _ => rfl)]
  refine body_congr fun k => ?_
  rw [len_eq]
  simp only [add_assoc]

/-- Lane `k` of a `scatter_linear` writes offset `r * len + (k % len) * step`. -/
theorem scatterLinear_writes (e : Elem M α) (m : Mem M) (p step : Int)
    (hs : ∀ i < L, ITy.i32.prom ((i : Nat) * step) = some (i * step))
    (v : Pack (Vec L α) (n + 1)) :
    Nsimd.Pack.scatterLinear e m p step v =
      stores (List.finRange ((n + 1) * L)) (fun k : Fin ((n + 1) * L) =>
        some (p + (((k / L : Nat) : Int) * L + (k % L : Nat) * step), e.enc (flat v k))) m := by
  unfold Nsimd.Pack.scatterLinear
  have hb : ∀ q (a : Vec L α) m, Cpu.scatterLinear e m q step a =
      stores (List.finRange L) (fun i => some (q + (i : Nat) * step, e.enc (a i))) m := by
    intro q a m
    unfold Cpu.scatterLinear
    rw [(body_eq_some (v := fun i : Fin L => (i : Nat) * step)).2 fun i => hs i i.isLt]
    rfl
  rw [unrollSt1_flat (fun v => v) _ (fun q i x => [some (q + (i : Nat) * step, e.enc x)])
    (fun q a m => by rw [hb, flatMap_single, ← stores_id]), flatMap_single, ← stores_id]
  congr 1
  funext k
  rw [len_eq, add_assoc]
  rfl

example : ∀ i < 4, ITy.i32.prom ((i : Nat) * 100) = some (i * 100) := by decide

/-- Lane `k` of `iota` is `k % len`. -/
theorem iota_lanes (t : ITy) :
    (Nsimd.Pack.iota t (n + 1) L).map flat = some fun k : Fin ((n + 1) * L) => t.cast ((k % L : Nat)) := by
  unfold Nsimd.Pack.iota
  rw [unroll0_eq, unroll1_flat (fun (_ : Unit) _ => ()) (fun _ _ => some (Cpu.iota (t := t) L))
    (fun _ i _ => some (t.cast (i : Nat))) (fun _ _ => (body_some (Cpu.iota (t := t) L)).symm)]
  exact body_some _

/-- Lane `k` of `mask_for_loop_tail(i, n)` is set when `i + k % len < n`. -/
theorem maskForLoopTail_lanes (in0 in1 : Int) (h0 : -2 ^ 31 ≤ in0) (h1 : in0 + L ≤ 2 ^ 31) :
    (Nsimd.Pack.maskForLoopTail (n + 1) L in0 in1).map flat =
      some fun k : Fin ((n + 1) * L) => if in0 + (k % L : Nat) < in1 then BitVec.allOnes 32 else 0#32 := by
  unfold Nsimd.Pack.maskForLoopTail
  rw [unroll0_eq, unroll1_flat (fun (_ : Unit) _ => ()) (fun _ _ => Cpu.maskForLoopTail L in0 in1)
    (fun _ i _ => (ITy.i32.prom (in0 + (i : Nat))).map fun s =>
      if s < in1 then BitVec.allOnes 32 else 0#32) (fun _ _ => rfl), body_eq_some]
  intro k
  have hk : (k : Nat) % L < L :=
    Nat.mod_lt _ (Nat.pos_of_mul_pos_left (Nat.lt_of_le_of_lt (Nat.zero_le _) k.isLt))
  have hp : ITy.i32.prom (in0 + ((k % L : Nat) : Int)) = some (in0 + ((k % L : Nat) : Int)) := by
    generalize hx : ((k % L : Nat) : Int) = x
    have : 0 ≤ x ∧ x < L := by omega
    unfold ITy.prom
    rw [if_pos rfl, if_pos]
    constructor <;> simp only [ITy.promW] <;> omega
  rw [hp]
  rfl

/-- What C28 asks for: the operators on packs equal the operators on the long vector.
Specification, not code of the repo. -/
def PositionsFlatten (N L : Nat) : Prop :=
  (∀ (e : Elem (BitVec 8) (BitVec 8)) m p (off : Pack (Vec L Int) N),
    (Nsimd.Pack.gather e m p off).map flat = Cpu.gather e m p (flat off)) ∧
  (∀ (e : Elem (BitVec 8) (BitVec 8)) m p (off : Pack (Vec L Int) N) (v : Pack (Vec L (BitVec 8)) N),
    Nsimd.Pack.scatter e m p off v = Cpu.scatter e m p (flat off) (flat v)) ∧
  (∀ (e : Elem (BitVec 8) (BitVec 8)) m p step,
    (Nsimd.Pack.gatherLinear e N L m p step).map flat = Cpu.gatherLinear e (N * L) m p step) ∧
  (∀ (e : Elem (BitVec 8) (BitVec 8)) m p step (v : Pack (Vec L (BitVec 8)) N),
    Nsimd.Pack.scatterLinear e m p step v = Cpu.scatterLinear e m p step (flat v)) ∧
  (∀ t, (Nsimd.Pack.iota t N L).map flat = some (Cpu.iota (t := t) (N * L))) ∧
  (∀ in0 in1, (Nsimd.Pack.maskForLoopTail N L in0 in1).map flat =
    Cpu.maskForLoopTail (N * L) in0 in1)

theorem div_zero_lane (k : Fin ((0 + 1) * L)) : (k : Nat) / L = 0 ∧ (k : Nat) % L = k := by
  have hk : (k : Nat) < L := Nat.lt_of_lt_of_eq k.isLt (by omega)
  exact ⟨Nat.div_eq_of_lt hk, Nat.mod_eq_of_lt hk⟩

/-- With one register the property holds (missing: `N > 1`, which is false). -/
theorem positions_flatten_partial : PositionsFlatten 1 L := by
  refine ⟨fun e m p off => ?_, fun e m p off v => ?_, fun e m p step => ?_, fun e m p step v => ?_,
    fun t => ?_, fun in0 in1 => ?_⟩
  · rw [gather_reads (n := 0)]
    congr 1
    funext k
    rw [(div_zero_lane k).1]; simp
  · rw [scatter_writes (n := 0)]
    congr 1
    funext k
    rw [(div_zero_lane k).1]; simp
  · rw [gatherLinear_reads (n := 0)]
    refine body_congr fun k => ?_
    rw [(div_zero_lane k).1, (div_zero_lane k).2]
    simp
  · obtain ⟨x, rfl⟩ : ∃ x, v = .one x := ⟨_, eq_one v⟩
    have hL : L = 1 * L := (Nat.one_mul L).symm
    have hf : flat (Pack.one x) = fun k : Fin (1 * L) => x (Fin.cast hL.symm k) := by
      funext k
      unfold flat flatL reg
      congr 1
      exact Fin.ext (div_zero_lane k).2
    rw [hf]
    unfold Nsimd.Pack.scatterLinear unrollSt1
    have hgen : ∀ K (h : L = K), Cpu.scatterLinear e m p step x =
        Cpu.scatterLinear e m p step fun k : Fin K => x (Fin.cast h.symm k) := by
      intro K h; subst h; rfl
    exact hgen _ hL
  · rw [iota_lanes (n := 0)]
    congr 1
    funext k
    rw [(div_zero_lane k).2]
    rfl
  · unfold Nsimd.Pack.maskForLoopTail
    rw [unroll0_eq, unroll1_flat (fun (_ : Unit) _ => ()) (fun _ _ => Cpu.maskForLoopTail L in0 in1)
      (fun _ i _ => (ITy.i32.prom (in0 + (i : Nat))).map fun s =>
        if s < in1 then BitVec.allOnes 32 else 0#32) (fun _ _ => rfl)]
    refine body_congr fun k => ?_
    rw [(div_zero_lane k).2]

/-- Every one of the six operators breaks the property with two registers of two lanes. -/
theorem positions_counterexample :
    (∃ m p off, (Nsimd.Pack.gather (intElem .u8) m p off).map flat ≠
      Cpu.gather (n := 2 * 2) (intElem .u8) m p (flat off)) ∧
    (∃ m p off v, Nsimd.Pack.scatter (L := 2) (N := 2) (intElem .u8) m p off v ≠
      Cpu.scatter (intElem .u8) m p (flat off) (flat v)) ∧
    (∃ m p step, (Nsimd.Pack.gatherLinear (intElem .u8) 2 2 m p step).map flat ≠
      Cpu.gatherLinear (intElem .u8) (2 * 2) m p step) ∧
    (∃ m p step v, Nsimd.Pack.scatterLinear (L := 2) (N := 2) (intElem .u8) m p step v ≠
      Cpu.scatterLinear (intElem .u8) m p step (flat v)) ∧
    (Nsimd.Pack.iota .u8 2 2).map flat ≠ some (Cpu.iota (t := .u8) (2 * 2)) ∧
    (Nsimd.Pack.maskForLoopTail 2 2 0 2).map flat ≠ Cpu.maskForLoopTail (2 * 2) 0 2 := by
  refine ⟨⟨fun a => some (BitVec.ofInt 8 a), 0, .more ![0, 1] (.one ![2, 3]), by decide⟩,
    ⟨fun _ => some 0#8, 0, .more ![0, 1] (.one ![2, 3]), .more ![1#8, 2#8] (.one ![3#8, 4#8]), ?_⟩,
    ⟨fun a => some (BitVec.ofInt 8 a), 0, 3, by decide⟩,
    ⟨fun _ => some 0#8, 0, 3, .more ![1#8, 2#8] (.one ![3#8, 4#8]), ?_⟩, by decide, by decide⟩
  · intro h
    have := congrArg (fun o : Option (Mem (BitVec 8)) => o.bind fun m => m 2) h
    revert this
    decide
  · intro h
    have := congrArg (fun o : Option (Mem (BitVec 8)) => o.bind fun m => m 6) h
    revert this
    decide

/-! ## C29 -/

theorem toPackHelper_reg {R : Type} {N' : Nat} (v : Packx R K (N' + 1)) :
    ∀ (t which j s : Nat) (a : Pack R j), which < K → s + j = N' + 1 →
      (∀ i < j, ∃ h : which < K, reg a i = reg (v ⟨which, h⟩) (s + i)) →
      t = (K - which) * (N' + 1) - s →
      ∃ r, toPackHelper v t which a = some r ∧
        ∀ i < t, ∃ h : which + (s + i) / (N' + 1) < K,
          reg r i = reg (v ⟨which + (s + i) / (N' + 1), h⟩) ((s + i) % (N' + 1)) := by
  intro t
  induction t with
  | zero =>
    intro which j s a hw hs _ ht
    have hj : 0 < j := by cases a <;> omega
    exfalso
    have h1 : N' + 1 ≤ (K - which) * (N' + 1) := Nat.le_mul_of_pos_left _ (by omega)
    omega
  | succ t ih =>
    intro which j s a hw hs ha ht
    cases a with
    | one c =>
      obtain rfl : s = N' := by omega
      have hc : ∃ h : which < K, c = reg (v ⟨which, h⟩) s := by
        obtain ⟨h, e⟩ := ha 0 (by omega); exact ⟨h, e⟩
      have hKw : (K - which) * (s + 1) = (K - which - 1) * (s + 1) + (s + 1) := by
        conv_lhs => rw [show K - which = K - which - 1 + 1 by omega]
        rw [Nat.add_mul, Nat.one_mul]
      have hfirst : (s + 0) / (s + 1) = 0 ∧ (s + 0) % (s + 1) = s :=
        ⟨Nat.div_eq_of_lt (by omega), Nat.mod_eq_of_lt (by omega)⟩
      cases t with
      | zero =>
        refine ⟨.one c, rfl, fun i hi => ?_⟩
        obtain rfl : i = 0 := by omega
        simp only [hfirst.1, hfirst.2]
        exact ⟨hw, hc.2⟩
      | succ t =>
        have hlt : which + 1 < K := by
          by_contra hcon
          have : K - which - 1 = 0 := by omega
          rw [this] at hKw
          omega
        obtain ⟨r, hr, hreg⟩ := ih (which + 1) (s + 1) 0 (v ⟨which + 1, hlt⟩) hlt (by omega)
          (fun i _ => ⟨hlt, by rw [Nat.zero_add]⟩)
          (by rw [show K - (which + 1) = K - which - 1 by omega]; omega)
        refine ⟨.more c r, ?_, fun i hi => ?_⟩
        · unfold toPackHelper
          rw [dif_pos hlt, hr]
          rfl
        · cases i with
          | zero =>
            simp only [hfirst.1, hfirst.2]
            exact ⟨hw, hc.2⟩
          | succ i =>
            have e1 : (s + (i + 1)) / (s + 1) = i / (s + 1) + 1 := by
              rw [show s + (i + 1) = i + (s + 1) by omega, Nat.add_div_right _ (by omega)]
            have e2 : (s + (i + 1)) % (s + 1) = i % (s + 1) := by
              rw [show s + (i + 1) = i + (s + 1) by omega, Nat.add_mod_right]
            obtain ⟨h, e⟩ := hreg i (by omega)
            simp only [Nat.zero_add] at h e
            simp only [e1, e2]
            refine ⟨by omega, ?_⟩
            rw [reg_succ]
            show reg r i = _
            rw [e]
            congr 2
            exact Fin.ext (by simp only; omega)
    | more c d =>
      rename_i n
      have hc : ∃ h : which < K, c = reg (v ⟨which, h⟩) s := by
        obtain ⟨h, e⟩ := ha 0 (by omega); exact ⟨h, e⟩
      have hge : N' + 1 ≤ (K - which) * (N' + 1) := Nat.le_mul_of_pos_left _ (by omega)
      have hfirst : (s + 0) / (N' + 1) = 0 ∧ (s + 0) % (N' + 1) = s :=
        ⟨Nat.div_eq_of_lt (by omega), Nat.mod_eq_of_lt (by omega)⟩
      obtain ⟨t', rfl⟩ : ∃ t', t = t' + 1 := ⟨t - 1, by omega⟩
      obtain ⟨r, hr, hreg⟩ := ih which (n + 1) (s + 1) d hw (by omega)
        (fun i hi => by
          obtain ⟨h, e⟩ := ha (i + 1) (by omega)
          refine ⟨h, ?_⟩
          rw [reg_succ] at e
          rw [show s + 1 + i = s + (i + 1) by omega]
          exact e) (by omega)
      refine ⟨.more c r, ?_, fun i hi => ?_⟩
      · unfold toPackHelper
        rw [hr]
        rfl
      · cases i with
        | zero =>
          simp only [hfirst.1, hfirst.2]
          exact ⟨hw, hc.2⟩
        | succ i =>
          obtain ⟨h, e⟩ := hreg i (by omega)
          rw [show s + (i + 1) = s + 1 + i by omega]
          exact ⟨h, e⟩

theorem toPack1_reg {R : Type} : ∀ (K : Nat) (v : Packx R (K + 1) 1) (j : Fin (K + 1)),
    reg (toPack1 K v) j = (v j).car
  | 0, v, j => by
    obtain rfl : j = 0 := Fin.ext (by omega)
    rfl
  | K + 1, v, ⟨0, _⟩ => rfl
  | K + 1, v, ⟨j + 1, h⟩ => by
    show reg (toPack1 K _) j = _
    exact toPack1_reg K (fun j => v j.succ) ⟨j, by omega⟩

theorem reg_cast {R : Type} {a b : Nat} (h : a = b) (x : Pack R a) (y : Pack R b) (hx : HEq x y)
    (i : Nat) : reg x i = reg y i := by
  subst h; cases hx; rfl

/-- `to_pack` of `K` packs of `N` registers always yields a pack, whose registers are those of
the first member, then those of the second, and so on. -/
theorem toPack_concat {R : Type} (v : Packx R (K + 1) (n + 1)) :
    ∃ r, toPack (n + 1) v = some r ∧
      ∀ (j : Fin (K + 1)) (i : Nat), i < n + 1 → reg r (j * (n + 1) + i) = reg (v j) i := by
  cases n with
  | zero =>
    refine ⟨_, rfl, fun j i hi => ?_⟩
    obtain rfl : i = 0 := by omega
    rw [reg_cast (Nat.mul_one (K + 1)) _ (toPack1 K v) (by simp)]
    rw [show (j : Nat) * (0 + 1) + 0 = j by omega, toPack1_reg, reg_zero]
  | succ n =>
    have key : ∀ t, (K + 1) * (n + 2) = t → ∃ r, toPackN v t = some r ∧
        ∀ (j : Fin (K + 1)) (i : Nat), i < n + 2 → reg r (j * (n + 2) + i) = reg (v j) i := by
      intro t h
      have hge : n + 2 ≤ (K + 1) * (n + 2) := Nat.le_mul_of_pos_left _ (by omega)
      obtain ⟨t, rfl⟩ : ∃ t', t = t' + 2 := ⟨t - 2, by omega⟩
      obtain ⟨r, hr, hreg⟩ := toPackHelper_reg v (t + 1) 0 (n + 1) 1 (v 0).cdr
        (by omega) (by omega) (fun i _ => ⟨by omega, by
          rw [Nat.add_comm 1 i]; exact (reg_succ _ _).symm⟩) (by
          rw [Nat.sub_zero]; show t + 1 = (K + 1) * (n + 2) - 1; omega)
      refine ⟨.more (v 0).car r, ?_, fun j i hi => ?_⟩
      · show (toPackHelper v (t + 1) 0 (v 0).cdr).map (Pack.more (v 0).car) = _
        rw [hr]
        rfl
      · obtain hx | ⟨x, hx⟩ : (j : Nat) * (n + 2) + i = 0 ∨ ∃ x, (j : Nat) * (n + 2) + i = x + 1 := by
          rcases Nat.eq_zero_or_pos ((j : Nat) * (n + 2) + i) with h0 | h0
          · exact Or.inl h0
          · exact Or.inr ⟨_, (Nat.succ_pred_eq_of_pos h0).symm⟩
        · have hi0 : i = 0 := by omega
          have hj0 : j = 0 := by
            have : (j : Nat) * (n + 2) = 0 := by omega
            rcases Nat.mul_eq_zero.1 this with h0 | h0
            · exact Fin.ext h0
            · omega
          rw [hx, hi0, hj0, reg_zero, reg_zero]
          rfl
        · have hlt : (j : Nat) * (n + 2) + i < (K + 1) * (n + 2) := lane_lt j.isLt hi
          obtain ⟨h', e⟩ := hreg x (by omega)
          have e1 : (1 + x) / (n + 1 + 1) = j := by
            rw [Nat.add_comm 1 x, ← hx]; exact div_lane hi
          have e2 : (1 + x) % (n + 1 + 1) = i := by
            rw [Nat.add_comm 1 x, ← hx]; exact mod_lane hi
          rw [hx, reg_succ]
          show reg r x = _
          rw [e]
          simp only [e1, e2, Nat.zero_add]
    exact key _ rfl

example : (toPack 2 ![Pack.more 'a' (.one 'b'), .more 'c' (.one 'd'), .more 'e' (.one 'f')]).map
    (fun r => (List.range 6).map (reg r)) = some ['a', 'b', 'c', 'd', 'e', 'f'] := by decide

/-- `to_pack_interleave` lists register 0 of each member, then register 1 of each member, and
so on. -/
theorem toPackInterleave_order {R : Type} (v : Packx R K (n + 1)) :
    (toPackInterleave (n + 1) v).length = K * (n + 1) ∧
    ∀ (i : Nat) (j : Fin K), i < n + 1 →
      (toPackInterleave (n + 1) v)[i * K + j]? = some (reg (v j) i) := by
  induction n with
  | zero =>
    unfold toPackInterleave
    refine ⟨by simp, fun i j hi => ?_⟩
    obtain rfl : i = 0 := by omega
    simp
  | succ n ih =>
    obtain ⟨h1, h2⟩ := ih fun j => (v j).cdr
    unfold toPackInterleave
    refine ⟨?_, fun i j hi => ?_⟩
    · rw [List.length_append, h1, List.length_ofFn, Nat.mul_add K (n + 1) 1]
      omega
    · cases i with
      | zero =>
        rw [List.getElem?_append_left (by simp)]
        simp
      | succ i =>
        rw [List.getElem?_append_right (by rw [List.length_ofFn, Nat.add_mul]; omega),
          List.length_ofFn, show (i + 1) * K + (j : Nat) - K = i * K + j by
            rw [Nat.add_mul]; omega, h2 i j (by omega), reg_succ]

example : toPackInterleave 3 ![Pack.more 'a' (.more 'b' (.one 'c')), .more 'x' (.more 'y' (.one 'z'))] =
    ['a', 'x', 'b', 'y', 'c', 'z'] := by decide

end Nsimd.Props.Pack
