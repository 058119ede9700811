import Verif.Lemmas.Spmd
import Mathlib.Data.List.Nodup

/-!
# C33, C34, C35: SPMD kernels

Definitions of the specification: `run`, `runLoop`, `Out`, `Plain` (Verif/Lemmas/Spmd.lean).
-/

namespace Nsimd.Props.Spmd

open Nsimd Nsimd.Spmd

variable {V : Type} {n : Nat}

/-! ## C33: the launcher -/

/-- Indices a call works on, in order. Specification. -/
def indices (b : Block) : List Int := (List.range b.lanes).map fun l => b.base + (l : Nat)

theorem prom_i64 {v : Int} (h0 : -2 ^ 63 ≤ v) (h1 : v < 2 ^ 63) : ITy.i64.prom v = some v := by
  unfold ITy.prom
  have hw : ITy.i64.promW - 1 = 63 := rfl
  rw [if_pos rfl, if_pos]
  rw [hw]
  constructor <;> omega

theorem launchSimd_eq (len N r : Nat) (hr : r < len) (hN : (N : Int) + len < 2 ^ 63) (k : Nat) :
    ∀ (fuel i : Nat), i + k * len + r = N → k < fuel →
      launchSimd len N fuel i = some ((List.range k).map fun j : Nat => ⟨(i : Int) + j * len, len, false⟩,
        (i : Int) + k * len) := by
  induction k with
  | zero =>
    intro fuel i h hf
    obtain ⟨f, rfl⟩ : ∃ f, fuel = f + 1 := ⟨fuel - 1, by omega⟩
    rw [launchSimd, prom_i64 (by omega) (by omega), Option.bind_some, if_neg (by omega)]
    simp
  | succ k ih =>
    intro fuel i h hf
    obtain ⟨f, rfl⟩ : ∃ f, fuel = f + 1 := ⟨fuel - 1, by omega⟩
    rw [Nat.succ_mul] at h
    have hp : 0 ≤ k * len := Nat.zero_le _
    generalize hkl : k * len = kl at *
    rw [launchSimd, prom_i64 (by omega) (by omega), Option.bind_some, if_pos (by omega)]
    have := ih f (i + len) (by omega) (by omega)
    rw [Int.natCast_add] at this
    rw [this, Option.map_some, List.range_succ_eq_map, List.map_cons, List.map_map]
    refine congrArg some (Prod.ext ?_ ?_)
    · refine congrArg₂ List.cons ?_ ?_
      · simp
      · refine List.map_congr_left fun j _ => ?_
        simp only [Function.comp, Nat.succ_eq_add_one, Block.mk.injEq, and_true, Int.natCast_add,
          Int.add_mul]
        omega
    · simp only [Int.natCast_add, Int.add_mul]; omega

theorem launchScalar_eq (N : Nat) (hN : (N : Int) < 2 ^ 63) (r : Nat) :
    ∀ (fuel i : Nat), i + r = N → r < fuel →
      launchScalar N fuel i = some ((List.range r).map fun j : Nat => ⟨(i : Int) + j, 1, true⟩) := by
  induction r with
  | zero =>
    intro fuel i h hf
    obtain ⟨f, rfl⟩ : ∃ f, fuel = f + 1 := ⟨fuel - 1, by omega⟩
    rw [launchScalar, if_neg (by omega)]
    rfl
  | succ r ih =>
    intro fuel i h hf
    obtain ⟨f, rfl⟩ : ∃ f, fuel = f + 1 := ⟨fuel - 1, by omega⟩
    rw [launchScalar, if_pos (by omega), prom_i64 (by omega) (by omega), Option.bind_some]
    have := ih f (i + 1) (by omega) (by omega)
    rw [Int.natCast_add] at this
    rw [show ((i : Int) + 1) = (i : Int) + ((1 : Nat) : Int) from rfl, this, Option.map_some,
      List.range_succ_eq_map, List.map_cons, List.map_map]
    refine congrArg some (congrArg₂ List.cons ?_ ?_)
    · simp
    · refine List.map_congr_left fun j _ => ?_
      simp only [Function.comp, Nat.succ_eq_add_one, Block.mk.injEq, and_true, Int.natCast_add]
      omega

/-- The launcher calls the SIMD kernel on the `N / len` full blocks, then the scalar kernel on each
of the `N % len` remaining indices, in order; no signed overflow. -/
theorem launch_calls (len N : Nat) (hl : 0 < len) (hN : (N : Int) + len < 2 ^ 63) :
    launch len N = some (
      ((List.range (N / len)).map fun k : Nat => ⟨k * len, len, false⟩) ++
      ((List.range (N % len)).map fun k : Nat => ⟨(N / len : Nat) * len + k, 1, true⟩)) := by
  have hm : N / len * len + N % len = N := Nat.div_add_mod' N len
  have hd : N / len ≤ N := Nat.div_le_self N len
  have h1 := launchSimd_eq len N (N % len) (Nat.mod_lt _ hl) hN (N / len) (N + 1) 0 (by omega)
    (by omega)
  have h2 := launchScalar_eq N (by omega) (N % len) (N + 1) (N / len * len) hm
    (by have := Nat.mod_le N len; omega)
  unfold launch
  rw [Int.toNat_natCast]
  rw [show ((0 : Nat) : Int) = 0 from rfl] at h1
  rw [h1, Option.bind_some, Int.zero_add]
  rw [Int.natCast_mul] at h2
  rw [h2, Option.map_some]
  simp

theorem range_blocks (len q : Nat) :
    (List.range q).flatMap (fun k : Nat => indices ⟨k * len, len, false⟩) =
      (List.range (q * len)).map fun i : Nat => (i : Int) := by
  induction q with
  | zero => simp
  | succ q ih =>
    rw [List.range_succ, List.flatMap_append, ih, Nat.succ_mul, List.range_add, List.map_append,
      List.map_map, List.flatMap_cons, List.flatMap_nil, List.append_nil]
    refine congrArg _ ?_
    unfold indices
    refine List.map_congr_left fun l _ => ?_
    simp

/-- C33: the calls partition `[0, N)`: put end to end, in order, the indices they work on are
`0, 1, ..., N - 1`. -/
theorem launch_partition (len N : Nat) (hl : 0 < len) (hN : (N : Int) + len < 2 ^ 63) :
    ∃ bs, launch len N = some bs ∧
      bs.flatMap indices = (List.range N).map (fun i : Nat => (i : Int)) ∧
      ∀ b ∈ bs, b.lanes = if b.scalar then 1 else len := by
  refine ⟨_, launch_calls len N hl hN, ?_, ?_⟩
  · rw [List.flatMap_append, List.flatMap_map, range_blocks, List.flatMap_map]
    conv => rhs; rw [show N = N / len * len + N % len from (Nat.div_add_mod' N len).symm]
    rw [List.range_add, List.map_append, List.map_map]
    refine congrArg _ ?_
    generalize N % len = r
    induction r with
    | zero => rfl
    | succ r ih => rw [List.range_succ, List.flatMap_append, ih, List.map_append]; simp [indices]
  · intro b hb
    rw [List.mem_append, List.mem_map, List.mem_map] at hb
    rcases hb with ⟨k, -, rfl⟩ | ⟨k, -, rfl⟩ <;> rfl

/-- 11 elements, vectors of 4. -/
example : launch 4 11 = some [⟨0, 4, false⟩, ⟨4, 4, false⟩, ⟨8, 1, true⟩, ⟨9, 1, true⟩,
    ⟨10, 1, true⟩] := launch_calls 4 11 (by decide) (by decide)

/-! ## C34: masked execution refines each lane -/

/-- A statement executed under any mask: a lane that is active and not switched off does what it
would do alone; an inactive lane is unchanged and stays inactive. `k_continue` excluded, and `k_set`
on `k_bool` variables in SIMD kernels, see the counterexamples below. -/
theorem stmt_refines_partial (z : V) (sc : Bool) (F : Nat) (p : Stmt V false) (hp : Plain sc p)
    (cond mid : Mask n) (st st' : St V n) (he : exec z sc F p cond mid st = some st')
    (hC : ∀ l, st.offC l = false) (l : Fin n) :
    (st.mask l = false → st'.lanes l = st.lanes l ∧ st'.mask l = false) ∧
    (st.mask l = true → st.offB l = false → st.offR l = false →
      ∃ o, run F p (st.lanes l) = some (o, st'.lanes l) ∧ st'.mask l = decide (o = .normal)) := by
  obtain ⟨-, h⟩ := (sim z sc F n p hp : StmtSim z sc F n p) cond mid st st' he hC
  refine ⟨fun hm => ⟨((h l).1 hm).1.1, ((h l).1 hm).2⟩, fun hm hB hR => ?_⟩
  obtain ⟨o, x, hr, hx, ho⟩ := (h l).2 hm hB hR
  refine ⟨o, by rw [hr, hx], ?_⟩
  rcases ho with ⟨rfl, m, -⟩ | ⟨rfl, m, -⟩ | ⟨rfl, m, -⟩ <;> exact m

/-- A kernel on a block: each lane ends as if it had executed the kernel alone. -/
theorem kernel_refines_partial (z : V) (sc : Bool) (F : Nat) (p : Stmt V false) (hp : Plain sc p)
    (lanes lanes' : Fin n → Lane V) (he : kernel z sc F p lanes = some lanes') (l : Fin n) :
    ∃ o, run F p (lanes l) = some (o, lanes' l) := by
  obtain ⟨st', he', rfl⟩ := Option.map_eq_some_iff.mp he
  obtain ⟨o, h, -⟩ := (stmt_refines_partial z sc F p hp _ _ _ st' he' (fun _ => rfl) l).2 rfl rfl rfl
  exact ⟨o, h⟩

theorem mem_indices (b : Block) (i : Int) :
    i ∈ indices b ↔ b.base ≤ i ∧ (i - b.base).toNat < b.lanes := by
  unfold indices
  rw [List.mem_map]
  constructor
  · rintro ⟨l, hl, rfl⟩
    rw [List.mem_range] at hl
    omega
  · rintro ⟨h1, h2⟩
    exact ⟨(i - b.base).toNat, List.mem_range.mpr h2, by omega⟩

theorem Plain.scalar {b : Bool} (sc : Bool) : (p : Stmt V b) → Plain false p → Plain sc p
  | .skip, _ => trivial
  | .set _ _, _ => trivial
  | .setl _ _, h => by cases (h : false = true)
  | .store _ _, _ => trivial
  | .load _ _, _ => trivial
  | .seq s t, h => ⟨Plain.scalar sc s h.1, Plain.scalar sc t h.2⟩
  | .ifs _ s t, h => ⟨Plain.scalar sc s h.1, Plain.scalar sc t h.2⟩
  | .elif _ s t, h => ⟨Plain.scalar sc s h.1, Plain.scalar sc t h.2⟩
  | .els s, h => (Plain.scalar sc s h : Plain sc s)
  | .endif, _ => trivial
  | .whil _ s, h => (Plain.scalar sc s h : Plain sc s)
  | .brk, _ => trivial
  | .cont, h => h.elim
  | .ret, _ => trivial
  | .call s, h => (Plain.scalar sc s h : Plain sc s)

theorem runBlocks_spec (z : V) (F : Nat) (p : Stmt V false) (hp : Plain false p)
    (vars : Int → Lane V) (bs : List Block) (hd : (bs.flatMap indices).Nodup) :
    ∀ mem mem' : Int → Nat → V, runBlocks z F p vars bs mem = some mem' → ∀ i,
      (i ∈ bs.flatMap indices → ∃ o x, run F p { vars i with cell := mem i } = some (o, x) ∧
        mem' i = x.cell) ∧
      (i ∉ bs.flatMap indices → mem' i = mem i) := by
  induction bs with
  | nil =>
    intro mem mem' he i
    have he := Option.some.inj he
    subst he
    exact ⟨fun h => by simp at h, fun _ => rfl⟩
  | cons b bs ih =>
    intro mem mem' he i
    obtain ⟨mem1, he1, he2⟩ := Option.bind_eq_some_iff.mp he
    rw [List.flatMap_cons, List.nodup_append] at hd
    obtain ⟨-, hd2, hdis⟩ := hd
    have h2 := ih hd2 mem1 mem' he2 i
    obtain ⟨lanes', hk, hmem1⟩ := Option.map_eq_some_iff.mp he1
    have hmem1 := congrFun hmem1 i
    beta_reduce at hmem1
    rw [List.flatMap_cons, List.mem_append]
    by_cases hi : i ∈ indices b
    · have hn : i ∉ bs.flatMap indices := fun h => hdis i hi i h rfl
      refine ⟨fun _ => ?_, fun h => absurd (.inl hi) h⟩
      rw [h2.2 hn]
      have hb := (mem_indices b i).mp hi
      rw [dif_pos hb] at hmem1
      obtain ⟨o, ho⟩ := kernel_refines_partial z b.scalar F p (Plain.scalar _ p hp) _ _ hk
        ⟨(i - b.base).toNat, hb.2⟩
      have hcast : b.base + (((i - b.base).toNat : Nat) : Int) = i := by omega
      dsimp only at ho
      rw [hcast] at ho
      exact ⟨o, _, ho, hmem1.symm⟩
    · rw [dif_neg (fun h => hi ((mem_indices b i).mpr h))] at hmem1
      rw [← hmem1] at h2
      exact ⟨fun h => h2.1 (h.resolve_left hi), fun h => h2.2 fun h' => h (.inr h')⟩

/-- The whole launch: after it, the elements number `i` of the arrays, `0 ≤ i < N`, are what one
lane executing the kernel alone on them computes; the other elements are unchanged. -/
theorem launchKernel_partial (z : V) (F : Nat) (p : Stmt V false) (hp : Plain false p)
    (vars : Int → Lane V) (len N : Nat) (hl : 0 < len) (hN : (N : Int) + len < 2 ^ 63)
    (mem mem' : Int → Nat → V) (he : launchKernel z F p vars len N mem = some mem') (i : Int) :
    (0 ≤ i ∧ i < N → ∃ o x, run F p { vars i with cell := mem i } = some (o, x) ∧
      mem' i = x.cell) ∧
    (¬ (0 ≤ i ∧ i < N) → mem' i = mem i) := by
  obtain ⟨bs, hbs, hpart, -⟩ := launch_partition len N hl hN
  unfold launchKernel at he
  rw [hbs, Option.bind_some] at he
  have hmem : i ∈ bs.flatMap indices ↔ 0 ≤ i ∧ i < N := by
    rw [hpart, List.mem_map]
    constructor
    · rintro ⟨j, hj, rfl⟩
      rw [List.mem_range] at hj
      omega
    · rintro ⟨h1, h2⟩
      exact ⟨i.toNat, List.mem_range.mpr (by omega), by omega⟩
  have hnd : (bs.flatMap indices).Nodup := by
    rw [hpart]
    refine List.Nodup.map ?_ List.nodup_range
    intro a b h
    exact Int.ofNat.inj h
  have := runBlocks_spec z F p hp vars bs hnd mem mem' he i
  rw [hmem] at this
  exact this

/-! ### Programs used in the examples -/

/-- All variables of a lane zero except number 0. Example data. -/
def lane0 (v : Nat) : Lane Nat := ⟨fun x => if x = 0 then v else 0, fun _ => false, fun _ => 0⟩

/-- `k_while(x > 0) k_set(x, x - 1) k_set(y, y + 2) k_if (y == 6 && x != 3) k_set(x, 0) k_break
k_endif k_endwhile k_if (y == 0) k_store(a, y) k_elseif (y == 2) k_store(a, 100) k_return k_else
k_store(a, y) k_endif k_store(b, 1)`. Example data. -/
def demo : Stmt Nat false :=
  .seq (.whil (fun l => decide (0 < l.num 0))
    (.seq (.set 0 fun l => l.num 0 - 1) (.seq (.set 1 fun l => l.num 1 + 2)
      (.ifs (fun l => l.num 1 == 6 && l.num 0 != 3) (.seq (.set 0 fun _ => 0) .brk) .endif))))
  (.seq (.ifs (fun l => l.num 1 == 0) (.store 0 fun l => l.num 1)
    (.elif (fun l => l.num 1 == 2) (.seq (.store 0 fun _ => 100) .ret)
      (.els (.store 0 fun l => l.num 1))))
    (.store 1 fun _ => 1))

/-- The demo terminates on four lanes that diverge, with the cells a C++ program would leave. -/
example : (kernel 0 false 10 demo (fun l : Fin 4 => lane0 l)).map
    (fun s => (List.finRange 4).map fun l => ((s l).num 1, (s l).cell 0, (s l).cell 1)) =
    some [(0, 0, 1), (2, 100, 0), (4, 4, 1), (6, 6, 1)] := by decide +kernel

example : Plain false demo := by simp [demo, Plain]

/-- Launch of the demo over 6 elements with vectors of 4. -/
example : ((launchKernel 0 10 demo (fun i => lane0 i.toNat) 4 6 fun _ _ => 7).map
    fun m => (List.range 7).map fun i => (m i 0, m i 1)) =
    some [(0, 1), (100, 7), (4, 1), (6, 1), (6, 1), (6, 1), (7, 7)] := by decide +kernel

/-- `k_continue`: `k_while(x < 2) k_set(x, x + 1) k_if (x == 1) k_continue k_endif k_set(y, y + 1)
k_endwhile`. Example data. -/
def contDemo : Stmt Nat false :=
  .whil (fun l => decide (l.num 0 < 2)) (.seq (.set 0 fun l => l.num 0 + 1)
    (.seq (.ifs (fun l => l.num 0 == 1) .cont .endif) (.set 1 fun l => l.num 1 + 1)))

/-- The full claim C34 is false with `k_continue`: the lanes that continued once are switched off by
every later `k_endif` of the loop, in all later iterations. Here with a single lane. -/
theorem continue_counterexample :
    (kernel 0 true 5 contDemo (fun _ : Fin 1 => lane0 0)).map (fun s => (s 0).num 1) = some 0 ∧
    (run 5 contDemo (lane0 0)).map (fun r => r.2.num 1) = some 1 := by decide +kernel

/-- `k_if (x == 0) k_set(b, true) k_endif` for a `k_bool` variable `b`. Example data. -/
def setlDemo : Stmt Nat false := .ifs (fun l => l.num 0 == 0) (.setl 0 fun _ => true) .endif

/-- The full claim C34 is false with `k_set` on `k_bool` variables: inactive lanes are cleared. -/
theorem setl_counterexample :
    (kernel 0 false 1 setlDemo (fun l : Fin 2 => { lane0 l with log := fun _ => true })).map
      (fun s => ((s 0).log 0, (s 1).log 0)) = some (true, false) ∧
    (run 1 setlDemo { lane0 1 with log := fun _ => true }).map (fun r => r.2.log 0) = some true := by
  decide +kernel

/-! ## C35: termination -/

/-- No loop and no jump. Specification. -/
def Straight : {b : Bool} → Stmt V b → Prop
  | _, .cont => False
  | _, .brk => False
  | _, .ret => False
  | _, .whil _ _ => False
  | _, .seq s t => Straight s ∧ Straight t
  | _, .ifs _ s t => Straight s ∧ Straight t
  | _, .elif _ s t => Straight s ∧ Straight t
  | _, .els s => Straight s
  | _, .call s => Straight s
  | _, _ => True

/-- Sequences of straight code and of loops with straight bodies. Specification. -/
def FlatLoops : {b : Bool} → Stmt V b → Prop
  | _, .seq s t => FlatLoops s ∧ FlatLoops t
  | _, .whil _ s => Straight s
  | _, s => Straight s

theorem straight_run (F : Nat) {b : Bool} (s : Stmt V b) :
    Straight s → ∀ x, ∃ y, run F s x = some (.normal, y) := by
  induction s with
  | skip | set | setl | store | load | endif => exact fun _ x => ⟨_, rfl⟩
  | brk | cont | ret | whil => exact fun h => h.elim
  | seq s t ihs iht =>
    intro h x
    obtain ⟨y, hy⟩ := ihs h.1 x
    obtain ⟨w, hw⟩ := iht h.2 y
    exact ⟨w, by unfold run; rw [hy, Option.bind_some, if_pos rfl, hw]⟩
  | ifs c s t ihs iht | elif c s t ihs iht =>
    intro h x
    unfold run
    split
    · exact ihs h.1 x
    · exact iht h.2 x
  | els s ih => exact fun h x => ih h x
  | call s ih =>
    intro h x
    obtain ⟨y, hy⟩ := ih h x
    exact ⟨y, by unfold run; rw [hy]; rfl⟩

theorem straight_exec (z : V) (sc : Bool) (F : Nat) {b : Bool} (s : Stmt V b) :
    Straight s → ∀ (cond mid : Mask n) st, ∃ st', exec z sc F s cond mid st = some st' := by
  induction s with
  | skip | set | setl | store | load | endif => exact fun _ _ _ st => ⟨_, rfl⟩
  | brk | cont | ret | whil => exact fun h => h.elim
  | seq s t ihs iht | ifs c s t ihs iht | elif c s t ihs iht =>
    intro h cond mid st
    unfold exec
    try dsimp only
    obtain ⟨y, hy⟩ := ihs h.1 _ _ _
    obtain ⟨w, hw⟩ := iht h.2 _ _ _
    exact ⟨w, by rw [hy, Option.bind_some, hw]⟩
  | els s ih | call s ih =>
    intro h cond mid st
    unfold exec
    try dsimp only
    obtain ⟨y, hy⟩ := ih h _ _ _
    exact ⟨_, by rw [hy, Option.bind_some]⟩

/-- All lanes are active. Proof device. -/
def AllOn (st : St V n) : Prop :=
  ∀ l, st.mask l = true ∧ st.offB l = false ∧ st.offC l = false ∧ st.offR l = false

theorem run_normal (F : Nat) (s : Stmt V false) (hs : FlatLoops s) (x : Lane V) (r : Out × Lane V)
    (h : run F s x = some r) : r.1 = .normal := by
  match s, hs with
  | .seq s t, hs =>
    unfold run at h
    obtain ⟨r1, h1, h2⟩ := Option.bind_eq_some_iff.mp h
    have := run_normal F s hs.1 x r1 h1
    rw [if_pos this] at h2
    exact run_normal F t hs.2 _ r h2
  | .whil c s, hs =>
    have hs : Straight s := hs
    unfold run at h
    have : ∀ k x, runLoop c (run F s) k x = some r → r.1 = .normal := by
      intro k
      induction k with
      | zero => intro x h; cases h
      | succ k ih =>
        intro x h
        unfold runLoop at h
        split at h
        · obtain ⟨y, hy⟩ := straight_run F s hs x
          rw [hy, Option.bind_some] at h
          exact ih _ h
        · cases h; rfl
    exact this F x h
  | .skip, _ | .set _ _, _ | .setl _ _, _ | .store _ _, _ | .load _ _, _ => cases h; rfl
  | .brk, hs | .cont, hs | .ret, hs => exact (hs : False).elim
  | .ifs c s t, hs =>
    obtain ⟨y, hy⟩ := straight_run F (.ifs c s t) hs x
    rw [hy] at h; cases h; rfl
  | .call s, hs =>
    obtain ⟨y, hy⟩ := straight_run F (.call s) hs x
    rw [hy] at h; cases h; rfl

theorem exec_allOn {z : V} {sc : Bool} {F : Nat} {s : Stmt V false} (hp : Plain sc s)
    {cond mid : Mask n} {st st' : St V n} (he : exec z sc F s cond mid st = some st')
    (hon : AllOn st) (hn : ∀ l r, run F s (st.lanes l) = some r → r.1 = .normal) :
    AllOn st' ∧ ∀ l, run F s (st.lanes l) = some (.normal, st'.lanes l) := by
  obtain ⟨hC, h⟩ := (sim z sc F n s hp : StmtSim z sc F n s) cond mid st st' he
    (fun l => (hon l).2.2.1)
  have h' : ∀ l, (st'.mask l = true ∧ st'.offB l = false ∧ st'.offR l = false) ∧
      run F s (st.lanes l) = some (.normal, st'.lanes l) := by
    intro l
    obtain ⟨o, x, hr, hx, ho⟩ := (h l).2 (hon l).1 (hon l).2.1 (hon l).2.2.2
    have := hn l _ hr
    dsimp only at this
    subst this
    rcases ho with ⟨-, a, b, c⟩ | ⟨h, -⟩ | ⟨h, -⟩
    · exact ⟨⟨a, b, c⟩, by rw [hr, hx]⟩
    · cases h
    · cases h
  exact ⟨fun l => ⟨(h' l).1.1, (h' l).1.2.1, hC l, (h' l).1.2.2⟩, fun l => (h' l).2⟩

theorem whileLoop_terminates {z : V} {sc : Bool} {F : Nat} {c : Lane V → Bool} {s : Stmt V false}
    (hs : Straight s) (hp : Plain sc s) (cond mid : Mask n) (hmid : ∀ l, mid l = true) (k : Nat) :
    ∀ st : St V n, 0 < k → (∀ l, st.offB l = false ∧ st.offC l = false ∧ st.offR l = false) →
      (∀ l, runLoop c (run F s) k (st.lanes l) ≠ none) →
      ∃ st', whileLoop c (exec z sc F s cond mid) mid k st = some st' := by
  induction k with
  | zero => intro st h; omega
  | succ k ih =>
    intro st _ hoff hr
    unfold whileLoop
    split
    · rename_i hany
      obtain ⟨st1, he1⟩ := straight_exec z sc F s hs cond mid
        { st with mask := clearLanes (clearLanes
          (fun l => c (st.lanes l) && mid l) st.offB) st.offR }
      rw [he1, Option.bind_some]
      obtain ⟨hC1, h1⟩ := after_block (sim z sc F n s hp : StmtSim z sc F n s) cond mid _ st st1
        he1 (fun l => (hoff l).2.1)
      -- the mask of the iteration is the condition
      have hin : ∀ l, clearLanes (clearLanes (fun l => c (st.lanes l) && mid l) st.offB) st.offR l
          = c (st.lanes l) := by
        intro l
        simp [clearLanes, hmid l, (hoff l).1, (hoff l).2.2]
      have step : ∀ l, c (st.lanes l) = true →
          runLoop c (run F s) k (st1.lanes l) ≠ none ∧ st1.offB l = false ∧ st1.offR l = false := by
        intro l hc
        obtain ⟨o, x, hrun, hx, ho⟩ := (h1 l).2 ((hin l).trans hc) (hoff l).1 (hoff l).2.2
        obtain ⟨y, hy⟩ := straight_run F s hs (st.lanes l)
        rw [hy] at hrun
        cases hrun
        have hl := hr l
        unfold runLoop at hl
        rw [if_pos hc, hy, Option.bind_some] at hl
        rcases ho with ⟨-, -, b, r⟩ | ⟨h, -⟩ | ⟨h, -⟩
        · exact ⟨by rw [hx]; exact hl, b, r⟩
        · cases h
        · cases h
      have hk : 0 < k := by
        obtain ⟨l, hl⟩ := any_true hany
        have := (step l hl).1
        cases k with
        | zero => exact absurd rfl this
        | succ k => omega
      refine ih st1 hk (fun l => ?_) (fun l => ?_)
      · by_cases hc : c (st.lanes l) = true
        · exact ⟨(step l hc).2.1, hC1 l, (step l hc).2.2⟩
        · obtain ⟨-, a2, a3⟩ := (h1 l).1 ((hin l).trans (by simpa using hc))
          exact ⟨a2.trans (hoff l).1, hC1 l, a3.trans (hoff l).2.2⟩
      · by_cases hc : c (st.lanes l) = true
        · exact (step l hc).1
        · obtain ⟨a1, -, -⟩ := (h1 l).1 ((hin l).trans (by simpa using hc))
          rw [a1]
          obtain ⟨k', rfl⟩ : ∃ k', k = k' + 1 := ⟨k - 1, by omega⟩
          unfold runLoop
          rw [if_neg hc]
          exact Option.some_ne_none _
    · exact ⟨st, rfl⟩

theorem exec_terminates (z : V) (sc : Bool) (F : Nat) (hF : 0 < F) (p : Stmt V false)
    (hp : Plain sc p) (hs : FlatLoops p) (cond mid : Mask n) (st : St V n) (hon : AllOn st)
    (hr : ∀ l, run F p (st.lanes l) ≠ none) : ∃ st', exec z sc F p cond mid st = some st' := by
  match p, hs with
  | .seq s t, hs =>
    have hrs : ∀ l, run F s (st.lanes l) ≠ none := by
      intro l h
      apply hr l
      unfold run
      rw [h]; rfl
    obtain ⟨st1, he1⟩ := exec_terminates z sc F hF s hp.1 hs.1 cond mid st hon hrs
    obtain ⟨hon1, h1⟩ := exec_allOn hp.1 he1 hon (fun l r => run_normal F s hs.1 _ r)
    have hrt : ∀ l, run F t (st1.lanes l) ≠ none := by
      intro l h
      apply hr l
      unfold run
      rw [h1 l, Option.bind_some, if_pos rfl, h]
    obtain ⟨st2, he2⟩ := exec_terminates z sc F hF t hp.2 hs.2 cond mid st1 hon1 hrt
    exact ⟨st2, by unfold exec; rw [he1, Option.bind_some, he2]⟩
  | .whil c s, hs =>
    obtain ⟨st1, he1⟩ := whileLoop_terminates (z := z) (c := c) hs hp cond st.mask
      (fun l => (hon l).1) F { st with offB := fun _ => false, offC := fun _ => false } hF
      (fun l => ⟨rfl, rfl, (hon l).2.2.2⟩) hr
    exact ⟨_, by unfold exec; rw [he1, Option.bind_some]⟩
  | .skip, _ | .set _ _, _ | .setl _ _, _ | .store _ _, _ | .load _ _, _ => exact ⟨_, rfl⟩
  | .brk, hs | .cont, hs | .ret, hs => exact (hs : False).elim
  | .ifs c s t, hs => exact straight_exec z sc F (.ifs c s t) hs cond mid st
  | .call s, hs => exact straight_exec z sc F (.call s) hs cond mid st

theorem runLoop_mono {c : Lane V → Bool} {b b' : Lane V → Option (Out × Lane V)}
    (hb : ∀ x r, b x = some r → b' x = some r) (k : Nat) :
    ∀ k', k ≤ k' → ∀ x r, runLoop c b k x = some r → runLoop c b' k' x = some r := by
  induction k with
  | zero => intro k' _ x r h; cases h
  | succ k ih =>
    intro k' hk x r h
    obtain ⟨j, rfl⟩ : ∃ j, k' = j + 1 := ⟨k' - 1, by omega⟩
    unfold runLoop at h ⊢
    split at h
    · rename_i hc
      rw [if_pos hc]
      obtain ⟨q, hq, h⟩ := Option.bind_eq_some_iff.mp h
      rw [hb _ _ hq, Option.bind_some]
      revert h
      cases q.1
      · exact ih j (by omega) _ _
      · exact id
      · exact ih j (by omega) _ _
      · exact id
    · rename_i hc
      rw [if_neg hc]
      exact h

/-- More iterations allowed: same result. -/
theorem run_mono {F F' : Nat} (hF : F ≤ F') {b : Bool} (s : Stmt V b) :
    ∀ x r, run F s x = some r → run F' s x = some r := by
  induction s with
  | skip | set | setl | store | load | endif | brk | cont | ret => exact fun _ _ h => h
  | seq s t ihs iht =>
    intro x r h
    unfold run at h ⊢
    obtain ⟨q, hq, h⟩ := Option.bind_eq_some_iff.mp h
    rw [ihs _ _ hq, Option.bind_some]
    split at h
    · rename_i hn
      rw [if_pos hn]
      exact iht _ _ h
    · rename_i hn
      rw [if_neg hn]
      exact h
  | ifs c s t ihs iht | elif c s t ihs iht =>
    intro x r h
    unfold run at h ⊢
    split at h
    · rename_i hc
      rw [if_pos hc]
      exact ihs _ _ h
    · rename_i hc
      rw [if_neg hc]
      exact iht _ _ h
  | els s ih => exact fun x r h => ih x r h
  | whil c s ih => exact fun x r h => runLoop_mono ih F F' hF x r h
  | call s ih =>
    intro x r h
    unfold run at h ⊢
    obtain ⟨q, hq, h⟩ := Option.bind_eq_some_iff.mp h
    rw [ih _ _ hq]
    exact h

/-- C35, partial: a kernel that is a sequence of straight code and loops whose bodies are straight
(no jump, no nested loop): if each lane executed alone terminates, then the masked kernel
terminates, and each lane ends as if alone. Missing: loops under a `k_if` or inside a loop, and loops
with jumps, for which the claim is false, see below. -/
theorem kernel_terminates_partial (z : V) (sc : Bool) (p : Stmt V false) (hp : Plain sc p)
    (hs : FlatLoops p) (lanes : Fin n → Lane V) (h : ∀ l, ∃ F r, run F p (lanes l) = some r) :
    ∃ F lanes', kernel z sc F p lanes = some lanes' ∧
      ∀ l, run F p (lanes l) = some (.normal, lanes' l) := by
  obtain ⟨F, hF, hr⟩ : ∃ F, 0 < F ∧ ∀ l, ∃ r, run F p (lanes l) = some r := by
    have : ∀ m, ∃ F, 0 < F ∧ ∀ l : Fin n, l.1 < m → ∃ r, run F p (lanes l) = some r := by
      intro m
      induction m with
      | zero => exact ⟨1, by omega, fun l h => absurd h (by omega)⟩
      | succ m ih =>
        obtain ⟨F, hF, ih⟩ := ih
        by_cases hm : m < n
        · obtain ⟨F', r, hr⟩ := h ⟨m, hm⟩
          refine ⟨F + F', by omega, fun l hl => ?_⟩
          by_cases hlm : l.1 < m
          · obtain ⟨r, hr⟩ := ih l hlm
            exact ⟨r, run_mono (by omega) p _ _ hr⟩
          · have : l = ⟨m, hm⟩ := Fin.ext (by show l.1 = m; omega)
            subst this
            exact ⟨r, run_mono (by omega) p _ _ hr⟩
        · exact ⟨F, hF, fun l hl => ih l (by omega)⟩
    obtain ⟨F, hF, h⟩ := this n
    exact ⟨F, hF, fun l => h l l.2⟩
  have hon : AllOn (⟨lanes, fun _ => true, fun _ => false, fun _ => false, fun _ => false⟩ : St V n) :=
    fun l => ⟨rfl, rfl, rfl, rfl⟩
  obtain ⟨st', he⟩ := exec_terminates z sc F hF p hp hs (fun _ => false) (fun _ => false) _ hon
    (fun l h => by obtain ⟨r, hr⟩ := hr l; cases hr.symm.trans h)
  refine ⟨F, st'.lanes, by unfold kernel; rw [he]; rfl, ?_⟩
  exact (exec_allOn hp he hon (fun l r => run_normal F p hs _ r)).2

/-- A loop that lanes leave after different numbers of iterations. Example data. -/
def countdown : Stmt Nat false :=
  .seq (.whil (fun l => decide (0 < l.num 0)) (.set 0 fun l => l.num 0 - 1)) (.store 0 fun _ => 1)

example : Plain false countdown ∧ FlatLoops countdown ∧
    ∀ l : Fin 3, ∃ F r, run F countdown (lane0 l) = some r := by
  refine ⟨by simp [countdown, Plain], by simp [countdown, FlatLoops, Straight], fun l => ?_⟩
  match l with
  | 0 => exact ⟨1, _, rfl⟩
  | 1 => exact ⟨2, _, rfl⟩
  | 2 => exact ⟨3, _, rfl⟩

/-- `k_while(true) k_break k_endwhile`. Example data. -/
def breakDemo : Stmt Nat false := .whil (fun _ => true) .brk

/-- The full claim C35 is false with `k_break`: the loop tests the condition of all lanes, also of
those that left it. Any positive number of lanes, SIMD or scalar kernel. -/
theorem break_counterexample (sc : Bool) (lanes : Fin (n + 1) → Lane Nat) :
    (∀ F, kernel 0 sc F breakDemo lanes = none) ∧
    ∀ l, run 1 breakDemo (lanes l) = some (.normal, lanes l) := by
  refine ⟨fun F => ?_, fun l => rfl⟩
  have hany : any (fun _ : Fin (n + 1) => true) = true := by
    unfold any
    rw [List.any_eq_true]
    exact ⟨0, List.mem_finRange _, rfl⟩
  have : ∀ k (st : St Nat (n + 1)) (cond mid : Mask (n + 1)),
      whileLoop (fun _ => true) (exec 0 sc F .brk cond mid) mid k st = none := by
    intro k
    induction k with
    | zero => intros; rfl
    | succ k ih =>
      intro st cond mid
      unfold whileLoop
      rw [if_pos hany]
      exact ih _ cond mid
  unfold kernel breakDemo
  rw [Option.map_eq_none_iff]
  show Option.bind _ _ = none
  rw [this]
  rfl

/-- `k_if (x == 0) k_while(y == 0) k_set(y, 1) k_endwhile k_endif`. Example data. -/
def nestDemo : Stmt Nat false :=
  .ifs (fun l => l.num 0 == 0) (.whil (fun l => l.num 1 == 0) (.set 1 fun _ => 1)) .endif

/-- The full claim C35 is false for a loop under a `k_if`: an inactive lane whose condition is true
keeps the loop going for ever. -/
theorem inactive_counterexample :
    (∀ F, kernel 0 false F nestDemo (fun l : Fin 2 => lane0 l) = none) ∧
    ∀ l : Fin 2, (run 2 nestDemo (lane0 l)).isSome := by
  refine ⟨fun F => ?_, by decide +kernel⟩
  have key : ∀ k (st : St Nat 2) (cond mid : Mask 2), mid 1 = false → (st.lanes 1).num 1 = 0 →
      whileLoop (fun l => l.num 1 == 0) (exec 0 false F (.set 1 fun _ => 1) cond mid) mid k st
        = none := by
    intro k
    induction k with
    | zero => intros; rfl
    | succ k ih =>
      intro st cond mid hm h0
      have hany : any (fun l : Fin 2 => (st.lanes l).num 1 == 0) = true := by
        unfold any
        rw [List.any_eq_true]
        exact ⟨1, List.mem_finRange _, by rw [h0]; rfl⟩
      unfold whileLoop
      rw [if_pos hany]
      refine ih _ cond mid hm ?_
      show (if clearLanes (clearLanes (fun l => (st.lanes l).num 1 == 0 && mid l) st.offB) st.offR 1
        then 1 else (st.lanes 1).num 1) = 0
      rw [if_neg, h0]
      simp [clearLanes, hm]
  unfold kernel nestDemo
  rw [Option.map_eq_none_iff]
  show Option.bind (Option.bind _ _) _ = none
  rw [key F _ _ _ rfl rfl]
  rfl

end Nsimd.Props.Spmd
