import Verif.Model.Tutorial
import Verif.Props.CpuLoop

/-!
# C50: the tutorial program computes the same with and without SIMD
-/

namespace Nsimd.Props.Tutorial
open Nsimd.Cpu Nsimd.Tutorial Nsimd.Props.Cpu

/-- ASCII upper case, written on numbers. Specification, not code of the repo. -/
def upper (x : BitVec 8) : BitVec 8 := if 97 ≤ x.toNat ∧ x.toNat ≤ 122 then x - 32#8 else x

theorem up_eq : ∀ x, up x = upper x := by decide +kernel

theorem upLane : ∀ x : BitVec 8,
    (if ITy.u32.cast (if Cmp.op .i8 .ge x (ITy.i8.cast 97) then -1 else 0) &&&
        ITy.u32.cast (if Cmp.op .i8 .le x (ITy.i8.cast 122) then -1 else 0) ≠ 0#32 then
      ITy.i8.cast (ITy.i8.val x + ITy.i8.val (ITy.i8.cast (65 - 97))) else x) = upper x := by
  decide +kernel

theorem upPack_lane {n : Nat} (v : Vec n (BitVec 8)) : upPack v = some fun i => upper (v i) := by
  have hp : ∀ x y : BitVec 8, ITy.i8.prom (ITy.i8.val x + ITy.i8.val y) =
      some (ITy.i8.val x + ITy.i8.val y) := by
    intro x y
    have h : ∀ z : BitVec 8, -128 ≤ ITy.i8.val z ∧ ITy.i8.val z ≤ 127 := by decide +kernel
    have hx := h x
    have hy := h y
    unfold ITy.prom
    rw [if_pos rfl, if_pos]
    constructor <;> simp only [ITy.promW] <;> omega
  unfold upPack Cpu.add
  simp only [hp, Option.map_some, body_some]
  congr 1
  funext i
  unfold ifElse1 andl cmp2
  exact upLane (v i)

/-- The scalar program is defined when both arrays are mapped, and upper-cases. -/
theorem scalarLoop_spec (p q : Int) (cnt : Nat) : ∀ (i : Int) (m : Mem (BitVec 8)),
    (q ≤ p ∨ p + i + cnt ≤ q + i) →
    (∀ k : Int, i ≤ k → k < i + cnt → (m (p + k)).isSome) →
    (∀ k : Int, i ≤ k → k < i + cnt → (m (q + k)).isSome) →
    ∃ m', scalarLoop p q cnt i m = some m' ∧
      (∀ k : Int, i ≤ k → k < i + cnt → m' (q + k) = (m (p + k)).map upper) ∧
      ∀ a, ¬ (q + i ≤ a ∧ a < q + i + cnt) → m' a = m a := by
  induction cnt with
  | zero => intro i m _ _ _; exact ⟨m, rfl, by intro k _ _; omega, fun _ _ => rfl⟩
  | succ cnt ih =>
    intro i m hov hp hq
    obtain ⟨x, hx⟩ := Option.isSome_iff_exists.mp (hp i le_rfl (by omega))
    obtain ⟨m1, hm1⟩ := Option.isSome_iff_exists.mp
      (write_isSome (v := up x).mpr (hq i le_rfl (by omega)))
    obtain ⟨m', h1, h2, h3⟩ := ih (i + 1) m1 (by omega)
      (by intro k _ _; rw [write_mapped hm1]; exact hp k (by omega) (by omega))
      (by intro k _ _; rw [write_mapped hm1]; exact hq k (by omega) (by omega))
    refine ⟨m', ?_, ?_, ?_⟩
    · rw [scalarLoop, hx, Option.bind_some, hm1, Option.bind_some, h1]
    · intro k h4 h5
      by_cases hk : k = i
      · subst hk
        rw [h3 _ (by omega), write_same hm1, hx, up_eq]; rfl
      · rw [h2 k (by omega) (by omega), write_other hm1 (by omega)]
    · intro a ha
      rw [h3 a (by omega), write_other hm1 (by omega)]

theorem simdLoop_spec (l : Nat) (hl : 0 < l) (N : Nat) (p q : Int) (hov : q ≤ p ∨ p + N ≤ q)
    (hN : N + l < 2 ^ 31) (fuel : Nat) : ∀ (i : Int) (m : Mem (BitVec 8)), 0 ≤ i → i ≤ N →
    N - i < fuel →
    (∀ k : Int, i ≤ k → k < N → (m (p + k)).isSome) →
    (∀ k : Int, i ≤ k → k < N → (m (q + k)).isSome) →
    ∃ j m', simdLoop l N p q fuel i m = some (j, m') ∧ i ≤ j ∧ j ≤ N ∧ N < j + l ∧
      (∀ k : Int, i ≤ k → k < j → m' (q + k) = (m (p + k)).map upper) ∧
      ∀ a, ¬ (q + i ≤ a ∧ a < q + j) → m' a = m a := by
  induction fuel with
  | zero => intro i m _ _ _; omega
  | succ fuel ih =>
    intro i m h0 hi hf hp hq
    have hprom : ITy.i32.prom (i + l) = some (i + l) := by
      unfold ITy.prom; rw [if_pos rfl, if_pos (by constructor <;> simp only [ITy.promW] <;> omega)]
    by_cases hle : i + l ≤ N
    · have hld : (load (intElem .i8) l m (p + i)).isSome := by
        unfold load
        rw [body_isSome]
        intro k
        have := hp (i + (k : Nat)) (by omega) (by omega)
        rw [← add_assoc] at this
        obtain ⟨y, hy⟩ := Option.isSome_iff_exists.mp this
        rw [hy]; rfl
      obtain ⟨v, hv⟩ := Option.isSome_iff_exists.mp hld
      obtain ⟨m1, hm1⟩ := Option.isSome_iff_exists.mp
        ((store_defined (intElem .i8) m (q + i) (fun k : Fin l => upper (v k))).mpr (by
          intro k _ _
          have := hq (i + k) (by omega) (by omega)
          rwa [← add_assoc] at this))
      have hw := store_writes _ _ _ _ _ hm1
      have hmap : ∀ a, (m1 a).isSome ↔ (m a).isSome := fun a => stores_mapped hm1 a
      obtain ⟨j, m', h1, h2, h3, h4, h5, h6⟩ := ih (i + l) m1 (by omega) hle (by omega)
        (by intro k _ _; rw [hmap]; exact hp k (by omega) (by omega))
        (by intro k _ _; rw [hmap]; exact hq k (by omega) (by omega))
      refine ⟨j, m', ?_, by omega, h3, h4, ?_, ?_⟩
      · rw [simdLoop, hprom, Option.bind_some, if_pos hle, hv, Option.bind_some, upPack_lane,
          Option.bind_some, hm1, Option.bind_some, h1]
      · intro k h7 h8
        by_cases hk : k < i + l
        · rw [h6 _ (by omega)]
          have e1 := hw.1 ⟨(k - i).toNat, by omega⟩
          obtain ⟨y, hy, hd⟩ := (load_reads _ _ _ _).mp hv ⟨(k - i).toNat, by omega⟩
          have e2 : p + i + ((k - i).toNat : Int) = p + k := by omega
          have e3 : q + i + ((k - i).toNat : Int) = q + k := by omega
          simp only [e2, e3] at e1 hy
          rw [e1, hy]
          rw [show y = v ⟨(k - i).toNat, by omega⟩ from Option.some_inj.mp hd]
          rfl
        · rw [h5 k (by omega) h8, hw.2 _ (by omega)]
      · intro a ha
        rw [h6 a (by omega), hw.2 a (by omega)]
    · refine ⟨i, m, ?_, le_rfl, hi, by omega, by intro k _ _; omega, fun _ _ => rfl⟩
      rw [simdLoop, hprom, Option.bind_some, if_neg hle]

/-- C50: `uppercase_simd` terminates, is free of undefined behaviour and leaves the
memory `uppercase_scalar` leaves: `dst[k]` is `src[k]` in upper case for `k < N`,
nothing else changes. For every lane count, text and `N` up to `INT_MAX - len`, even
if nothing outside the two arrays is mapped. -/
theorem uppercase_agree (l : Nat) (hl : 0 < l) (N : Nat) (p q : Int)
    (hov : q ≤ p ∨ p + N ≤ q) (hN : N + l < 2 ^ 31) (m : Mem (BitVec 8))
    (hp : ∀ k : Int, 0 ≤ k → k < N → (m (p + k)).isSome)
    (hq : ∀ k : Int, 0 ≤ k → k < N → (m (q + k)).isSome) :
    ∃ m', uppercaseSimd l p q N m = some m' ∧ uppercaseScalar p q N m = some m' ∧
      (∀ k : Int, 0 ≤ k → k < N → m' (q + k) = (m (p + k)).map upper) ∧
      ∀ a, ¬ (q ≤ a ∧ a < q + N) → m' a = m a := by
  obtain ⟨ms, s1, s2, s3⟩ := scalarLoop_spec p q N 0 m (by omega) (by simpa using hp)
    (by simpa using hq)
  obtain ⟨j, m1, h1, h2, h3, h4, h5, h6⟩ := simdLoop_spec l hl N p q hov hN (N + 1) 0 m le_rfl
    (by omega) (by omega) hp hq
  have hmap : ∀ k : Int, 0 ≤ k → k < N → (m1 (q + k)).isSome := by
    intro k _ _
    by_cases hk : k < j
    · rw [h5 k (by omega) hk, Option.isSome_map]; exact hp k (by omega) (by omega)
    · rw [h6 _ (by omega)]; exact hq k (by omega) (by omega)
  have hmap' : ∀ k : Int, j ≤ k → k < N → m1 (p + k) = m (p + k) := by
    intro k _ _; exact h6 _ (by omega)
  have ht := maskForLoopTail_spec l j N
  obtain ⟨mask, hmask⟩ := Option.isSome_iff_exists.mp (ht.1.mpr (fun k => by omega))
  have hne : ∀ k : Fin l, mask k ≠ 0#32 ↔ j + (k : Nat) < N := by
    intro k
    by_cases h : j + (k : Nat) < N
    · rw [(ht.2 mask hmask k).1 h]; simp [h]
    · rw [(ht.2 mask hmask k).2 h]; simp [h]
  have hL := maskzLoad_spec (intElem .i8) (fun _ => rfl) mask m1 (p + j)
  obtain ⟨v, hv⟩ := Option.isSome_iff_exists.mp (hL.1.mpr (by
    intro k hk
    rw [add_assoc, hmap' _ (by omega) ((hne k).mp hk)]
    exact hp _ (by omega) ((hne k).mp hk)))
  have hS := maskStore_spec (intElem .i8) mask m1 (q + j) (fun k => upper (v k))
  obtain ⟨m2, hm2⟩ := Option.isSome_iff_exists.mp (hS.1.mpr (by
    intro k hk
    rw [add_assoc]
    exact hmap _ (by omega) ((hne k).mp hk)))
  have hw := hS.2 m2 hm2
  have hout : ∀ a, ¬ (q + j ≤ a ∧ a < q + N) → m2 a = m1 a := by
    intro a ha
    refine hw.2 a ?_
    intro k hk
    have := (hne k).mp hk
    omega
  have r2 : ∀ k : Int, 0 ≤ k → k < N → m2 (q + k) = (m (p + k)).map upper := by
    intro k _ _
    by_cases hk : k < j
    · rw [hout _ (by omega), h5 k (by omega) hk]
    · have hact := (hne ⟨(k - j).toNat, by omega⟩).mpr (by simp only; omega)
      have e1 := hw.1 _ hact
      obtain ⟨y, hy, hd⟩ := (hL.2 v hv _).1 hact
      have e2 : p + j + ((k - j).toNat : Int) = p + k := by omega
      have e3 : q + j + ((k - j).toNat : Int) = q + k := by omega
      simp only [e2, e3] at e1 hy
      rw [← hmap' k (by omega) (by omega), e1, hy]
      rw [show y = v ⟨(k - j).toNat, by omega⟩ from Option.some_inj.mp hd]
      rfl
  have r3 : ∀ a, ¬ (q ≤ a ∧ a < q + N) → m2 a = m a := by
    intro a ha
    rw [hout a (by omega), h6 a (by omega)]
  refine ⟨m2, ?_, ?_, r2, r3⟩
  · unfold uppercaseSimd
    rw [h1, Option.bind_some]
    simp only
    rw [hmask, Option.bind_some, hv, Option.bind_some, upPack_lane, Option.bind_some, hm2]
  · have s1' : uppercaseScalar p q N m = some ms := s1
    rw [s1']
    refine congrArg some ?_
    funext a
    by_cases ha : q ≤ a ∧ a < q + N
    · have e : a = q + (a - q) := by omega
      rw [e, s2 _ (by omega) (by omega), r2 _ (by omega) (by omega)]
    · rw [r3 a ha, s3 a (by omega)]

-- "az" in place, 16 lanes, only two bytes mapped
example : ∃ m', uppercaseSimd 16 0 0 2
      (fun a => if a = 0 then some 97#8 else if a = 1 then some 122#8 else none) = some m' ∧
    m' 0 = some 65#8 ∧ m' 1 = some 90#8 := by
  obtain ⟨m', h1, -, h2, -⟩ := uppercase_agree 16 (by omega) 2 0 0 (by omega) (by omega)
    (fun a => if a = 0 then some 97#8 else if a = 1 then some 122#8 else none)
    (by intro k _ _; have : k = 0 ∨ k = 1 := by omega
        rcases this with rfl | rfl <;> rfl)
    (by intro k _ _; have : k = 0 ∨ k = 1 := by omega
        rcases this with rfl | rfl <;> rfl)
  exact ⟨m', h1, h2 0 (by omega) (by omega), h2 1 (by omega) (by omega)⟩

end Nsimd.Props.Tutorial
