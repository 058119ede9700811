import Verif.Props.CpuMem

/-!
# C18: the strip-mined loop with `mask_for_loop_tail`
-/

namespace Nsimd.Props.Cpu
open Nsimd.Cpu

variable {n : Nat} {M α : Type}

/-- `mask_for_loop_tail(i, N)` is defined exactly when no lane index overflows an
`int`, and lane `k` is then true exactly when `i + k < N`. -/
theorem maskForLoopTail_spec (n : Nat) (i N : Int) :
    ((maskForLoopTail n i N).isSome ↔
      ∀ k : Fin n, -2 ^ 31 ≤ i + (k : Nat) ∧ i + (k : Nat) < 2 ^ 31) ∧
    ∀ l, maskForLoopTail n i N = some l → ∀ k : Fin n,
      (i + (k : Nat) < N → l k = 0xffffffff#32) ∧ (¬ i + (k : Nat) < N → l k = 0#32) := by
  unfold maskForLoopTail
  have hp : ∀ x : Int, ITy.i32.prom x = if -2 ^ 31 ≤ x ∧ x < 2 ^ 31 then some x else none := by
    intro x; unfold ITy.prom; rw [if_pos rfl]; rfl
  constructor
  · rw [body_isSome]
    refine forall_congr' fun k => ?_
    rw [hp, Option.isSome_map]
    split <;> simp_all
  · intro l h k
    rw [body_eq_some] at h
    have := h k
    rw [hp] at this
    split at this
    · simp only [Option.map_some, Option.some_inj] at this
      rw [← this]
      constructor
      · intro h'; rw [if_pos h']; rfl
      · intro h'; rw [if_neg h']
    · cases this

/-- The use of `mask_for_loop_tail` described in egg/operators.py:1271-1278 and
doc/markdown/faq.md:141-147: `for (i = 0; i < N; i += len) {
m = mask_for_loop_tail(i, N); mask_store(m, q + i, f(maskz_load(m, p + i))); }`,
written with the model's operators. `none` is undefined behaviour or lack of fuel. -/
def tailLoop (e : Elem M α) (n : Nat) (f : α → α) (N p q : Int) : Nat → Int → Mem M → Option (Mem M)
  | 0, _, _ => none
  | fuel + 1, i, m =>
    if i < N then
      (maskForLoopTail n i N).bind fun l =>
      (maskzLoad e l m (p + i)).bind fun v =>
      (maskStore e l m (q + i) fun k => f (v k)).bind fun m =>
      (ITy.i32.prom (i + n)).bind fun i => tailLoop e n f N p q fuel i m
    else some m

theorem tailLoop_aux (e : Elem M α) (hdec : ∀ y, (e.dec y).isSome) (hn : 0 < n) (f : α → α)
    (N : Nat) (p q : Int) (hov : q ≤ p ∨ p + N ≤ q) (B : Int) (hB : B < 2 ^ 31)
    (fuel : Nat) : ∀ (i : Int) (m : Mem M), 0 ≤ i → (∀ j : Int, i ≤ j → j < N → (n : Int) ∣ j - i →
        j + n ≤ B) →
      (N : Int) - i < fuel →
      (∀ k : Int, i ≤ k → k < N → (m (p + k)).isSome) →
      (∀ k : Int, i ≤ k → k < N → (m (q + k)).isSome) →
      ∃ m', tailLoop e n f N p q (fuel + 1) i m = some m' ∧
        (∀ k : Int, i ≤ k → k < N → ∃ y x, m (p + k) = some y ∧ e.dec y = some x ∧
          m' (q + k) = some (e.enc (f x))) ∧
        ∀ a, ¬ (q + i ≤ a ∧ a < q + N) → m' a = m a := by
  induction fuel with
  | zero =>
    intro i m hi _ hf _ _
    refine ⟨m, ?_, ?_, fun _ _ => rfl⟩
    · unfold tailLoop; rw [if_neg (by omega)]
    · intro k h1 h2; omega
  | succ fuel ih =>
    intro i m hi hcap hf hp hq
    by_cases hlt : i < N
    · have hB' : i + n ≤ B := hcap i (by omega) hlt ⟨0, by omega⟩
      have ht := maskForLoopTail_spec n i N
      obtain ⟨l, hl⟩ := Option.isSome_iff_exists.mp (ht.1.mpr (fun k => by omega))
      have hlk := ht.2 l hl
      have hne : ∀ k : Fin n, l k ≠ 0#32 ↔ i + (k : Nat) < N := by
        intro k
        by_cases h : i + (k : Nat) < N
        · rw [(hlk k).1 h]; simp [h]
        · rw [(hlk k).2 h]; simp [h]
      have hL := maskzLoad_spec e hdec l m (p + i)
      obtain ⟨v, hv⟩ := Option.isSome_iff_exists.mp (hL.1.mpr (by
        intro k hk
        have := hp (i + (k : Nat)) (by omega) ((hne k).mp hk)
        rwa [← add_assoc] at this))
      have hvk := hL.2 v hv
      have hS := maskStore_spec e l m (q + i) (fun k => f (v k))
      obtain ⟨m1, hm1⟩ := Option.isSome_iff_exists.mp (hS.1.mpr (by
        intro k hk
        have := hq (i + (k : Nat)) (by omega) ((hne k).mp hk)
        rwa [← add_assoc] at this))
      have hw := hS.2 m1 hm1
      have hmap : ∀ a, (m1 a).isSome ↔ (m a).isSome := fun a => stores_mapped hm1 a
      have hprom : ITy.i32.prom (i + n) = some (i + n) := by
        unfold ITy.prom; rw [if_pos rfl, if_pos (by constructor <;> simp only [ITy.promW] <;> omega)]
      have hout : ∀ a, ¬ (q + i ≤ a ∧ a < q + i + n ∧ a < q + N) → m1 a = m a := by
        intro a ha
        refine hw.2 a ?_
        intro k hk
        have := (hne k).mp hk
        omega
      obtain ⟨m', hm', hk', hfr⟩ := ih (i + n) m1 (by omega)
        (by
          intro j h1 h2 h3
          refine hcap j (by omega) h2 ?_
          obtain ⟨c, hc⟩ := h3
          exact ⟨c + 1, by rw [mul_add, mul_one, ← hc]; ring⟩)
        (by omega)
        (by intro k h1 h2; rw [hmap]; exact hp k (by omega) h2)
        (by intro k h1 h2; rw [hmap]; exact hq k (by omega) h2)
      refine ⟨m', ?_, ?_, ?_⟩
      · rw [tailLoop, if_pos hlt, hl, Option.bind_some, hv, Option.bind_some, hm1,
          Option.bind_some, hprom, Option.bind_some, hm']
      · intro k h1 h2
        by_cases hkn : k < i + n
        · obtain ⟨y, hy, hd⟩ := (hvk ⟨(k - i).toNat, by omega⟩).1 ((hne _).mpr (by simp only; omega))
          have hst := hw.1 ⟨(k - i).toNat, by omega⟩ ((hne _).mpr (by simp only; omega))
          have e1 : p + i + ((k - i).toNat : Int) = p + k := by omega
          have e2 : q + i + ((k - i).toNat : Int) = q + k := by omega
          simp only [e1, e2] at hy hst
          refine ⟨y, _, hy, hd, ?_⟩
          rw [hfr _ (by omega), hst]
        · obtain ⟨y, x, hy, hd, hr⟩ := hk' k (by omega) h2
          refine ⟨y, x, ?_, hd, hr⟩
          rw [← hy, hout]
          omega
      · intro a ha
        rw [hfr a (by omega), hout a (by omega)]
    · refine ⟨m, ?_, ?_, fun _ _ => rfl⟩
      · unfold tailLoop; rw [if_neg hlt]
      · intro k h1 h2; omega

/-- C18: for every `N` whose rounding up to a multiple of the lane count fits in an
`int`, the loop terminates without undefined behaviour, even when nothing outside
the two arrays is mapped; it writes `f` of element `k` to `dst[k]` for each `k < N`
and changes nothing else.  The arrays may be equal, disjoint, or overlap with the
destination below the source. -/
theorem tailLoop_correct (e : Elem M α) (hdec : ∀ y, (e.dec y).isSome) (hn : 0 < n) (f : α → α)
    (N : Nat) (p q : Int) (hov : q ≤ p ∨ p + N ≤ q) (hN : (N + n - 1) / n * n < 2 ^ 31) (m : Mem M)
    (hp : ∀ k : Int, 0 ≤ k → k < N → (m (p + k)).isSome)
    (hq : ∀ k : Int, 0 ≤ k → k < N → (m (q + k)).isSome) :
    ∃ m', tailLoop e n f N p q (N + 2) 0 m = some m' ∧
      (∀ k : Int, 0 ≤ k → k < N → ∃ y x, m (p + k) = some y ∧ e.dec y = some x ∧
        m' (q + k) = some (e.enc (f x))) ∧
      ∀ a, ¬ (q ≤ a ∧ a < q + N) → m' a = m a := by
  obtain ⟨m', h1, h2, h3⟩ := tailLoop_aux e hdec hn f N p q hov (((N + n - 1) / n * n : Nat) : Int)
    (by omega) (N + 1) 0 m le_rfl
    (by
      intro j h0 hj hd
      obtain ⟨c, hc⟩ := hd
      have hc' : j = n * c := by omega
      have hc0 : 0 ≤ c := by
        by_contra hneg
        have : (n : Int) * c < 0 := Int.mul_neg_of_pos_of_neg (by omega) (by omega)
        omega
      obtain ⟨c', rfl⟩ := Int.eq_ofNat_of_zero_le hc0
      have hlt : n * c' < N := by
        have : ((n * c' : Nat) : Int) < N := by push_cast; omega
        exact_mod_cast this
      have : c' + 1 ≤ (N + n - 1) / n := by
        rw [Nat.le_div_iff_mul_le hn]
        have : (c' + 1) * n = n * c' + n := by ring
        omega
      have h4 : (c' + 1) * n ≤ (N + n - 1) / n * n := Nat.mul_le_mul_right _ this
      have h5 : ((c' + 1) * n : Nat) = n * c' + n := by ring
      rw [hc']
      have : ((n * c' + n : Nat) : Int) ≤ (((N + n - 1) / n * n : Nat) : Int) := by
        rw [← h5]; exact_mod_cast h4
      push_cast at this ⊢
      linarith)
    (by omega) hp hq
  exact ⟨m', h1, h2, by intro a ha; exact h3 a (by omega)⟩

/-- Without the size condition the loop is undefined: 4 lanes, `N = 2^31 - 1`, last
iteration. -/
theorem maskForLoopTail_overflow : maskForLoopTail 4 2147483646 2147483647 = none := by decide

example : ∃ m', tailLoop (intElem .i32) 4 (fun x => x + x) (7 : Nat) 0 100 9 0
    (fun a => if 0 ≤ a ∧ a < 7 ∨ 100 ≤ a ∧ a < 107 then some (BitVec.ofInt 32 a) else none) = some m' ∧
    m' 106 = some 12#32 := by
  obtain ⟨m', h1, h2, h3⟩ := tailLoop_correct (n := 4) (intElem .i32) (fun _ => rfl) (by omega)
    (fun x => x + x) 7 0 100 (by omega) (by decide)
    (fun a => if 0 ≤ a ∧ a < 7 ∨ 100 ≤ a ∧ a < 107 then some (BitVec.ofInt 32 a) else none)
    (by intro k _ _; rw [if_pos (by omega)]; rfl) (by intro k _ _; rw [if_pos (by omega)]; rfl)
  refine ⟨m', h1, ?_⟩
  obtain ⟨y, x, hy, hx, hr⟩ := h2 6 (by omega) (by omega)
  rw [if_pos (by omega)] at hy
  cases hy
  cases hx
  exact hr

end Nsimd.Props.Cpu
