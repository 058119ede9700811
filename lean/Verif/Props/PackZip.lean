import Verif.Props.Pack
import Verif.Props.CpuShuffle

/-!
# C81: shuffles of unrolled packs

On a pack of `N` registers `zip` and `unzip` work register by register. The result is that of the
operator on one long vector when the registers are put together by `to_pack_interleave`; the
members `v0` and `v1` themselves are those of the long operator only for `N = 1`.
-/

namespace Nsimd.Props.PackZip
open Nsimd.Cpu Nsimd.Pack Nsimd.Props.Cpu

variable {α : Type} {L K N n h : Nat}

theorem unrollx2_reg {A B R : Type} (f : A → B → Fin K → R) (n : Nat) (a : Pack A (n + 1))
    (b : Pack B (n + 1)) (j : Fin K) (i : Nat) (hi : i < n + 1) :
    reg (unrollx2 f (n + 1) a b j) i = f (reg a i) (reg b i) j := by
  induction n generalizing i with
  | zero =>
    obtain rfl : i = 0 := by omega
    simp [unrollx2, Pack.car]
  | succ n ih =>
    cases i with
    | zero => simp [unrollx2, Pack.car]
    | succ i =>
      rw [reg_succ, reg_succ, reg_succ]
      exact ih a.cdr b.cdr i (by omega)

/-- `zip` and `unzip` of packs are those of the registers. -/
theorem zip_unzip_regs (a b : Pack (Vec (2 * h) α) (n + 1)) (i : Nat) (hi : i < n + 1) :
    (reg (Nsimd.Pack.zip a b 0) i, reg (Nsimd.Pack.zip a b 1) i) = Cpu.zip (reg a i) (reg b i) ∧
    (reg (Nsimd.Pack.unzip a b 0) i, reg (Nsimd.Pack.unzip a b 1) i) =
      Cpu.unzip (reg a i) (reg b i) := by
  unfold Nsimd.Pack.zip Nsimd.Pack.unzip
  rw [unrollx2_reg _ n a b 0 i hi, unrollx2_reg _ n a b 1 i hi, unrollx2_reg _ n a b 0 i hi,
    unrollx2_reg _ n a b 1 i hi]
  exact ⟨rfl, rfl⟩

/-- Lane `k` of a list of registers of `L` lanes. Specification, not code of the repo. -/
def laneOf (r : List (Vec L α)) (k : Nat) : Option α :=
  if hL : 0 < L then (r[k / L]?).map fun v => v ⟨k % L, Nat.mod_lt _ hL⟩ else none

/-- `to_pack_interleave(zip(a, b))` interleaves the lanes of the long vectors `a` and `b`. -/
theorem interleave_zip (a b : Pack (Vec (2 * h) α) (n + 1)) (k : Fin ((n + 1) * (2 * h))) :
    laneOf (toPackInterleave (n + 1) (Nsimd.Pack.zip a b)) (2 * k) = some (flat a k) ∧
    laneOf (toPackInterleave (n + 1) (Nsimd.Pack.zip a b)) (2 * k + 1) = some (flat b k) := by
  have hk := k.isLt
  have hL : 0 < 2 * h := Nat.pos_of_mul_pos_left (Nat.lt_of_le_of_lt (Nat.zero_le _) hk)
  have hi : k.val / (2 * h) < n + 1 := Nat.div_lt_of_lt_mul (Nat.lt_of_lt_of_eq hk (Nat.mul_comm _ _))
  have hm : k.val % (2 * h) < 2 * h := Nat.mod_lt _ hL
  have hd := Nat.div_add_mod k.val (2 * h)
  set i := k.val / (2 * h) with hidef
  set l := k.val % (2 * h) with hldef
  obtain ⟨hz, -⟩ := zip_unzip_regs a b i hi
  obtain ⟨za, zb⟩ := zip_interleaves (reg a i) (reg b i) ⟨l, hm⟩
  rw [← hz] at za zb
  unfold concat at za zb
  dsimp only at za zb
  have ho := (Nsimd.Props.Pack.toPackInterleave_order (Nsimd.Pack.zip a b)).2 i
  have key : ∀ e, e < 2 → (2 * k.val + e) / (2 * h) = i * 2 + (2 * l + e) / (2 * h) ∧
      (2 * k.val + e) % (2 * h) = (2 * l + e) % (2 * h) := by
    intro e he
    have : 2 * k.val + e = (2 * l + e) + (2 * h) * (i * 2) := by rw [← hd]; ring
    rw [this, Nat.add_mul_div_left _ _ hL, Nat.add_mul_mod_self_left]
    omega
  have main : ∀ (e : Nat) (v : α), e < 2 →
      (if hc : 2 * l + e < 2 * h then reg (Nsimd.Pack.zip a b 0) i ⟨2 * l + e, hc⟩
        else reg (Nsimd.Pack.zip a b 1) i ⟨(2 * l + e) % (2 * h), Nat.mod_lt _ hL⟩) = v →
      laneOf (toPackInterleave (n + 1) (Nsimd.Pack.zip a b)) (2 * k.val + e) = some v := by
    intro e v he hv
    unfold laneOf
    rw [dif_pos hL]
    obtain ⟨k1, k2⟩ := key e he
    by_cases hc : 2 * l + e < 2 * h
    · rw [dif_pos hc] at hv
      rw [k1, Nat.div_eq_of_lt hc]
      have := ho 0 hi
      simp only [Fin.val_zero] at this
      rw [this, ← hv]
      simp only [Option.map_some]
      exact congrArg (fun x => some (reg (Nsimd.Pack.zip a b 0) i x))
        (Fin.ext (k2.trans (Nat.mod_eq_of_lt hc)))
    · rw [dif_neg hc] at hv
      have hq : (2 * l + e) / (2 * h) = 1 := by
        rw [Nat.div_eq_iff hL]; omega
      rw [k1, hq]
      have := ho 1 hi
      simp only [Fin.val_one] at this
      rw [this, ← hv]
      simp only [Option.map_some]
      exact congrArg (fun x => some (reg (Nsimd.Pack.zip a b 1) i x)) (Fin.ext k2)
  have hsub : ∀ e, e < 2 → ¬ 2 * l + e < 2 * h → (2 * l + e) % (2 * h) = 2 * l + e - 2 * h := by
    intro e he hc
    rw [Nat.mod_eq_sub_mod (by omega), Nat.mod_eq_of_lt (by omega)]
  constructor
  · refine main 0 _ (by omega) ?_
    show _ = reg a i ⟨l, hm⟩
    rw [← za]
    by_cases hc : 2 * l < 2 * h
    · rw [dif_pos hc, dif_pos (by omega)]; rfl
    · rw [dif_neg hc, dif_neg (by omega)]
      exact congrArg (reg (Nsimd.Pack.zip a b 1) i) (Fin.ext (hsub 0 (by omega) hc))
  · refine main 1 _ (by omega) ?_
    show _ = reg b i ⟨l, hm⟩
    rw [← zb]
    by_cases hc : 2 * l + 1 < 2 * h
    · rw [dif_pos hc, dif_pos hc]
    · rw [dif_neg hc, dif_neg hc]
      exact congrArg (reg (Nsimd.Pack.zip a b 1) i) (Fin.ext (hsub 1 (by omega) hc))

example : laneOf (toPackInterleave 2 (Nsimd.Pack.zip (h := 1)
    (Pack.more ![(10 : Nat), 11] (.one ![12, 13])) (.more ![20, 21] (.one ![22, 23])))) 5 = some 22 := by
  decide

/-- For packs of one register the members are right: the first of `zip` interleaves the low halves, the
second the high halves; the first of `unzip` lists the even lanes of `a` then those of `b`, the second the odd
ones. The full claim (any number of registers) is false, see `zip_counterexample`. -/
theorem zip_unzip_partial (a b : Pack (Vec (2 * h) α) 1) (k : Fin h) :
    ((Nsimd.Pack.zip a b 0).car ⟨2 * k, by omega⟩ = a.car ⟨k, by omega⟩ ∧
      (Nsimd.Pack.zip a b 0).car ⟨2 * k + 1, by omega⟩ = b.car ⟨k, by omega⟩ ∧
      (Nsimd.Pack.zip a b 1).car ⟨2 * k, by omega⟩ = a.car ⟨h + k, by omega⟩ ∧
      (Nsimd.Pack.zip a b 1).car ⟨2 * k + 1, by omega⟩ = b.car ⟨h + k, by omega⟩) ∧
    ((Nsimd.Pack.unzip a b 0).car ⟨k, by omega⟩ = a.car ⟨2 * k, by omega⟩ ∧
      (Nsimd.Pack.unzip a b 0).car ⟨h + k, by omega⟩ = b.car ⟨2 * k, by omega⟩ ∧
      (Nsimd.Pack.unzip a b 1).car ⟨k, by omega⟩ = a.car ⟨2 * k + 1, by omega⟩ ∧
      (Nsimd.Pack.unzip a b 1).car ⟨h + k, by omega⟩ = b.car ⟨2 * k + 1, by omega⟩) := by
  have hk := k.isLt
  have e : ∀ (v : Vec (2 * h) α) (x y : Nat) (hx : x < 2 * h) (hy : y < 2 * h), x = y →
      v ⟨x, hx⟩ = v ⟨y, hy⟩ := by
    intro v x y hx hy hxy; subst hxy; rfl
  refine ⟨⟨?_, ?_, ?_, ?_⟩, ⟨?_, ?_, ?_, ?_⟩⟩
  · show ziplo a.car b.car _ = _
    unfold ziplo
    simp only [show (2 * k.val) % 2 = 0 by omega, if_true]
    exact e _ _ _ _ _ (by omega)
  · show ziplo a.car b.car _ = _
    unfold ziplo
    simp only [show (2 * k.val + 1) % 2 = 1 by omega]
    exact e _ _ _ _ _ (by omega)
  · show ziphi a.car b.car _ = _
    unfold ziphi
    simp only [show (2 * k.val) % 2 = 0 by omega, if_true]
    exact e _ _ _ _ _ (by omega)
  · show ziphi a.car b.car _ = _
    unfold ziphi
    simp only [show (2 * k.val + 1) % 2 = 1 by omega]
    exact e _ _ _ _ _ (by omega)
  · show unziplo a.car b.car _ = _
    unfold unziplo
    rw [dif_pos hk]
  · show unziplo a.car b.car _ = _
    unfold unziplo
    rw [dif_neg (by simp only; omega)]
    exact e _ _ _ _ _ (by simp only; omega)
  · show unziphi a.car b.car _ = _
    unfold unziphi
    rw [dif_pos hk]
  · show unziphi a.car b.car _ = _
    unfold unziphi
    rw [dif_neg (by simp only; omega)]
    exact e _ _ _ _ _ (by simp only; omega)

example : (Nsimd.Pack.zip (h := 1) (.one ![(10 : Nat), 11]) (.one ![20, 21]) 1).car 1 = 21 := by decide

/-- With two registers or more, lane `len` of the first member of `zip` is lane `len` of `a`; on a
long vector it is lane `len / 2`. Lane `len / 2` of the first member of `unzip` is lane 0 of `b`;
on a long vector it is lane `len` of `a`. -/
theorem zip_unzip_second (a b : Pack (Vec (2 * h) α) (n + 2)) (h0 : 0 < h) :
    reg (Nsimd.Pack.zip a b 0) 1 ⟨0, by omega⟩ = reg a 1 ⟨0, by omega⟩ ∧
    reg (Nsimd.Pack.unzip a b 0) 0 ⟨h, by omega⟩ = reg b 0 ⟨0, by omega⟩ := by
  have h1 := (zip_unzip_regs a b 1 (by omega)).1
  have h2 := (zip_unzip_regs a b 0 (by omega)).2
  have e1 := congrArg Prod.fst h1
  have e2 := congrArg Prod.fst h2
  dsimp only at e1 e2
  rw [e1, e2]
  obtain ⟨za, -⟩ := zip_interleaves (reg a 1) (reg b 1) ⟨0, by omega⟩
  constructor
  · rw [← za]
    unfold concat
    rw [dif_pos (by simp only; omega)]
    rfl
  · unfold Cpu.unzip unziplo
    simp only [Nat.lt_irrefl]
    simp

/-- The first member of `zip` of two registers of two lanes is not the low half of the interleaved
lanes. -/
theorem zip_counterexample :
    flat (Nsimd.Pack.zip (h := 1) (Pack.more ![(10 : Nat), 11] (.one ![12, 13]))
      (.more ![20, 21] (.one ![22, 23])) 0) ≠
    ziplo (h := 2) ![10, 11, 12, 13] ![20, 21, 22, 23] := by decide

end Nsimd.Props.PackZip
