import Verif.Model.Tet1d
import Verif.Props.CpuLane
import Verif.Props.CpuMem

/-!
# Lemmas for the tet1d kernels
-/

namespace Nsimd.Tet1d
open Nsimd.Cpu Nsimd.Props.Cpu

variable {t : ITy} {L : Nat}

theorem toBool_same {l s : BitVec 32} (h : SameL l s) : SameL l (toBool s) := by
  unfold SameL at *
  rcases h with ⟨rfl, rfl⟩ | ⟨rfl, rfl⟩ <;> decide

theorem toLogical_same (a : Vec L (BitVec t.w)) (i : Fin L) :
    Same (b := true) (t := t) (Cpu.toLogical (intElem t) a) i
      (Scalar.ofBool (Scalar.toLogical t (a i))) := by
  show SameL (Cpu.toLogical (intElem t) a i) _
  unfold Cpu.toLogical Scalar.toLogical
  have hz : (intElem t).enc (a i) = 0#t.w ↔ t.val (a i) = 0 := by
    show a i = _ ↔ _
    generalize a i = x
    unfold ITy.val
    split
    · constructor
      · rintro rfl; simp
      · intro h; exact BitVec.toInt_inj.mp (by simpa using h)
    · constructor
      · rintro rfl; simp
      · intro h; exact BitVec.eq_of_toNat_eq (by simpa using h)
  by_cases h : t.val (a i) = 0
  · rw [if_pos (hz.mpr h)]
    exact Or.inr ⟨rfl, by simp [h, Scalar.ofBool]⟩
  · rw [if_neg (fun h' => h (hz.mp h'))]
    exact Or.inl ⟨rfl, by simp [h, Scalar.ofBool]⟩

/-- `simd_get(i)` is `scalar_get(i + k)` in lane `k`. -/
theorem simdGet_agree (m : Mem (BitVec t.w)) (i : Int) {b : Bool} (e : Node t b) :
    Agree (e.simdGet L m i) (fun k : Fin L => e.scalarGet m (i + (k : Nat))) := by
  induction e with
  | scalar v =>
    have : Node.simdGet L m i (.scalar v) = some fun _ => v := body_some _
    rw [this]
    exact agree_some _ _ fun i => rfl
  | inp p sz =>
    have := agree_body (t := t) fun k : Fin L => m (p + (i + (k : Nat)))
    refine (congrArg (fun r => Agree (b := false) r _) ?_).mp this
    show body _ = body _
    refine body_congr fun k => ?_
    rw [add_assoc]
    cases m (p + (i + (k : Nat))) <;> rfl
  | bin o x y hx hy =>
    refine agree_bind hx fun a a' ha => agree_bind hy fun b b' hb => ?_
    rw [bin_lane]
    have : (fun i => o.scalar t (a' i) (b' i)) = fun i => o.scalar t (a i) (b i) := by
      funext i; rw [← show a i = a' i from ha i, ← show b i = b' i from hb i]
    rw [this]
    exact agree_body _
  | un o x hx =>
    refine agree_bind hx fun a a' ha => ?_
    have : (fun i => o.scalar t (a' i)) = fun i => o.scalar t (a i) := by
      funext i; rw [← show a i = a' i from ha i]
    rw [this]
    exact agree_body _
  | ter o x y z hx hy hz =>
    refine agree_bind hx fun a a' ha => agree_bind hy fun b b' hb => agree_bind hz fun c c' hc => ?_
    have : (fun i => o.scalar t (a' i) (b' i) (c' i)) = fun i => o.scalar t (a i) (b i) (c i) := by
      funext i
      rw [← show a i = a' i from ha i, ← show b i = b' i from hb i, ← show c i = c' i from hc i]
    rw [this]
    exact agree_body _
  | shift o x s hx =>
    refine agree_bind hx fun a a' ha => ?_
    have : (fun i => o.scalar t (a' i) s) = fun i => o.scalar t (a i) s := by
      funext i; rw [← show a i = a' i from ha i]
    rw [this]
    exact agree_body _
  | ifElse c x y hc hx hy =>
    refine agree_bind hc fun m m' hm => agree_bind hx fun a a' ha => agree_bind hy fun b b' hb => ?_
    refine agree_some _ _ fun i => ?_
    show ifElse1 m a b i = _
    unfold ifElse1
    rw [show a i = a' i from ha i, show b i = b' i from hb i]
    have := same_true (hm i)
    by_cases h : m i ≠ 0#32
    · rw [if_pos h, if_pos (this.mp h)]
    · rw [if_neg h, if_neg (fun h' => h (this.mpr h'))]
  | toMask x hx =>
    refine agree_bind hx fun a a' ha => ?_
    have : Cpu.toMask (intElem t) a = some fun i => Scalar.toMask t (a' i ≠ 0#32) := by
      unfold Cpu.toMask
      rw [body_eq_some]
      intro i
      show some _ = _
      rw [Option.some_inj]
      have h := same_true (ha i)
      unfold Scalar.toMask
      by_cases h0 : a i ≠ 0#32
      · rw [if_pos h0, if_pos (decide_eq_true (h.mp h0))]
        cases t <;> rfl
      · rw [if_neg h0, if_neg (fun h' => h0 (h.mpr (of_decide_eq_true h')))]
        cases t <;> rfl
    rw [this]
    exact agree_some _ _ fun i => rfl
  | cmp c x y hx hy =>
    refine agree_bind hx fun a a' ha => agree_bind hy fun b b' hb => ?_
    refine agree_some _ _ fun i => ?_
    rw [← show a i = a' i from ha i, ← show b i = b' i from hb i]
    exact toBool_same (cmp_same c a b i)
  | lbin o x y hx hy =>
    refine agree_bind hx fun a a' ha => agree_bind hy fun b b' hb => ?_
    refine agree_some _ _ fun i => ?_
    have := SameL.lbin o (ha i) (hb i)
    cases o <;> exact toBool_same this
  | lnot x hx =>
    refine agree_bind hx fun a a' ha => ?_
    refine agree_some _ _ fun i => ?_
    exact toBool_same (SameL.lnot (ha i))
  | toLogical x hx =>
    refine agree_bind hx fun a a' ha => ?_
    refine agree_some _ _ fun i => ?_
    rw [← show a i = a' i from ha i]
    exact toBool_same (toLogical_same a i)

theorem Agree.isSome {b : Bool} {r : Option (VTy L t b)} {s : Fin L → Option (STy t b)}
    (h : Agree r s) : r.isSome ↔ ∀ i, (s i).isSome := by
  constructor
  · intro hr i
    obtain ⟨v, hv⟩ := Option.isSome_iff_exists.mp hr
    obtain ⟨x, hx, _⟩ := h.2 v hv i
    rw [hx]; rfl
  · intro hs
    by_contra hr
    obtain ⟨i, hi⟩ := h.1 (Option.not_isSome_iff_eq_none.mp hr)
    have := hs i
    rw [hi] at this
    exact Bool.noConfusion this

/-! ### Loops that update a range of the destination -/

variable {X : Type}

/-- `r` is the effect on memory `m` of setting, for each `lo ≤ j < hi`, the element `dst[j]` to
`val m j`; it is defined exactly when `ok m j` holds for each of them.
Proof device, not code of the repo. -/
def Does (dst : Int) (ok : Mem X → Int → Prop) (val : Mem X → Int → Option X) (m : Mem X)
    (r : Option (Mem X)) (lo hi : Int) : Prop :=
  (r.isSome ↔ ∀ j, lo ≤ j → j < hi → ok m j) ∧
  ∀ m', r = some m' → (∀ j, lo ≤ j → j < hi → m' (dst + j) = val m j) ∧
    ∀ a, ¬ (dst + lo ≤ a ∧ a < dst + hi) → m' a = m a

/-- What `ok` and `val` at `j` depend on is not overwritten by the assignments to elements
below `j`. Proof device, not code of the repo. -/
def Stable (dst n : Int) (ok : Mem X → Int → Prop) (val : Mem X → Int → Option X) : Prop :=
  ∀ m m1 lo mid j, 0 ≤ lo → mid ≤ j → j < n →
    (∀ a, ¬ (dst + lo ≤ a ∧ a < dst + mid) → m1 a = m a) → (ok m1 j ↔ ok m j) ∧ val m1 j = val m j

theorem does_nil (dst : Int) (ok : Mem X → Int → Prop) (val : Mem X → Int → Option X) (m : Mem X)
    (lo hi : Int) (h : hi ≤ lo) : Does dst ok val m (some m) lo hi := by
  refine ⟨⟨fun _ j h1 h2 => by omega, fun _ => rfl⟩, fun m' hm => ?_⟩
  cases hm
  exact ⟨fun j h1 h2 => by omega, fun _ _ => rfl⟩

theorem does_bind {dst n : Int} {ok : Mem X → Int → Prop} {val : Mem X → Int → Option X}
    (hst : Stable dst n ok val) {m : Mem X} {r : Option (Mem X)} {f : Mem X → Option (Mem X)}
    {lo mid hi : Int} (h0 : 0 ≤ lo) (h1 : lo ≤ mid) (h2 : mid ≤ hi) (h3 : hi ≤ n)
    (hr : Does dst ok val m r lo mid) (hf : ∀ m1, r = some m1 → Does dst ok val m1 (f m1) mid hi) :
    Does dst ok val m (r.bind f) lo hi := by
  cases r with
  | none =>
    refine ⟨⟨fun h => (nomatch h), fun h => ?_⟩, fun m' h => (nomatch h)⟩
    exact (nomatch hr.1.mpr fun j a b => h j a (by omega))
  | some m1 =>
    obtain ⟨hv, hfr⟩ := hr.2 m1 rfl
    obtain ⟨hd, hf2⟩ := hf m1 rfl
    rw [Option.bind_some]
    refine ⟨hd.trans ⟨fun h j a b => ?_, fun h j a b => ?_⟩, fun m' hm => ?_⟩
    · by_cases hj : j < mid
      · exact hr.1.mp rfl j a hj
      · exact (hst m m1 lo mid j h0 (by omega) (by omega) hfr).1.mp (h j (by omega) b)
    · exact (hst m m1 lo mid j h0 (by omega) (by omega) hfr).1.mpr (h j (by omega) b)
    · obtain ⟨hv', hfr'⟩ := hf2 m' hm
      refine ⟨fun j a b => ?_, fun a ha => ?_⟩
      · by_cases hj : j < mid
        · rw [hfr' _ (by omega), hv j a hj]
        · rw [hv' j (by omega) b, (hst m m1 lo mid j h0 (by omega) (by omega) hfr).2]
      · rw [hfr' a (by omega), hfr a (by omega)]

/-- Memory part of a loop with steps of `L` elements: any recursion of this shape performs the
steps up to the last multiple of `L`. -/
theorem does_congr {dst : Int} {ok ok' : Mem X → Int → Prop} {val val' : Mem X → Int → Option X}
    {m : Mem X} {r : Option (Mem X)} {lo hi : Int}
    (ho : ∀ j, lo ≤ j → j < hi → (ok m j ↔ ok' m j))
    (hv : ∀ j, lo ≤ j → j < hi → ok m j → val m j = val' m j) (h : Does dst ok val m r lo hi) :
    Does dst ok' val' m r lo hi := by
  refine ⟨h.1.trans ⟨fun g j a b => (ho j a b).mp (g j a b), fun g j a b => (ho j a b).mpr (g j a b)⟩,
    fun m' hm => ⟨fun j a b => ?_, (h.2 m' hm).2⟩⟩
  rw [(h.2 m' hm).1 j a b, hv j a b (h.1.mp (by rw [hm]; rfl) j a b)]

/-- End of the vector part of a range of `n` elements: the last multiple of `L` below `n`.
Proof device, not code of the repo. -/
def vecEnd (L : Nat) (n : Int) : Int := if n ≤ 0 then 0 else (n - 1) / L * L

theorem vecEnd_step {L : Nat} {n k : Int} (hL : 0 < L) (hn : 0 < n) (h : k * L + L < n) :
    k * L + L ≤ vecEnd L n := by
  unfold vecEnd
  rw [if_neg (by omega)]
  have h1 : k + 1 ≤ (n - 1) / L := by
    rw [Int.le_ediv_iff_mul_le (by omega), Int.add_mul]; omega
  have := Int.mul_le_mul_of_nonneg_right h1 (Int.natCast_nonneg L)
  rw [Int.add_mul] at this; omega

theorem vecEnd_last {L : Nat} {n k : Int} (hL : 0 < L) (hk : 0 ≤ k) (h : ¬ k * L + L < n)
    (h' : k * L ≤ vecEnd L n) : k * L = vecEnd L n := by
  unfold vecEnd at *
  have hkL : 0 ≤ k * L := Int.mul_nonneg hk (Int.natCast_nonneg L)
  split at h'
  · rename_i hn
    rw [if_pos hn]; omega
  · rename_i hn
    rw [if_neg hn]
    have h1 : (n - 1) / L < k + 1 := by
      rw [Int.ediv_lt_iff_lt_mul (by omega), Int.add_mul]; omega
    have h2 : (n - 1) / L * L ≤ k * L := Int.mul_le_mul_of_nonneg_right (by omega) (by omega)
    omega

theorem vecEnd_le {L : Nat} {n : Int} (hn : 0 ≤ n) : 0 ≤ vecEnd L n ∧ vecEnd L n ≤ n := by
  unfold vecEnd
  split
  · omega
  · have h1 := Int.ediv_mul_le (n - 1) (b := L)
    rcases Nat.eq_zero_or_pos L with rfl | hL
    · simp; omega
    · have h2 : 0 ≤ (n - 1) / L := Int.ediv_nonneg (by omega) (by omega)
      have h3 := Int.mul_nonneg h2 (Int.natCast_nonneg L)
      have := h1 (by omega)
      omega

/-- Shape of the vector loops. Proof device. -/
def vecLoop (L : Nat) (step : Int → Mem X → Option (Mem X)) (n : Int) :
    Nat → Int → Mem X → Option (Int × Mem X)
  | 0, _, _ => none
  | fuel + 1, i, m =>
    (ITy.i64.prom (i + L)).bind fun s =>
    if s < n then (step i m).bind fun m => vecLoop L step n fuel s m
    else some (i, m)

/-- Shape of the scalar loops. Proof device. -/
def tailLoop (step : Int → Mem X → Option (Mem X)) (n : Int) : Nat → Int → Mem X → Option (Mem X)
  | 0, _, _ => none
  | fuel + 1, i, m => if i < n then (step i m).bind fun m => tailLoop step n fuel (i + 1) m else some m

theorem vecLoop_does {dst n : Int} {ok : Mem X → Int → Prop} {val : Mem X → Int → Option X}
    (hst : Stable dst n ok val) (hL : 0 < L) (hL63 : (L : Int) < 2 ^ 63) (hn : n + L ≤ 2 ^ 63) {step : Int → Mem X → Option (Mem X)}
    (hstep : ∀ i m, 0 ≤ i → i + L ≤ vecEnd L n → Does dst ok val m (step i m) i (i + L)) :
    ∀ (fuel : Nat) (k : Int) (m : Mem X), 0 ≤ k → k * L ≤ vecEnd L n → n - k * L < fuel →
      0 < fuel →
      Does dst ok val m ((vecLoop L step n fuel (k * L) m).map Prod.snd) (k * L) (vecEnd L n) ∧
      ∀ r, vecLoop L step n fuel (k * L) m = some r → r.1 = vecEnd L n := by
  intro fuel
  induction fuel with
  | zero => intro k m _ _ _ h; omega
  | succ fuel ih =>
    intro k m hk hkv hfuel _
    have hkL : 0 ≤ k * L := Int.mul_nonneg hk (Int.natCast_nonneg L)
    have hprom : ITy.i64.prom (k * L + L) = some (k * L + L) := by
      have hlt : k * L + L < 2 ^ 63 := by
        have hv : vecEnd L n = 0 ∨ vecEnd L n ≤ n - 1 := by
          unfold vecEnd
          split
          · exact Or.inl rfl
          · exact Or.inr (Int.ediv_mul_le _ (by omega))
        omega
      unfold ITy.prom
      rw [if_pos rfl, if_pos]
      have hw : ITy.i64.promW - 1 = 63 := rfl
      rw [hw]
      omega
    unfold vecLoop
    rw [hprom, Option.bind_some]
    by_cases hc : k * L + L < n
    · rw [if_pos hc]
      have he : k * L + L = (k + 1) * L := by rw [Int.add_mul]; omega
      have hle := vecEnd_step hL (by omega) hc
      have hvn := (vecEnd_le (L := L) (n := n) (by omega)).2
      rw [he] at hle
      have hind := fun m1 => ih (k + 1) m1 (by omega) hle (by omega) (by omega)
      rw [he]
      constructor
      · rw [Option.map_bind]
        refine does_bind hst hkL (by omega) hle hvn (he ▸ hstep (k * L) m hkL (he ▸ hle)) ?_
        intro m1 _
        exact (hind m1).1
      · intro r hr
        obtain ⟨m1, _, h2⟩ := Option.bind_eq_some_iff.mp hr
        exact (hind m1).2 r h2
    · rw [if_neg hc]
      have := vecEnd_last hL hk hc hkv
      refine ⟨?_, fun r hr => ?_⟩
      · rw [Option.map_some]
        exact does_nil _ _ _ _ _ _ (by omega)
      · cases hr; exact this

theorem tailLoop_does {dst n : Int} {ok : Mem X → Int → Prop} {val : Mem X → Int → Option X}
    (hst : Stable dst n ok val) {step : Int → Mem X → Option (Mem X)}
    {lo : Int} (hlo : 0 ≤ lo)
    (hstep : ∀ i m, lo ≤ i → i < n → Does dst ok val m (step i m) i (i + 1)) :
    ∀ (fuel : Nat) (i : Int) (m : Mem X), lo ≤ i → n - i < fuel → 0 < fuel →
      Does dst ok val m (tailLoop step n fuel i m) i n := by
  intro fuel
  induction fuel with
  | zero => intro i m _ _ h; omega
  | succ fuel ih =>
    intro i m hi hfuel _
    unfold tailLoop
    by_cases hc : i < n
    · rw [if_pos hc]
      exact does_bind hst (by omega) (by omega) (by omega) (by omega) (hstep i m hi hc)
        fun m1 _ => ih (i + 1) m1 (by omega) (by omega) (by omega)
    · rw [if_neg hc]
      exact does_nil _ _ _ _ _ _ (by omega)

/-- Vector part then tail. -/
theorem loops_does {dst n : Int} {ok : Mem X → Int → Prop} {val : Mem X → Int → Option X}
    (hst : Stable dst n ok val) (hL : 0 < L) (hL63 : (L : Int) < 2 ^ 63) (hn : n + L ≤ 2 ^ 63)
    {step step' : Int → Mem X → Option (Mem X)}
    (hstep : ∀ i m, 0 ≤ i → i + L ≤ vecEnd L n → Does dst ok val m (step i m) i (i + L))
    (hstep' : ∀ i m, vecEnd L n ≤ i → i < n → Does dst ok val m (step' i m) i (i + 1)) (m : Mem X) :
    Does dst ok val m ((vecLoop L step n (n.toNat + 1) 0 m).bind fun im =>
      tailLoop step' n (n.toNat + 1) im.1 im.2) 0 n := by
  have hv0 : 0 ≤ vecEnd L n := by
    unfold vecEnd
    split
    · omega
    · exact Int.mul_nonneg (Int.ediv_nonneg (by omega) (by omega)) (by omega)
  obtain ⟨h1, h2⟩ := vecLoop_does hst hL hL63 hn hstep (n.toNat + 1) 0 m (by omega) (by omega)
    (by omega) (by omega)
  rw [Int.zero_mul] at h1 h2
  by_cases hneg : n < 0
  · have hv : vecEnd L n = 0 := by unfold vecEnd; rw [if_pos (by omega)]
    rw [hv] at h1 h2
    have hd := h1.1
    have hs : ((vecLoop L step n (n.toNat + 1) 0 m).map Prod.snd).isSome :=
      hd.mpr fun j a b => by omega
    obtain ⟨m1, hm1⟩ := Option.isSome_iff_exists.mp hs
    obtain ⟨r, hr, rfl⟩ := Option.map_eq_some_iff.mp hm1
    have hm : r.2 = m := by
      funext a
      exact (h1.2 _ hm1).2 a (by omega)
    rw [hr, Option.bind_some, h2 r hr, hm]
    unfold tailLoop
    rw [if_neg (by omega)]
    exact does_nil _ _ _ _ _ _ (by omega)
  · have hvn := (vecEnd_le (L := L) (n := n) (by omega)).2
    have : ((vecLoop L step n (n.toNat + 1) 0 m).bind fun im =>
        tailLoop step' n (n.toNat + 1) im.1 im.2) =
        ((vecLoop L step n (n.toNat + 1) 0 m).map Prod.snd).bind fun m1 =>
          tailLoop step' n (n.toNat + 1) (vecEnd L n) m1 := by
      cases hr : vecLoop L step n (n.toNat + 1) 0 m with
      | none => rfl
      | some r =>
        rw [Option.bind_some, Option.map_some, Option.bind_some, h2 r hr]
    rw [this]
    exact does_bind hst (by omega) hv0 hvn (by omega) h1 fun m1 _ =>
      tailLoop_does hst hv0 hstep' (n.toNat + 1) (vecEnd L n) m1 (by omega) (by omega) (by omega)

end Nsimd.Tet1d
