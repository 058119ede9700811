import Verif.Model.X86Ops
import Verif.Lemmas.X86Lane
import Verif.Lemmas.ScalarInt
import Verif.Props.X86Int
import Verif.Props.X86Narrow
import Verif.Props.X86Lane
import Verif.Props.X86Mask

/-! Helper lemmas about the lanes of whole x86 registers. -/

namespace Nsimd.X86Ops
open Nsimd.X86

variable {N w : Nat}

theorem w_le (x : Simd) (t : ITy) : t.w * le x t = bits x := by
  cases x <;> cases t <;> rfl

theorem w_pos (t : ITy) : 0 < t.w := by cases t <;> decide

theorem fits {x : Simd} {t : ITy} {i : Nat} (hi : i < le x t) : t.w * (i + 1) ≤ bits x := by
  rw [← w_le x t]; exact Nat.mul_le_mul_left _ hi

theorem lane_vmap1 (f : BitVec w → BitVec w) (a : BitVec N) (i : Nat) (hi : w * (i + 1) ≤ N) :
    lane w (vmap1 w f a) i = f (lane w a i) := by
  apply BitVec.eq_of_getLsbD_eq
  intro k hk
  unfold vmap1
  rw [getLsbD_lane _ _ _ hk, BitVec.getLsbD_ofFnLE, dif_pos (lane_lt hi hk)]
  simp only [mul_add_div' hk, mul_add_mod'' hk]

theorem lane_vmap2 (f : BitVec w → BitVec w → BitVec w) (a b : BitVec N) (i : Nat)
    (hi : w * (i + 1) ≤ N) : lane w (vmap2 w f a b) i = f (lane w a i) (lane w b i) := by
  apply BitVec.eq_of_getLsbD_eq
  intro k hk
  unfold vmap2
  rw [getLsbD_lane _ _ _ hk, BitVec.getLsbD_ofFnLE, dif_pos (lane_lt hi hk)]
  simp only [mul_add_div' hk, mul_add_mod'' hk]

theorem lane_vmap3 (f : BitVec w → BitVec w → BitVec w → BitVec w) (a b c : BitVec N) (i : Nat)
    (hi : w * (i + 1) ≤ N) :
    lane w (vmap3 w f a b c) i = f (lane w a i) (lane w b i) (lane w c i) := by
  apply BitVec.eq_of_getLsbD_eq
  intro k hk
  unfold vmap3
  rw [getLsbD_lane _ _ _ hk, BitVec.getLsbD_ofFnLE, dif_pos (lane_lt hi hk)]
  simp only [mul_add_div' hk, mul_add_mod'' hk]

theorem lane_set1 (x : Simd) (t : ITy) (s : BitVec t.w) (i : Nat) (hi : i < le x t) :
    lane t.w (set1 x t s) i = s := by
  apply BitVec.eq_of_getLsbD_eq
  intro k hk
  unfold set1
  rw [getLsbD_lane _ _ _ hk, BitVec.getLsbD_ofFnLE, dif_pos (lane_lt (fits hi) hk)]
  simp only [mul_add_mod'' hk]

theorem lane_zero (i : Nat) : lane w (0 : BitVec N) i = 0 := by
  apply BitVec.eq_of_getLsbD_eq
  intro k hk
  rw [getLsbD_lane _ _ _ hk]; simp

theorem lane_and (a b : BitVec N) (i : Nat) : lane w (a &&& b) i = lane w a i &&& lane w b i := by
  apply BitVec.eq_of_getLsbD_eq
  intro k hk
  simp only [getLsbD_lane _ _ _ hk, BitVec.getLsbD_and]

theorem lane_or (a b : BitVec N) (i : Nat) : lane w (a ||| b) i = lane w a i ||| lane w b i := by
  apply BitVec.eq_of_getLsbD_eq
  intro k hk
  simp only [getLsbD_lane _ _ _ hk, BitVec.getLsbD_or]

theorem lane_xor (a b : BitVec N) (i : Nat) : lane w (a ^^^ b) i = lane w a i ^^^ lane w b i := by
  apply BitVec.eq_of_getLsbD_eq
  intro k hk
  simp only [getLsbD_lane _ _ _ hk, BitVec.getLsbD_xor]

theorem lane_compl (a : BitVec N) (i : Nat) (hi : w * (i + 1) ≤ N) :
    lane w (~~~a) i = ~~~(lane w a i) := by
  apply BitVec.eq_of_getLsbD_eq
  intro k hk
  rw [getLsbD_lane _ _ _ hk, BitVec.getLsbD_not, BitVec.getLsbD_not, getLsbD_lane _ _ _ hk]
  simp [hk, lane_lt hi hk]

theorem set1_ones (x : Simd) : set1 x .i8 (-1#8) = BitVec.allOnes (bits x) := by
  apply BitVec.eq_of_getLsbD_eq
  intro k hk
  unfold set1
  rw [BitVec.getLsbD_ofFnLE, dif_pos hk, BitVec.getLsbD_allOnes]
  have : ∀ m, m < 8 → (-1#8).getLsbD m = true := by decide
  rw [this _ (Nat.mod_lt _ (by decide))]
  simp [hk]

theorem notb_eq (x : Simd) (a : BitVec (bits x)) : notb x a = ~~~a := by
  unfold notb andnotb andnot
  rw [set1_ones, BitVec.and_allOnes]

/-! ### Halves -/

theorem lane_merge (l h : BitVec N) (n i : Nat) (hn : w * n = N) :
    lane w (merge l h) i = if i < n then lane w l i else lane w h (i - n) :=
  lane_append l h n i hn

theorem lane_lower (a : BitVec (N + N)) (i : Nat) (hi : w * (i + 1) ≤ N) :
    lane w (lower a) i = lane w a i := lane_lo a i hi

theorem lane_upper (a : BitVec (N + N)) (n i : Nat) (hn : w * n = N) (hi : w * (i + 1) ≤ N) :
    lane w (upper a) i = lane w a (n + i) := lane_hi a n i hn hi

/-- Lanes of a register joined from two halves. -/
theorem merge_cases (n : Nat) (hn : w * n = N) (l h : BitVec N) (P : Nat → BitVec w → Prop)
    (hl : ∀ i, i < n → P i (lane w l i)) (hh : ∀ i, i < n → P (n + i) (lane w h i)) (i : Nat)
    (hi : i < n + n) : P i (lane w (merge l h) i) := by
  rw [lane_merge _ _ n _ hn]
  split
  · exact hl i (by assumption)
  · have := hh (i - n) (by omega)
    rwa [show n + (i - n) = i by omega] at this

theorem merge1 (t : ITy) (n : Nat) (hn : t.w * n = N) (f : BitVec N → BitVec N)
    (g : BitVec t.w → BitVec t.w)
    (hf : ∀ a i, i < n → lane t.w (f a) i = g (lane t.w a i)) (a : BitVec (N + N)) (i : Nat)
    (hi : i < n + n) : lane t.w (merge (f (lower a)) (f (upper a))) i = g (lane t.w a i) := by
  have fit : ∀ i, i < n → t.w * (i + 1) ≤ N := fun i hi => by
    rw [← hn]; exact Nat.mul_le_mul_left _ hi
  refine merge_cases n hn _ _ (fun i v => v = g (lane t.w a i)) ?_ ?_ i hi
  · intro i hi
    rw [hf _ _ hi, lane_lower _ _ (fit i hi)]
  · intro i hi
    rw [hf _ _ hi, lane_upper _ n _ hn (fit i hi)]

theorem merge2 (t : ITy) (n : Nat) (hn : t.w * n = N) (f : BitVec N → BitVec N → BitVec N)
    (g : BitVec t.w → BitVec t.w → BitVec t.w)
    (hf : ∀ a b i, i < n → lane t.w (f a b) i = g (lane t.w a i) (lane t.w b i))
    (a b : BitVec (N + N)) (i : Nat) (hi : i < n + n) :
    lane t.w (merge (f (lower a) (lower b)) (f (upper a) (upper b))) i =
      g (lane t.w a i) (lane t.w b i) := by
  have fit : ∀ i, i < n → t.w * (i + 1) ≤ N := fun i hi => by
    rw [← hn]; exact Nat.mul_le_mul_left _ hi
  refine merge_cases n hn _ _ (fun i v => v = g (lane t.w a i) (lane t.w b i)) ?_ ?_ i hi
  · intro i hi
    rw [hf _ _ _ hi, lane_lower _ _ (fit i hi), lane_lower _ _ (fit i hi)]
  · intro i hi
    rw [hf _ _ _ hi, lane_upper _ n _ hn (fit i hi), lane_upper _ n _ hn (fit i hi)]

theorem half256 (t : ITy) : t.w * le .sse42 t = 128 := w_le .sse42 t
theorem half512 (t : ITy) : t.w * le .avx2 t = 256 := w_le .avx2 t
theorem le256 (t : ITy) : le .avx t = le .sse42 t + le .sse42 t := by cases t <;> rfl
theorem le256' (t : ITy) : le .avx2 t = le .sse42 t + le .sse42 t := by cases t <;> rfl
theorem le512 (t : ITy) : le .knl t = le .avx2 t + le .avx2 t := by cases t <;> rfl
theorem le512' (t : ITy) : le .skylake t = le .avx2 t + le .avx2 t := by cases t <;> rfl

/-- A split operator acts on each lane as the operator on halves does. -/
theorem lane_split1 (x : Simd) (t : ITy) (f : (y : Simd) → BitVec (bits y) → BitVec (bits y))
    (g : BitVec t.w → BitVec t.w)
    (hf : ∀ y a i, i < le y t → lane t.w (f y a) i = g (lane t.w a i))
    (a : BitVec (bits x)) (i : Nat) (hi : i < le x t) :
    lane t.w (split1 x f a) i = g (lane t.w a i) := by
  cases x
  · exact hf _ _ _ hi
  · exact hf _ _ _ hi
  · exact merge1 t _ (half256 t) (f .sse42) g (hf .sse42) a i (by rw [← le256]; exact hi)
  · exact merge1 t _ (half256 t) (f .sse42) g (hf .sse42) a i (by rw [← le256']; exact hi)
  · exact merge1 t _ (half512 t) (f .avx2) g (hf .avx2) a i (by rw [← le512]; exact hi)
  · exact merge1 t _ (half512 t) (f .avx2) g (hf .avx2) a i (by rw [← le512']; exact hi)

theorem lane_split2 (x : Simd) (t : ITy)
    (f : (y : Simd) → BitVec (bits y) → BitVec (bits y) → BitVec (bits y))
    (g : BitVec t.w → BitVec t.w → BitVec t.w)
    (hf : ∀ y a b i, i < le y t → lane t.w (f y a b) i = g (lane t.w a i) (lane t.w b i))
    (a b : BitVec (bits x)) (i : Nat) (hi : i < le x t) :
    lane t.w (split2 x f a b) i = g (lane t.w a i) (lane t.w b i) := by
  cases x
  · exact hf _ _ _ _ hi
  · exact hf _ _ _ _ hi
  · exact merge2 t _ (half256 t) (f .sse42) g (hf .sse42) a b i (by rw [← le256]; exact hi)
  · exact merge2 t _ (half256 t) (f .sse42) g (hf .sse42) a b i (by rw [← le256']; exact hi)
  · exact merge2 t _ (half512 t) (f .avx2) g (hf .avx2) a b i (by rw [← le512]; exact hi)
  · exact merge2 t _ (half512 t) (f .avx2) g (hf .avx2) a b i (by rw [← le512']; exact hi)

/-! ### Narrow lanes inside wide ones -/

theorem lane_lane {k : Nat} (a : BitVec N) (i j : Nat) (hj : j < k) :
    lane w (lane (w * k) a i) j = lane w a (k * i + j) := by
  apply BitVec.eq_of_getLsbD_eq
  intro b hb
  have h : w * j + b < w * k := by
    have := Nat.mul_le_mul_left w hj
    rw [Nat.mul_succ] at this; omega
  rw [getLsbD_lane _ _ _ hb, getLsbD_lane _ _ _ h, getLsbD_lane _ _ _ hb]
  congr 1
  rw [Nat.mul_add, Nat.mul_assoc, Nat.add_assoc]

theorem lo_lane (a : BitVec N) (i : Nat) : loHalf (lane (w + w) a i) = lane w a (2 * i) := by
  apply BitVec.eq_of_getLsbD_eq
  intro b hb
  rw [Props.X86.getLsbD_lo, getLsbD_lane _ _ _ (by omega), getLsbD_lane _ _ _ hb,
    show w * (2 * i) = (w + w) * i by ring]
  simp [hb]

theorem hi_lane (a : BitVec N) (i : Nat) : hiHalf (lane (w + w) a i) = lane w a (2 * i + 1) := by
  apply BitVec.eq_of_getLsbD_eq
  intro b hb
  rw [Props.X86.getLsbD_hi, getLsbD_lane _ _ _ (by omega), getLsbD_lane _ _ _ hb,
    show w * (2 * i + 1) + b = (w + w) * i + (w + b) by ring]
  simp [hb]

theorem narrow_reg (n : Nat) (a : BitVec N) (k : Fin (2 * n)) :
    narrow (fun i : Fin n => lane (w + w) a i) k = lane w a k := by
  unfold narrow
  simp only []
  split
  · rw [lo_lane]; congr 1; omega
  · rw [hi_lane]; congr 1; omega

theorem byte_lane (a : BitVec N) (i k : Nat) : byte (lane 32 a i) k = if k < 4 then lane 8 a (4 * i + k) else byte (lane 32 a i) k := by
  split
  · rename_i h
    exact lane_lane (w := 8) (k := 4) a i k h
  · rfl

end Nsimd.X86Ops
