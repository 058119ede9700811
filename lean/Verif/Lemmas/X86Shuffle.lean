import Verif.Model.X86Deg

/-!
# Tracing bytes through shuffle expressions

`Sh.src e i` computes which input byte ends up in byte `i` of `e`; `Sh.eval_src` proves that it
is right for all register contents.
-/

namespace Nsimd.X86

/-- Origin of a byte: constant zero, byte `j` of input `k`, or unknown. Proof device. -/
inductive Src where
  | zero
  | byte (k j : Nat)
  | bad
  deriving DecidableEq

/-- Origin of byte `i` of an expression. Proof device. -/
def Sh.src : Sh → Nat → Src
  | .inp k, i => .byte k i
  | .sel f a b, i =>
    match f i with
    | .zero => .zero
    | .fst j => a.src j
    | .snd j => b.src j
    | .undef => .bad
  | .or a b, i =>
    match a.src i with
    | .zero => b.src i
    | .byte k j => match b.src i with
      | .zero => .byte k j
      | _ => .bad
    | .bad => .bad

theorem Sh.eval_src (env : Nat → Bytes) (junk : Bytes) (e : Sh) (i : Nat) :
    (e.src i = .zero → e.eval env junk i = 0) ∧
      (∀ k j, e.src i = .byte k j → e.eval env junk i = env k j) := by
  induction e generalizing i with
  | inp k => simp [Sh.src, Sh.eval]
  | sel f a b iha ihb =>
    simp only [Sh.src, Sh.eval]
    cases f i with
    | zero => simp
    | fst j => exact iha j
    | snd j => exact ihb j
    | undef => simp
  | or a b iha ihb =>
    simp only [Sh.src, Sh.eval]
    have ha := iha i
    have hb := ihb i
    cases h : a.src i with
    | zero =>
      rw [ha.1 h]
      simpa using hb
    | byte k j =>
      rw [ha.2 k j h]
      cases h' : b.src i with
      | zero => rw [hb.1 h']; simp
      | byte k j => simp
      | bad => simp
    | bad => simp

/-- Replaces the inputs of an expression by expressions. Proof device. -/
def Sh.subst (σ : Nat → Sh) : Sh → Sh
  | .inp k => σ k
  | .sel f a b => .sel f (a.subst σ) (b.subst σ)
  | .or a b => .or (a.subst σ) (b.subst σ)

theorem Sh.eval_subst (σ : Nat → Sh) (env : Nat → Bytes) (junk : Bytes) (e : Sh) (i : Nat) :
    (e.subst σ).eval env junk i = e.eval (fun k => (σ k).eval env junk) junk i := by
  induction e generalizing i with
  | inp k => rfl
  | sel f a b iha ihb =>
    simp only [Sh.subst, Sh.eval]
    cases f i <;> simp [iha, ihb]
  | or a b iha ihb => simp [Sh.subst, Sh.eval, iha, ihb]

/-- Bytes of inputs an expression reads. `eval` only depends on the inputs and bytes in range.
Checks that output `r`, byte `i` of `outs` is input byte `f r i`, for all `r < n`, `i < R`.
Proof device. -/
def traces (n R : Nat) (outs : List Sh) (f : Nat → Nat → Nat × Nat) : Bool :=
  (List.range n).all fun r => (List.range R).all fun i =>
    (outs.getD r (.inp 0)).src i == .byte (f r i).1 (f r i).2

theorem traces_eval {n R : Nat} {outs : List Sh} {f : Nat → Nat → Nat × Nat}
    (h : traces n R outs f = true) (env : Nat → Bytes) (junk : Bytes) {r i : Nat}
    (hr : r < n) (hi : i < R) :
    (outs.getD r (.inp 0)).eval env junk i = env (f r i).1 (f r i).2 := by
  unfold traces at h
  rw [List.all_eq_true] at h
  have h1 := h r (List.mem_range.2 hr)
  rw [List.all_eq_true] at h1
  have h2 := h1 i (List.mem_range.2 hi)
  exact (Sh.eval_src env junk _ i).2 _ _ (by simpa using h2)

end Nsimd.X86
