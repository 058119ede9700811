import Verif.Lemmas.ExpFinish

/-!
# Polynomials and rounding errors of the kernels of `exp`, `exp2` and `exp10`

Every kernel is related to its polynomial, the polynomial to the exponential function, and the rounding errors are bounded
on consecutive intervals.
-/

set_option linter.unusedSimpArgs false

namespace Nsimd.Sleef
open Nsimd.DoubleDouble Nsimd.Float Nsimd.Props.Round Nsimd.Props.Hypot Nsimd.Round Nsimd.Hypot Nsimd.Props.Ulp

variable {p : ℕ} {emin emax : ℤ} {rnd lt : ℚ → ℚ}

/-- Bound of `1 + (s * s * u + s)` before its last rounding. Proof helper. -/
def zSum (p : ℕ) (fused : Bool) (poly : {α : Type} → Alg α → α → α) (xl xu : ℚ) : Bd :=
  let A := bdAlg p xl xu fused
  Bd.addE xl xu (A.lit 1) (A.mla (A.mul Bd.arg Bd.arg) (poly A Bd.arg) Bd.arg)

/-- Bound of `u * s + 1` before its last rounding. Proof helper. -/
def zMla (p : ℕ) (fused : Bool) (poly : {α : Type} → Alg α → α → α) (xl xu : ℚ) : Bd :=
  let A := bdAlg p xl xu fused
  let M := Bd.mulE (max |xl| |xu|) (poly A Bd.arg) Bd.arg
  Bd.addE xl xu (if fused then M else M.round p) (A.lit 1)

/-- The number that is rounded last. Proof helper. -/
def fSum (rnd lt : ℚ → ℚ) (fused : Bool) (poly : {α : Type} → Alg α → α → α) (s : ℚ) : ℚ :=
  let A := flAlg rnd lt fused
  A.lit 1 + A.mla (A.mul s s) (poly A s) s

/-- The number that is rounded last. Proof helper. -/
def fMla (rnd lt : ℚ → ℚ) (fused : Bool) (poly : {α : Type} → Alg α → α → α) (s : ℚ) : ℚ :=
  let A := flAlg rnd lt fused
  (if fused then poly A s * s else rnd (poly A s * s)) + A.lit 1

theorem ap_sum {poly : {α : Type} → Alg α → α → α} (hn : Natural poly) (fused : Bool) (s xl xu : ℚ)
    (E : Env p emin rnd lt (s : ℝ) xl xu) :
    Ap (eta emin) s (fSum rnd lt fused poly s : ℚ) (1 + ((s : ℝ) * s * poly reAlg (s : ℝ) + s)) (zSum p fused poly xl xu) := by
  obtain ⟨h1, h2, h3⟩ := hn E fused (Tr.arg emin s)
  have h := E.addE ((E.alg fused).lit 1).h
    ((E.alg fused).mla ((E.alg fused).mul (Tr.arg emin s) (Tr.arg emin s)) (poly (E.alg fused) (Tr.arg emin s)) (Tr.arg emin s)).h
  simp only [alg_lit_v, alg_lit_r, alg_lit_B, alg_mla_v, alg_mla_r, alg_mla_B, alg_mul_v, alg_mul_r, alg_mul_B, h1, h2, h3,
    Tr.arg_v, Tr.arg_r, Tr.arg_B] at h
  unfold fSum zSum
  push_cast
  simpa [reAlg] using h

theorem ap_mla {poly : {α : Type} → Alg α → α → α} (hn : Natural poly) (fused : Bool) (s xl xu : ℚ)
    (E : Env p emin rnd lt (s : ℝ) xl xu) :
    Ap (eta emin) s (fMla rnd lt fused poly s : ℚ) (poly reAlg (s : ℝ) * s + 1) (zMla p fused poly xl xu) := by
  obtain ⟨h1, h2, h3⟩ := hn E fused (Tr.arg emin s)
  have hm := E.mulE (poly (E.alg fused) (Tr.arg emin s)).h (Tr.arg emin s).h
  have hl := ((E.alg fused).lit 1).h
  simp only [alg_lit_v, alg_lit_r, alg_lit_B, h1, h2, h3, Tr.arg_v, Tr.arg_r, Tr.arg_B] at hm hl
  unfold fMla zMla
  have hone : reAlg.lit 1 = 1 := by simp [reAlg]
  rw [hone] at hl
  cases fused
  · have hr := E.round (v := poly (flAlg rnd lt false) s * s) (by push_cast; exact hm)
    have := E.addE hr hl
    push_cast
    simpa using this
  · have := E.addE hm hl
    push_cast
    simpa using this

theorem natural_expPoly64 : Natural expPoly64 := by natural [expPoly64]
theorem natural_expPoly64fma : Natural expPoly64fma := by natural [expPoly64fma]
theorem natural_expPoly32 : Natural expPoly32 := by natural [expPoly32]
theorem natural_exp2Poly64 : Natural exp2Poly64 := by natural [exp2Poly64]
theorem natural_exp2Poly64simd : Natural exp2Poly64simd := by natural [exp2Poly64simd]
theorem natural_exp2Poly32 : Natural exp2Poly32 := by natural [exp2Poly32]
theorem natural_exp10Poly64 : Natural exp10Poly64 := by natural [exp10Poly64]
theorem natural_exp10Poly64simd : Natural exp10Poly64simd := by natural [exp10Poly64simd]
theorem natural_exp10Poly32 : Natural exp10Poly32 := by natural [exp10Poly32]

/-- Consecutive intervals of equal width. Proof helper. -/
def steps (S : ℚ) (n : ℕ) : List ℚ := (List.range n).map fun i => -S + 2 * S * (i + 1) / n

theorem approx_of_check {l : List ℚ} {a ε S : ℚ} {n M : ℕ} {D : ℚ} {lo r k : ℕ} (hn : 0 < n) (hl : l.length ≤ n)
    (h : Poly.check (Poly.diff l (tay a) n) ε M D (-lo) r k = true) (h1 : S * M ≤ lo) (h2 : lo = r * k) (hS : S ≤ 1)
    {b ε' : ℚ} (ha : 0 ≤ a) (hb : a * S ≤ b) (hb1 : b ≤ 1)
    (hε : b ^ n * ((n + 1) / (n.factorial * n)) + n / 2 ^ 140 + ε ≤ ε') {x : ℝ} (hx : |x| ≤ S) :
    |Poly.eval l x - Real.exp (a * x)| ≤ ε' := by
  have hx' := _root_.abs_le.mp hx
  have e1 : (S : ℝ) * M ≤ lo := by exact_mod_cast h1
  have e2 : (lo : ℝ) = r * k := by exact_mod_cast h2
  have e3 : (S : ℝ) ≤ 1 := by exact_mod_cast hS
  have e4 : (0 : ℝ) ≤ M := by positivity
  have e5 : (0 : ℝ) ≤ a := by exact_mod_cast ha
  have e6 : (a : ℝ) * S ≤ b := by exact_mod_cast hb
  refine poly_exp' hn hl h (x := x) ?_ ?_ (hx.trans e3) (b := b) ?_ hb1 hε
  · push_cast; nlinarith
  · push_cast; nlinarith
  · rw [abs_mul, abs_of_nonneg e5]; exact (mul_le_mul_of_nonneg_left hx e5).trans e6

/-- Coefficients of the polynomial that `expPoly64` evaluates. Proof helper. -/
def list_expPoly64 : List ℚ := [1, 1, 0.5, 0.166666666666666851703837, 0.0416666666666665047591422, 0.00833333333331652721664984,
  0.00138888888889774492207962, 0.000198412698960509205564975, 2.4801587159235472998791e-05,
  2.75572362911928827629423e-06, 2.75573911234900471893338e-07, 2.51112930892876518610661e-08,
  2.08860621107283687536341e-09]

set_option maxRecDepth 100000 in
theorem expPoly64_check : Poly.check (Poly.diff list_expPoly64 (tay 1) 16) (1 / 2 ^ 62) 512 (2 ^ 140 * 10 ^ 32 * 512 ^ 15) (-178) 1 178 = true := by
  decide +kernel

theorem expPoly64_eval (x : ℝ) : 1 + (x * x * expPoly64 reAlg x + x) = Poly.eval list_expPoly64 x := by
  simp only [expPoly64, reAlg, Alg.poly11, Alg.poly10, Alg.poly8, Alg.poly4, Alg.poly3, Alg.poly2, list_expPoly64, Poly.eval_cons, Poly.eval_nil]
  push_cast
  ring

theorem expPoly64_approx {x : ℝ} (hx : |x| ≤ ((0.3468 : ℚ) : ℝ)) : |1 + (x * x * expPoly64 reAlg x + x) - Real.exp ((1 : ℚ) * x)| ≤ ((1 / 2 ^ 61 : ℚ) : ℝ) := by
  rw [expPoly64_eval]
  refine approx_of_check (lo := 178) (b := 0.3468) (by norm_num) (by decide) expPoly64_check ?_ ?_ ?_ ?_ ?_ ?_ ?_ hx <;>
    norm_num [ln2, Nat.factorial]

/-- Coefficients of the polynomial that `expPoly64fma` evaluates. Proof helper. -/
def list_expPoly64fma : List ℚ := [1, 1, 0.5, 0.1666666666666669072e+0, 0.4166666666666602598e-1, 0.8333333333314938210e-2,
  0.1388888888914497797e-2, 0.1984126989855865850e-3, 0.2480158687479686264e-4, 0.2755723402025388239e-5,
  0.2755762628169491192e-6, 0.2511210703042288022e-7, 0.2081276378237164457e-8]

set_option maxRecDepth 100000 in
theorem expPoly64fma_check : Poly.check (Poly.diff list_expPoly64fma (tay 1) 16) (0.6 / 2 ^ 60) 256 (2 ^ 140 * 10 ^ 27 * 256 ^ 15) (-89) 1 89 = true := by
  decide +kernel

theorem expPoly64fma_eval (x : ℝ) : expPoly64fma reAlg x * x + 1 = Poly.eval list_expPoly64fma x := by
  simp only [expPoly64fma, reAlg, Alg.poly11, Alg.poly10, Alg.poly8, Alg.poly4, Alg.poly3, Alg.poly2, list_expPoly64fma, Poly.eval_cons, Poly.eval_nil]
  push_cast
  ring

theorem expPoly64fma_approx {x : ℝ} (hx : |x| ≤ ((0.3468 : ℚ) : ℝ)) : |expPoly64fma reAlg x * x + 1 - Real.exp ((1 : ℚ) * x)| ≤ ((0.7 / 2 ^ 60 : ℚ) : ℝ) := by
  rw [expPoly64fma_eval]
  refine approx_of_check (lo := 89) (b := 0.3468) (by norm_num) (by decide) expPoly64fma_check ?_ ?_ ?_ ?_ ?_ ?_ ?_ hx <;>
    norm_num [ln2, Nat.factorial]

/-- Coefficients of the polynomial that `expPoly32` evaluates. Proof helper. -/
def list_expPoly32 : List ℚ := [1, 1, 0.5, 0.166666671633720397949219, 0.0416664853692054748535156, 0.00833336077630519866943359,
  0.00139304355252534151077271, 0.000198527617612853646278381]

set_option maxRecDepth 100000 in
theorem expPoly32_check : Poly.check (Poly.diff list_expPoly32 (tay 1) 11) (1 / 2 ^ 30) 256 (2 ^ 140 * 10 ^ 27 * 256 ^ 10) (-89) 1 89 = true := by
  decide +kernel

theorem expPoly32_eval (x : ℝ) : 1 + (x * x * expPoly32 reAlg x + x) = Poly.eval list_expPoly32 x := by
  simp only [expPoly32, reAlg, Alg.poly11, Alg.poly10, Alg.poly8, Alg.poly4, Alg.poly3, Alg.poly2, list_expPoly32, Poly.eval_cons, Poly.eval_nil]
  push_cast
  ring

theorem expPoly32_approx {x : ℝ} (hx : |x| ≤ ((0.3468 : ℚ) : ℝ)) : |1 + (x * x * expPoly32 reAlg x + x) - Real.exp ((1 : ℚ) * x)| ≤ ((1.01 / 2 ^ 30 : ℚ) : ℝ) := by
  rw [expPoly32_eval]
  refine approx_of_check (lo := 89) (b := 0.3468) (by norm_num) (by decide) expPoly32_check ?_ ?_ ?_ ?_ ?_ ?_ ?_ hx <;>
    norm_num [ln2, Nat.factorial]

/-- Coefficients of the polynomial that `exp2Poly64` evaluates. Proof helper. -/
def list_exp2Poly64 : List ℚ := [1, 0.6931471805599452862e+0, 0.2402265069591012214e+0, 0.5550410866482046596e-1, 0.9618129107597600536e-2,
  0.1333355814670499073e-2, 0.1540353045101147808e-3, 0.1525273353517584730e-4, 0.1321543872511327615e-5,
  0.1017819260921760451e-6, 0.7073164598085707425e-8, 0.4434359082926529454e-9]

set_option maxRecDepth 100000 in
theorem exp2Poly64_check : Poly.check (Poly.diff list_exp2Poly64 (tay ln2) 16) (0.9 / 2 ^ 54) 256 (2 ^ 140 * 10 ^ 28 * 256 ^ 15) (-129) 1 129 = true := by
  decide +kernel

theorem exp2Poly64_eval (x : ℝ) : exp2Poly64 reAlg x * x + 1 = Poly.eval list_exp2Poly64 x := by
  simp only [exp2Poly64, reAlg, Alg.poly11, Alg.poly10, Alg.poly8, Alg.poly4, Alg.poly3, Alg.poly2, list_exp2Poly64, Poly.eval_cons, Poly.eval_nil]
  push_cast
  ring

theorem exp2Poly64_approx {x : ℝ} (hx : |x| ≤ ((0.5001 : ℚ) : ℝ)) : |exp2Poly64 reAlg x * x + 1 - Real.exp ((ln2 : ℚ) * x)| ≤ ((1 / 2 ^ 54 : ℚ) : ℝ) := by
  rw [exp2Poly64_eval]
  refine approx_of_check (lo := 129) (b := 0.3467) (by norm_num) (by decide) exp2Poly64_check ?_ ?_ ?_ ?_ ?_ ?_ ?_ hx <;>
    norm_num [ln2, Nat.factorial]

theorem exp2Poly64simd_eval (x : ℝ) : exp2Poly64simd reAlg x * x + 1 = Poly.eval list_exp2Poly64 x := by
  simp only [exp2Poly64simd, reAlg, Alg.poly11, Alg.poly10, Alg.poly8, Alg.poly4, Alg.poly3, Alg.poly2, list_exp2Poly64, Poly.eval_cons, Poly.eval_nil]
  push_cast
  ring

theorem exp2Poly64simd_approx {x : ℝ} (hx : |x| ≤ ((0.5001 : ℚ) : ℝ)) : |exp2Poly64simd reAlg x * x + 1 - Real.exp ((ln2 : ℚ) * x)| ≤ ((1 / 2 ^ 54 : ℚ) : ℝ) := by
  rw [exp2Poly64simd_eval]
  refine approx_of_check (lo := 129) (b := 0.3467) (by norm_num) (by decide) exp2Poly64_check ?_ ?_ ?_ ?_ ?_ ?_ ?_ hx <;>
    norm_num [ln2, Nat.factorial]

/-- Coefficients of the polynomial that `exp2Poly32` evaluates. Proof helper. -/
def list_exp2Poly32 : List ℚ := [1, 0.6931471825e+0, 0.2402264476e+0, 0.5550347269e-1, 0.9618384764e-2, 0.1339262701e-2, 0.1535920892e-3]

set_option maxRecDepth 100000 in
theorem exp2Poly32_check : Poly.check (Poly.diff list_exp2Poly32 (tay ln2) 11) (0.99 / 2 ^ 25) 128 (2 ^ 140 * 10 ^ 13 * 128 ^ 10) (-65) 1 65 = true := by
  decide +kernel

theorem exp2Poly32_eval (x : ℝ) : exp2Poly32 reAlg x * x + 1 = Poly.eval list_exp2Poly32 x := by
  simp only [exp2Poly32, reAlg, Alg.poly11, Alg.poly10, Alg.poly8, Alg.poly4, Alg.poly3, Alg.poly2, list_exp2Poly32, Poly.eval_cons, Poly.eval_nil]
  push_cast
  ring

theorem exp2Poly32_approx {x : ℝ} (hx : |x| ≤ ((0.5001 : ℚ) : ℝ)) : |exp2Poly32 reAlg x * x + 1 - Real.exp ((ln2 : ℚ) * x)| ≤ ((1 / 2 ^ 25 : ℚ) : ℝ) := by
  rw [exp2Poly32_eval]
  refine approx_of_check (lo := 65) (b := 0.3467) (by norm_num) (by decide) exp2Poly32_check ?_ ?_ ?_ ?_ ?_ ?_ ?_ hx <;>
    norm_num [ln2, Nat.factorial]

/-- Coefficients of the polynomial that `exp10Poly64` evaluates. Proof helper. -/
def list_exp10Poly64 : List ℚ := [1, 0.2302585092994045901e+1, 0.2650949055239205876e+1, 0.2034678592293432953e+1, 0.1171255148908541655e+1,
  0.5393829292058536229e+0, 0.2069958494722676234e+0, 0.6808936399446784138e-1, 0.1959762320720533080e-1,
  0.5013975546789733659e-2, 0.1157488415217187375e-2, 0.2411463498334267652e-3]

set_option maxRecDepth 100000 in
theorem exp10Poly64_check : Poly.check (Poly.diff list_exp10Poly64 (tay ln10) 16) (0.7 / 2 ^ 54) 512 (2 ^ 140 * 10 ^ 22 * 512 ^ 15) (-78) 1 78 = true := by
  decide +kernel

theorem exp10Poly64_eval (x : ℝ) : exp10Poly64 reAlg x * x + 1 = Poly.eval list_exp10Poly64 x := by
  simp only [exp10Poly64, reAlg, Alg.poly11, Alg.poly10, Alg.poly8, Alg.poly4, Alg.poly3, Alg.poly2, list_exp10Poly64, Poly.eval_cons, Poly.eval_nil]
  push_cast
  ring

theorem exp10Poly64_approx {x : ℝ} (hx : |x| ≤ ((0.1508 : ℚ) : ℝ)) : |exp10Poly64 reAlg x * x + 1 - Real.exp ((ln10 : ℚ) * x)| ≤ ((0.75 / 2 ^ 54 : ℚ) : ℝ) := by
  rw [exp10Poly64_eval]
  refine approx_of_check (lo := 78) (b := 0.3473) (by norm_num) (by decide) exp10Poly64_check ?_ ?_ ?_ ?_ ?_ ?_ ?_ hx <;>
    norm_num [ln10, Nat.factorial]

theorem exp10Poly64simd_eval (x : ℝ) : exp10Poly64simd reAlg x * x + 1 = Poly.eval list_exp10Poly64 x := by
  simp only [exp10Poly64simd, reAlg, Alg.poly11, Alg.poly10, Alg.poly8, Alg.poly4, Alg.poly3, Alg.poly2, list_exp10Poly64, Poly.eval_cons, Poly.eval_nil]
  push_cast
  ring

theorem exp10Poly64simd_approx {x : ℝ} (hx : |x| ≤ ((0.1508 : ℚ) : ℝ)) : |exp10Poly64simd reAlg x * x + 1 - Real.exp ((ln10 : ℚ) * x)| ≤ ((0.75 / 2 ^ 54 : ℚ) : ℝ) := by
  rw [exp10Poly64simd_eval]
  refine approx_of_check (lo := 78) (b := 0.3473) (by norm_num) (by decide) exp10Poly64_check ?_ ?_ ?_ ?_ ?_ ?_ ?_ hx <;>
    norm_num [ln10, Nat.factorial]

/-- Coefficients of the polynomial that `exp10Poly32` evaluates. Proof helper. -/
def list_exp10Poly32 : List ℚ := [1, 0.2302585125e+1, 0.2650948763e+1, 0.2034656048e+1, 0.1171286821e+1, 0.5417877436e+0, 0.2064004987e+0]

set_option maxRecDepth 100000 in
theorem exp10Poly32_check : Poly.check (Poly.diff list_exp10Poly32 (tay ln10) 11) (0.7 / 2 ^ 26) 256 (2 ^ 140 * 10 ^ 10 * 256 ^ 10) (-39) 1 39 = true := by
  decide +kernel

theorem exp10Poly32_eval (x : ℝ) : exp10Poly32 reAlg x * x + 1 = Poly.eval list_exp10Poly32 x := by
  simp only [exp10Poly32, reAlg, Alg.poly11, Alg.poly10, Alg.poly8, Alg.poly4, Alg.poly3, Alg.poly2, list_exp10Poly32, Poly.eval_cons, Poly.eval_nil]
  push_cast
  ring

theorem exp10Poly32_approx {x : ℝ} (hx : |x| ≤ ((0.1508 : ℚ) : ℝ)) : |exp10Poly32 reAlg x * x + 1 - Real.exp ((ln10 : ℚ) * x)| ≤ ((0.75 / 2 ^ 26 : ℚ) : ℝ) := by
  rw [exp10Poly32_eval]
  refine approx_of_check (lo := 39) (b := 0.3473) (by norm_num) (by decide) exp10Poly32_check ?_ ?_ ?_ ?_ ?_ ?_ ?_ hx <;>
    norm_num [ln10, Nat.factorial]

end Nsimd.Sleef
