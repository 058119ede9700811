import Verif.Lemmas.AtanBound

/-!
# Polynomials and rounding errors of the kernels of `atan`
-/

set_option linter.unusedSimpArgs false

namespace Nsimd.Sleef
open Nsimd.DoubleDouble Nsimd.Float Nsimd.Props.Round Nsimd.Props.Hypot Nsimd.Round Nsimd.Hypot Nsimd.Props.Ulp

/-- Coefficients of a polynomial `c` with `s * c (s ^ 2)` very close to the arctangent. Proof helper. -/
def atanCert : List ℚ := [1267650600228229401465102707546 / 2 ^ 100, -422550200076076452913743213665 / 2 ^ 100,
  253530120045643949173957933442 / 2 ^ 100, -181092942889622633226966859436 / 2 ^ 100, 140850066687369222998423102398 / 2 ^ 100,
  -115240963543874289936270771257 / 2 ^ 100, 97511582710521864645082344962 / 2 ^ 100, -84510016081964242686161300330 / 2 ^ 100,
  74567455932527257018456868745 / 2 ^ 100, -66716780412682168499186572543 / 2 ^ 100, 60354473409899761545185332672 / 2 ^ 100,
  -55068338334449740343802355917 / 2 ^ 100, 50522567281279040733545130047 / 2 ^ 100, -46354845939801782766817479989 / 2 ^ 100,
  42095735196231209716538872578 / 2 ^ 100, -37186901045893317001607045519 / 2 ^ 100, 31186808178391287173168518438 / 2 ^ 100,
  -24115752445963962574751853713 / 2 ^ 100, 16665577893702224965518481060 / 2 ^ 100, -9971228774107017238867889631 / 2 ^ 100,
  4998225440461101126301108734 / 2 ^ 100, -2023109456101804403523598960 / 2 ^ 100, 631131884553470702793575950 / 2 ^ 100,
  -141748240292093276100362344 / 2 ^ 100, 20330855750458543510866390 / 2 ^ 100, -1395254806404017691922203 / 2 ^ 100]

/-- Coefficients of `t * u` in `xatan`. Proof helper. -/
def atanF64 : List ℚ := [0, -0.333333333333311110369124, 0.199999999996591265594148, -0.14285714266771329383765, 0.111111105648261418443745,
  -0.090908995008245008229153, 0.0769219538311769618355029, -0.0666573579361080525984562, 0.0587666392926673580854313,
  -0.0523674852303482457616113, 0.0466667150077840625632675, -0.0407629191276836500001934, 0.0337852580001353069993897,
  -0.0254517624932312641616861, 0.016599329773529201970117, -0.00889896195887655491740809, 0.00370026744188713119232403,
  -0.00110611831486672482563471, 0.000209850076645816976906797, -1.88796008463073496563746e-05]

/-- Coefficients of `t * u` in `xatanf`. Proof helper. -/
def atanF32 : List ℚ := [0, -0.333331018686294555664062, 0.199926957488059997558594, -0.142027363181114196777344,
  0.106347933411598205566406, -0.0748900920152664184570312, 0.0425049886107444763183594, -0.0159569028764963150024414,
  0.00282363896258175373077393]

/-- `1 + t * u` minus the polynomial close to the arctangent. Proof helper. -/
def atanDiff (F : List ℚ) : List ℚ := Poly.addQ (Poly.addQ [1] F) (Poly.negQ atanCert)

theorem atan_natural64 : Natural (atanTU atanPoly64) := by natural [atanTU, atanPoly64]
theorem atan_natural32 : Natural (atanTU atanPoly32) := by natural [atanTU, atanPoly32]

theorem atan_eval64 (t : ℝ) : atanTU atanPoly64 reAlg t = Poly.eval atanF64 t := by
  simp only [atanTU, atanPoly64, reAlg, Alg.poly19, Alg.poly16, Alg.poly8, Alg.poly4, Alg.poly3, Alg.poly2, atanF64, Poly.eval_cons, Poly.eval_nil]
  push_cast
  ring

theorem atan_eval32 (t : ℝ) : atanTU atanPoly32 reAlg t = Poly.eval atanF32 t := by
  simp only [atanTU, atanPoly32, reAlg, Alg.poly8, Alg.poly4, Alg.poly3, Alg.poly2, atanF32, Poly.eval_cons, Poly.eval_nil]
  push_cast
  ring

set_option maxRecDepth 100000 in
theorem atanCert_check : Poly.check (Poly.atanRes (Poly.oddDeriv 0 atanCert)) (1 / 2 ^ 62) 256 (2 ^ 100 * 256 ^ 27) 0 1 128 = true := by
  decide +kernel

set_option maxRecDepth 100000 in
theorem atan_near64 : Poly.check (atanDiff atanF64) (0.577 / 2 ^ 53) 512 (10 ^ 29 * 2 ^ 100 * 512 ^ 27) 0 1 208 = true := by
  decide +kernel

set_option maxRecDepth 100000 in
theorem atan_near'64 : Poly.check (atanDiff atanF64) (0.287 / 2 ^ 53) 512 (10 ^ 29 * 2 ^ 100 * 512 ^ 27) 409 1 52 = true := by
  decide +kernel

set_option maxRecDepth 100000 in
theorem atan_mag64 : Poly.check (atanF64.tail) (0.34) 16 (10 ^ 29 * 16 ^ 20) 0 1 8 = true := by
  decide +kernel

set_option maxRecDepth 100000 in
theorem atan_mag'64 : Poly.check (atanF64) (0.22) 16 (10 ^ 29 * 16 ^ 20) 0 1 8 = true := by
  decide +kernel

set_option maxRecDepth 100000 in
theorem atan_der64 : Poly.check (Poly.deriv atanF64) (0.34) 16 (10 ^ 29 * 16 ^ 20) 0 1 8 = true := by
  decide +kernel

set_option maxRecDepth 100000 in
theorem atan_der'64 : Poly.check (Poly.deriv atanF64) (0.17) 16 (10 ^ 29 * 16 ^ 20) 12 1 2 = true := by
  decide +kernel

set_option maxRecDepth 100000 in
theorem atan_near32 : Poly.check (atanDiff atanF32) (0.449 / 2 ^ 24) 512 (10 ^ 26 * 2 ^ 100 * 512 ^ 27) 0 1 208 = true := by
  decide +kernel

set_option maxRecDepth 100000 in
theorem atan_near'32 : Poly.check (atanDiff atanF32) (0.759 / 2 ^ 24) 512 (10 ^ 26 * 2 ^ 100 * 512 ^ 27) 409 1 52 = true := by
  decide +kernel

set_option maxRecDepth 100000 in
theorem atan_mag32 : Poly.check (atanF32.tail) (0.34) 16 (10 ^ 29 * 16 ^ 20) 0 1 8 = true := by
  decide +kernel

set_option maxRecDepth 100000 in
theorem atan_mag'32 : Poly.check (atanF32) (0.22) 16 (10 ^ 29 * 16 ^ 20) 0 1 8 = true := by
  decide +kernel

set_option maxRecDepth 100000 in
theorem atan_der32 : Poly.check (Poly.deriv atanF32) (0.34) 16 (10 ^ 29 * 16 ^ 20) 0 1 8 = true := by
  decide +kernel

set_option maxRecDepth 100000 in
theorem atan_der'32 : Poly.check (Poly.deriv atanF32) (0.17) 16 (10 ^ 29 * 16 ^ 20) 12 1 2 = true := by
  decide +kernel

/-- A check on `0 ≤ t ≤ 1`. -/
theorem check_unit {l : List ℚ} {ε D : ℚ} (h : Poly.check l ε 16 D 0 1 8 = true) {t : ℝ} (h0 : 0 ≤ t) (h1 : t ≤ 1) : |Poly.eval l t| ≤ ε :=
  Poly.check_sound h (by push_cast; linarith) (by push_cast; linarith)

/-- A check on `0.8 ≤ t ≤ 1`. -/
theorem check_unit' {l : List ℚ} {ε D : ℚ} (h : Poly.check l ε 16 D 12 1 2 = true) {t : ℝ} (h0 : 0.8 ≤ t) (h1 : t ≤ 1) :
    |Poly.eval l t| ≤ ε :=
  Poly.check_sound h (by push_cast; linarith) (by push_cast; linarith)

theorem arctan_cert {s : ℝ} (h0 : 0 ≤ s) (h1 : s ≤ 1) : |Real.arctan s - s * Poly.eval atanCert (s ^ 2)| ≤ 1 / 2 ^ 62 * s := by
  refine Poly.arctan_near (fun t ht ht' => ?_) h0 h1
  have := Poly.check_sound atanCert_check (x := t) (by push_cast; linarith) (by push_cast; linarith)
  push_cast at this
  exact this

theorem atan_near_of {F : List ℚ} {s : ℝ} {e e' : ℝ} (h0 : 0 ≤ s) (h1 : s ≤ 1) (h : |Poly.eval (atanDiff F) (s ^ 2)| ≤ e) (he : e + 1 / 2 ^ 62 ≤ e') :
    |s * (1 + Poly.eval F (s ^ 2)) - Real.arctan s| ≤ e' * s := by
  have h2 := arctan_cert h0 h1
  have h3 : Poly.eval (atanDiff F) (s ^ 2) = 1 + Poly.eval F (s ^ 2) - Poly.eval atanCert (s ^ 2) := by
    simp only [atanDiff, Poly.eval_addQ, Poly.eval_negQ, Poly.eval_cons, Poly.eval_nil]; push_cast; ring
  rw [h3] at h
  have h4 : s * (1 + Poly.eval F (s ^ 2)) - Real.arctan s = s * (1 + Poly.eval F (s ^ 2) - Poly.eval atanCert (s ^ 2)) -
      (Real.arctan s - s * Poly.eval atanCert (s ^ 2)) := by ring
  rw [h4]
  refine (abs_sub _ _).trans ?_
  rw [abs_mul, abs_of_nonneg h0]
  have h5 := mul_le_mul_of_nonneg_left h h0
  have h6 := mul_le_mul_of_nonneg_right he h0
  linarith

theorem atanPoly_64 : AtanPoly 53 atanPoly64 atanF64 0.58 0.29 where
  nat := atan_natural64
  eval := atan_eval64
  mag t h0 h1 := by
    have h2 := check_unit atan_mag64 h0 h1
    have h3 : Poly.eval atanF64 t = t * Poly.eval atanF64.tail t := by
      rw [show atanF64 = 0 :: atanF64.tail from rfl, Poly.eval_cons]; simp
    rw [h3, abs_mul, abs_of_nonneg h0, mul_comm]
    push_cast at h2
    exact mul_le_mul_of_nonneg_right h2 h0
  mag' t h0 h1 := by have := check_unit atan_mag'64 h0 h1; push_cast at this; exact this
  der t h0 h1 := by have := check_unit atan_der64 h0 h1; push_cast at this; exact this
  der' t h0 h1 := by have := check_unit' atan_der'64 h0 h1; push_cast at this; exact this
  near s h0 h1 := by
    have h2 : s ^ 2 ≤ 0.81 := by nlinarith
    refine atan_near_of h0 (by linarith) (Poly.check_sound atan_near64 (by push_cast; positivity) (by push_cast; linarith)) ?_
    norm_num
  near' s h0 h1 := by
    have h2 : 0.8 ≤ s ^ 2 := by nlinarith
    refine atan_near_of (by linarith) h1 (Poly.check_sound atan_near'64 (by push_cast; linarith) (by push_cast; nlinarith)) ?_
    norm_num

theorem atanPoly_32 : AtanPoly 24 atanPoly32 atanF32 0.45 0.76 where
  nat := atan_natural32
  eval := atan_eval32
  mag t h0 h1 := by
    have h2 := check_unit atan_mag32 h0 h1
    have h3 : Poly.eval atanF32 t = t * Poly.eval atanF32.tail t := by
      rw [show atanF32 = 0 :: atanF32.tail from rfl, Poly.eval_cons]; simp
    rw [h3, abs_mul, abs_of_nonneg h0, mul_comm]
    push_cast at h2
    exact mul_le_mul_of_nonneg_right h2 h0
  mag' t h0 h1 := by have := check_unit atan_mag'32 h0 h1; push_cast at this; exact this
  der t h0 h1 := by have := check_unit atan_der32 h0 h1; push_cast at this; exact this
  der' t h0 h1 := by have := check_unit' atan_der'32 h0 h1; push_cast at this; exact this
  near s h0 h1 := by
    have h2 : s ^ 2 ≤ 0.81 := by nlinarith
    refine atan_near_of h0 (by linarith) (Poly.check_sound atan_near32 (by push_cast; positivity) (by push_cast; linarith)) ?_
    norm_num
  near' s h0 h1 := by
    have h2 : 0.8 ≤ s ^ 2 := by nlinarith
    refine atan_near_of (by linarith) h1 (Poly.check_sound atan_near'32 (by push_cast; linarith) (by push_cast; nlinarith)) ?_
    norm_num

/-- The bounds of the kernel on all intervals. `h` is the distance of the constant from a half of pi. Proof helper. -/
def atanAll (p : ℕ) (fused : Bool) (poly : {α : Type} → Alg α → α → α) (εa εb h : ℚ) : Bool :=
  atanOk p fused poly εa εb 0.4 0.25 0.3 &&
  chain (atanOk p fused poly εa εb 0.8) 0.3 [0.35, 0.4, 0.45, 0.5, 0.55] &&
  atanOk p fused poly εa εb 0.95 0.55 0.6 &&
  chain (atanOk p fused poly εa εb (1.62 - h)) 0.6 [0.625, 0.65] &&
  chain (atanOk p fused poly εa εb (2.64 - h)) 0.65 [0.7, 0.75, 0.8, 0.85, 0.9, 0.95] &&
  chain (atanOk p fused poly εa εb (2.73 - h)) 0.95 [0.975, 1]

/-- The bound of `t * u` for tiny arguments. Proof helper. -/
def atanTiny (p : ℕ) (fused : Bool) (poly : {α : Type} → Alg α → α → α) : Bool :=
  let B := atanTU poly (bdAlg p 0 (1 / 15) fused) Bd.arg
  B.ok && decide (B.k = 1) && decide (B.a ≤ 1.6 / 2 ^ p) && decide (B.b ≤ 8.8)

set_option maxRecDepth 100000 in
theorem atanAll64_false : atanAll 53 false atanPoly64 0.58 0.29 0.552 = true := by
  decide +kernel

set_option maxRecDepth 100000 in
theorem atanTiny64_false : atanTiny 53 false atanPoly64 = true := by
  decide +kernel

set_option maxRecDepth 100000 in
theorem atanAll64_true : atanAll 53 true atanPoly64 0.58 0.29 0.552 = true := by
  decide +kernel

set_option maxRecDepth 100000 in
theorem atanTiny64_true : atanTiny 53 true atanPoly64 = true := by
  decide +kernel

set_option maxRecDepth 100000 in
theorem atanAll32_false : atanAll 24 false atanPoly32 0.45 0.76 0.734 = true := by
  decide +kernel

set_option maxRecDepth 100000 in
theorem atanTiny32_false : atanTiny 24 false atanPoly32 = true := by
  decide +kernel

set_option maxRecDepth 100000 in
theorem atanAll32_true : atanAll 24 true atanPoly32 0.45 0.76 0.734 = true := by
  decide +kernel

set_option maxRecDepth 100000 in
theorem atanTiny32_true : atanTiny 24 true atanPoly32 = true := by
  decide +kernel

end Nsimd.Sleef
