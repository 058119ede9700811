import Verif.Lemmas.ExpKernels

/-!
# Checks of the numbers of `exp`, `exp2` and `exp10`

Rounding errors of the kernels on consecutive intervals, and the constants of the argument reductions.
-/

namespace Nsimd.Sleef

set_option maxRecDepth 100000 in
theorem chain_exp64 : chain (fun a b => coreOk 53 (1 / 2 ^ 61) (1.001 / 2 ^ 55) (1 / 2) (0.67) (zSum 53 false expPoly64 a b)) (-0.3468) (steps 0.3468 16) = true := by
  decide +kernel

set_option maxRecDepth 100000 in
theorem chain_exp64fma : chain (fun a b => coreOk 53 (0.7 / 2 ^ 60) (1.001 / 2 ^ 55) (1 / 2) (1 / 2) (zMla 53 true expPoly64fma a b)) (-0.3468) (steps 0.3468 16) = true := by
  decide +kernel

set_option maxRecDepth 100000 in
theorem chain_exp32 : chain (fun a b => coreOk 24 (1.01 / 2 ^ 30) (1.005 / 2 ^ 26) (1 / 2) (0.67) (zSum 24 false expPoly32 a b)) (-0.3468) (steps 0.3468 16) = true := by
  decide +kernel

set_option maxRecDepth 100000 in
theorem chain_exp32fma : chain (fun a b => coreOk 24 (1.01 / 2 ^ 30) (1.005 / 2 ^ 26) (1 / 2) (0.67) (zSum 24 true expPoly32 a b)) (-0.3468) (steps 0.3468 16) = true := by
  decide +kernel

set_option maxRecDepth 100000 in
theorem chain_exp2_64 : chain (fun a b => coreOk 53 (1 / 2 ^ 54) (0.7 / 2 ^ 54) (0.99) (1.95) (zMla 53 false exp2Poly64 a b)) (-0.5001) (steps 0.5001 16) = true := by
  decide +kernel

set_option maxRecDepth 100000 in
theorem chain_exp2_64simd : chain (fun a b => coreOk 53 (1 / 2 ^ 54) (0.7 / 2 ^ 54) (0.99) (1.95) (zMla 53 false exp2Poly64simd a b)) (-0.5001) (steps 0.5001 16) = true := by
  decide +kernel

set_option maxRecDepth 100000 in
theorem chain_exp2_64fma : chain (fun a b => coreOk 53 (1 / 2 ^ 54) (0.7 / 2 ^ 54) (0.99) (1.95) (zMla 53 true exp2Poly64simd a b)) (-0.5001) (steps 0.5001 16) = true := by
  decide +kernel

set_option maxRecDepth 100000 in
theorem chain_exp2_32 : chain (fun a b => coreOk 24 (1 / 2 ^ 25) (0.7 / 2 ^ 25) (0.99) (1.95) (zMla 24 false exp2Poly32 a b)) (-0.5001) (steps 0.5001 16) = true := by
  decide +kernel

set_option maxRecDepth 100000 in
theorem chain_exp2_32fma : chain (fun a b => coreOk 24 (1 / 2 ^ 25) (0.7 / 2 ^ 25) (0.99) (1.95) (zMla 24 true exp2Poly32 a b)) (-0.5001) (steps 0.5001 16) = true := by
  decide +kernel

set_option maxRecDepth 100000 in
theorem chain_exp10_64 : chain (fun a b => coreOk 53 (0.75 / 2 ^ 54) (2.31 / 2 ^ 56) (0.99) (2.4) (zMla 53 false exp10Poly64 a b)) (-0.1508) (steps 0.1508 16) = true := by
  decide +kernel

set_option maxRecDepth 100000 in
theorem chain_exp10_64simd : chain (fun a b => coreOk 53 (0.75 / 2 ^ 54) (2.31 / 2 ^ 56) (0.99) (2.4) (zMla 53 false exp10Poly64simd a b)) (-0.1508) (steps 0.1508 16) = true := by
  decide +kernel

set_option maxRecDepth 100000 in
theorem chain_exp10_64fma : chain (fun a b => coreOk 53 (0.75 / 2 ^ 54) (2.31 / 2 ^ 56) (0.99) (2.4) (zMla 53 true exp10Poly64simd a b)) (-0.1508) (steps 0.1508 16) = true := by
  decide +kernel

set_option maxRecDepth 100000 in
theorem chain_exp10_32 : chain (fun a b => coreOk 24 (0.75 / 2 ^ 26) (2.33 / 2 ^ 27) (0.99) (2.4) (zMla 24 false exp10Poly32 a b)) (-0.1508) (steps 0.1508 16) = true := by
  decide +kernel

set_option maxRecDepth 100000 in
theorem chain_exp10_32fma : chain (fun a b => coreOk 24 (0.75 / 2 ^ 26) (2.33 / 2 ^ 27) (0.99) (2.4) (zMla 24 true exp10Poly32 a b)) (-0.1508) (steps 0.1508 16) = true := by
  decide +kernel

/-- `xexp`. Proof helper. -/
def red64 : Red := ⟨53, -1074, 6497320848556798 * 2 ^ (-52 : ℤ), 6243314768162816 * 2 ^ (-53 : ℤ), 5592575473413350 * 2 ^ (-94 : ℤ), -41, -54, 11, 1, 1000,
  0.3468, 1.001 / 2 ^ 55⟩

/-- `xexpf`. Proof helper. -/
def red32 : Red := ⟨24, -149, 12102203 * 2 ^ (-23 : ℤ), 11629056 * 2 ^ (-24 : ℤ), 12566158 * 2 ^ (-43 : ℤ), -15, -25, 8, 1, 104, 0.3468, 1.005 / 2 ^ 26⟩

/-- `xexp10_u35`. Proof helper. -/
def red10_64 : Red := ⟨53, -1074, 7480317065143153 * 2 ^ (-51 : ℤ), 5422874305196032 * 2 ^ (-54 : ℤ), 5627189443843691 * 2 ^ (-95 : ℤ), -42, -55, 11, ln10,
  350, 0.1508, 2.31 / 2 ^ 56⟩

/-- `xexp10f_u35`. Proof helper. -/
def red10_32 : Red := ⟨24, -149, 13933176 * 2 ^ (-22 : ℤ), 10100736 * 2 ^ (-25 : ℤ), 10126588 * 2 ^ (-41 : ℤ), -12, -26, 8, ln10, 50, 0.1508,
  2.33 / 2 ^ 27⟩

theorem red64_ok : red64.ok = true := by decide +kernel
theorem red32_ok : red32.ok = true := by decide +kernel
theorem red10_64_ok : red10_64.ok = true := by decide +kernel
theorem red10_32_ok : red10_32.ok = true := by decide +kernel

end Nsimd.Sleef
