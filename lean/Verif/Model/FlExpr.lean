import Verif.Model.DoubleDouble

/-!
# Straight-line floating-point code

The polynomial kernels of the vendored SLEEF are straight-line code over the operations of `Alg`.  The code is written once
for an arbitrary interpretation `α` of the numbers: floating-point numbers (`flAlg`), real numbers or error bounds.
-/

namespace Nsimd.Sleef
open Nsimd.DoubleDouble

/-- Operations used by the kernels; `mla x y z` is `x * y + z`, fused or not depending on the target, `fma` is always
fused. Interface, not code of the repo. -/
structure Alg (α : Type) where
  lit : ℚ → α
  neg : α → α
  add : α → α → α
  sub : α → α → α
  mul : α → α → α
  div : α → α → α
  mla : α → α → α → α
  fma : α → α → α → α

variable (rnd lt : ℚ → ℚ)

/-- Floating-point numbers as rationals, one rounding per operation.  `mla`, `mlaf`: src/sleefdp.c:68; src/sleefsp.c:68;
`vmla_vd_vd_vd_vd`, `vmla_vf_vf_vf_vf`: src/helpersse2.h:214, 337 (two roundings), src/helperavx2.h:194, 311 (one rounding);
`vfma_vd_vd_vd_vd`: src/helperavx2.h:200; `vneg_vd_vd`: src/helpersse2.h:213; `vdiv_vd_vd_vd`: src/helpersse2.h:209.
`fused` tells whether `mla` is fused on the target.  `lt` turns a decimal literal into a number of the type (`C2V`,
src/sleefdp.c:34, and `vcast_vd_d`, src/helpersse2.h:200): one rounding, or two for a literal of type `double` that
is converted to `float`. -/
def flAlg (fused : Bool) : Alg ℚ where
  lit c := lt c
  neg x := -x
  add x y := add rnd x y
  sub x y := sub rnd x y
  mul x y := mul rnd x y
  div x y := rnd (x / y)
  mla x y z := if fused then fma rnd x y z else add rnd (mul rnd x y) z
  fma x y z := fma rnd x y z

namespace Alg
variable {α : Type} (A : Alg α)

/-! The macros of src/estrin.h:8-37; the coefficients are those of the highest power first. -/

/-- `POLY2`: src/estrin.h:8. -/
def poly2 (x : α) (c1 c0 : ℚ) : α := A.mla x (A.lit c1) (A.lit c0)

/-- `POLY3`: src/estrin.h:9. -/
def poly3 (x x2 : α) (c2 c1 c0 : ℚ) : α := A.mla x2 (A.lit c2) (A.mla x (A.lit c1) (A.lit c0))

/-- `POLY4`: src/estrin.h:10. -/
def poly4 (x x2 : α) (c3 c2 c1 c0 : ℚ) : α :=
  A.mla x2 (A.mla x (A.lit c3) (A.lit c2)) (A.mla x (A.lit c1) (A.lit c0))

/-- `POLY5`: src/estrin.h:11. -/
def poly5 (x x2 x4 : α) (c4 c3 c2 c1 c0 : ℚ) : α := A.mla x4 (A.lit c4) (A.poly4 x x2 c3 c2 c1 c0)

/-- `POLY6`: src/estrin.h:12. -/
def poly6 (x x2 x4 : α) (c5 c4 c3 c2 c1 c0 : ℚ) : α := A.mla x4 (A.poly2 x c5 c4) (A.poly4 x x2 c3 c2 c1 c0)

/-- `POLY7`: src/estrin.h:13. -/
def poly7 (x x2 x4 : α) (c6 c5 c4 c3 c2 c1 c0 : ℚ) : α := A.mla x4 (A.poly3 x x2 c6 c5 c4) (A.poly4 x x2 c3 c2 c1 c0)

/-- `POLY8`: src/estrin.h:14. -/
def poly8 (x x2 x4 : α) (c7 c6 c5 c4 c3 c2 c1 c0 : ℚ) : α :=
  A.mla x4 (A.poly4 x x2 c7 c6 c5 c4) (A.poly4 x x2 c3 c2 c1 c0)

/-- `POLY9`: src/estrin.h:15-16. -/
def poly9 (x x2 x4 x8 : α) (c8 c7 c6 c5 c4 c3 c2 c1 c0 : ℚ) : α :=
  A.mla x8 (A.lit c8) (A.poly8 x x2 x4 c7 c6 c5 c4 c3 c2 c1 c0)

/-- `POLY10`: src/estrin.h:17-18. -/
def poly10 (x x2 x4 x8 : α) (c9 c8 c7 c6 c5 c4 c3 c2 c1 c0 : ℚ) : α :=
  A.mla x8 (A.poly2 x c9 c8) (A.poly8 x x2 x4 c7 c6 c5 c4 c3 c2 c1 c0)

/-- `POLY11`: src/estrin.h:19-20. -/
def poly11 (x x2 x4 x8 : α) (c10 c9 c8 c7 c6 c5 c4 c3 c2 c1 c0 : ℚ) : α :=
  A.mla x8 (A.poly3 x x2 c10 c9 c8)
    (A.poly8 x x2 x4 c7 c6 c5 c4 c3 c2 c1 c0)

/-- `POLY12`: src/estrin.h:21-22. -/
def poly12 (x x2 x4 x8 : α) (c11 c10 c9 c8 c7 c6 c5 c4 c3 c2 c1 c0 : ℚ) : α :=
  A.mla x8 (A.poly4 x x2 c11 c10 c9 c8)
    (A.poly8 x x2 x4 c7 c6 c5 c4 c3 c2 c1 c0)

/-- `POLY13`: src/estrin.h:23-24. -/
def poly13 (x x2 x4 x8 : α) (c12 c11 c10 c9 c8 c7 c6 c5 c4 c3 c2 c1 c0 : ℚ) : α :=
  A.mla x8 (A.poly5 x x2 x4 c12 c11 c10 c9 c8)
    (A.poly8 x x2 x4 c7 c6 c5 c4 c3 c2 c1 c0)

/-- `POLY14`: src/estrin.h:25-26. -/
def poly14 (x x2 x4 x8 : α) (c13 c12 c11 c10 c9 c8 c7 c6 c5 c4 c3 c2 c1 c0 : ℚ) : α :=
  A.mla x8 (A.poly6 x x2 x4 c13 c12 c11 c10 c9 c8)
    (A.poly8 x x2 x4 c7 c6 c5 c4 c3 c2 c1 c0)

/-- `POLY15`: src/estrin.h:27-28. -/
def poly15 (x x2 x4 x8 : α) (c14 c13 c12 c11 c10 c9 c8 c7 c6 c5 c4 c3 c2 c1 c0 : ℚ) : α :=
  A.mla x8 (A.poly7 x x2 x4 c14 c13 c12 c11 c10 c9 c8)
    (A.poly8 x x2 x4 c7 c6 c5 c4 c3 c2 c1 c0)

/-- `POLY16`: src/estrin.h:29-30. -/
def poly16 (x x2 x4 x8 : α) (c15 c14 c13 c12 c11 c10 c9 c8 c7 c6 c5 c4 c3 c2 c1 c0 : ℚ) : α :=
  A.mla x8 (A.poly8 x x2 x4 c15 c14 c13 c12 c11 c10 c9 c8)
    (A.poly8 x x2 x4 c7 c6 c5 c4 c3 c2 c1 c0)

/-- `POLY17`: src/estrin.h:31-32. -/
def poly17 (x x2 x4 x8 x16 : α) (c16 c15 c14 c13 c12 c11 c10 c9 c8 c7 c6 c5 c4 c3 c2 c1 c0 : ℚ) : α :=
  A.mla x16 (A.lit c16)
    (A.poly16 x x2 x4 x8 c15 c14 c13 c12 c11 c10 c9 c8 c7 c6 c5 c4 c3 c2 c1 c0)

/-- `POLY18`: src/estrin.h:33-34. -/
def poly18 (x x2 x4 x8 x16 : α) (c17 c16 c15 c14 c13 c12 c11 c10 c9 c8 c7 c6 c5 c4 c3 c2 c1 c0 : ℚ) : α :=
  A.mla x16 (A.poly2 x c17 c16)
    (A.poly16 x x2 x4 x8 c15 c14 c13 c12 c11 c10 c9 c8 c7 c6 c5 c4 c3 c2 c1 c0)

/-- `POLY19`: src/estrin.h:35-36. -/
def poly19 (x x2 x4 x8 x16 : α) (c18 c17 c16 c15 c14 c13 c12 c11 c10 c9 c8 c7 c6 c5 c4 c3 c2 c1 c0 : ℚ) : α :=
  A.mla x16 (A.poly3 x x2 c18 c17 c16)
    (A.poly16 x x2 x4 x8 c15 c14 c13 c12 c11 c10 c9 c8 c7 c6 c5 c4 c3 c2 c1 c0)

end Alg
end Nsimd.Sleef
