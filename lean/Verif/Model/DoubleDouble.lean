import Mathlib.Data.Rat.Defs
import Mathlib.Algebra.Order.Field.Rat

/-!
# Double-double arithmetic of the vendored SLEEF

src/dd.h (pairs of f64) and src/df.h (pairs of f32) contain the same algorithms.  A lane is a
rational number, every floating-point operation is the exact operation followed by `rnd`.
Infinities, NaNs and the sign of zero are not modelled: the results are about executions in which
no operation overflows.
-/

namespace Nsimd.DoubleDouble

/-- Pair of lanes: src/dd.h:7-15 (`vdouble2`); src/df.h:7-15 (`vfloat2`). -/
abbrev DD := ℚ × ℚ

variable (rnd : ℚ → ℚ)

/-- `vadd_vd_vd_vd`: src/helpersse2.h:206 and the other helpers, an IEEE addition. -/
def add (x y : ℚ) : ℚ := rnd (x + y)

/-- `vsub_vd_vd_vd`: src/helpersse2.h:207. -/
def sub (x y : ℚ) : ℚ := rnd (x - y)

/-- `vmul_vd_vd_vd`: src/helpersse2.h:208. -/
def mul (x y : ℚ) : ℚ := rnd (x * y)

/-- `vrec_vd_vd`: src/helpersse2.h:210. -/
def rec1 (x : ℚ) : ℚ := rnd (1 / x)

/-- `vfma_vd_vd_vd_vd`: src/helperavx2.h:200, one rounding. -/
def fma (x y z : ℚ) : ℚ := rnd (x * y + z)

/-- `vfmapn_vd_vd_vd_vd`: src/helperavx2.h:202. -/
def fmapn (x y z : ℚ) : ℚ := rnd (x * y - z)

/-- `vfmanp_vd_vd_vd_vd`: src/helperavx2.h:203. -/
def fmanp (x y z : ℚ) : ℚ := rnd (z - x * y)

/-- `vadd_vd_3vd` … `vadd_vd_7vd`, `vadd_vf_3vf` … `vadd_vf_7vf`: src/dd.h:40-58,
src/df.h:55-73; the sums are taken from left to right. -/
def addN : ℚ → List ℚ → ℚ
  | v, [] => v
  | v, w :: l => addN (add rnd v w) l

/-- `vsub_vd_3vd` … `vsub_vd_6vd`: src/dd.h:60-74. -/
def subN : ℚ → List ℚ → ℚ
  | v, [] => v
  | v, w :: l => subN (sub rnd v w) l

/-- `ddnormalize_vd2_vd2`: src/dd.h:89-92; `dfnormalize_vf2_vf2`: src/df.h:98-101. -/
def normalize (t : DD) : DD :=
  let s := add rnd t.1 t.2
  (s, add rnd (sub rnd t.1 s) t.2)

/-- `ddscale_vd2_vd2_vd`: src/dd.h:94-96; `dfscale_vf2_vf2_vf`: src/df.h:103-105. -/
def scale (d : DD) (s : ℚ) : DD := (mul rnd d.1 s, mul rnd d.2 s)

/-- `ddadd_vd2_vd_vd`: src/dd.h:98-101; `dfadd_vf2_vf_vf`: src/df.h:107-110. -/
def add11 (x y : ℚ) : DD :=
  let s := add rnd x y
  (s, add rnd (sub rnd x s) y)

/-- `ddadd2_vd2_vd_vd`: src/dd.h:103-107; `dfadd2_vf2_vf_vf`: src/df.h:112-116. -/
def add2_11 (x y : ℚ) : DD :=
  let s := add rnd x y
  let v := sub rnd s x
  (s, add rnd (sub rnd x (sub rnd s v)) (sub rnd y v))

/-- `ddadd_vd2_vd2_vd`: src/dd.h:109-112; `dfadd_vf2_vf2_vf`: src/df.h:125-128. -/
def add21 (x : DD) (y : ℚ) : DD :=
  let s := add rnd x.1 y
  (s, addN rnd (sub rnd x.1 s) [y, x.2])

/-- `ddsub_vd2_vd2_vd`: src/dd.h:114-117; `dfsub_vf2_vf2_vf`: src/df.h:130-133. -/
def sub21 (x : DD) (y : ℚ) : DD :=
  let s := sub rnd x.1 y
  (s, add rnd (sub rnd (sub rnd x.1 s) y) x.2)

/-- `ddadd2_vd2_vd2_vd`: src/dd.h:119-124; `dfadd2_vf2_vf2_vf`: src/df.h:135-140. -/
def add2_21 (x : DD) (y : ℚ) : DD :=
  let s := add rnd x.1 y
  let v := sub rnd s x.1
  let w := add rnd (sub rnd x.1 (sub rnd s v)) (sub rnd y v)
  (s, add rnd w x.2)

/-- `ddadd_vd2_vd_vd2`: src/dd.h:126-129; `dfadd_vf2_vf_vf2`: src/df.h:142-145. -/
def add12 (x : ℚ) (y : DD) : DD :=
  let s := add rnd x y.1
  (s, addN rnd (sub rnd x s) [y.1, y.2])

/-- `ddadd2_vd2_vd_vd2`: src/dd.h:131-136; `dfadd2_vf2_vf_vf2`: src/df.h:118-123. -/
def add2_12 (x : ℚ) (y : DD) : DD :=
  let s := add rnd x y.1
  let v := sub rnd s x
  (s, add rnd (add rnd (sub rnd x (sub rnd s v)) (sub rnd y.1 v)) y.2)

/-- `ddadd_vd2_vd2_vd2`: src/dd.h:138-143; `dfadd_vf2_vf2_vf2`: src/df.h:147-152. -/
def add22 (x y : DD) : DD :=
  let s := add rnd x.1 y.1
  (s, addN rnd (sub rnd x.1 s) [y.1, x.2, y.2])

/-- `ddadd2_vd2_vd2_vd2`: src/dd.h:145-150; `dfadd2_vf2_vf2_vf2`: src/df.h:154-159. -/
def add2_22 (x y : DD) : DD :=
  let s := add rnd x.1 y.1
  let v := sub rnd s x.1
  let t := add rnd (sub rnd x.1 (sub rnd s v)) (sub rnd y.1 v)
  (s, add rnd t (add rnd x.2 y.2))

/-- `ddsub_vd2_vd_vd`: src/dd.h:152-157; `dfsub_vf2_vf_vf`: src/df.h:161-166. -/
def sub11 (x y : ℚ) : DD :=
  let s := sub rnd x y
  (s, sub rnd (sub rnd x s) y)

/-- `ddsub_vd2_vd2_vd2`: src/dd.h:159-167; `dfsub_vf2_vf2_vf2`: src/df.h:168-176. -/
def sub22 (x y : DD) : DD :=
  let s := sub rnd x.1 y.1
  let t := sub rnd x.1 s
  let t := sub rnd t y.1
  let t := add rnd t x.2
  (s, sub rnd t y.2)

namespace Fma

/-- `dddiv_vd2_vd2_vd2` with fused multiply-add: src/dd.h:170-176; src/df.h:179-185. -/
def div22 (n d : DD) : DD :=
  let t := rec1 rnd d.1
  let s := mul rnd n.1 t
  let u := fmapn rnd t n.1 s
  let v := fmanp rnd d.2 t (fmanp rnd d.1 t 1)
  (s, fma rnd s v (fma rnd n.2 t u))

/-- `ddmul_vd2_vd_vd` with fused multiply-add: src/dd.h:178-181; src/df.h:187-190. -/
def mul11 (x y : ℚ) : DD :=
  let s := mul rnd x y
  (s, fmapn rnd x y s)

/-- `ddsqu_vd2_vd2` with fused multiply-add: src/dd.h:183-186; src/df.h:192-195. -/
def squ2 (x : DD) : DD :=
  let s := mul rnd x.1 x.1
  (s, fma rnd (add rnd x.1 x.1) x.2 (fmapn rnd x.1 x.1 s))

/-- `ddmul_vd2_vd2_vd2` with fused multiply-add: src/dd.h:188-191; src/df.h:201-204. -/
def mul22 (x y : DD) : DD :=
  let s := mul rnd x.1 y.1
  (s, fma rnd x.1 y.2 (fma rnd x.2 y.1 (fmapn rnd x.1 y.1 s)))

/-- `ddmul_vd_vd2_vd2` with fused multiply-add: src/dd.h:193-195; src/df.h:206-208. -/
def mul22_1 (x y : DD) : ℚ :=
  fma rnd x.1 y.1 (fma rnd x.2 y.1 (mul rnd x.1 y.2))

/-- `ddsqu_vd_vd2` with fused multiply-add: src/dd.h:197-199; src/df.h:197-199. -/
def squ2_1 (x : DD) : ℚ :=
  fma rnd x.1 x.1 (add rnd (mul rnd x.1 x.2) (mul rnd x.1 x.2))

/-- `ddmul_vd2_vd2_vd` with fused multiply-add: src/dd.h:201-204; src/df.h:210-213. -/
def mul21 (x : DD) (y : ℚ) : DD :=
  let s := mul rnd x.1 y
  (s, fma rnd x.2 y (fmapn rnd x.1 y s))

/-- `ddrec_vd2_vd` with fused multiply-add: src/dd.h:206-209; src/df.h:215-218. -/
def rec11 (d : ℚ) : DD :=
  let s := rec1 rnd d
  (s, mul rnd s (fmanp rnd d s 1))

/-- `ddrec_vd2_vd2` with fused multiply-add: src/dd.h:211-214; src/df.h:220-223. -/
def rec2 (d : DD) : DD :=
  let s := rec1 rnd d.1
  (s, mul rnd s (fmanp rnd d.2 s (fmanp rnd d.1 s 1)))

end Fma

/-- The bits of `vupper_vd_vd`: src/dd.h:18-20. -/
def upperBits64 (d : BitVec 64) : BitVec 64 := d &&& (0xffffffff#32 ++ 0xf8000000#32)

/-- The bits of `vupper_vf_vf`: src/df.h:18-20. -/
def upperBits32 (d : BitVec 32) : BitVec 32 := d &&& 0xfffff000#32

namespace NoFma

/- `up` is `vupper_vd_vd` or `vupper_vf_vf` on lane values: src/dd.h:18-20; src/df.h:18-20. -/
variable (up : ℚ → ℚ)

/-- `ddmul_vd2_vd_vd` without fused multiply-add: src/dd.h:230-236; src/df.h:250-262. -/
def mul11 (x y : ℚ) : DD :=
  let xh := up x
  let xl := sub rnd x xh
  let yh := up y
  let yl := sub rnd y yh
  let s := mul rnd x y
  (s, addN rnd (mul rnd xh yh) [-s, mul rnd xl yh, mul rnd xh yl, mul rnd xl yl])

/-- `ddmul_vd2_vd2_vd` without fused multiply-add: src/dd.h:238-244; src/df.h:264-277. -/
def mul21 (x : DD) (y : ℚ) : DD :=
  let xh := up x.1
  let xl := sub rnd x.1 xh
  let yh := up y
  let yl := sub rnd y yh
  let s := mul rnd x.1 y
  (s, addN rnd (mul rnd xh yh)
    [-s, mul rnd xl yh, mul rnd xh yl, mul rnd xl yl, mul rnd x.2 y])

/-- `ddmul_vd2_vd2_vd2` without fused multiply-add: src/dd.h:246-252; src/df.h:279-293. -/
def mul22 (x y : DD) : DD :=
  let xh := up x.1
  let xl := sub rnd x.1 xh
  let yh := up y.1
  let yl := sub rnd y.1 yh
  let s := mul rnd x.1 y.1
  (s, addN rnd (mul rnd xh yh)
    [-s, mul rnd xl yh, mul rnd xh yl, mul rnd xl yl, mul rnd x.1 y.2, mul rnd x.2 y.1])

/-- `ddsqu_vd2_vd2` without fused multiply-add: src/dd.h:261-266; src/df.h:302-313. -/
def squ2 (x : DD) : DD :=
  let xh := up x.1
  let xl := sub rnd x.1 xh
  let s := mul rnd x.1 x.1
  (s, addN rnd (mul rnd xh xh)
    [-s, mul rnd (add rnd xh xh) xl, mul rnd xl xl, mul rnd x.1 (add rnd x.2 x.2)])

/-- `ddrec_vd2_vd` without fused multiply-add: src/dd.h:274-280. -/
def rec11 (d : ℚ) : DD :=
  let t := rec1 rnd d
  let dh := up d
  let dl := sub rnd d dh
  let th := up t
  let tl := sub rnd t th
  (t, mul rnd t (subN rnd 1 [mul rnd dh th, mul rnd dh tl, mul rnd dl th, mul rnd dl tl]))

end NoFma

end Nsimd.DoubleDouble
