/-!
# `isnan`, `isinf`, `isnormal`

On the bit patterns of the arguments (`nsimd_scalar_reinterpret_u*_f*` copies the bits,
egg/scalar.py:219-269).
-/

namespace Nsimd.FloatClass

/-- `nsimd_isnan_f16`: include/nsimd/nsimd.h:2115-2123. -/
def isnanF16 (b : BitVec 16) : Bool :=
  ((b.setWidth 32 >>> 10) &&& 0x1F#32) == 0x1F#32 && (b.setWidth 32 <<< 6) != 0#32

/-- `nsimd_isnan_f32`: include/nsimd/nsimd.h:2125-2133. -/
def isnanF32 (b : BitVec 32) : Bool :=
  ((b >>> 23) &&& 0xFF#32) == 0xFF#32 && (b <<< 9) != 0#32

/-- `nsimd_isnan_f64`: include/nsimd/nsimd.h:2135-2143. -/
def isnanF64 (b : BitVec 64) : Bool :=
  ((b >>> 52) &&& 0x7FF#64) == 0x7FF#64 && (b <<< 12) != 0#64

/-- `nsimd_isinf_f16`: include/nsimd/nsimd.h:2145-2153. -/
def isinfF16 (b : BitVec 16) : Bool :=
  ((b.setWidth 32 >>> 10) &&& 0x1F#32) == 0x1F#32 && (b.setWidth 32 <<< 6) == 0#32

/-- `nsimd_isinf_f32`: include/nsimd/nsimd.h:2155-2163. -/
def isinfF32 (b : BitVec 32) : Bool :=
  ((b >>> 23) &&& 0xFF#32) == 0xFF#32 && (b <<< 9) == 0#32

/-- `nsimd_isinf_f64`: include/nsimd/nsimd.h:2165-2173. -/
def isinfF64 (b : BitVec 64) : Bool :=
  ((b >>> 52) &&& 0x7FF#64) == 0x7FF#64 && (b <<< 12) == 0#64

/-- `nsimd_isnormal_f16`: include/nsimd/nsimd.h:2175-2183. -/
def isnormalF16 (b : BitVec 16) : Bool :=
  ((b.setWidth 32 >>> 10) &&& 0x1F#32) == 0#32 && (b.setWidth 32 <<< 6) != 0#32

/-- `nsimd_isnormal_f32`: include/nsimd/nsimd.h:2185-2193. -/
def isnormalF32 (b : BitVec 32) : Bool :=
  !(((b >>> 23) &&& 0xFF#32) == 0#32 && (b <<< 9) != 0#32)

/-- `nsimd_isnormal_f64`: include/nsimd/nsimd.h:2195-2203. -/
def isnormalF64 (b : BitVec 64) : Bool :=
  !(((b >>> 52) &&& 0x7FF#64) == 0#64 && (b <<< 12) != 0#64)

end Nsimd.FloatClass
