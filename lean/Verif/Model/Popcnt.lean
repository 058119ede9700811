import Batteries.Data.BitVec.Lemmas

/-!
# Population count (include/nsimd/nsimd.h:1138-1177)
-/

namespace Nsimd.Popcnt

/-- The portable loop `for (i = 0; i < w; i++) ret += (int)((a >> i) & 1);` of
`nsimd_popcnt32_` and `nsimd_popcnt64_`, include/nsimd/nsimd.h:1147-1151, 1171-1175 (`w` is 32 or 64;
`ret` never exceeds 64, so it is a `Nat`). -/
def loop {w : Nat} (a : BitVec w) : Nat :=
  (List.range w).foldl (fun ret i => ret + ((a >>> i) &&& 1#w).toNat) 0

/-- The 64-bit count from two 32-bit counts, include/nsimd/nsimd.h:1158-1159 and 1167-1168; `p` is the
32-bit count (`__builtin_popcountl` or `__popcnt`). -/
def halves (p : BitVec 32 → Nat) (a : BitVec 64) : Nat :=
  p ((a &&& 0xFFFFFFFF#64).setWidth 32) + p ((a >>> 32).setWidth 32)

end Nsimd.Popcnt
