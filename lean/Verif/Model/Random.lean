import Verif.Model.Cpu

/-!
# The random module: egg/modules/random/hatch.py

Code generators (Python) and the code they print. All operators used on packs act lane by lane,
hence everything except `mulhilo32` is written for one lane; `mulhilo32`, which goes through
`upcvt`/`downcvt`, is written for whole vectors of the cpu backend.
The reference implementation the tests compare with (tests/modules/random/reference.hpp) is
modelled too.
-/

namespace Nsimd.Random

/-! ## Double-width products -/

/-- `mulhilo32` in use, returning (low, high): egg/modules/random/hatch.py:197-208. -/
def mulhilo32 {n : Nat} (a b : Cpu.Vec (2 * n) (BitVec 32)) :
    Cpu.Vec (2 * n) (BitVec 32) × Cpu.Vec (2 * n) (BitVec 32) :=
  let a64 := Cpu.upcvt .u32 .u64 a
  let b64 := Cpu.upcvt .u32 .u64 b
  let product0 : Cpu.Vec n (BitVec 64) := fun i => a64.1 i * b64.1 i
  let product1 : Cpu.Vec n (BitVec 64) := fun i => a64.2 i * b64.2 i
  let high := Cpu.downcvt .u64 .u32 (fun i => product0 i >>> 32) (fun i => product1 i >>> 32)
  let low := Cpu.downcvt .u64 .u32 product0 product1
  (low, high)

/-- The four-product version for words of `2h` bits, one lane, returning (low, high):
`mulhilo64` in use is `h = 32`, egg/modules/random/hatch.py:265-293; the disabled `mulhilo32` is
`h = 16`, egg/modules/random/hatch.py:212-240. -/
def mulhilo {h : Nat} (a b : BitVec (2 * h)) : BitVec (2 * h) × BitVec (2 * h) :=
  let ah := a >>> h
  let bh := b >>> h
  let al := (a <<< h) >>> h
  let bl := (b <<< h) >>> h
  let ahbh := ah * bh
  let ahbl := ah * bl
  let albh := al * bh
  let albl := al * bl
  let tmp1 := albh <<< h
  let tmp2 := ahbl <<< h
  let tmp3 := tmp1 + tmp2
  let carry : BitVec (2 * h) := if tmp3 < tmp1 ∨ tmp3 < tmp2 then 1#(2 * h) else 0#(2 * h)
  let low := tmp3 + albl
  let carry := carry + (if low < tmp3 ∨ low < albl then 1#(2 * h) else 0#(2 * h))
  let high := ahbh + (albh >>> h) + (ahbl >>> h) + carry
  (low, high)

/-- `mulhilo64` of the reference, returning (low, high):
tests/modules/random/reference.hpp:116-140. -/
def refMulhilo64 (a b : BitVec 64) : BitVec 64 × BitVec 64 :=
  let a0 := a &&& 0xFFFFFFFF#64
  let a1 := a >>> 32
  let b0 := b &&& 0xFFFFFFFF#64
  let b1 := b >>> 32
  let a0b1 := a0 * b1
  let a1b0 := a1 * b0
  let c264 := ((a0b1 &&& 0xFFFFFFFF#64) + (a1b0 &&& 0xFFFFFFFF#64) + ((a0 * b0) >>> 32)) >>> 32
  (a * b, (a1 * b1) + (a0b1 >>> 32) + (a1b0 >>> 32) + c264)

/-- `mulhilo32` of the reference, returning (low, high):
tests/modules/random/reference.hpp:318-322. -/
def refMulhilo32 (a b : BitVec 32) : BitVec 32 × BitVec 32 :=
  let product := a.setWidth 64 * b.setWidth 64
  (product.setWidth 32, (product >>> 32).setWidth 32)

/-- Word sizes: egg/modules/random/hatch.py:190-193, 474-477. -/
inductive Word | w32 | w64
  deriving DecidableEq, Repr

/-- Number of bits of a word: egg/modules/random/hatch.py:190-193, 474-477. -/
abbrev Word.bits : Word → Nat
  | .w32 => 32
  | .w64 => 64

/-- `mulhilo{word_size}` on one lane: `mulhilo32` on vectors of two equal lanes for 32 bits (every
lane computes the same function), egg/modules/random/hatch.py:197-208; 265-293 for 64 bits. -/
def mulhiloW : (ws : Word) → BitVec ws.bits → BitVec ws.bits → BitVec ws.bits × BitVec ws.bits
  | .w32, a, b =>
    let r := mulhilo32 (n := 1) (fun _ => a) (fun _ => b)
    (r.1 0, r.2 0)
  | .w64, a, b => mulhilo (h := 32) a b

/-! ## Philox -/

/-- `mul` of Philox 2x: egg/modules/random/hatch.py:322-323. -/
def mul2 : (ws : Word) → BitVec ws.bits
  | .w32 => 0xD256D193#32
  | .w64 => 0xD2B74407B1CE6E93#64
/-- `mul0` of Philox 4x: egg/modules/random/hatch.py:352-353. -/
def mul40 : (ws : Word) → BitVec ws.bits
  | .w32 => 0xD2511F53#32
  | .w64 => 0xD2E7470EE14C6C93#64
/-- `mul1` of Philox 4x: egg/modules/random/hatch.py:354-355. -/
def mul41 : (ws : Word) → BitVec ws.bits
  | .w32 => 0xCD9E8D57#32
  | .w64 => 0xCA5A826395121157#64
/-- `bump`, `bump0`: egg/modules/random/hatch.py:314-315, 339-340. -/
def bump0 : (ws : Word) → BitVec ws.bits
  | .w32 => 0x9E3779B9#32
  | .w64 => 0x9E3779B97F4A7C15#64
/-- `bump1`: egg/modules/random/hatch.py:341-342. -/
def bump1 : (ws : Word) → BitVec ws.bits
  | .w32 => 0xBB67AE85#32
  | .w64 => 0xBB67AE8584CAA73B#64

/-- `packx2`, one lane: include/nsimd/cxx_adv_api.hpp:234-470. -/
abbrev X2 (ws : Word) := BitVec ws.bits × BitVec ws.bits
/-- `packx4`, one lane: include/nsimd/cxx_adv_api.hpp:234-470. -/
abbrev X4 (ws : Word) := BitVec ws.bits × BitVec ws.bits × BitVec ws.bits × BitVec ws.bits

/-- One round of Philox 2x: egg/modules/random/hatch.py:325-330. -/
def round2 (ws : Word) (key : BitVec ws.bits) (c : X2 ws) : X2 ws :=
  let (low, high) := mulhiloW ws (mul2 ws) c.1
  (high ^^^ key ^^^ c.2, low)

/-- Code printed by `gen_func` for 2 words, executed: round 0, then `nrounds - 1` times bump the key
and a round. egg/modules/random/hatch.py:366-381. -/
def philox2 (ws : Word) (nrounds : Nat) (c : X2 ws) (key : BitVec ws.bits) : X2 ws :=
  ((List.range (nrounds - 1)).foldl (fun s _ =>
    let key := s.2 + bump0 ws
    (round2 ws key s.1, key)) (round2 ws key c, key)).1

/-- One round of Philox 4x: egg/modules/random/hatch.py:357-364. -/
def round4 (ws : Word) (key : X2 ws) (c : X4 ws) : X4 ws :=
  let (low0, high0) := mulhiloW ws (mul40 ws) c.1
  let (low1, high1) := mulhiloW ws (mul41 ws) c.2.2.1
  (high1 ^^^ key.1 ^^^ c.2.1, low1, high0 ^^^ key.2 ^^^ c.2.2.2, low0)

/-- Code printed by `gen_func` for 4 words, executed: egg/modules/random/hatch.py:366-381. -/
def philox4 (ws : Word) (nrounds : Nat) (c : X4 ws) (key : X2 ws) : X4 ws :=
  ((List.range (nrounds - 1)).foldl (fun s _ =>
    let key := (s.2.1 + bump0 ws, s.2.2 + bump1 ws)
    (round4 ws key s.1, key)) (round4 ws key c, key)).1

/-- `mulhilo{word_size}` of the reference: tests/modules/random/reference.hpp:116-140, 318-322. -/
def refMulhilo : (ws : Word) → BitVec ws.bits → BitVec ws.bits → BitVec ws.bits × BitVec ws.bits
  | .w32, a, b => refMulhilo32 a b
  | .w64, a, b => refMulhilo64 a b

/-- `_philox2x64round`, `_philox2x32round`: tests/modules/random/reference.hpp:237-242, 419-424. -/
def refRound2 : (ws : Word) → BitVec ws.bits → X2 ws → X2 ws
  | .w64, key, c =>
    let (lo, hi) := refMulhilo .w64 0xD2B74407B1CE6E93#64 c.1
    (hi ^^^ key ^^^ c.2, lo)
  | .w32, key, c =>
    let (lo, hi) := refMulhilo .w32 0xd256d193#32 c.1
    (hi ^^^ key ^^^ c.2, lo)

/-- `_philox2x64bumpkey`, `_philox2x32bumpkey`: tests/modules/random/reference.hpp:232-235,
414-417. -/
def refBump2 : (ws : Word) → BitVec ws.bits → BitVec ws.bits
  | .w64, key => key + 0x9E3779B97F4A7C15#64
  | .w32, key => key + 0x9E3779B9#32

/-- `_philox4x64round`, `_philox4x32round`: tests/modules/random/reference.hpp:151-159, 333-341. -/
def refRound4 : (ws : Word) → X2 ws → X4 ws → X4 ws
  | .w64, key, c =>
    let (lo0, hi0) := refMulhilo .w64 0xD2E7470EE14C6C93#64 c.1
    let (lo1, hi1) := refMulhilo .w64 0xCA5A826395121157#64 c.2.2.1
    (hi1 ^^^ c.2.1 ^^^ key.1, lo1, hi0 ^^^ c.2.2.2 ^^^ key.2, lo0)
  | .w32, key, c =>
    let (lo0, hi0) := refMulhilo .w32 0xD2511F53#32 c.1
    let (lo1, hi1) := refMulhilo .w32 0xCD9E8D57#32 c.2.2.1
    (hi1 ^^^ c.2.1 ^^^ key.1, lo1, hi0 ^^^ c.2.2.2 ^^^ key.2, lo0)

/-- `_philox4x64bumpkey`, `_philox4x32bumpkey`: tests/modules/random/reference.hpp:145-149,
327-331. -/
def refBump4 : (ws : Word) → X2 ws → X2 ws
  | .w64, key => (key.1 + 0x9E3779B97F4A7C15#64, key.2 + 0xBB67AE8584CAA73B#64)
  | .w32, key => (key.1 + 0x9E3779B9#32, key.2 + 0xBB67AE85#32)

/-- The sequence `if (R > 0) round; if (R > 1) { bump; round; } ... if (R > 15) { bump; round; }` shared
by the four `branson_philox*_R`: tests/modules/random/reference.hpp:161-227, 244-309, 343-409,
426-493. -/
def refPhilox {C K : Type} (round : K → C → C) (bump : K → K) (R : Nat) (c : C) (key : K) : C :=
  let s := if R > 0 then (round key c, key) else (c, key)
  ((List.range 15).foldl (fun s k =>
    if R > k + 1 then (round (bump s.2) s.1, bump s.2) else s) s).1

/-! ## Threefry -/

/-- The statements of the generated and of the reference code; `d`, `s` number the words:
`v_d += v_s`, `v_d = rotl(v_d, r)`, `v_d ^= v_s`, `v_d += ks_k`, `v_d += c`.
egg/modules/random/hatch.py:521-552, tests/modules/random/reference.hpp:540-1242. -/
inductive Ins (nw : Nat)
  | add (d s : Fin nw)
  | rot (d : Fin nw) (r : Nat)
  | xor (d s : Fin nw)
  | addKs (d : Fin nw) (k : Fin (nw + 1))
  | addC (d : Fin nw) (c : Nat)
  deriving DecidableEq, Repr

/-- `SHIFT_MOD_32`, `SHIFT_MOD_64`: egg/modules/random/hatch.py:465-466; `RotL_32`, `RotL_64`:
tests/modules/random/reference.hpp:501, 1482. -/
def shiftMod (ws : Word) (x : BitVec ws.bits) (N : Nat) : BitVec ws.bits :=
  (x <<< (N % ws.bits)) ||| (x >>> ((ws.bits - N) % ws.bits))

/-- Assignment of a word. C rule. Not code of the repo. -/
def setW {nw w : Nat} (v : Fin nw → BitVec w) (d : Fin nw) (x : BitVec w) : Fin nw → BitVec w :=
  fun i => if i = d then x else v i

/-- Execution of one statement: egg/modules/random/hatch.py:521-552. -/
def step (ws : Word) {nw : Nat} (ks : Fin (nw + 1) → BitVec ws.bits) (v : Fin nw → BitVec ws.bits) :
    Ins nw → (Fin nw → BitVec ws.bits)
  | .add d s => setW v d (v d + v s)
  | .rot d r => setW v d (shiftMod ws (v d) r)
  | .xor d s => setW v d (v d ^^^ v s)
  | .addKs d k => setW v d (v d + ks k)
  | .addC d c => setW v d (v d + BitVec.ofNat ws.bits c)

/-- Rotation constants of Threefry 2x: egg/modules/random/hatch.py:402-411, 432-441. -/
def rot2 : Word → List Nat
  | .w32 => [13, 15, 26, 6, 17, 29, 16, 24]
  | .w64 => [16, 42, 12, 31, 16, 32, 24, 21]

/-- Rotation constants of Threefry 4x, pairs (`_0`, `_2`): egg/modules/random/hatch.py:413-430,
442-460. -/
def rot4 : Word → List (Nat × Nat)
  | .w32 => [(10, 26), (11, 21), (13, 27), (23, 5), (6, 20), (17, 11), (25, 10), (18, 20)]
  | .w64 => [(14, 16), (52, 57), (23, 40), (5, 37), (25, 33), (46, 12), (58, 22), (32, 32)]

/-- Round `i` printed by `gen_body`, 2 words: egg/modules/random/hatch.py:533-539. -/
def genRound2 (ws : Word) (i : Nat) : List (Ins 2) :=
  [.add 0 1, .rot 1 ((rot2 ws).getD (i % 8) 0), .xor 1 0]

/-- Round `i` printed by `gen_body`, 4 words: egg/modules/random/hatch.py:516-532. -/
def genRound4 (ws : Word) (i : Nat) : List (Ins 4) :=
  let index0 : Fin 4 := if i % 2 = 0 then 1 else 3
  let index1 : Fin 4 := if i % 2 = 1 then 1 else 3
  let r := (rot4 ws).getD (i % 8) (0, 0)
  [.add 0 index0, .rot index0 r.1, .xor index0 0, .add 2 index1, .rot index1 r.2, .xor index1 2]

/-- Key injection printed after round `i`: egg/modules/random/hatch.py:541-552. -/
def genInject (nw : Nat) (hn : 0 < nw) (i : Nat) : List (Ins nw) :=
  if i % 4 = 3 then
    let d := i / 4 + 1
    (List.finRange nw).map (fun j => .addKs j ⟨(d + j) % (nw + 1), Nat.mod_lt _ (Nat.succ_pos nw)⟩)
      ++ [.addC ⟨nw - 1, by omega⟩ d]
  else []

/-- Statements printed by `gen_body`, 2 words: egg/modules/random/hatch.py:514-552. -/
def genBody2 (ws : Word) (nrounds : Nat) : List (Ins 2) :=
  (List.range nrounds).flatMap fun i => genRound2 ws i ++ genInject 2 (by omega) i

/-- Statements printed by `gen_body`, 4 words: egg/modules/random/hatch.py:514-552. -/
def genBody4 (ws : Word) (nrounds : Nat) : List (Ins 4) :=
  (List.range nrounds).flatMap fun i => genRound4 ws i ++ genInject 4 (by omega) i

/-- Initial value of `ks{nwords}`: egg/modules/random/hatch.py:491-498. -/
def parityC : (ws : Word) → BitVec ws.bits
  | .w32 => 0x1BD11BDA#32
  | .w64 => 0x1BD11BDAA9FC1A22#64

/-- The keys `ks0 .. ks{nwords}`: egg/modules/random/hatch.py:504-513. -/
def keys (ws : Word) {nw : Nat} (key : Fin nw → BitVec ws.bits) : Fin (nw + 1) → BitVec ws.bits :=
  fun k => if h : k.val < nw then key ⟨k, h⟩
    else (List.finRange nw).foldl (fun x i => x ^^^ key i) (parityC ws)

/-- A generated Threefry function: initialisation, egg/modules/random/hatch.py:504-513, then the
printed statements. -/
def threefry (ws : Word) {nw : Nat} (code : List (Ins nw)) (c key : Fin nw → BitVec ws.bits) :
    Fin nw → BitVec ws.bits :=
  code.foldl (step ws (keys ws key)) (fun i => c i + key i)

/-- Initial value of `ks[nwords]` in the reference: tests/modules/random/reference.hpp:530, 1265,
1512, 2246. -/
def refParityC : (ws : Word) → BitVec ws.bits
  | .w32 => 0x1BD11BDA#32
  | .w64 => 0xA9FC1A22#64 + ((0x1BD11BDA#64) <<< 32)

/-- `ks` of the reference: tests/modules/random/reference.hpp:527-535, 1262-1270. -/
def refKeys (ws : Word) {nw : Nat} (key : Fin nw → BitVec ws.bits) : Fin (nw + 1) → BitVec ws.bits :=
  fun k => if h : k.val < nw then key ⟨k, h⟩
    else (List.finRange nw).foldl (fun x i => x ^^^ key i) (refParityC ws)

/-- `branson_threefry*_R`: tests/modules/random/reference.hpp:524-1242, 1259-1473, 1505-2224,
2240-2454; `table` lists the guarded statements. -/
def refThreefry (ws : Word) {nw : Nat} (table : List (Nat × List (Ins nw))) (Nrounds : Nat)
    (c key : Fin nw → BitVec ws.bits) : Fin nw → BitVec ws.bits :=
  table.foldl (fun v b => if Nrounds > b.1 then b.2.foldl (step ws (refKeys ws key)) v else v)
    (fun i => c i + refKeys ws key ⟨i, by omega⟩)

/-- Body of `branson_threefry4x64_R`: the statements under `if (Nrounds > k)`, as pairs of `k` and the
statements, consecutive blocks with the same `k` put together; transcribed line by line with the values of the rotation enum.
tests/modules/random/reference.hpp:540-1242 (enum just above 524). -/
def ref4x64 : List (Nat × List (Ins 4)) :=
  [(0, [.add 0 1, .rot 1 14, .xor 1 0, .add 2 3, .rot 3 16, .xor 3 2]),
   (1, [.add 0 3, .rot 3 52, .xor 3 0, .add 2 1, .rot 1 57, .xor 1 2]),
   (2, [.add 0 1, .rot 1 23, .xor 1 0, .add 2 3, .rot 3 40, .xor 3 2]),
   (3, [.add 0 3, .rot 3 5, .xor 3 0, .add 2 1, .rot 1 37, .xor 1 2, .addKs 0 1, .addKs 1 2, .addKs 2 3, .addKs 3 4, .addC 3 1]),
   (4, [.add 0 1, .rot 1 25, .xor 1 0, .add 2 3, .rot 3 33, .xor 3 2]),
   (5, [.add 0 3, .rot 3 46, .xor 3 0, .add 2 1, .rot 1 12, .xor 1 2]),
   (6, [.add 0 1, .rot 1 58, .xor 1 0, .add 2 3, .rot 3 22, .xor 3 2]),
   (7, [.add 0 3, .rot 3 32, .xor 3 0, .add 2 1, .rot 1 32, .xor 1 2, .addKs 0 2, .addKs 1 3, .addKs 2 4, .addKs 3 0, .addC 3 2]),
   (8, [.add 0 1, .rot 1 14, .xor 1 0, .add 2 3, .rot 3 16, .xor 3 2]),
   (9, [.add 0 3, .rot 3 52, .xor 3 0, .add 2 1, .rot 1 57, .xor 1 2]),
   (10, [.add 0 1, .rot 1 23, .xor 1 0, .add 2 3, .rot 3 40, .xor 3 2]),
   (11, [.add 0 3, .rot 3 5, .xor 3 0, .add 2 1, .rot 1 37, .xor 1 2, .addKs 0 3, .addKs 1 4, .addKs 2 0, .addKs 3 1, .addC 3 3]),
   (12, [.add 0 1, .rot 1 25, .xor 1 0, .add 2 3, .rot 3 33, .xor 3 2]),
   (13, [.add 0 3, .rot 3 46, .xor 3 0, .add 2 1, .rot 1 12, .xor 1 2]),
   (14, [.add 0 1, .rot 1 58, .xor 1 0, .add 2 3, .rot 3 22, .xor 3 2]),
   (15, [.add 0 3, .rot 3 32, .xor 3 0, .add 2 1, .rot 1 32, .xor 1 2, .addKs 0 4, .addKs 1 0, .addKs 2 1, .addKs 3 2, .addC 3 4]),
   (16, [.add 0 1, .rot 1 14, .xor 1 0, .add 2 3, .rot 3 16, .xor 3 2]),
   (17, [.add 0 3, .rot 3 52, .xor 3 0, .add 2 1, .rot 1 57, .xor 1 2]),
   (18, [.add 0 1, .rot 1 23, .xor 1 0, .add 2 3, .rot 3 40, .xor 3 2]),
   (19, [.add 0 3, .rot 3 5, .xor 3 0, .add 2 1, .rot 1 37, .xor 1 2, .addKs 0 0, .addKs 1 1, .addKs 2 2, .addKs 3 3, .addC 3 5]),
   (20, [.add 0 1, .rot 1 25, .xor 1 0, .add 2 3, .rot 3 33, .xor 3 2]),
   (21, [.add 0 3, .rot 3 46, .xor 3 0, .add 2 1, .rot 1 12, .xor 1 2]),
   (22, [.add 0 1, .rot 1 58, .xor 1 0, .add 2 3, .rot 3 22, .xor 3 2]),
   (23, [.add 0 3, .rot 3 32, .xor 3 0, .add 2 1, .rot 1 32, .xor 1 2, .addKs 0 1, .addKs 1 2, .addKs 2 3, .addKs 3 4, .addC 3 6]),
   (24, [.add 0 1, .rot 1 14, .xor 1 0, .add 2 3, .rot 3 16, .xor 3 2]),
   (25, [.add 0 3, .rot 3 52, .xor 3 0, .add 2 1, .rot 1 57, .xor 1 2]),
   (26, [.add 0 1, .rot 1 23, .xor 1 0, .add 2 3, .rot 3 40, .xor 3 2]),
   (27, [.add 0 3, .rot 3 5, .xor 3 0, .add 2 1, .rot 1 37, .xor 1 2, .addKs 0 2, .addKs 1 3, .addKs 2 4, .addKs 3 0, .addC 3 7]),
   (28, [.add 0 1, .rot 1 25, .xor 1 0, .add 2 3, .rot 3 33, .xor 3 2]),
   (29, [.add 0 3, .rot 3 46, .xor 3 0, .add 2 1, .rot 1 12, .xor 1 2]),
   (30, [.add 0 1, .rot 1 58, .xor 1 0, .add 2 3, .rot 3 22, .xor 3 2]),
   (31, [.add 0 3, .rot 3 32, .xor 3 0, .add 2 1, .rot 1 32, .xor 1 2, .addKs 0 3, .addKs 1 4, .addKs 2 0, .addKs 3 1, .addC 3 8]),
   (32, [.add 0 1, .rot 1 14, .xor 1 0, .add 2 3, .rot 3 16, .xor 3 2]),
   (33, [.add 0 3, .rot 3 52, .xor 3 0, .add 2 1, .rot 1 57, .xor 1 2]),
   (34, [.add 0 1, .rot 1 23, .xor 1 0, .add 2 3, .rot 3 40, .xor 3 2]),
   (35, [.add 0 3, .rot 3 5, .xor 3 0, .add 2 1, .rot 1 37, .xor 1 2, .addKs 0 4, .addKs 1 0, .addKs 2 1, .addKs 3 2, .addC 3 9]),
   (36, [.add 0 1, .rot 1 25, .xor 1 0, .add 2 3, .rot 3 33, .xor 3 2]),
   (37, [.add 0 3, .rot 3 46, .xor 3 0, .add 2 1, .rot 1 12, .xor 1 2]),
   (38, [.add 0 1, .rot 1 58, .xor 1 0, .add 2 3, .rot 3 22, .xor 3 2]),
   (39, [.add 0 3, .rot 3 32, .xor 3 0, .add 2 1, .rot 1 32, .xor 1 2, .addKs 0 0, .addKs 1 1, .addKs 2 2, .addKs 3 3, .addC 3 10]),
   (40, [.add 0 1, .rot 1 14, .xor 1 0, .add 2 3, .rot 3 16, .xor 3 2]),
   (41, [.add 0 3, .rot 3 52, .xor 3 0, .add 2 1, .rot 1 57, .xor 1 2]),
   (42, [.add 0 1, .rot 1 23, .xor 1 0, .add 2 3, .rot 3 40, .xor 3 2]),
   (43, [.add 0 3, .rot 3 5, .xor 3 0, .add 2 1, .rot 1 37, .xor 1 2, .addKs 0 1, .addKs 1 2, .addKs 2 3, .addKs 3 4, .addC 3 11]),
   (44, [.add 0 1, .rot 1 25, .xor 1 0, .add 2 3, .rot 3 33, .xor 3 2]),
   (45, [.add 0 3, .rot 3 46, .xor 3 0, .add 2 1, .rot 1 12, .xor 1 2]),
   (46, [.add 0 1, .rot 1 58, .xor 1 0, .add 2 3, .rot 3 22, .xor 3 2]),
   (47, [.add 0 3, .rot 3 32, .xor 3 0, .add 2 1, .rot 1 32, .xor 1 2, .addKs 0 2, .addKs 1 3, .addKs 2 4, .addKs 3 0, .addC 3 12]),
   (48, [.add 0 1, .rot 1 14, .xor 1 0, .add 2 3, .rot 3 16, .xor 3 2]),
   (49, [.add 0 3, .rot 3 52, .xor 3 0, .add 2 1, .rot 1 57, .xor 1 2]),
   (50, [.add 0 1, .rot 1 23, .xor 1 0, .add 2 3, .rot 3 40, .xor 3 2]),
   (51, [.add 0 3, .rot 3 5, .xor 3 0, .add 2 1, .rot 1 37, .xor 1 2, .addKs 0 3, .addKs 1 4, .addKs 2 0, .addKs 3 1, .addC 3 13]),
   (52, [.add 0 1, .rot 1 25, .xor 1 0, .add 2 3, .rot 3 33, .xor 3 2]),
   (53, [.add 0 3, .rot 3 46, .xor 3 0, .add 2 1, .rot 1 12, .xor 1 2]),
   (54, [.add 0 1, .rot 1 58, .xor 1 0, .add 2 3, .rot 3 22, .xor 3 2]),
   (55, [.add 0 3, .rot 3 32, .xor 3 0, .add 2 1, .rot 1 32, .xor 1 2, .addKs 0 4, .addKs 1 0, .addKs 2 1, .addKs 3 2, .addC 3 14]),
   (56, [.add 0 1, .rot 1 14, .xor 1 0, .add 2 3, .rot 3 16, .xor 3 2]),
   (57, [.add 0 3, .rot 3 52, .xor 3 0, .add 2 1, .rot 1 57, .xor 1 2]),
   (58, [.add 0 1, .rot 1 23, .xor 1 0, .add 2 3, .rot 3 40, .xor 3 2]),
   (59, [.add 0 3, .rot 3 5, .xor 3 0, .add 2 1, .rot 1 37, .xor 1 2, .addKs 0 0, .addKs 1 1, .addKs 2 2, .addKs 3 3, .addC 3 15]),
   (60, [.add 0 1, .rot 1 25, .xor 1 0, .add 2 3, .rot 3 33, .xor 3 2]),
   (61, [.add 0 3, .rot 3 46, .xor 3 0, .add 2 1, .rot 1 12, .xor 1 2]),
   (62, [.add 0 1, .rot 1 58, .xor 1 0, .add 2 3, .rot 3 22, .xor 3 2]),
   (63, [.add 0 3, .rot 3 32, .xor 3 0, .add 2 1, .rot 1 32, .xor 1 2, .addKs 0 1, .addKs 1 2, .addKs 2 3, .addKs 3 4, .addC 3 16]),
   (64, [.add 0 1, .rot 1 14, .xor 1 0, .add 2 3, .rot 3 16, .xor 3 2]),
   (65, [.add 0 3, .rot 3 52, .xor 3 0, .add 2 1, .rot 1 57, .xor 1 2]),
   (66, [.add 0 1, .rot 1 23, .xor 1 0, .add 2 3, .rot 3 40, .xor 3 2]),
   (67, [.add 0 3, .rot 3 5, .xor 3 0, .add 2 1, .rot 1 37, .xor 1 2, .addKs 0 2, .addKs 1 3, .addKs 2 4, .addKs 3 0, .addC 3 17]),
   (68, [.add 0 1, .rot 1 25, .xor 1 0, .add 2 3, .rot 3 33, .xor 3 2]),
   (69, [.add 0 3, .rot 3 46, .xor 3 0, .add 2 1, .rot 1 12, .xor 1 2]),
   (70, [.add 0 1, .rot 1 58, .xor 1 0, .add 2 3, .rot 3 22, .xor 3 2]),
   (71, [.add 0 3, .rot 3 32, .xor 3 0, .add 2 1, .rot 1 32, .xor 1 2, .addKs 0 3, .addKs 1 4, .addKs 2 0, .addKs 3 1, .addC 3 18])]

/-- Body of `branson_threefry2x64_R`: the statements under `if (Nrounds > k)`, as pairs of `k` and the
statements, consecutive blocks with the same `k` put together; transcribed line by line with the values of the rotation enum.
tests/modules/random/reference.hpp:1273-1473 (enum just above 1259). -/
def ref2x64 : List (Nat × List (Ins 2)) :=
  [(0, [.add 0 1, .rot 1 16, .xor 1 0]),
   (1, [.add 0 1, .rot 1 42, .xor 1 0]),
   (2, [.add 0 1, .rot 1 12, .xor 1 0]),
   (3, [.add 0 1, .rot 1 31, .xor 1 0, .addKs 0 1, .addKs 1 2, .addC 1 1]),
   (4, [.add 0 1, .rot 1 16, .xor 1 0]),
   (5, [.add 0 1, .rot 1 32, .xor 1 0]),
   (6, [.add 0 1, .rot 1 24, .xor 1 0]),
   (7, [.add 0 1, .rot 1 21, .xor 1 0, .addKs 0 2, .addKs 1 0, .addC 1 2]),
   (8, [.add 0 1, .rot 1 16, .xor 1 0]),
   (9, [.add 0 1, .rot 1 42, .xor 1 0]),
   (10, [.add 0 1, .rot 1 12, .xor 1 0]),
   (11, [.add 0 1, .rot 1 31, .xor 1 0, .addKs 0 0, .addKs 1 1, .addC 1 3]),
   (12, [.add 0 1, .rot 1 16, .xor 1 0]),
   (13, [.add 0 1, .rot 1 32, .xor 1 0]),
   (14, [.add 0 1, .rot 1 24, .xor 1 0]),
   (15, [.add 0 1, .rot 1 21, .xor 1 0, .addKs 0 1, .addKs 1 2, .addC 1 4]),
   (16, [.add 0 1, .rot 1 16, .xor 1 0]),
   (17, [.add 0 1, .rot 1 42, .xor 1 0]),
   (18, [.add 0 1, .rot 1 12, .xor 1 0]),
   (19, [.add 0 1, .rot 1 31, .xor 1 0, .addKs 0 2, .addKs 1 0, .addC 1 5]),
   (20, [.add 0 1, .rot 1 16, .xor 1 0]),
   (21, [.add 0 1, .rot 1 32, .xor 1 0]),
   (22, [.add 0 1, .rot 1 24, .xor 1 0]),
   (23, [.add 0 1, .rot 1 21, .xor 1 0, .addKs 0 0, .addKs 1 1, .addC 1 6]),
   (24, [.add 0 1, .rot 1 16, .xor 1 0]),
   (25, [.add 0 1, .rot 1 42, .xor 1 0]),
   (26, [.add 0 1, .rot 1 12, .xor 1 0]),
   (27, [.add 0 1, .rot 1 31, .xor 1 0, .addKs 0 1, .addKs 1 2, .addC 1 7]),
   (28, [.add 0 1, .rot 1 16, .xor 1 0]),
   (29, [.add 0 1, .rot 1 32, .xor 1 0]),
   (30, [.add 0 1, .rot 1 24, .xor 1 0]),
   (31, [.add 0 1, .rot 1 21, .xor 1 0, .addKs 0 2, .addKs 1 0, .addC 1 8])]

/-- Body of `branson_threefry4x32_R`: the statements under `if (Nrounds > k)`, as pairs of `k` and the
statements, consecutive blocks with the same `k` put together; transcribed line by line with the values of the rotation enum.
tests/modules/random/reference.hpp:1522-2224 (enum just above 1505). -/
def ref4x32 : List (Nat × List (Ins 4)) :=
  [(0, [.add 0 1, .rot 1 10, .xor 1 0, .add 2 3, .rot 3 26, .xor 3 2]),
   (1, [.add 0 3, .rot 3 11, .xor 3 0, .add 2 1, .rot 1 21, .xor 1 2]),
   (2, [.add 0 1, .rot 1 13, .xor 1 0, .add 2 3, .rot 3 27, .xor 3 2]),
   (3, [.add 0 3, .rot 3 23, .xor 3 0, .add 2 1, .rot 1 5, .xor 1 2, .addKs 0 1, .addKs 1 2, .addKs 2 3, .addKs 3 4, .addC 3 1]),
   (4, [.add 0 1, .rot 1 6, .xor 1 0, .add 2 3, .rot 3 20, .xor 3 2]),
   (5, [.add 0 3, .rot 3 17, .xor 3 0, .add 2 1, .rot 1 11, .xor 1 2]),
   (6, [.add 0 1, .rot 1 25, .xor 1 0, .add 2 3, .rot 3 10, .xor 3 2]),
   (7, [.add 0 3, .rot 3 18, .xor 3 0, .add 2 1, .rot 1 20, .xor 1 2, .addKs 0 2, .addKs 1 3, .addKs 2 4, .addKs 3 0, .addC 3 2]),
   (8, [.add 0 1, .rot 1 10, .xor 1 0, .add 2 3, .rot 3 26, .xor 3 2]),
   (9, [.add 0 3, .rot 3 11, .xor 3 0, .add 2 1, .rot 1 21, .xor 1 2]),
   (10, [.add 0 1, .rot 1 13, .xor 1 0, .add 2 3, .rot 3 27, .xor 3 2]),
   (11, [.add 0 3, .rot 3 23, .xor 3 0, .add 2 1, .rot 1 5, .xor 1 2, .addKs 0 3, .addKs 1 4, .addKs 2 0, .addKs 3 1, .addC 3 3]),
   (12, [.add 0 1, .rot 1 6, .xor 1 0, .add 2 3, .rot 3 20, .xor 3 2]),
   (13, [.add 0 3, .rot 3 17, .xor 3 0, .add 2 1, .rot 1 11, .xor 1 2]),
   (14, [.add 0 1, .rot 1 25, .xor 1 0, .add 2 3, .rot 3 10, .xor 3 2]),
   (15, [.add 0 3, .rot 3 18, .xor 3 0, .add 2 1, .rot 1 20, .xor 1 2, .addKs 0 4, .addKs 1 0, .addKs 2 1, .addKs 3 2, .addC 3 4]),
   (16, [.add 0 1, .rot 1 10, .xor 1 0, .add 2 3, .rot 3 26, .xor 3 2]),
   (17, [.add 0 3, .rot 3 11, .xor 3 0, .add 2 1, .rot 1 21, .xor 1 2]),
   (18, [.add 0 1, .rot 1 13, .xor 1 0, .add 2 3, .rot 3 27, .xor 3 2]),
   (19, [.add 0 3, .rot 3 23, .xor 3 0, .add 2 1, .rot 1 5, .xor 1 2, .addKs 0 0, .addKs 1 1, .addKs 2 2, .addKs 3 3, .addC 3 5]),
   (20, [.add 0 1, .rot 1 6, .xor 1 0, .add 2 3, .rot 3 20, .xor 3 2]),
   (21, [.add 0 3, .rot 3 17, .xor 3 0, .add 2 1, .rot 1 11, .xor 1 2]),
   (22, [.add 0 1, .rot 1 25, .xor 1 0, .add 2 3, .rot 3 10, .xor 3 2]),
   (23, [.add 0 3, .rot 3 18, .xor 3 0, .add 2 1, .rot 1 20, .xor 1 2, .addKs 0 1, .addKs 1 2, .addKs 2 3, .addKs 3 4, .addC 3 6]),
   (24, [.add 0 1, .rot 1 10, .xor 1 0, .add 2 3, .rot 3 26, .xor 3 2]),
   (25, [.add 0 3, .rot 3 11, .xor 3 0, .add 2 1, .rot 1 21, .xor 1 2]),
   (26, [.add 0 1, .rot 1 13, .xor 1 0, .add 2 3, .rot 3 27, .xor 3 2]),
   (27, [.add 0 3, .rot 3 23, .xor 3 0, .add 2 1, .rot 1 5, .xor 1 2, .addKs 0 2, .addKs 1 3, .addKs 2 4, .addKs 3 0, .addC 3 7]),
   (28, [.add 0 1, .rot 1 6, .xor 1 0, .add 2 3, .rot 3 20, .xor 3 2]),
   (29, [.add 0 3, .rot 3 17, .xor 3 0, .add 2 1, .rot 1 11, .xor 1 2]),
   (30, [.add 0 1, .rot 1 25, .xor 1 0, .add 2 3, .rot 3 10, .xor 3 2]),
   (31, [.add 0 3, .rot 3 18, .xor 3 0, .add 2 1, .rot 1 20, .xor 1 2, .addKs 0 3, .addKs 1 4, .addKs 2 0, .addKs 3 1, .addC 3 8]),
   (32, [.add 0 1, .rot 1 10, .xor 1 0, .add 2 3, .rot 3 26, .xor 3 2]),
   (33, [.add 0 3, .rot 3 11, .xor 3 0, .add 2 1, .rot 1 21, .xor 1 2]),
   (34, [.add 0 1, .rot 1 13, .xor 1 0, .add 2 3, .rot 3 27, .xor 3 2]),
   (35, [.add 0 3, .rot 3 23, .xor 3 0, .add 2 1, .rot 1 5, .xor 1 2, .addKs 0 4, .addKs 1 0, .addKs 2 1, .addKs 3 2, .addC 3 9]),
   (36, [.add 0 1, .rot 1 6, .xor 1 0, .add 2 3, .rot 3 20, .xor 3 2]),
   (37, [.add 0 3, .rot 3 17, .xor 3 0, .add 2 1, .rot 1 11, .xor 1 2]),
   (38, [.add 0 1, .rot 1 25, .xor 1 0, .add 2 3, .rot 3 10, .xor 3 2]),
   (39, [.add 0 3, .rot 3 18, .xor 3 0, .add 2 1, .rot 1 20, .xor 1 2, .addKs 0 0, .addKs 1 1, .addKs 2 2, .addKs 3 3, .addC 3 10]),
   (40, [.add 0 1, .rot 1 10, .xor 1 0, .add 2 3, .rot 3 26, .xor 3 2]),
   (41, [.add 0 3, .rot 3 11, .xor 3 0, .add 2 1, .rot 1 21, .xor 1 2]),
   (42, [.add 0 1, .rot 1 13, .xor 1 0, .add 2 3, .rot 3 27, .xor 3 2]),
   (43, [.add 0 3, .rot 3 23, .xor 3 0, .add 2 1, .rot 1 5, .xor 1 2, .addKs 0 1, .addKs 1 2, .addKs 2 3, .addKs 3 4, .addC 3 11]),
   (44, [.add 0 1, .rot 1 6, .xor 1 0, .add 2 3, .rot 3 20, .xor 3 2]),
   (45, [.add 0 3, .rot 3 17, .xor 3 0, .add 2 1, .rot 1 11, .xor 1 2]),
   (46, [.add 0 1, .rot 1 25, .xor 1 0, .add 2 3, .rot 3 10, .xor 3 2]),
   (47, [.add 0 3, .rot 3 18, .xor 3 0, .add 2 1, .rot 1 20, .xor 1 2, .addKs 0 2, .addKs 1 3, .addKs 2 4, .addKs 3 0, .addC 3 12]),
   (48, [.add 0 1, .rot 1 10, .xor 1 0, .add 2 3, .rot 3 26, .xor 3 2]),
   (49, [.add 0 3, .rot 3 11, .xor 3 0, .add 2 1, .rot 1 21, .xor 1 2]),
   (50, [.add 0 1, .rot 1 13, .xor 1 0, .add 2 3, .rot 3 27, .xor 3 2]),
   (51, [.add 0 3, .rot 3 23, .xor 3 0, .add 2 1, .rot 1 5, .xor 1 2, .addKs 0 3, .addKs 1 4, .addKs 2 0, .addKs 3 1, .addC 3 13]),
   (52, [.add 0 1, .rot 1 6, .xor 1 0, .add 2 3, .rot 3 20, .xor 3 2]),
   (53, [.add 0 3, .rot 3 17, .xor 3 0, .add 2 1, .rot 1 11, .xor 1 2]),
   (54, [.add 0 1, .rot 1 25, .xor 1 0, .add 2 3, .rot 3 10, .xor 3 2]),
   (55, [.add 0 3, .rot 3 18, .xor 3 0, .add 2 1, .rot 1 20, .xor 1 2, .addKs 0 4, .addKs 1 0, .addKs 2 1, .addKs 3 2, .addC 3 14]),
   (56, [.add 0 1, .rot 1 10, .xor 1 0, .add 2 3, .rot 3 26, .xor 3 2]),
   (57, [.add 0 3, .rot 3 11, .xor 3 0, .add 2 1, .rot 1 21, .xor 1 2]),
   (58, [.add 0 1, .rot 1 13, .xor 1 0, .add 2 3, .rot 3 27, .xor 3 2]),
   (59, [.add 0 3, .rot 3 23, .xor 3 0, .add 2 1, .rot 1 5, .xor 1 2, .addKs 0 0, .addKs 1 1, .addKs 2 2, .addKs 3 3, .addC 3 15]),
   (60, [.add 0 1, .rot 1 6, .xor 1 0, .add 2 3, .rot 3 20, .xor 3 2]),
   (61, [.add 0 3, .rot 3 17, .xor 3 0, .add 2 1, .rot 1 11, .xor 1 2]),
   (62, [.add 0 1, .rot 1 25, .xor 1 0, .add 2 3, .rot 3 10, .xor 3 2]),
   (63, [.add 0 3, .rot 3 18, .xor 3 0, .add 2 1, .rot 1 20, .xor 1 2, .addKs 0 1, .addKs 1 2, .addKs 2 3, .addKs 3 4, .addC 3 16]),
   (64, [.add 0 1, .rot 1 10, .xor 1 0, .add 2 3, .rot 3 26, .xor 3 2]),
   (65, [.add 0 3, .rot 3 11, .xor 3 0, .add 2 1, .rot 1 21, .xor 1 2]),
   (66, [.add 0 1, .rot 1 13, .xor 1 0, .add 2 3, .rot 3 27, .xor 3 2]),
   (67, [.add 0 3, .rot 3 23, .xor 3 0, .add 2 1, .rot 1 5, .xor 1 2, .addKs 0 2, .addKs 1 3, .addKs 2 4, .addKs 3 0, .addC 3 17]),
   (68, [.add 0 1, .rot 1 6, .xor 1 0, .add 2 3, .rot 3 20, .xor 3 2]),
   (69, [.add 0 3, .rot 3 17, .xor 3 0, .add 2 1, .rot 1 11, .xor 1 2]),
   (70, [.add 0 1, .rot 1 25, .xor 1 0, .add 2 3, .rot 3 10, .xor 3 2]),
   (71, [.add 0 3, .rot 3 18, .xor 3 0, .add 2 1, .rot 1 20, .xor 1 2, .addKs 0 3, .addKs 1 4, .addKs 2 0, .addKs 3 1, .addC 3 18])]

/-- Body of `branson_threefry2x32_R`: the statements under `if (Nrounds > k)`, as pairs of `k` and the
statements, consecutive blocks with the same `k` put together; transcribed line by line with the values of the rotation enum.
tests/modules/random/reference.hpp:2254-2454 (enum just above 2240). -/
def ref2x32 : List (Nat × List (Ins 2)) :=
  [(0, [.add 0 1, .rot 1 13, .xor 1 0]),
   (1, [.add 0 1, .rot 1 15, .xor 1 0]),
   (2, [.add 0 1, .rot 1 26, .xor 1 0]),
   (3, [.add 0 1, .rot 1 6, .xor 1 0, .addKs 0 1, .addKs 1 2, .addC 1 1]),
   (4, [.add 0 1, .rot 1 17, .xor 1 0]),
   (5, [.add 0 1, .rot 1 29, .xor 1 0]),
   (6, [.add 0 1, .rot 1 16, .xor 1 0]),
   (7, [.add 0 1, .rot 1 24, .xor 1 0, .addKs 0 2, .addKs 1 0, .addC 1 2]),
   (8, [.add 0 1, .rot 1 13, .xor 1 0]),
   (9, [.add 0 1, .rot 1 15, .xor 1 0]),
   (10, [.add 0 1, .rot 1 26, .xor 1 0]),
   (11, [.add 0 1, .rot 1 6, .xor 1 0, .addKs 0 0, .addKs 1 1, .addC 1 3]),
   (12, [.add 0 1, .rot 1 17, .xor 1 0]),
   (13, [.add 0 1, .rot 1 29, .xor 1 0]),
   (14, [.add 0 1, .rot 1 16, .xor 1 0]),
   (15, [.add 0 1, .rot 1 24, .xor 1 0, .addKs 0 1, .addKs 1 2, .addC 1 4]),
   (16, [.add 0 1, .rot 1 13, .xor 1 0]),
   (17, [.add 0 1, .rot 1 15, .xor 1 0]),
   (18, [.add 0 1, .rot 1 26, .xor 1 0]),
   (19, [.add 0 1, .rot 1 6, .xor 1 0, .addKs 0 2, .addKs 1 0, .addC 1 5]),
   (20, [.add 0 1, .rot 1 17, .xor 1 0]),
   (21, [.add 0 1, .rot 1 29, .xor 1 0]),
   (22, [.add 0 1, .rot 1 16, .xor 1 0]),
   (23, [.add 0 1, .rot 1 24, .xor 1 0, .addKs 0 0, .addKs 1 1, .addC 1 6]),
   (24, [.add 0 1, .rot 1 13, .xor 1 0]),
   (25, [.add 0 1, .rot 1 15, .xor 1 0]),
   (26, [.add 0 1, .rot 1 26, .xor 1 0]),
   (27, [.add 0 1, .rot 1 6, .xor 1 0, .addKs 0 1, .addKs 1 2, .addC 1 7]),
   (28, [.add 0 1, .rot 1 17, .xor 1 0]),
   (29, [.add 0 1, .rot 1 29, .xor 1 0]),
   (30, [.add 0 1, .rot 1 16, .xor 1 0]),
   (31, [.add 0 1, .rot 1 24, .xor 1 0, .addKs 0 2, .addKs 1 0, .addC 1 8])]

/-- The reference for 2 words. tests/modules/random/reference.hpp:1259-1473, 2240-2454. -/
def ref2 : Word → List (Nat × List (Ins 2))
  | .w32 => ref2x32
  | .w64 => ref2x64
/-- The reference for 4 words. tests/modules/random/reference.hpp:524-1242, 1505-2224. -/
def ref4 : Word → List (Nat × List (Ins 4))
  | .w32 => ref4x32
  | .w64 => ref4x64

end Nsimd.Random
