import Verif.Model.Block

/-!
# The label generator (util/util.cpp)

128-bit registers as four 32-bit lanes, lane 0 the lowest. The SSE instructions used by `RandomBlock`
are modelled after Intel's definitions. The constant arrays are read with an instruction that requires
16-byte alignment, which the language does not guarantee for them; that is not modelled.
-/

namespace TinyGarble

abbrev Lane := BitVec 32

/-- Lane `i` of a register. -/
def lane (b : Block) (i : Nat) : Lane := b.extractLsb' (32 * i) 32

/-- `_mm_set_epi32(l3, l2, l1, l0)`. -/
def lanes (l0 l1 l2 l3 : Lane) : Block := BitVec.ofNat 128
  (l0.toNat + 2 ^ 32 * l1.toNat + 2 ^ 64 * l2.toNat + 2 ^ 96 * l3.toNat)

/-- `_mm_shuffle_epi32(b, _MM_SHUFFLE(2, 3, 0, 1))`: swap lanes 0 and 1, and lanes 2 and 3. -/
def swapLanes (b : Block) : Block := lanes (lane b 1) (lane b 0) (lane b 3) (lane b 2)

/-- `_mm_mul_epu32`: the 64-bit products of lanes 0 and of lanes 2. -/
def mulEpu32 (a b : Block) : Block :=
  let p := (lane a 0).toNat * (lane b 0).toNat
  let q := (lane a 2).toNat * (lane b 2).toNat
  lanes (BitVec.ofNat 32 p) (BitVec.ofNat 32 (p / 2 ^ 32)) (BitVec.ofNat 32 q) (BitVec.ofNat 32 (q / 2 ^ 32))

/-- `_mm_add_epi32`: lane by lane. -/
def addEpi32 (a b : Block) : Block :=
  lanes (lane a 0 + lane b 0) (lane a 1 + lane b 1) (lane a 2 + lane b 2) (lane a 3 + lane b 3)

/-- `mult` (util.cpp:69). -/
def rngMult : Block := lanes 214013#32 17405#32 214013#32 69069#32

/-- `gadd` (util.cpp:70). -/
def rngAdd : Block := lanes 2531011#32 10395331#32 13737667#32 1#32

/-- `mask` (util.cpp:71). -/
def rngMask : Block := lanes 0xFFFFFFFF#32 0#32 0xFFFFFFFF#32 0#32

/-- `RandomBlock` (util.cpp:60-89): the new `cur_seed`, which is also the value returned. -/
def randomBlock (curSeed : Block) : Block :=
  let split := swapLanes curSeed
  let cur := mulEpu32 curSeed rngMult
  let mult := swapLanes rngMult
  let split := mulEpu32 split mult
  let cur := cur &&& rngMask
  let split := split &&& rngMask
  let split := swapLanes split
  let cur := cur ||| split
  addEpi32 cur rngAdd

/-- `SrandSSE` (util.cpp:56-58). -/
def srandSSE (seed : Lane) : Block := lanes (seed + 1#32) seed (seed + 1#32) seed

/-- The `n`-th value returned by `RandomBlock` from `cur_seed = s` on, counting from 0. -/
def randomBlocks (s : Block) : Nat → Block
  | 0 => randomBlock s
  | n + 1 => randomBlock (randomBlocks s n)

end TinyGarble
