/-!
# 128-bit blocks and gate types

Models `crypto/block.h`, the constants of `util/common.h`, and
`Type2V` / `GateOperator` of `util/util.cpp`.
-/

namespace TinyGarble

/-- `typedef __m128i block;` (crypto/block.h:67). Bit 0 is the least significant bit of lane 0. -/
abbrev Block := BitVec 128

/-- `get_LSB(x)` (crypto/block.h:68): the low bit of the first 16-bit word. -/
def getLSB (x : Block) : Bool := x.getLsbD 0

/-- `XorBlock(x,y)` = `_mm_xor_si128` (crypto/block.h:69). -/
def xorBlock (x y : Block) : Block := x ^^^ y

/-- `ZeroBlock()` (crypto/block.h:70). -/
def zeroBlock : Block := 0#128

/-- `CmpBlock(X,Y)` (crypto/block.h:71): `_mm_cmpeq_epi64` compares the two 64-bit halves, and
`_mm_extract_epi16(..,0)==0xffff` inspects only the low half. -/
def cmpBlock (x y : Block) : Bool := x.extractLsb' 0 64 == y.extractLsb' 0 64

/-- `MakeBlock(X,Y)` = `_mm_set_epi64(X, Y)` (crypto/block.h:72): X is the high, Y the low half.
The arguments are `uint64_t`, hence the reduction modulo 2^64. -/
def makeBlock (x y : Nat) : Block := BitVec.ofNat 64 x ++ BitVec.ofNat 64 y

/-! Gate types, util/common.h:42-53. -/
abbrev ANDGATE : Int := 8
abbrev ANDNGATE : Int := 4
abbrev NANDGATE : Int := 7
abbrev NANDNGATE : Int := 11
abbrev ORGATE : Int := 14
abbrev ORNGATE : Int := 13
abbrev NORGATE : Int := 1
abbrev NORNGATE : Int := 2
abbrev XORGATE : Int := 6
abbrev XNORGATE : Int := 9
abbrev NOTGATE : Int := 12
abbrev DFFGATE : Int := -1

/-! Constant wire indices, util/common.h:39-40. -/
abbrev CONST_ZERO : Int := -2
abbrev CONST_ONE : Int := -3

/-- `Type2V` (util/util.cpp:103-122): the three bits (v0, v1, v2) of the returned word, where
`v & 1`, `v & 2`, `v & 4` are the only uses. -/
def type2V (t : Int) : Bool × Bool × Bool :=
  if t = ANDGATE then (false, false, false)
  else if t = ANDNGATE then (false, true, false)
  else if t = NANDGATE then (false, false, true)
  else if t = NANDNGATE then (false, true, true)
  else if t = ORGATE then (true, true, true)
  else if t = ORNGATE then (true, false, true)
  else if t = NORGATE then (true, true, false)
  else if t = NORNGATE then (true, false, false)
  else (false, false, false)

/-- `GateOperator` (util/util.cpp:124-150); an unknown type logs an error and returns false. -/
def gateOperator (t : Int) (a b : Bool) : Bool :=
  if t = ANDGATE then a && b
  else if t = ANDNGATE then a && !b
  else if t = NANDGATE then !(a && b)
  else if t = NANDNGATE then !(a && !b)
  else if t = ORGATE then a || b
  else if t = ORNGATE then a || !b
  else if t = NORGATE then !(a || b)
  else if t = NORNGATE then !(a || !b)
  else if t = XORGATE then a != b
  else if t = XNORGATE then !(a != b)
  else if t = NOTGATE then !a
  else false

end TinyGarble
