import Verif.Model.Block

/-!
# Doubling and shifting blocks

Models `Double_Block`, `SlowDouble_Block`, `LeftShift`, `RightShift` (crypto/block.h:76-108). No other part of the program
calls them. The instructions work on the four words of 32 bits, or the two halves of 64 bits, of a block.
-/

namespace TinyGarble

/-- Word `i` of a block; word 0 is the least significant one. -/
def blockWord (b : Block) (i : Nat) : BitVec 32 := b.extractLsb' (32 * i) 32

/-- `_mm_set_epi32`: the block of four words. -/
def setEpi32 (w3 w2 w1 w0 : BitVec 32) : Block := w3 ++ w2 ++ w1 ++ w0

/-- `_mm_srai_epi32(b, 31)`: all bits of each word become its topmost bit. -/
def sraiEpi32 (b : Block) (n : Nat) : Block :=
  setEpi32 ((blockWord b 3).sshiftRight n) ((blockWord b 2).sshiftRight n) ((blockWord b 1).sshiftRight n) ((blockWord b 0).sshiftRight n)

/-- `_mm_slli_epi32`. -/
def slliEpi32 (b : Block) (n : Nat) : Block :=
  setEpi32 (blockWord b 3 <<< n) (blockWord b 2 <<< n) (blockWord b 1 <<< n) (blockWord b 0 <<< n)

/-- `_mm_slli_epi64`. -/
def slliEpi64 (b : Block) (n : Nat) : Block :=
  (b.extractLsb' 64 64 <<< n) ++ (b.extractLsb' 0 64 <<< n)

/-- `_mm_shuffle_epi32(b, _MM_SHUFFLE(2, 1, 0, 3))`: every word moves up by one place, the topmost one to the bottom. -/
def shuffle2103 (b : Block) : Block := setEpi32 (blockWord b 2) (blockWord b 1) (blockWord b 0) (blockWord b 3)

/-- `Double_Block` (block.h:76-83). -/
def doubleBlock (bl : Block) : Block :=
  let mask := setEpi32 135 1 1 1
  let tmp := sraiEpi32 bl 31
  let tmp := tmp &&& mask
  let tmp := shuffle2103 tmp
  let bl := slliEpi32 bl 1
  bl ^^^ tmp

/-- The body of the loop of `SlowDouble_Block` (block.h:88-91). -/
def slowDoubleStep (s : Block × Block) : Block × Block :=
  let mask := setEpi32 135 1 1 1
  let tmp := s.2 &&& mask
  let tmp := shuffle2103 tmp
  (slliEpi32 s.1 1, tmp)

/-- `SlowDouble_Block` (block.h:84-94): one round of the loop. -/
def slowDoubleBlock (bl : Block) : Block :=
  let s := (List.range 1).foldl (fun s _ => slowDoubleStep s) (bl, sraiEpi32 bl 31)
  s.1 ^^^ s.2

/-- `LeftShift` (block.h:96-101). -/
def leftShiftBlock (bl : Block) : Block :=
  let mask := setEpi32 0 0 (1 <<< 31) 0
  let tmp := bl &&& mask
  slliEpi64 bl 1 ^^^ tmp

/-- `RightShift` (block.h:103-108). -/
def rightShiftBlock (bl : Block) : Block :=
  let mask := setEpi32 0 1 0 0
  let tmp := bl &&& mask
  slliEpi64 bl 1 ^^^ tmp

end TinyGarble
