import Verif.Spec.Mips

/-!
# What the program for the MIPS processor computes
-/

namespace TinyGarble.Spec.Mips

/-- Word `k` of a memory of bytes. -/
def wordAt {A : Nat} (mem : BitVec A → BitVec 8) (k : Nat) : BitVec 32 := BitVec.ofNat 32 (fetch mem (BitVec.ofNat A (4 * k)) 4)

/-- The number of positions in which two lists of words differ: word 0 is their length `l`, the words from 2 on are the first list, and those
from `l + 2` on the second one. -/
def hammingDistance (w : Nat → BitVec 32) : Nat :=
  let l := (w 0).toNat
  ((List.range l).filter fun k => w (2 + k) ≠ w (2 + l + k)).length

/-- The words of the memory with the distance in word 1. -/
def hammingResult (w : Nat → BitVec 32) (k : Nat) : BitVec 32 := if k = 1 then BitVec.ofNat 32 (hammingDistance w) else w k

/-- The number of instructions after which the distance is stored: 7 outside of the loop, 8 for each word, and one for each word that is
counted. -/
def hammingTime (w : Nat → BitVec 32) : Nat := 7 + 8 * (w 0).toNat + hammingDistance w

end TinyGarble.Spec.Mips
