import Verif.Spec.A23

/-! # Merging from both ends -/

namespace TinyGarble.Spec

/-- The first `n` entries of a list in the order in which they are taken from its two ends: the smaller one of the first and the last entry is next, the last
one if they are equal. -/
def takeEnds : Nat → List (BitVec 32) → List (BitVec 32)
  | 0, _ => []
  | n + 1, l =>
    if (l.headD 0).toInt < (l.getLastD 0).toInt then l.headD 0 :: takeEnds n l.tail
    else l.getLastD 0 :: takeEnds n l.dropLast

/-- Merging of two lists, by putting the second one after the first one in opposite order and taking from the ends. -/
def mergeHalves (u v : List (BitVec 32)) : List (BitVec 32) := takeEnds (u.length + v.length) (u ++ v.reverse)

end TinyGarble.Spec
