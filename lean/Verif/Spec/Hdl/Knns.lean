import Verif.Spec.Hdl.Lib

/-!
# Distances
-/

namespace TinyGarble.Spec.Hdl

/-- The number of positions in which two words differ. -/
def differing {W : Nat} (g e : BitVec W) : Nat := ones W fun i => g.getLsbD i != e.getLsbD i

/-- `|x - x'| + |y - y'|`, where `x` is the upper and `y` the lower half of a word. -/
def taxicab {W : Nat} (g e : BitVec (2 * W)) : Nat :=
  (((g.toNat / 2 ^ W : Nat) : Int) - (e.toNat / 2 ^ W : Nat)).natAbs + (((g.toNat % 2 ^ W : Nat) : Int) - (e.toNat % 2 ^ W : Nat)).natAbs

/-- Entry `i` of a word with entries of `M` bits. -/
def part {n : Nat} (M : Nat) (x : BitVec n) (i : Nat) : BitVec M := BitVec.ofNat M (x.toNat / 2 ^ (M * i))

end TinyGarble.Spec.Hdl
