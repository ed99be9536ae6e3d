/-!
# Counting and sequences of digits, for the circuits
-/

namespace TinyGarble.Spec.Hdl

/-- The number of ones among the bits `f 0 … f (n - 1)`. -/
def ones (n : Nat) (f : Nat → Bool) : Nat := ((List.range n).filter f).length

/-- The number whose digits to the base `2 ^ m` are given, lowest first. -/
def digits {m : Nat} : List (BitVec m) → Nat
  | [] => 0
  | x :: l => x.toNat + 2 ^ m * digits l

/-- The number of positions in which two sequences of words differ. -/
def distance {m : Nat} : List (BitVec m) → List (BitVec m) → Nat
  | x :: g, y :: e => ones m (fun i => x.getLsbD i != y.getLsbD i) + distance g e
  | _, _ => 0

end TinyGarble.Spec.Hdl
