/-! What the C programs for the ARM core are meant to compute (C57 to C61). -/

namespace TinyGarble.Spec

/-- Ascending as signed numbers. -/
def Ascending (a : List (BitVec 32)) : Prop := a.Pairwise fun x y => x.toInt ≤ y.toInt

/-- The data that two arrays share by exclusive or. -/
def unshare (g e : List (BitVec 32)) : List (BitVec 32) := g.zipWith (· ^^^ ·) e

/-- The number with the given digits in base 2^32, least significant first. -/
def number : List (BitVec 32) → Nat
  | [] => 0
  | w :: ws => w.toNat + 2 ^ 32 * number ws

/-- The number of ones. -/
def ones {n : Nat} (w : BitVec n) : Nat := ((List.range n).filter fun i => w.getLsbD i).length

/-- Hamming distance: the number of positions at which two arrays differ. -/
def distance (g e : List (BitVec 32)) : Nat := ((unshare g e).map ones).sum

/-- The number is representable by an `int`. -/
def FitsInt (x : Int) : Prop := -2 ^ 31 ≤ x ∧ x < 2 ^ 31

/-- Entry `(i, j)` of a matrix with `n` columns. -/
def entry (n : Nat) (a : List (BitVec 32)) (i j : Nat) : Int := (a.getD (i * n + j) 0).toInt

/-- `Σ_{k < m} f k`. -/
def total (f : Nat → Int) : Nat → Int
  | 0 => 0
  | m + 1 => total f m + f m

/-- The products and the partial sums for entry `(i, j)` of the product of two `n` by `n` matrices up to `m` are representable. -/
def RowFits (n : Nat) (g e : List (BitVec 32)) (i j m : Nat) : Prop :=
  ∀ k < m, FitsInt (entry n g i k * entry n e k j) ∧ FitsInt (total (fun k => entry n g i k * entry n e k j) (k + 1))

/-- There is a walk from `u` to `v` of total weight `d` along edges of a graph: an entry that is not 0 of the matrix of weights
is an edge. -/
inductive Walk (n : Nat) (weight : Nat → Nat → Int) : Nat → Nat → Int → Prop
  | nil {u : Nat} : u < n → Walk n weight u u 0
  | snoc {u v x : Nat} {d : Int} : Walk n weight u v d → x < n → weight v x ≠ 0 → Walk n weight u x (d + weight v x)

/-- `d` is the length of a shortest walk from `u` to `v`, or `cap` if none is shorter than `cap`. -/
def Shortest (n : Nat) (weight : Nat → Nat → Int) (cap : Int) (u v : Nat) (d : Int) : Prop :=
  (∀ d', Walk n weight u v d' → d ≤ d') ∧ (d = cap ∨ d < cap ∧ Walk n weight u v d)

end TinyGarble.Spec
