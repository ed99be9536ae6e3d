import Verif.Spec.Hdl.Knns

/-!
# Stable matchings

Suitors and reviewers have lists of preferences, the best first. A matching assigns suitors to some of the reviewers.
-/

namespace TinyGarble.Spec.Hdl

/-- `a` is in the list, and `b` comes later or not at all. -/
def Before (l : List Nat) (a b : Nat) : Prop := ∃ i : Nat, l[i]? = some a ∧ ∀ j ≤ i, l[j]? ≠ some b

/-- `s` and `r` would leave their partners, if they have some, for each other. -/
def Blocks (Q P : Nat → List Nat) (μ : Nat → Option Nat) (s r : Nat) : Prop :=
  r ∈ Q s ∧ (∀ r', μ r' = some s → Before (Q s) r r') ∧ (∀ s', μ r = some s' → Before (P r) s s')

/-- A stable matching of `S` suitors, whose lists are `Q`, with `R` reviewers, whose lists are `P`. -/
structure Stable (S R : Nat) (Q P : Nat → List Nat) (μ : Nat → Option Nat) : Prop where
  matched : ∀ r s, μ r = some s → r < R ∧ s < S ∧ r ∈ Q s
  one : ∀ r r' s, μ r = some s → μ r' = some s → r = r'
  stable : ∀ s < S, ∀ r < R, ¬ Blocks Q P μ s r

/-- Row `i` of a matrix of `w`-bit numbers with `K` in each row. -/
def row {n : Nat} (K w : Nat) (x : BitVec n) (i : Nat) : List Nat := (List.range K).map fun j => (part w x (K * i + j)).toNat

end TinyGarble.Spec.Hdl
