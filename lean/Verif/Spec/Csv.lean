import Verif.Spec.Verilog

/-! # The file with the values of the wires -/

namespace TinyGarble.Spec

/-- A table: a line with the names, and for each of the first `r` cycles a line with its number and the values in that cycle. -/
def csvTable (names : List Name) (r : Nat) (v : Nat → Name → Bool) : List Char :=
  "cid, ".toList ++ names.flatMap (· ++ ['\t']) ++ ['\n'] ++
    (List.range r).flatMap fun t =>
      printNat t ++ ", ".toList ++ (names.map (v t)).flatMap (fun b => if b then "1, ".toList else "0, ".toList) ++ ['\n']

/-- `r` is the number of cycles before the first in which the circuit terminates, of `n` cycles. -/
structure CyclesBefore (s : CircuitStr) (T : Nat) (v : Nat → Name → Bool) (n r : Nat) : Prop where
  le : r ≤ n
  stop : r < n → NamedStopAt s T v r
  before : ∀ k < r, ¬ NamedStopAt s T v k

/-- The names of the cells can be told apart in a line: they are not empty and without blanks, tabs and ends of lines. -/
def CleanNames (s : CircuitStr) : Prop := ∀ n, CellOutput s n → n ≠ [] ∧ ∀ ch ∈ n, ch ≠ ' ' ∧ ch ≠ '\t' ∧ ch ≠ '\n'

end TinyGarble.Spec
