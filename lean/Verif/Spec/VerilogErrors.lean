import Verif.Spec.Verilog

/-!
# Errors in Verilog netlists
-/

namespace TinyGarble.Spec

/-- All inputs of the cell are connected and an output. -/
def Cell.Connected (c : Cell) : Prop :=
  (∀ p ∈ c.kind.inputs, c.net p ≠ none) ∧ (c.kind = .dff → c.net "I" ≠ none) ∧ ∃ p ∈ c.kind.outputs, c.net p ≠ none

/-- The form of a statement: whatever ports are declared and connected. -/
def Item.Formed : Item → Prop
  | .input m names | .output m names => (∀ k ∈ m, k + 1 < 2 ^ 31) ∧ ∀ n ∈ names, NetWord n
  | .assign a b => NetWord a ∧ NetWord b
  | .cell c => ¬ Reserved c.inst ∧ (∀ k ∈ c.conns, k.Proper) ∧ (c.conns.map (·.port)).Nodup
  | .other ws => ∀ w ∈ ws, ¬ Reserved w

/-- The errors: an unknown port is declared, a terminate signal with a range, or a cell is not connected. -/
def Item.Wrong : Item → Prop
  | .input _ names => ∃ n ∈ names, n ∉ ["clk".toList, "rst".toList] ∧ ∀ p ∈ inputNames, n ≠ p.toList
  | .output m names => ∃ n ∈ names, n ≠ "o".toList ∧ (n = "terminate".toList → m ≠ none)
  | .cell c => ¬ c.Connected
  | .assign _ _ => False
  | .other _ => False

/-- The text begins with these statements, the last of which is `bad`. -/
def ReachesIn (items : List Item) (bad : Item) (file : List Char) : Prop :=
  ∃ rest, lexemes file = itemsWords items ++ (bad.words ++ ";".toList :: rest)

end TinyGarble.Spec
