import Verif.Spec.Named

/-!
# Bristol circuits

The old Bristol format: numbers of gates and wires, sizes of the two parties' inputs and of the output, then one gate per line,
in an order in which they can be computed. The first wires are the inputs, the last ones the outputs.
-/

namespace TinyGarble.Spec

inductive BGate where
  | and (a b o : Nat)
  | xor (a b o : Nat)
  | inv (a o : Nat)
deriving DecidableEq, Repr

/-- The wire that a gate drives. -/
def BGate.out : BGate → Nat
  | .and _ _ o => o
  | .xor _ _ o => o
  | .inv _ o => o

/-- The wires that a gate reads. -/
def BGate.ins : BGate → List Nat
  | .and a b _ => [a, b]
  | .xor a b _ => [a, b]
  | .inv a _ => [a]

/-- The function of a gate. -/
def BGate.value (v : Nat → Bool) : BGate → Bool
  | .and a b _ => v a && v b
  | .xor a b _ => v a != v b
  | .inv a _ => !(v a)

structure Bristol where
  wires : Nat
  g : Nat
  e : Nat
  out : Nat
  gates : List BGate

/-- The values of all wires after the gates are computed one after the other. -/
def Bristol.eval (B : Bristol) (inputs : Nat → Bool) : Nat → Bool :=
  B.gates.foldl (fun v gate w => if w = gate.out then gate.value v else v w) inputs

/-- The first wires are the bits of the garbler's input, the next ones those of the evaluator's. -/
def Bristol.inputs (B : Bristol) (x y : Nat) (w : Nat) : Bool := if w < B.g then x.testBit w else y.testBit (w - B.g)

/-- Proper circuits: inputs and outputs do not overlap; each gate drives a wire of its own that is not an input, and reads
inputs or what gates before it drive; all outputs are driven. -/
structure Bristol.Proper (B : Bristol) : Prop where
  sizes : B.g + B.e + B.out ≤ B.wires
  small : B.wires < 2 ^ 63
  some : 0 < B.gates.length
  few : B.g + B.e + B.gates.length < 2 ^ 31
  inputs : 0 < B.g + B.e
  drives : ∀ gate ∈ B.gates, B.g + B.e ≤ gate.out ∧ gate.out < B.wires
  once : (B.gates.map (·.out)).Nodup
  reads : ∀ i (h : i < B.gates.length), ∀ a ∈ B.gates[i].ins,
    a < B.g + B.e ∨ ∃ j, ∃ hj : j < i, (B.gates[j]'(Nat.lt_trans hj h)).out = a
  driven : ∀ w, B.wires - B.out ≤ w → w < B.wires → ∃ gate ∈ B.gates, gate.out = w

/-- The words of a text: the longest pieces without white space. `w` is the word read so far. -/
def wordsFrom : Name → List Char → List Name
  | w, [] => if w = [] then [] else [w]
  | w, ch :: l => if isWhite ch then (if w = [] then [] else [w]) ++ wordsFrom [] l else wordsFrom (w ++ [ch]) l

/-- The words of a text. -/
def words (l : List Char) : List Name := wordsFrom [] l

/-- The words of a gate. -/
def BGate.text : BGate → List Name
  | .and a b o => [['2'], ['1'], printNat a, printNat b, printNat o, "AND".toList]
  | .xor a b o => [['2'], ['1'], printNat a, printNat b, printNat o, "XOR".toList]
  | .inv a o => [['1'], ['1'], printNat a, printNat o, "INV".toList]

/-- The words of the file of a circuit; layout is free. -/
def Bristol.text (B : Bristol) : List Name :=
  [printNat B.gates.length, printNat B.wires, printNat B.g, printNat B.e, printNat B.out] ++ B.gates.flatMap BGate.text

end TinyGarble.Spec
