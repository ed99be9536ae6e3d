import Verif.Model.Sort
import Verif.Spec.Semantics
import Mathlib.Logic.Relation

/-!
# Netlists

A netlist numbers its wires: public initial values, garbler's initial values, evaluator's initial values, public inputs,
garbler's inputs, evaluator's inputs, flip-flops, gates. The gates are in any order.
-/

namespace TinyGarble.Spec

/-- Wire `b` is an operand of the gate whose output is wire `a`. -/
def Feeds (c : ReadCircuit) (b a : Nat) : Prop :=
  ∃ i g, c.gates[i]? = some g ∧ a = c.iid + i ∧ (g.input0 = (b : Int) ∨ g.input1 = (b : Int))

/-- No gate depends on itself, directly or indirectly. -/
def Acyclic (c : ReadCircuit) : Prop := ∀ a, ¬ Relation.TransGen (Feeds c) a a

/-- Number of wires. -/
def wireCount (c : ReadCircuit) : Nat := c.iid + c.gates.length

/-- The operands of gates are constants (negative) or wires of the netlist. -/
def OperandsExist (c : ReadCircuit) : Prop :=
  ∀ g ∈ c.gates, g.input0 < (wireCount c : Int) ∧ g.input1 < (wireCount c : Int)

/-- `order` lists every wire exactly once, first those that are not gates, and every gate after its operands. -/
structure Ordered (c : ReadCircuit) (order : List Int) : Prop where
  first : ∀ i < c.iid, order[i]? = some (i : Int)
  all : order.Perm ((List.range (wireCount c)).map fun i : Nat => (i : Int))
  after : ∀ (k a b : Nat), order[k]? = some (a : Int) → Feeds c b a → ∃ m < k, order[m]? = some (b : Int)

/-- The netlist as a circuit: gate `i` is the `i`-th gate of the netlist. The equations `Solves` of this circuit do not
depend on the order of the gates. -/
def asCircuit (c : ReadCircuit) : Circuit where
  pInit := c.pInit
  gInit := c.gInit
  eInit := c.eInit
  pInput := c.pInput
  gInput := c.gInput
  eInput := c.eInput
  dffSize := c.dffs.length
  outputSize := c.outputs.length
  terminateId := c.terminateId.toNat
  gateSize := c.gates.length
  gate := fun i => match c.gates[i]? with
    | some g => ⟨g.input0, g.input1, g.type⟩
    | none => ⟨0, 0, 0⟩
  outputs := fun i => c.outputs[i]?.getD 0
  D := fun i => match c.dffs[i]? with
    | some g => g.input0
    | none => 0
  I := fun i => match c.dffs[i]? with
    | some g => g.input1
    | none => 0

/-- The same with the gates in the order of the schedule. -/
def scheduled (c : ReadCircuit) : Circuit :=
  { asCircuit c with gate := fun k => match c.schedule[k]? with
    | some i => (asCircuit c).gate i.toNat
    | none => ⟨0, 0, 0⟩ }

/-- Netlists as the synthesis library produces them: the gates form no cycle; gates and flip-flops read constants (negative
numbers), inputs, flip-flops and gates, but not wires of initial values; outputs and the terminate signal are inputs,
flip-flops or gates; there is at least one wire that is not a gate. -/
structure NetlistWF (c : ReadCircuit) : Prop where
  some : 0 < c.iid
  acyclic : Acyclic c
  gates : ∀ g ∈ c.gates, Readable (asCircuit c) (wireCount c) g.input0 ∧ Readable (asCircuit c) (wireCount c) g.input1
    ∧ g.type ∈ gateTypes
  dffs : ∀ g ∈ c.dffs, Readable (asCircuit c) (wireCount c) g.input0 ∧ g.input1 < (wireCount c : Int)
    ∧ 0 ≤ g.output ∧ g.output < (wireCount c : Int)
  outputs : ∀ w ∈ c.outputs, ((asCircuit c).initSize : Int) ≤ w ∧ w < (wireCount c : Int)
  term : c.terminateId = 0 ∨ (((asCircuit c).initSize : Int) ≤ c.terminateId ∧ c.terminateId < (wireCount c : Int))
  size : c.gates.length < 2 ^ 32 - 1

/-- Two circuits with the same sizes and the same contents of all arrays. -/
structure SameCircuit (a b : Circuit) : Prop where
  pInit : a.pInit = b.pInit
  gInit : a.gInit = b.gInit
  eInit : a.eInit = b.eInit
  pInput : a.pInput = b.pInput
  gInput : a.gInput = b.gInput
  eInput : a.eInput = b.eInput
  dffSize : a.dffSize = b.dffSize
  outputSize : a.outputSize = b.outputSize
  terminateId : a.terminateId = b.terminateId
  gateSize : a.gateSize = b.gateSize
  gate : ∀ i < b.gateSize, a.gate i = b.gate i
  outputs : ∀ i < b.outputSize, a.outputs i = b.outputs i
  D : ∀ i < b.dffSize, a.D i = b.D i
  I : ∀ i < b.dffSize, a.I i = b.I i

/-- The numbers of a circuit fit the types of the code (`uint64_t` sizes, `int64_t` wires, `short` gate types); the schedule
names each position's gate, with numbers that fit `int`; the outputs are wires. -/
structure Writable (c : ReadCircuit) : Prop where
  pInit : c.pInit < 2 ^ 64
  gInit : c.gInit < 2 ^ 64
  eInit : c.eInit < 2 ^ 64
  pInput : c.pInput < 2 ^ 64
  gInput : c.gInput < 2 ^ 64
  eInput : c.eInput < 2 ^ 64
  dffSize : c.dffs.length < 2 ^ 64
  outputSize : c.outputs.length < 2 ^ 64
  gateSize : c.gates.length ≤ 2 ^ 31
  terminateId : 0 ≤ c.terminateId ∧ c.terminateId < 2 ^ 64
  gates : ∀ g ∈ c.gates, -2 ^ 63 ≤ g.input0 ∧ g.input0 < 2 ^ 63 ∧ -2 ^ 63 ≤ g.input1 ∧ g.input1 < 2 ^ 63
    ∧ -2 ^ 15 ≤ g.type ∧ g.type < 2 ^ 15
  dffs : ∀ g ∈ c.dffs, -2 ^ 63 ≤ g.input0 ∧ g.input0 < 2 ^ 63 ∧ -2 ^ 63 ≤ g.input1 ∧ g.input1 < 2 ^ 63
  outputs : ∀ w ∈ c.outputs, 0 ≤ w ∧ w < 2 ^ 63
  length : c.schedule.length = c.gates.length
  schedule : ∀ s ∈ c.schedule, 0 ≤ s ∧ s < (c.gates.length : Int)

/-- The numbers of a netlist fit the types of the code: less than 2^31 wires, `int64_t` references. -/
structure Fits (c : ReadCircuit) : Prop where
  wires : wireCount c < 2 ^ 31
  outputs : c.outputs.length < 2 ^ 64
  gates : ∀ g ∈ c.gates, -2 ^ 63 ≤ g.input0 ∧ -2 ^ 63 ≤ g.input1
  dffs : ∀ g ∈ c.dffs, -2 ^ 63 ≤ g.input0 ∧ -2 ^ 63 ≤ g.input1

end TinyGarble.Spec
