import Verif.Model.MultiCore
import Verif.Spec.Netlist

/-! # Distributions of the gates over several cores -/

namespace TinyGarble.Spec

/-- The gates of a netlist, numbered in the order of the netlist. -/
def gateNumbers (c : ReadCircuit) : List Int := (List.range c.gates.length).map fun i : Nat => (i : Int)

/-- `order` lists every gate exactly once, after the gates it reads. -/
structure GateOrder (c : ReadCircuit) (order : List Int) : Prop where
  all : order.Perm (gateNumbers c)
  after : ∀ (i : Nat) (a b : Nat) (g : ReadGate), order[i]? = some (a : Int) → c.gates[a]? = some g →
    (g.input0 = ((c.iid + b : Nat) : Int) ∨ g.input1 = ((c.iid + b : Nat) : Int)) → ∃ j < i, order[j]? = some (b : Int)

/-- The rows `core` of `n` cores begin with the work `work m` of each core `m`: every gate is the work of exactly one core,
once; no core has more than one gate more than another; and there is an order of all gates, each after the gates it reads,
in which the work of every core is in the order of its row. So cores that do their work in order, and wait for the operands
that other cores compute, never wait for each other forever. -/
structure Distribution (c : ReadCircuit) (n : Nat) (core : List (List Int)) (work : Nat → List Int) : Prop where
  rows : core.length = n ∧ ∀ m < n, ∃ row, core[m]? = some row ∧ work m <+: row
  once : ((List.range n).flatMap work).Perm (gateNumbers c)
  even : ∀ a < n, ∀ b < n, (work a).length ≤ (work b).length + 1
  order : ∃ order, GateOrder c order ∧ ∀ m < n, (work m).Sublist order

/-- The wires that `c` itself reads from outside of its gates: the data of flip-flops, and the outputs. -/
def readOutside (c : ReadCircuit) : List Int := c.dffs.map (·.input0) ++ c.outputs

/-- Gate `i` matters: its output, or a wire that depends on it, is the data of a flip-flop or an output. -/
def Needed (c : ReadCircuit) (i : Nat) : Prop :=
  ∃ w : Nat, (w : Int) ∈ readOutside c ∧ Relation.ReflTransGen (Feeds c) (c.iid + i) w

/-- The state after a number of rounds of the loop of `Schedule`. -/
def rounds (c : ReadCircuit) (index : List Int) : Nat → CoreState → Option CoreState
  | 0, s => some s
  | n + 1, s => do
    let s' ← rounds c index n s
    schedulePass c index s'.p1 s'

end TinyGarble.Spec
