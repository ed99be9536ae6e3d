import Verif.Model.Netlist
import Verif.Spec.Netlist

/-!
# Meaning of a netlist with named nets

A valuation gives each name a Boolean in each clock cycle. Nothing here refers to wire numbers.
-/

namespace TinyGarble.Spec

/-- The ports that are arrays of bits, with their sizes. -/
def ports (s : CircuitStr) : List (Name × Nat) :=
  [(pInitName, s.pInit), (gInitName, s.gInit), (eInitName, s.eInit), (pInputName, s.pInput), (gInputName, s.gInput),
    (eInputName, s.eInput), (outName, s.outputSize)]

/-- Two names of one net: an assignment, or a port of one bit, which is called `p` or `p[0]`. -/
def Joined (s : CircuitStr) (a b : Name) : Prop :=
  (a, b) ∈ s.assigns ∨ ∃ p ∈ ports s, p.2 = 1 ∧ a = p.1 ∧ b = indexName p.1 0

/-- Names of the same net. -/
def SameNet (s : CircuitStr) : Name → Name → Prop := Relation.EqvGen (Joined s)

/-- A bit of an initial value. -/
def InitBit (s : CircuitStr) (n : Name) : Prop :=
  (∃ k < s.pInit, n = indexName pInitName k) ∨ (∃ k < s.gInit, n = indexName gInitName k)
  ∨ ∃ k < s.eInit, n = indexName eInitName k

/-- A bit of an input. -/
def InputBit (s : CircuitStr) (n : Name) : Prop :=
  (∃ k < s.pInput, n = indexName pInputName k) ∨ (∃ k < s.gInput, n = indexName gInputName k)
  ∨ ∃ k < s.eInput, n = indexName eInputName k

/-- An output of a flip-flop or a gate. -/
def CellOutput (s : CircuitStr) (n : Name) : Prop := (∃ g ∈ s.dffs, n = g.output) ∨ ∃ g ∈ s.gates, n = g.output

/-- Bit `k` of the output. -/
def outputBit (k : Nat) : Name := indexName outName k

/-- The equations of a named netlist. A NOT gate has no second operand (the empty name). -/
structure NamedSolves (s : CircuitStr) (x : Inputs) (v : Nat → Name → Bool) : Prop where
  joined : ∀ t a b, Joined s a b → v t a = v t b
  zero : ∀ t, v t "1'b0".toList = false
  one : ∀ t, v t "1'b1".toList = true
  missing : ∀ t, v t [] = false
  pInit : ∀ t, ∀ k < s.pInit, v t (indexName pInitName k) = x.pInit.testBit k
  gInit : ∀ t, ∀ k < s.gInit, v t (indexName gInitName k) = x.gInit.testBit k
  eInit : ∀ t, ∀ k < s.eInit, v t (indexName eInitName k) = x.eInit.testBit k
  pInput : ∀ t, ∀ k < s.pInput, v t (indexName pInputName k) = x.pInput.testBit (t * s.pInput + k)
  gInput : ∀ t, ∀ k < s.gInput, v t (indexName gInputName k) = x.gInput.testBit (t * s.gInput + k)
  eInput : ∀ t, ∀ k < s.eInput, v t (indexName eInputName k) = x.eInput.testBit (t * s.eInput + k)
  ffInit : ∀ g ∈ s.dffs, v 0 g.output = v 0 g.input1
  ffNext : ∀ t, ∀ g ∈ s.dffs, v (t + 1) g.output = v t g.input0
  gate : ∀ t, ∀ g ∈ s.gates, v t g.output = truth g.type (v t g.input0) (v t g.input1)

/-- The names that are read in every cycle. -/
def Read (s : CircuitStr) (n : Name) : Prop :=
  (∃ g ∈ s.gates, n = g.input0 ∨ n = g.input1) ∨ (∃ g ∈ s.dffs, n = g.input0)
  ∨ (∃ k < s.outputSize, n = outputBit k) ∨ (s.hasTerminate = true ∧ n = "terminate".toList)

/-- The constants, and the empty name for a missing operand. -/
def ConstName (n : Name) : Prop := n = [] ∨ n = "1'b0".toList ∨ n = "1'b1".toList

/-- What the rest of the program relies on: the initial value of a flip-flop is not an input or the output of a cell;
initial values are used for nothing else; the gates are two-input gates or NOT; outputs of flip-flops are not connected to
constants. -/
structure Legal (s : CircuitStr) : Prop where
  inits : ∀ g ∈ s.dffs, ∀ d, InputBit s d ∨ CellOutput s d → ¬ SameNet s d g.input1
  reads : ∀ n, Read s n → ∀ d, InitBit s d → ¬ SameNet s d n
  types : ∀ g ∈ s.gates, g.type ∈ gateTypes
  driven : ∀ g ∈ s.dffs, ∀ k, ConstName k → ¬ SameNet s k g.output

/-- What drives nets. -/
def Source (s : CircuitStr) (n : Name) : Prop := ConstName n ∨ InitBit s n ∨ InputBit s n ∨ CellOutput s n

/-- No net has two sources, and no two cells have the same output. -/
structure OneDriver (s : CircuitStr) : Prop where
  nets : ∀ a b, Source s a → Source s b → SameNet s a b → a = b
  cells : ((s.dffs ++ s.gates).map (·.output)).Nodup
  fresh : ∀ n, CellOutput s n → ¬ ConstName n ∧ ¬ InitBit s n ∧ ¬ InputBit s n

/-- Execution with terminate period `T` stops after cycle `k`. -/
def NamedStopAt (s : CircuitStr) (T : Nat) (v : Nat → Name → Bool) (k : Nat) : Prop :=
  T ≠ 0 ∧ s.hasTerminate = true ∧ k % T = 0 ∧ v k "terminate".toList = true

/-- `m` is the number of cycles executed when at most `n` are allowed. -/
structure NamedExecuted (s : CircuitStr) (T : Nat) (v : Nat → Name → Bool) (n m : Nat) : Prop where
  le : m ≤ n
  last : m < n → ∃ k, m = k + 1 ∧ NamedStopAt s T v k
  before : ∀ k, k + 1 < m → ¬ NamedStopAt s T v k

/-- The wires by number: initial values, inputs, flip-flops, gates. -/
def driver (s : CircuitStr) (w : Nat) : Name :=
  if w < s.pInit then indexName pInitName w
  else if w < s.pInit + s.gInit then indexName gInitName (w - s.pInit)
  else if w < s.pInit + s.gInit + s.eInit then indexName eInitName (w - (s.pInit + s.gInit))
  else
    let k := w - (s.pInit + s.gInit + s.eInit)
    if k < s.pInput then indexName pInputName k
    else if k < s.pInput + s.gInput then indexName gInputName (k - s.pInput)
    else if k < s.pInput + s.gInput + s.eInput then indexName eInputName (k - (s.pInput + s.gInput))
    else
      let k := k - (s.pInput + s.gInput + s.eInput)
      if h : k < s.dffs.length then s.dffs[k].output
      else if h : k - s.dffs.length < s.gates.length then s.gates[k - s.dffs.length].output
      else []

/-- Number of wires. -/
def drivers (s : CircuitStr) : Nat :=
  s.pInit + s.gInit + s.eInit + s.pInput + s.gInput + s.eInput + s.dffs.length + s.gates.length

end TinyGarble.Spec
