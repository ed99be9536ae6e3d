import Verif.Model.Cycle
import Verif.Spec.Circuit

/-!
# What the parties know about wires, symbolically

Labels are random bit strings; two labels that were not built from the same fresh labels may still
be equal by accident, with negligible probability. To state "no accident happened" we need to say
which labels are equal *by construction*. This file computes, from the circuit and the public inputs
only, for every wire either its public value, or the set of fresh labels whose XOR is its label
together with an inversion flag.

Fresh labels ("atoms") are numbered: first the secret initial values, then for each cycle the secret
inputs and one atom for each gate. A set of atoms is a natural number (a bit set), so that XOR of
labels is XOR of numbers.
-/

namespace TinyGarble.Spec

/-- Symbolic content of a wire: public; secret with the given set of fresh labels and inversion; or
not computed at all (`hid`). -/
inductive SWire where
  | pub (b : Bool)
  | sec (form : Nat) (inv : Bool)
  | hid
deriving DecidableEq, Repr

/-- A symbolic wire is known to both parties. -/
def SWire.isPub : SWire → Bool
  | .pub _ => true
  | _ => false

/-- First atom of cycle `cid`. -/
def atomBase (c : Circuit) (cid : Nat) : Nat := c.secretInitSize + cid * (c.secretInputSize + c.gateSize)
/-- Atom of secret input `i` in cycle `cid`. -/
def atomIn (c : Circuit) (cid i : Nat) : Nat := atomBase c cid + i
/-- Atom of gate `g` in cycle `cid`. -/
def atomGate (c : Circuit) (cid g : Nat) : Nat := atomBase c cid + c.secretInputSize + g

/-- A gate with a known input: constant, or the other input, or its inversion. `f0`, `f1` are the
gate's values when the other input is 0, 1. -/
def symUnary (f0 f1 : Bool) (w : SWire) : SWire :=
  if f0 = f1 then .pub f0
  else match w with
    | .sec s i => .sec s (i ^^ f0)
    | _ => .hid

/-- Does the gate need a garbled table? Both inputs are secret, unrelated, and the gate is not free. -/
def symTable (t : Int) (a b : SWire) : Bool :=
  match a, b with
  | .sec s _, .sec s' _ => decide (s ≠ s') && decide (t ∈ tableTypes)
  | _, _ => false

/-- Symbolic output of a gate whose inputs are `a`, `b`; `atom` is used when a table is needed. -/
def symGate (atom : Nat) (t : Int) (a b : SWire) : SWire :=
  match a, b with
  | .pub x, .pub y => .pub (truth t x y)
  | .pub x, w => symUnary (truth t x false) (truth t x true) w
  | w, .pub y => symUnary (truth t false y) (truth t true y) w
  | .sec s i, .sec s' i' =>
    if t = 12 then .sec s (!i)
    else if s = s' then
      -- the second input is the first one, inverted if `i ≠ i'`
      symUnary (truth t false (i ^^ i')) (truth t true (!(i ^^ i'))) (.sec s i)
    else if t = 6 then .sec (s ^^^ s') (i ^^ i')
    else if t = 9 then .sec (s ^^^ s') (!(i ^^ i'))
    else .sec (2 ^ atom) false
  | .sec s i, .hid => if t = 12 then .sec s (!i) else .hid
  | .hid, _ => .hid

/-- Output of a gate as far as it follows from public values alone. -/
def symKnown (t : Int) (a b : SWire) : SWire :=
  match a, b with
  | .pub x, .pub y => .pub (truth t x y)
  | .pub x, _ => symUnary (truth t x false) (truth t x true) .hid
  | _, .pub y => symUnary (truth t false y) (truth t true y) .hid
  | _, _ => .hid

/-- Symbolic state: wires, remaining use counts, and the gates that got a table in this cycle. -/
structure SState where
  sw : Nat → SWire
  fan : Nat → Nat
  tabs : List Nat

def symIn0 (c : Circuit) (sw : Nat → SWire) (g : Gate) : SWire :=
  fetch c.wireSize (.pub false) (.pub true) (.pub false) sw g.input0

def symIn1 (c : Circuit) (sw : Nat → SWire) (g : Gate) : SWire :=
  fetch c.wireSize (.pub false) (.pub true) (if g.type ≠ 12 then .pub false else .hid) sw g.input1

def symDffInit (c : Circuit) (pInit : Nat) (i : Nat) : SWire :=
  let idx := c.I i
  if idx = -2 then .pub false
  else if idx = -3 then .pub true
  else if 0 ≤ idx ∧ idx < (c.initSize : Int) then
    if idx < (c.pInit : Int) then .pub (pInit.testBit idx.toNat)
    else .sec (2 ^ (idx - c.pInit).toNat) false
  else .pub false

def symDff (c : Circuit) (pInit cid : Nat) (sw : Nat → SWire) : Nat → SWire :=
  setRange sw c.dffLo c.dffSize (fun i =>
    if cid = 0 then symDffInit c pInit i
    else fetch c.wireSize (.pub false) (.pub true) (.pub false) sw (c.D i))

def symInputs (c : Circuit) (pInput cid : Nat) (sw : Nat → SWire) : Nat → SWire :=
  setRange (setRange sw c.pInputLo c.pInput (fun i => .pub (pInput.testBit (cid * c.pInput + i))))
    c.gInputLo c.secretInputSize (fun i => .sec (2 ^ atomIn c cid i) false)

/-- Give up the uses of the secret inputs of gate `i`, which became known. -/
def symReduce (c : Circuit) (i : Nat) (a b : SWire) (fan : Nat → Nat) : Nat → Nat :=
  let fan := upd fan i 0
  let fan := if a.isPub then fan else reduceFanout c fan (c.gate i).input0
  if b.isPub then fan else reduceFanout c fan (c.gate i).input1

def symKnownStep (c : Circuit) (sfan : Nat → Nat) (i : Nat) (s : SState) : SState :=
  let g := c.gate i
  let a := symIn0 c s.sw g
  let b := symIn1 c s.sw g
  let fan := upd s.fan i (sfan i)
  let o := symKnown g.type a b
  { s with
    sw := upd s.sw (c.gateLo + i) o
    fan := if o.isPub then symReduce c i a b fan else fan }

def symStep (c : Circuit) (cid : Nat) (i : Nat) (s : SState) : SState :=
  let g := c.gate i
  if 0 < s.fan i ∧ (s.sw (c.gateLo + i)).isPub = false then
    let a := symIn0 c s.sw g
    let b := symIn1 c s.sw g
    let o := symGate (atomGate c cid i) g.type a b
    { sw := upd s.sw (c.gateLo + i) o
      fan := if o.isPub then symReduce c i a b s.fan else s.fan
      tabs := s.tabs ++ (if symTable g.type a b then [i] else []) }
  else s

/-- State before the secret gates of cycle `cid`. -/
def symPrep (c : Circuit) (sfan : Nat → Nat) (pInit pInput cid : Nat) (s : SState) : SState :=
  forLoop (symKnownStep c sfan) c.gateSize
    ⟨symInputs c pInput cid (symDff c pInit cid s.sw), s.fan, []⟩

def symCycle (c : Circuit) (sfan : Nat → Nat) (pInit pInput cid : Nat) (s : SState) : SState :=
  forLoop (symStep c cid) c.gateSize (symPrep c sfan pInit pInput cid s)

/-- Symbolic state at the end of cycle `cid`. -/
def symRun (c : Circuit) (sfan : Nat → Nat) (pInit pInput : Nat) : Nat → SState
  | 0 => symCycle c sfan pInit pInput 0 ⟨fun _ => .hid, fun _ => 0, []⟩
  | cid + 1 => symCycle c sfan pInit pInput (cid + 1) (symRun c sfan pInit pInput cid)

/-- The tables that are sent: those of gates that are still needed at the end of the cycle. -/
def SState.sel (s : SState) : List Nat := s.tabs.filter (fun g => decide (0 < s.fan g))

/-- No accidental equality on the garbler's side: the two inputs of a gate have labels that agree in
the compared (lower) half only if they are made of the same fresh labels. -/
def NoCollisionG (c : Circuit) (sw : Nat → SWire) (wires : Nat → BlockPair) : Prop :=
  ∀ i < c.gateSize, ∀ s j s' j', symIn0 c sw (c.gate i) = .sec s j → symIn1 c sw (c.gate i) = .sec s' j' →
    s ≠ s' →
    cmpBlock (wires (c.gate i).input0.toNat).label0 (wires (c.gate i).input1.toNat).label0 = false ∧
    cmpBlock (wires (c.gate i).input0.toNat).label0 (wires (c.gate i).input1.toNat).label1 = false

/-- No accidental equality on the evaluator's side. -/
def NoCollisionE (c : Circuit) (sw : Nat → SWire) (wires : Nat → Block) : Prop :=
  ∀ i < c.gateSize, ∀ s j s' j', symIn0 c sw (c.gate i) = .sec s j → symIn1 c sw (c.gate i) = .sec s' j' →
    s ≠ s' →
    cmpBlock (wires (c.gate i).input0.toNat) (wires (c.gate i).input1.toNat) = false

/-- Every gate whose value is secret is still needed at the end of the cycle, so that no garbled table is
dropped. -/
def AllNeeded (c : Circuit) (s : SState) : Prop :=
  ∀ g < c.gateSize, ∀ f i, s.sw (c.gateLo + g) = .sec f i → 0 < s.fan g

end TinyGarble.Spec
