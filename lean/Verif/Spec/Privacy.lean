import Verif.Spec.Run
import Verif.Spec.Semantics

/-!
# What the evaluator sees, and when the randomness is good

The block cipher under the session key is an arbitrary function here, chosen with the other random
values of the garbler (the ideal cipher in the usual security argument for half gates). The
evaluator may apply it to any block, except that it cannot guess a block that involves the label it
did not get: those are the *hidden points*.
-/

namespace TinyGarble.Spec

/-- What is fixed before the random choices: circuit, public inputs, uninitialised memory, mode. -/
structure Setting where
  c : Circuit
  pInit : Nat
  pInput : Nat
  fan0 : Nat → Nat
  gst0 : GState
  lowMem : Bool

/-- The garbler's random choices for cycles `0 … n`: the offset, for each secret initial bit and each
secret input bit of each cycle the label of 0, and the cipher. -/
structure Coins (c : Circuit) (n : Nat) where
  R : Block
  init : Fin c.secretInitSize → Block
  input : Fin (n + 1) → Fin c.secretInputSize → Block
  cipher : Block → Block

/-- The label of value `b`. -/
def labelOf (p : BlockPair) (b : Bool) : Block := if b then p.label1 else p.label0

/-- Everything the evaluator gets to know in cycles `0 … n`: its labels of the secret initial bits
and secret inputs (its own by oblivious transfer, the garbler's directly), the garbled tables, the
bits that decode the wires the garbler reveals, and the cipher outside the hidden points. -/
@[ext] structure View (c : Circuit) (n : Nat) where
  init : Fin c.secretInitSize → Block
  input : Fin (n + 1) → Fin c.secretInputSize → Block
  tables : Fin (n + 1) → List Table
  decoding : Fin (n + 1) → Nat → Option Bool
  cipher : Block → Option Block

/-- Wires whose values may be revealed: the outputs and the terminate wire. -/
def OutWire (c : Circuit) (w : Nat) : Prop :=
  (∃ i < c.outputSize, (c.outputs i).toNat = w) ∨ (0 < c.terminateId ∧ w = c.terminateId)

namespace Setting
variable (P : Setting) {n : Nat}

/-- The label pairs in cycle `cid`. -/
def gin (ω : Coins P.c n) (cid : Nat) : GCycleIn where
  pInit := P.pInit
  pInput := P.pInput
  initLabels := fun k => if h : k < P.c.secretInitSize then ⟨ω.init ⟨k, h⟩, ω.init ⟨k, h⟩ ^^^ ω.R⟩ else zeroPair
  inputLabels := fun k => if h : cid < n + 1 ∧ k < P.c.secretInputSize
    then ⟨ω.input ⟨cid, h.1⟩ ⟨k, h.2⟩, ω.input ⟨cid, h.1⟩ ⟨k, h.2⟩ ^^^ ω.R⟩ else ⟨zeroBlock, ω.R⟩

/-- The counts of `FillFanout`. -/
def sfan : Nat → Nat := (fillFanout P.c P.fan0).1

/-- The garbler after cycle `cid`, and the tables garbled in it. -/
def run (ω : Coins P.c n) (cid : Nat) : GState × List Table :=
  garbleRun P.lowMem P.c ω.cipher ω.R P.sfan (P.gin ω) P.gst0 cid

/-- The tables sent in cycle `cid`. -/
def sent (ω : Coins P.c n) (cid : Nat) : List Table :=
  sentTables P.lowMem P.c ω.cipher ω.R P.sfan (P.gin ω) P.gst0 cid

/-- The points at which the cipher is used for the tables of cycle `cid`, when the wires have the
values `v`: with `other = false` those the evaluator computes (labels of the actual values), with
`other = true` those that involve a label of the opposite value. -/
def points (ω : Coins P.c n) (v : Nat → Nat → Bool) (other : Bool) (cid : Nat) : List Block :=
  (P.run ω cid).2.flatMap fun T =>
    let g := T.gid.toNat
    let a := (P.c.gate g).input0.toNat
    let b := (P.c.gate g).input1.toNat
    [labelOf ((P.run ω cid).1.wires a) (v cid a ^^ other) ^^^ tweak0 cid g,
     labelOf ((P.run ω cid).1.wires b) (v cid b ^^ other) ^^^ tweak1 cid g]

/-- All hidden points of cycles `0 … n`. -/
def hidden (ω : Coins P.c n) (v : Nat → Nat → Bool) : List Block :=
  (List.range (n + 1)).flatMap (P.points ω v true)

/-- Good randomness when the wires have the values `v`: an odd offset, no accidental equality of
labels, and the hidden points are different from each other and from the points the evaluator
computes. -/
structure Good (v : Nat → Nat → Bool) (ω : Coins P.c n) : Prop where
  odd : getLSB ω.R = true
  noCollision : ∀ k ≤ n, NoCollisionG P.c (symRun P.c P.sfan P.pInit P.pInput k).sw (P.run ω k).1.wires
  distinct : (P.hidden ω v).Nodup
  separate : ∀ k ≤ n, ∀ p ∈ P.points ω v false k, p ∉ P.hidden ω v

open Classical in
/-- The evaluator's view when the inputs are `x`, the wires have the values `v`, and the wires
`reveal cid` are revealed in cycle `cid`. -/
noncomputable def view (x : Inputs) (v : Nat → Nat → Bool) (reveal : Nat → Nat → Prop) (ω : Coins P.c n) :
    View P.c n where
  init := fun k => labelOf ((P.gin ω 0).initLabels k) (secretInitBit P.c x k)
  input := fun cid k => labelOf ((P.gin ω cid).inputLabels k) (secretInputBit P.c x cid k)
  tables := fun cid => P.sent ω cid
  decoding := fun cid w => if OutWire P.c w ∧ reveal cid w ∧ ((P.run ω cid).1.val w).isSecret = true
    then some (getLSB ((P.run ω cid).1.wires w).label0) else none
  cipher := fun p => if p ∈ P.hidden ω v then none else some (ω.cipher p)

end Setting

end TinyGarble.Spec
