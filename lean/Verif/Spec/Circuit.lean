import Verif.Model.Circuit
import Verif.Spec.Gate

/-!
# Well-formed circuits and use counts
-/

namespace TinyGarble.Spec

/-- A wire reference that may be read in every cycle: a constant or another negative number
(which the code reads as 0), or a wire below `hi` that is not one of the initial-value wires. -/
def Readable (c : Circuit) (hi : Nat) (w : Int) : Prop :=
  w < 0 ∨ ((c.initSize : Int) ≤ w ∧ w < (hi : Int))

/-- Well-formed circuits: what `TopologicalSort`/`WriteSCD` are meant to produce. Every gate reads
only inputs, flip-flops and earlier gates; flip-flops, outputs and the terminate signal refer to
existing wires; gate types are those of the SCD format; gate numbers fit in the 32-bit field of a
garbled table (and differ from the marker `0xffffffff`). -/
structure WF (c : Circuit) : Prop where
  in0 : ∀ i < c.gateSize, Readable c (c.gateLo + i) (c.gate i).input0
  in1 : ∀ i < c.gateSize, Readable c (c.gateLo + i) (c.gate i).input1
  type : ∀ i < c.gateSize, (c.gate i).type ∈ gateTypes
  D : ∀ i < c.dffSize, Readable c c.wireSize (c.D i)
  outputs : ∀ i < c.outputSize, (c.initSize : Int) ≤ c.outputs i ∧ c.outputs i < (c.wireSize : Int)
  term : c.terminateId = 0 ∨ (c.initSize ≤ c.terminateId ∧ c.terminateId < c.wireSize)
  size : c.gateSize < 2 ^ 32 - 1

/-- How many of the first `n` values of `f` equal `w`. -/
def countEq (w : Int) (f : Nat → Int) : Nat → Nat
  | 0 => 0
  | n + 1 => countEq w f n + if f n = w then 1 else 0

/-- How often gate number `g` is used by gates. -/
def gateUses (c : Circuit) (g : Nat) : Nat :=
  countEq (c.gateLo + g : Nat) (fun j => (c.gate j).input0) c.gateSize
  + countEq (c.gateLo + g : Nat) (fun j => (c.gate j).input1) c.gateSize

/-- How often gate number `g` is used outside of gates: by flip-flops, outputs and the terminate
signal. -/
def extUses (c : Circuit) (g : Nat) : Nat :=
  countEq (c.gateLo + g : Nat) c.D c.dffSize
  + countEq (c.gateLo + g : Nat) c.outputs c.outputSize
  + (if 0 < c.terminateId ∧ c.terminateId = c.gateLo + g then 1 else 0)

end TinyGarble.Spec
