import Verif.Spec.Circuit
import Verif.Model.Plain

/-!
# Meaning of a sequential circuit

A valuation gives each wire a Boolean in each clock cycle. It is the meaning of the circuit when it
satisfies the circuit's equations. Wires are numbered: public initial values, garbler's initial
values, evaluator's initial values, public inputs, garbler's inputs, evaluator's inputs, flip-flops,
gates. A reference `-3` is the constant 1, any other negative reference is 0.
-/

namespace TinyGarble.Spec

/-- Value of a wire reference. -/
def operand (v : Nat → Bool) (w : Int) : Bool :=
  if w = -3 then true else if w < 0 then false else v w.toNat

/-- The initial value of a flip-flop whose initial reference is `w`. -/
def initialBit (c : Circuit) (x : Inputs) (w : Int) : Bool :=
  if w = -3 then true
  else if w < 0 then false
  else if w.toNat < c.pInit then x.pInit.testBit w.toNat
  else if w.toNat < c.pInit + c.gInit then x.gInit.testBit (w.toNat - c.pInit)
  else if w.toNat < c.pInit + c.gInit + c.eInit then x.eInit.testBit (w.toNat - (c.pInit + c.gInit))
  else false

/-- First input wire. -/
def inputBase (c : Circuit) : Nat := c.pInit + c.gInit + c.eInit
/-- First flip-flop wire. -/
def ffBase (c : Circuit) : Nat := inputBase c + c.pInput + c.gInput + c.eInput
/-- First gate wire. -/
def gateBase (c : Circuit) : Nat := ffBase c + c.dffSize

/-- The equations of a circuit. -/
structure Solves (c : Circuit) (x : Inputs) (v : Nat → Nat → Bool) : Prop where
  pIn : ∀ t, ∀ k < c.pInput, v t (inputBase c + k) = x.pInput.testBit (t * c.pInput + k)
  gIn : ∀ t, ∀ k < c.gInput, v t (inputBase c + c.pInput + k) = x.gInput.testBit (t * c.gInput + k)
  eIn : ∀ t, ∀ k < c.eInput,
    v t (inputBase c + c.pInput + c.gInput + k) = x.eInput.testBit (t * c.eInput + k)
  ffInit : ∀ i < c.dffSize, v 0 (ffBase c + i) = initialBit c x (c.I i)
  ffNext : ∀ t, ∀ i < c.dffSize, v (t + 1) (ffBase c + i) = operand (v t) (c.D i)
  gate : ∀ t, ∀ i < c.gateSize, v t (gateBase c + i) =
    truth (c.gate i).type (operand (v t) (c.gate i).input0) (operand (v t) (c.gate i).input1)

/-- Execution with terminate period `T` stops after cycle `k`. -/
def StopAt (c : Circuit) (T : Nat) (v : Nat → Nat → Bool) (k : Nat) : Prop :=
  T ≠ 0 ∧ 0 < c.terminateId ∧ k % T = 0 ∧ v k c.terminateId = true

/-- `m` is the number of cycles executed when at most `n` are allowed: execution goes on until a
cycle after which it stops. -/
structure Executed (c : Circuit) (T : Nat) (v : Nat → Nat → Bool) (n m : Nat) : Prop where
  le : m ≤ n
  last : m < n → ∃ k, m = k + 1 ∧ StopAt c T v k
  before : ∀ k, k + 1 < m → ¬ StopAt c T v k

end TinyGarble.Spec
