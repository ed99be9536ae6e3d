import Verif.Model.Circuit

/-!
# The plaintext evaluator

Models `EvalauatePlaintext` (scd/scd_evaluator.cpp:32-250). Left out: the `.map`/`.csv` files (see
`Verif.Model.StrApi` for their effect on the result), logging. A `BIGNUM` is a `Nat`,
`BN_is_bit_set` is `Nat.testBit`.
-/

namespace TinyGarble

/-- The six input numbers. -/
structure Inputs where
  pInit : Nat
  gInit : Nat
  eInit : Nat
  pInput : Nat
  gInput : Nat
  eInput : Nat

/-- Initial flip-flop value (scd_evaluator.cpp:77-104). -/
def plainDffInit (c : Circuit) (x : Inputs) (i : Nat) : Bool :=
  let idx := c.I i
  if idx = CONST_ZERO then false
  else if idx = CONST_ONE then true
  else if 0 ≤ idx ∧ idx < (c.initSize : Int) then
    if idx < (c.pInitHi : Int) then x.pInit.testBit idx.toNat
    else if idx < (c.gInitHi : Int) then x.gInit.testBit (idx - c.pInitHi).toNat
    else x.eInit.testBit (idx - c.gInitHi).toNat
  else false

/-- Value of an input wire (scd_evaluator.cpp:130-152); `i` counts from the first input. -/
def plainInput (c : Circuit) (x : Inputs) (cid i : Nat) : Bool :=
  let w := i + c.pInputLo
  if w < c.gInputLo then x.pInput.testBit (cid * c.pInput + i + c.pInputLo - c.pInputLo)
  else if w < c.eInputLo then x.gInput.testBit (cid * c.gInput + i + c.pInputLo - c.gInputLo)
  else x.eInput.testBit (cid * c.eInput + i + c.pInputLo - c.eInputLo)

/-- Flip-flop values at the start of a cycle (scd_evaluator.cpp:74-127); for `cid > 0` every `D` is
read before any flip-flop is written. -/
def plainDff (c : Circuit) (x : Inputs) (cid : Nat) (wires : Nat → Bool) : Nat → Bool :=
  setRange wires c.dffLo c.dffSize (fun i =>
    if cid = 0 then plainDffInit c x i
    else fetch c.wireSize false true false wires (c.D i))

/-- One gate (scd_evaluator.cpp:154-189). -/
def plainGate (c : Circuit) (i : Nat) (wires : Nat → Bool) : Nat → Bool :=
  let g := c.gate i
  let inp0 := fetch c.wireSize false true false wires g.input0
  let inp1 := fetch c.wireSize false true false wires g.input1
  upd wires (c.gateLo + i)
    (if g.type ≠ NOTGATE then gateOperator g.type inp0 inp1 else gateOperator g.type inp0 false)

/-- One clock cycle (scd_evaluator.cpp:72-189) on the wire array. -/
def plainCycle (c : Circuit) (x : Inputs) (cid : Nat) (wires : Nat → Bool) : Nat → Bool :=
  let wires := plainDff c x cid wires
  let wires := setRange wires c.pInputLo c.inputSize (plainInput c x cid)
  forLoop (plainGate c) c.gateSize wires

/-- The wire array after cycle `cid`, when it is reached (scd_evaluator.cpp:72); `w0` is the
uninitialised array. -/
def plainWires (c : Circuit) (x : Inputs) (w0 : Nat → Bool) : Nat → Nat → Bool
  | 0 => plainCycle c x 0 w0
  | cid + 1 => plainCycle c x (cid + 1) (plainWires c x w0 cid)

/-- `BN_set_bit` / `BN_clear_bit` on the value. -/
def bnSetBit (n i : Nat) (b : Bool) : Nat :=
  if b then n ||| 2 ^ i else if n.testBit i then n ^^^ 2 ^ i else n

/-- Output loop of one cycle (scd_evaluator.cpp:191-196). -/
def plainOutputs (c : Circuit) (cid : Nat) (wires : Nat → Bool) (out : Nat) : Nat :=
  forLoop (fun i out => bnSetBit out (cid * c.outputSize + i) (wires (c.outputs i).toNat))
    c.outputSize out

/-- Main loop (scd_evaluator.cpp:72-235): `n` cycles remain, the next one is `cid`. Returns the
output number and the number of executed cycles (the final `*clock_cycles`). `terminatePeriod` is
the `int64_t` converted to `uint64_t` as in `cid % terminate_period`. -/
def plainLoop (c : Circuit) (x : Inputs) (terminatePeriod : Nat) :
    Nat → Nat → (Nat → Bool) → Nat → Nat × Nat
  | 0, cid, _, out => (out, cid)
  | n + 1, cid, wires, out =>
    let wires := plainCycle c x cid wires
    let out := plainOutputs c cid wires out
    if terminatePeriod ≠ 0 ∧ 0 < c.terminateId ∧ cid % terminatePeriod = 0
        ∧ wires c.terminateId = true then (out, cid + 1)
    else plainLoop c x terminatePeriod n (cid + 1) wires out

/-- `EvalauatePlaintext` when the `.map` and `.csv` files open: output number and executed cycles. -/
def evaluatePlaintext (c : Circuit) (x : Inputs) (w0 : Nat → Bool) (clockCycles : Nat)
    (terminatePeriod : Nat) : Nat × Nat :=
  plainLoop c x terminatePeriod clockCycles 0 w0 0

end TinyGarble
