import Verif.Model.Plain
import Verif.Model.Protocol

/-!
# Positions of bits as `int`, counters of cycles as `uint`

In `Model/Plain` and `Model/Protocol` positions of bits are natural numbers. In the code they are `uint64_t` and become `int` when they are passed
to `BN_is_bit_set`, `BN_set_bit` and `BN_clear_bit` (`toInt32`, of `Model/Proc`). Here is the plaintext evaluator with these conversions (scd/scd_evaluator.cpp:72-235), and
those parts of the protocol that read the bits of inputs. Sizes and numbers of cycles are such that `uint64_t` does not overflow.
-/

namespace TinyGarble

/-- `BN_is_bit_set(n, k)` of OpenSSL: 0 for negative positions. -/
def bnIsBitSet (n : Nat) (k : Int) : Bool := if k < 0 then false else n.testBit k.toNat

/-- `BN_set_bit(n, k)` if `b` holds, else `BN_clear_bit(n, k)`, of OpenSSL: for negative positions they report an error, which the code ignores. -/
def bnSetBitInt (n : Nat) (k : Int) (b : Bool) : Nat := if k < 0 then n else bnSetBit n k.toNat b

/-- Initial flip-flop value (scd_evaluator.cpp:77-104). -/
def plainDffInit32 (c : Circuit) (x : Inputs) (i : Nat) : Bool :=
  let idx := c.I i
  if idx = CONST_ZERO then false
  else if idx = CONST_ONE then true
  else if 0 ≤ idx ∧ idx < (c.initSize : Int) then
    if idx < (c.pInitHi : Int) then bnIsBitSet x.pInit (toInt32 idx.toNat)
    else if idx < (c.gInitHi : Int) then bnIsBitSet x.gInit (toInt32 (idx - c.pInitHi).toNat)
    else bnIsBitSet x.eInit (toInt32 (idx - c.gInitHi).toNat)
  else false

/-- Value of an input wire (scd_evaluator.cpp:130-152). -/
def plainInput32 (c : Circuit) (x : Inputs) (cid i : Nat) : Bool :=
  let w := i + c.pInputLo
  if w < c.gInputLo then bnIsBitSet x.pInput (toInt32 (cid * c.pInput + i + c.pInputLo - c.pInputLo))
  else if w < c.eInputLo then bnIsBitSet x.gInput (toInt32 (cid * c.gInput + i + c.pInputLo - c.gInputLo))
  else bnIsBitSet x.eInput (toInt32 (cid * c.eInput + i + c.pInputLo - c.eInputLo))

/-- One clock cycle (scd_evaluator.cpp:72-189). -/
def plainCycle32 (c : Circuit) (x : Inputs) (cid : Nat) (wires : Nat → Bool) : Nat → Bool :=
  let wires := setRange wires c.dffLo c.dffSize (fun i =>
    if cid = 0 then plainDffInit32 c x i
    else fetch c.wireSize false true false wires (c.D i))
  let wires := setRange wires c.pInputLo c.inputSize (plainInput32 c x cid)
  forLoop (plainGate c) c.gateSize wires

/-- Output loop of one cycle (scd_evaluator.cpp:191-196). -/
def plainOutputs32 (c : Circuit) (cid : Nat) (wires : Nat → Bool) (out : Nat) : Nat :=
  forLoop (fun i out => bnSetBitInt out (toInt32 (cid * c.outputSize + i)) (wires (c.outputs i).toNat))
    c.outputSize out

/-- Main loop (scd_evaluator.cpp:72-235). -/
def plainLoop32 (c : Circuit) (x : Inputs) (terminatePeriod : Nat) :
    Nat → Nat → (Nat → Bool) → Nat → Nat × Nat
  | 0, cid, _, out => (out, cid)
  | n + 1, cid, wires, out =>
    let wires := plainCycle32 c x cid wires
    let out := plainOutputs32 c cid wires out
    if terminatePeriod ≠ 0 ∧ 0 < c.terminateId ∧ cid % terminatePeriod = 0
        ∧ wires c.terminateId = true then (out, cid + 1)
    else plainLoop32 c x terminatePeriod n (cid + 1) wires out

/-- `EvalauatePlaintext` when the `.map` and `.csv` files open. -/
def evaluatePlaintext32 (c : Circuit) (x : Inputs) (w0 : Nat → Bool) (clockCycles : Nat) (terminatePeriod : Nat) : Nat × Nat :=
  plainLoop32 c x terminatePeriod clockCycles 0 w0 0

/-- The label sent for position `k` (low_mem.cpp:972, 984, 1010-1012, 1024-1026; high_mem.cpp:824, 833-835, 858, 875-878). The comparison is in
`uint64_t`, except that of the initial values, which is in `uint`; `(uint) BN_num_bits(n)` is at most `2 ^ 31`. -/
def pick32 (l : BlockPair) (n k : Nat) : Block :=
  if numBits n ≤ k ∨ bnIsBitSet n (toInt32 k) = false then l.label0 else l.label1

/-- The evaluator's selection for position `k` (low_mem.cpp:913, 945; high_mem.cpp:780, 786-787). -/
def select32 (n k : Nat) : Bool := bnIsBitSet n (toInt32 k)

/-- Public input `i` of cycle `cid` in the protocol (low_mem.cpp:413-417, 627-631; high_mem.cpp in the same way). -/
def publicInput32 (c : Circuit) (pInput cid i : Nat) : Bool := bnIsBitSet pInput (toInt32 (cid * c.pInput + i))

/-- The counter of the loops `for (uint cid = 0; cid < clock_cycles; cid++)` (high_mem.cpp:743, 782, 803, 831, 873, 916, 936, 976) before iteration `k`. -/
def counter32 : Nat → BitVec 32
  | 0 => 0
  | k + 1 => counter32 k + 1

/-- The loop goes on: a `uint` is compared with a `uint64_t`. -/
def goesOn (clockCycles k : Nat) : Prop := (counter32 k).toNat < clockCycles

end TinyGarble
