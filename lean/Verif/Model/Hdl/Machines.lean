import Verif.Model.Hdl.Seq

/-!
# A stack machine, a memory, and a circuit with public inputs

Models circuit_synthesis/stack_machine/stackMachine.v, select/select.v and public_test/public_test.v.
-/

namespace TinyGarble.Hdl

/-- The wires `alu`, `push`, `op1`, `op2` (stackMachine.v:29-83). The label `3'd8` is 0 in three bits, so its branch is never taken. -/
def stackDecode {N : Nat} (stack : Nat → BitVec N) (op : BitVec 3) : BitVec N × Bool × Bool × Bool :=
  match op.toNat with
  | 0 => (stack 0, false, false, false)
  | 1 => (stack 0 + stack 1, false, false, true)
  | 2 => (stack 0 - stack 1, false, false, true)
  | 3 => (stack 0 * stack 1, false, false, true)
  | 4 => (stack 0, true, false, false)
  | 5 => (-1 * stack 0, false, true, false)
  | 6 => (stack 0 &&& stack 1, false, false, true)
  | _ => (stack 0 ||| stack 1, false, false, true)

/-- stackMachine.v:18-128, one cycle; the inputs are `g_input` and `e_input`. -/
def stackStep {N : Nat} (S : Nat) (stack : Nat → BitVec N) (i : BitVec N × BitVec 3) : (Nat → BitVec N) × BitVec N :=
  let (alu, push, op1, op2) := stackDecode stack i.2
  let o := if push then i.1 else alu
  let next := fun j =>
    if push then (if j = 0 then i.1 else if j < S then stack (j - 1) else stack j)
    else if op1 then (if j = 0 then alu else stack j)
    else if op2 then (if j = 0 then alu else if j < S - 1 then stack (j + 1) else stack j)
    else stack j
  (next, o)

/-- stackMachine.v:3-130. -/
def stackMachine {N : Nat} (S : Nat) (i : List (BitVec N × BitVec 3)) : List (BitVec N) := runSeq (stackStep S) (fun _ => 0) i

/-- A write port of select.v: address, data, enable. -/
structure WritePort (L W : Nat) where
  adr : BitVec L
  data : BitVec W
  en : Bool

/-- The inputs of select.v in one cycle; `clog2` is the function `log2` of select.v:24-32. -/
structure SelectIn (M W : Nat) where
  readAdr : BitVec (clog2 M)
  w1 : WritePort (clog2 M) W
  w2 : WritePort (clog2 M) W
  w3 : WritePort (clog2 M) W

/-- An assignment to an entry of `mem_matrix`; outside of the array it has no effect. -/
def memWrite {W : Nat} (M : Nat) (mem : Nat → BitVec W) (a : Nat) (d : BitVec W) : Nat → BitVec W :=
  fun i => if i = a ∧ a < M then d else mem i

/-- select.v:49-68, one cycle; `none` is reading outside of the array. -/
def selectStep (M W : Nat) (mem : Nat → BitVec W) (i : SelectIn M W) : (Nat → BitVec W) × Option (BitVec W) :=
  let next :=
    if i.w1.en then memWrite M mem i.w1.adr.toNat i.w1.data
    else if i.w2.en then memWrite M mem i.w2.adr.toNat i.w2.data
    else if i.w3.en then memWrite M mem i.w3.adr.toNat i.w3.data
    else mem
  (next, if i.readAdr.toNat < M then some (mem i.readAdr.toNat) else none)

/-- select.v:3-70. -/
def select (M W : Nat) (i : List (SelectIn M W)) : List (Option (BitVec W)) := runSeq (selectStep M W) (fun _ => 0) i

/-- The inputs of public_test.v in one cycle. -/
structure PublicIn where
  p : BitVec 32
  g : BitVec 16
  e : BitVec 8

/-- public_test.v:29-53, one cycle. -/
def publicStep (s : BitVec 8 × BitVec 16 × BitVec 32) (i : PublicIn) : (BitVec 8 × BitVec 16 × BitVec 32) × BitVec 32 :=
  let o1 : BitVec 32 := 0#24 ++ (i.e ^^^ s.1)
  let o2 : BitVec 32 := 0#16 ++ (i.g ^^^ s.2.1)
  let o3 : BitVec 32 := i.p ^^^ s.2.2
  ((i.e ^^^ s.1, i.g ^^^ s.2.1, i.p ^^^ s.2.2), o1 ^^^ o2 ^^^ o3)

/-- public_test.v:3-55. -/
def publicTest (pInit : BitVec 8) (gInit : BitVec 16) (eInit : BitVec 32) (i : List PublicIn) : List (BitVec 32) :=
  runSeq publicStep (pInit, gInit, eInit) i

end TinyGarble.Hdl
