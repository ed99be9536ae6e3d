import Verif.Model.Cycle

/-!
# Several clock cycles

The cycle loops of `GarbleBNLowMem`/`EvaluateBNLowMem` (garbled_circuit_low_mem.cpp:113-172, 260-322)
and of `GarbleHighMem`/`EvaluateHighMem` (garbled_circuit_high_mem.cpp:190-430, 490-715) without the
transfer of labels and outputs and without early termination: the labels of each cycle are
parameters, and the tables go from one party to the other directly. (The transfers are modelled in
`Verif.Model.Protocol`.)
-/

namespace TinyGarble

/-- State and garbled tables of the garbler after cycle `cid`; `st0` is the freshly allocated
memory. -/
def garbleRun (mark : Bool) (c : Circuit) (enc : Block → Block) (R : Block) (sfan : Nat → Nat)
    (gin : Nat → GCycleIn) (st0 : GState) : Nat → GState × List Table
  | 0 => garbleCycle mark c enc R sfan 0 (gin 0) st0
  | cid + 1 => garbleCycle mark c enc R sfan (cid + 1) (gin (cid + 1))
      (garbleRun mark c enc R sfan gin st0 cid).1

/-- The tables the garbler sends in cycle `cid`. -/
def sentTables (mark : Bool) (c : Circuit) (enc : Block → Block) (R : Block) (sfan : Nat → Nat)
    (gin : Nat → GCycleIn) (st0 : GState) (cid : Nat) : List Table :=
  let r := garbleRun mark c enc R sfan gin st0 cid
  selectTables r.1.fan r.2

/-- The evaluator receives the tables of a cycle into its buffer. -/
def EState.receive (st : EState) (tabs : List Table) : EState :=
  { st with ts := { st.ts with tables := receiveTables tabs st.ts.tables } }

/-- The evaluator marks the consumed tables. -/
def EState.clear (st : EState) : EState :=
  { st with ts := { st.ts with tables := clearTables st.ts.ind st.ts.tables } }

/-- State of the evaluator after cycle `cid`, before the consumed tables are marked. -/
def evalRun (c : Circuit) (enc : Block → Block) (sfan : Nat → Nat) (ein : Nat → ECycleIn)
    (sent : Nat → List Table) (st0 : EState) : Nat → EState
  | 0 => evalCycle c enc sfan 0 (ein 0) (st0.receive (sent 0))
  | cid + 1 => evalCycle c enc sfan (cid + 1) (ein (cid + 1))
      ((evalRun c enc sfan ein sent st0 cid).clear.receive (sent (cid + 1)))

end TinyGarble
