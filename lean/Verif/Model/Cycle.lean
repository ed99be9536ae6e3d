import Verif.Model.Circuit

/-!
# One clock cycle of the garbler and of the evaluator

Models `GarbleLowMem` and `EvaluateLowMem` (garbled_circuit_low_mem.cpp:346-561, 563-750) and the
loop bodies of `GarbleHighMem` and `EvaluateHighMem` (garbled_circuit_high_mem.cpp:190-395,
500-690). Timing and logging are left out.
-/

namespace TinyGarble

def zeroPair : BlockPair := ⟨zeroBlock, zeroBlock⟩

/-- The arrays of the garbler that survive from one cycle to the next: `wires`, `wires_val`,
`dff_latch`, `dff_latch_val`, `fanout`. -/
structure GState where
  wires : Nat → BlockPair
  val : Nat → WVal
  latch : Nat → BlockPair
  latchVal : Nat → WVal
  fan : Nat → Nat

/-- The arrays of the evaluator: `wires`, `wires_val`, `dff_latch`, `dff_latch_val`, `fanout`, and
the table buffer with its index. -/
structure EState where
  wires : Nat → Block
  val : Nat → WVal
  latch : Nat → Block
  latchVal : Nat → WVal
  fan : Nat → Nat
  ts : TabState

/-- The `wires_val` assigned to flip-flop `i` in cycle 0 (low_mem.cpp:363-389, 592-617;
high_mem.cpp:196-226). -/
def dffInitVal (c : Circuit) (pInit : Nat) (i : Nat) : WVal :=
  let idx := c.I i
  if idx = CONST_ZERO then .pub false
  else if idx = CONST_ONE then .pub true
  else if 0 ≤ idx ∧ idx < (c.initSize : Int) then
    if idx < (c.pInitHi : Int) then .pub (pInit.testBit idx.toNat) else .sec false
  else .pub false

/-- The label assigned to flip-flop `i` in cycle 0: only in the secret case, otherwise the memory
keeps its content `old` (same lines). -/
def dffInitLabel {α : Type} (c : Circuit) (initLabels : Nat → α) (i : Nat) (old : α) : α :=
  let idx := c.I i
  if 0 ≤ idx ∧ idx < (c.initSize : Int) ∧ ¬ idx < (c.pInitHi : Int)
  then initLabels (idx - c.pInitHi).toNat else old

/-- `dff_latch_val[i]` for `cid > 0` (low_mem.cpp:391-410, 619-637). -/
def dffLatchVal (c : Circuit) (val : Nat → WVal) (i : Nat) : WVal :=
  fetch c.wireSize (.pub false) (.pub true) (.pub false) val (c.D i)

/-- `dff_latch[i]` for `cid > 0`: assigned only when `D` is a wire (same lines). -/
def dffLatchLabel {α : Type} (c : Circuit) (wires : Nat → α) (i : Nat) (old : α) : α :=
  fetch c.wireSize old old old wires (c.D i)

/-- Flip-flop phase of the garbler (low_mem.cpp:362-416, high_mem.cpp:195-253). -/
def garbleDff (c : Circuit) (pInit : Nat) (initLabels : Nat → BlockPair) (cid : Nat)
    (st : GState) : GState :=
  if cid = 0 then
    { st with
      wires := setRange st.wires c.dffLo c.dffSize
        (fun i => dffInitLabel c initLabels i (st.wires (c.dffLo + i)))
      val := setRange st.val c.dffLo c.dffSize (dffInitVal c pInit) }
  else
    let latch := setRange st.latch 0 c.dffSize (fun i => dffLatchLabel c st.wires i (st.latch i))
    let latchVal := setRange st.latchVal 0 c.dffSize (dffLatchVal c st.val)
    { st with
      latch := latch
      latchVal := latchVal
      wires := setRange st.wires c.dffLo c.dffSize latch
      val := setRange st.val c.dffLo c.dffSize latchVal }

/-- Flip-flop phase of the evaluator (low_mem.cpp:591-643, high_mem.cpp:506-560). -/
def evalDff (c : Circuit) (pInit : Nat) (initLabels : Nat → Block) (cid : Nat)
    (st : EState) : EState :=
  if cid = 0 then
    { st with
      wires := setRange st.wires c.dffLo c.dffSize
        (fun i => dffInitLabel c initLabels i (st.wires (c.dffLo + i)))
      val := setRange st.val c.dffLo c.dffSize (dffInitVal c pInit) }
  else
    let latch := setRange st.latch 0 c.dffSize (fun i => dffLatchLabel c st.wires i (st.latch i))
    let latchVal := setRange st.latchVal 0 c.dffSize (dffLatchVal c st.val)
    { st with
      latch := latch
      latchVal := latchVal
      wires := setRange st.wires c.dffLo c.dffSize latch
      val := setRange st.val c.dffLo c.dffSize latchVal }

/-- The public input bits (low_mem.cpp:419-423, 646-650; high_mem.cpp:255-259). -/
def setPublicInputs (c : Circuit) (pInput : Nat) (cid : Nat) (val : Nat → WVal) : Nat → WVal :=
  setRange val c.pInputLo c.pInput (fun i => .pub (pInput.testBit (cid * c.pInput + i)))

/-- Input phase of the garbler (low_mem.cpp:418-431; high_mem.cpp:254-268). `mark`: the low-memory
version also writes `SECRET` for the secret inputs, the high-memory version does not. `inputLabels`
are those of this cycle. -/
def garbleInputs (mark : Bool) (c : Circuit) (pInput : Nat) (inputLabels : Nat → BlockPair)
    (cid : Nat) (st : GState) : GState :=
  let val := setPublicInputs c pInput cid st.val
  { st with
    wires := setRange st.wires c.gInputLo c.secretInputSize inputLabels
    val := if mark then setRange val c.gInputLo c.secretInputSize (fun _ => .sec false) else val }

/-- Input phase of the evaluator (low_mem.cpp:645-655; high_mem.cpp:562-577). -/
def evalInputs (c : Circuit) (pInput : Nat) (inputLabels : Nat → Block)
    (cid : Nat) (st : EState) : EState :=
  { st with
    wires := setRange st.wires c.gInputLo c.secretInputSize inputLabels
    val := setPublicInputs c pInput cid st.val }

/-- `input0_value` (low_mem.cpp:436-447 and the other copies). -/
def inVal0 (c : Circuit) (val : Nat → WVal) (g : Gate) : WVal :=
  fetch c.wireSize (.pub false) (.pub true) (.pub false) val g.input0

/-- `input1_value` (low_mem.cpp:449-460 and the other copies): an invalid index leaves `SECRET` when
the gate is a NOT. -/
def inVal1 (c : Circuit) (val : Nat → WVal) (g : Gate) : WVal :=
  fetch c.wireSize (.pub false) (.pub true)
    (if g.type ≠ NOTGATE then .pub false else .sec false) val g.input1

/-- `input0_labels`, `input1_labels` (low_mem.cpp:485-514 and the other copies): zero unless the
index is a wire. -/
def inLabel {α : Type} (c : Circuit) (zero : α) (wires : Nat → α) (idx : Int) : α :=
  fetch c.wireSize zero zero zero wires idx

/-- The lines after an output became public (low_mem.cpp:464-472, 519-527 and the other copies). -/
def reduceInputs (c : Circuit) (i : Nat) (v0 v1 : WVal) (fan : Nat → Nat) : Nat → Nat :=
  let fan := upd fan i 0
  let fan := if v0.isSecret then reduceFanout c fan (c.gate i).input0 else fan
  if v1.isSecret then reduceFanout c fan (c.gate i).input1 else fan

/-- Iteration `i` of the known-values loop; the text is the same in all four functions
(low_mem.cpp:427-473, 657-703; high_mem.cpp:270-317, 579-626). `sfan` are the counts of
`FillFanout`. -/
def knownStep (c : Circuit) (sfan : Nat → Nat) (i : Nat) (s : (Nat → WVal) × (Nat → Nat)) :
    (Nat → WVal) × (Nat → Nat) :=
  let g := c.gate i
  let fan := upd s.2 i (sfan i)
  let v0 := inVal0 c s.1 g
  let v1 := inVal1 c s.1 g
  let val := upd s.1 (c.gateLo + i) (knownValue v0 v1 g.type)
  if (val (c.gateLo + i)).isSecret then (val, fan) else (val, reduceInputs c i v0 v1 fan)

/-- The known-values loop. -/
def knownPass (c : Circuit) (sfan : Nat → Nat) (s : (Nat → WVal) × (Nat → Nat)) :
    (Nat → WVal) × (Nat → Nat) :=
  forLoop (knownStep c sfan) c.gateSize s

/-- Iteration `i` of the garbler's secret-values loop (low_mem.cpp:477-529; high_mem.cpp:321-373).
The list is `garbled_tables_temp` up to its index. -/
def garbleStep (c : Circuit) (enc : Block → Block) (R : Block) (cid : Nat) (i : Nat)
    (s : GState × List Table) : GState × List Table :=
  let st := s.1
  let g := c.gate i
  let out := c.gateLo + i
  if 0 < st.fan i ∧ (st.val out).isSecret = true then
    let v0 := inVal0 c st.val g
    let v1 := inVal1 c st.val g
    let r := garbleGate enc R cid i g.type (inLabel c zeroPair st.wires g.input0) v0
      (inLabel c zeroPair st.wires g.input1) v1
    ({ st with
       wires := upd st.wires out r.1
       val := upd st.val out r.2.1
       fan := if r.2.1.isSecret then st.fan else reduceInputs c i v0 v1 st.fan },
     s.2 ++ r.2.2.toList)
  else s

/-- Iteration `i` of the evaluator's secret-values loop (low_mem.cpp:705-751;
high_mem.cpp:628-675). -/
def evalStep (c : Circuit) (enc : Block → Block) (cid : Nat) (i : Nat) (st : EState) : EState :=
  let g := c.gate i
  let out := c.gateLo + i
  if 0 < st.fan i ∧ (st.val out).isSecret = true then
    let v0 := inVal0 c st.val g
    let v1 := inVal1 c st.val g
    let r := evalGate enc cid i g.type (inLabel c zeroBlock st.wires g.input0) v0
      (inLabel c zeroBlock st.wires g.input1) v1 st.ts
    { st with
      wires := upd st.wires out r.1
      val := upd st.val out r.2.1
      fan := if r.2.1.isSecret then st.fan else reduceInputs c i v0 v1 st.fan
      ts := r.2.2 }
  else st

/-- What varies from cycle to cycle on the garbler's side. -/
structure GCycleIn where
  pInit : Nat
  pInput : Nat
  initLabels : Nat → BlockPair
  inputLabels : Nat → BlockPair

/-- What varies from cycle to cycle on the evaluator's side. -/
structure ECycleIn where
  pInit : Nat
  pInput : Nat
  initLabels : Nat → Block
  inputLabels : Nat → Block

/-- State before the secret-values loop. -/
def garblePrep (mark : Bool) (c : Circuit) (sfan : Nat → Nat) (cid : Nat) (x : GCycleIn)
    (st : GState) : GState :=
  let st := garbleDff c x.pInit x.initLabels cid st
  let st := garbleInputs mark c x.pInput x.inputLabels cid st
  let k := knownPass c sfan (st.val, st.fan)
  { st with val := k.1, fan := k.2 }

/-- State before the secret-values loop; `*garbled_table_ind = 0` (low_mem.cpp:580). -/
def evalPrep (c : Circuit) (sfan : Nat → Nat) (cid : Nat) (x : ECycleIn) (st : EState) : EState :=
  let st := evalDff c x.pInit x.initLabels cid st
  let st := evalInputs c x.pInput x.inputLabels cid st
  let k := knownPass c sfan (st.val, st.fan)
  { st with val := k.1, fan := k.2, ts := { st.ts with ind := 0 } }

/-- `GarbleLowMem` (`mark = true`), the loop body of `GarbleHighMem` (`mark = false`): new state and
`garbled_tables_temp`. -/
def garbleCycle (mark : Bool) (c : Circuit) (enc : Block → Block) (R : Block) (sfan : Nat → Nat)
    (cid : Nat) (x : GCycleIn) (st : GState) : GState × List Table :=
  forLoop (garbleStep c enc R cid) c.gateSize (garblePrep mark c sfan cid x st, [])

/-- Table selection (low_mem.cpp:531-541; high_mem.cpp:375-384): the tables that are sent. -/
def selectTables (fan : Nat → Nat) (tabs : List Table) : List Table :=
  tabs.filter (fun t => decide (0 < fan t.gid.toNat))

/-- `EvaluateLowMem`, the loop body of `EvaluateHighMem`. -/
def evalCycle (c : Circuit) (enc : Block → Block) (sfan : Nat → Nat) (cid : Nat) (x : ECycleIn)
    (st : EState) : EState :=
  forLoop (evalStep c enc cid) c.gateSize (evalPrep c sfan cid x st)

/-- `RecvData(garbled_tables, rcv * sizeof(GarbledTable))` (low_mem.cpp:271-277): the received tables
overwrite the front of the buffer. -/
def receiveTables (tabs : List Table) (buf : Nat → Table) : Nat → Table :=
  fun i => if h : i < tabs.length then tabs[i] else buf i

/-- Clearing of consumed tables (low_mem.cpp:291-293). -/
def clearTables (ind : Nat) (buf : Nat → Table) : Nat → Table :=
  fun i => if i < ind then { buf i with gid := BitVec.allOnes 32 } else buf i

end TinyGarble
