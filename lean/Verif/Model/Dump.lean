import Verif.Model.Run
import Verif.Model.Str

/-!
# The dumps of labels and tables (`ENABLE_DUMP`)

`DUMP(name) << block << endl` (util/log.h:53-57, util/log.cpp:128-141) appends a line to one of five
files. The calls stand in `GarbleLowMem`, `EvaluateLowMem`, the loop bodies of `GarbleHighMem` and
`EvaluateHighMem`, `EvalGate`, and before the loops of cycles. What the parties compute is the run of
`Verif.Model.Run`; here only the lines they write are added. As in `Verif.Model.Run` the labels are
parameters and there is no early termination. The file system is not modelled: a file is the
sequence of the lines written to it by one party.
-/

namespace TinyGarble.Dumps

/-- The five files (log.cpp:83, 127). -/
inductive File
  | dff | input | output | table | rKey
  deriving DecidableEq

/-- The names of the files without prefix and extension (log.cpp:83). -/
def File.name : File → List Char
  | .dff => "dff".toList
  | .input => "input".toList
  | .output => "output".toList
  | .table => "table".toList
  | .rKey => "r_key".toList

/-- One line: the file and the block. -/
abbrev Line := File × Block

/-- What stands in a file. -/
def file (f : File) (l : List Line) : List Block := (l.filter (fun p => decide (p.1 = f))).map (·.2)

/-- The text of a file: `<< block << endl` for each line (log.cpp:152-161). -/
def text (l : List Block) : List Char := l.flatMap (fun b => showBlock b ++ ['\n'])

/-! ## Where the lines go -/

/-- The command line as far as dumps are concerned: `--dump_directory`, `--alice`, `--bob`. -/
structure Options where
  dir : Option (List Char)
  alice : Bool
  bob : Bool

/-- `dump_prefix` after `LogInitial` (log.cpp:38, 49-87). -/
def logInitialPrefix (o : Options) : List Char :=
  match o.dir with
  | none => []
  | some d => if o.alice then d ++ "alice-".toList else if o.bob then d ++ "bob-".toList else d

/-- `dump_prefix` in `main` of garbled_circuit_main.cpp: `LogInitial` (line 137), and then
`po::notify` (line 211) stores the option, or its default "", in the same variable (line 183). -/
def mainPrefix (o : Options) : List Char :=
  let dump_prefix := logInitialPrefix o
  match o.dir with
  | none => (fun _ => []) dump_prefix
  | some d => (fun _ => d) dump_prefix

/-- The file that `Dump` opens (log.cpp:128-141); none if the prefix is empty. -/
def path (dump_prefix : List Char) (f : File) : Option (List Char) :=
  if dump_prefix = [] then none else some (dump_prefix ++ f.name ++ ".hex".toList)

/-! ## The lines -/

/-- A table: `DUMP("table") << row[0]`, `<< row[1]` (low_mem.cpp:538-539, high_mem.cpp:373-374,
garbled_circuit_util.cpp:413-414). -/
def tableLines (t : Table) : List Line := [(.table, t.row0), (.table, t.row1)]

/-- One cycle of the garbler: flip-flops in cycle 0 (low_mem.cpp:386, high_mem.cpp:220), inputs
(low_mem.cpp:424, high_mem.cpp:257), selected tables, and, only in high-memory mode, outputs
(high_mem.cpp:385). `st` is the state before the cycle. -/
def garbleCycleLines (lowMem : Bool) (c : Circuit) (enc : Block → Block) (R : Block) (sfan : Nat → Nat)
    (cid : Nat) (x : GCycleIn) (st : GState) : List Line :=
  let r := garbleCycle lowMem c enc R sfan cid x st
  (if cid = 0 then (List.range c.dffSize).map
      (fun i => (File.dff, ((garbleDff c x.pInit x.initLabels cid st).wires (c.dffLo + i)).label0))
    else [])
  ++ (List.range c.secretInputSize).map (fun i => (File.input, (x.inputLabels i).label0))
  ++ (selectTables r.1.fan r.2).flatMap tableLines
  ++ (if lowMem then [] else (List.range c.outputSize).map
      (fun i => (File.output, (r.1.wires (c.outputs i).toNat).label0)))

/-- `EvalGate` (garbled_circuit_util.cpp:337-449): the lines written when a table is taken from the
buffer (lines 409-414); the conditions are those of `evalGate`. -/
def evalGateLines (gid : Nat) (t : Int) (l0 : Block) (v0 : WVal) (l1 : Block) (v1 : WVal) (ts : TabState) : List Line :=
  match v0, v1 with
  | .sec _, .sec _ =>
    if t ≠ NOTGATE ∧ cmpBlock l0 l1 = true then []
    else if t = XORGATE ∨ t = XNORGATE ∨ t = NOTGATE then []
    else if (ts.tables ts.ind).gid.toNat = gid then tableLines (ts.tables ts.ind)
    else []
  | _, _ => []

/-- Iteration `i` of the evaluator's secret-values loop together with the lines written so far. -/
def evalStepLines (c : Circuit) (enc : Block → Block) (cid : Nat) (i : Nat) (s : EState × List Line) :
    EState × List Line :=
  let st := s.1
  let g := c.gate i
  (evalStep c enc cid i st,
   s.2 ++ if 0 < st.fan i ∧ (st.val (c.gateLo + i)).isSecret = true then
      evalGateLines i g.type (inLabel c zeroBlock st.wires g.input0) (inVal0 c st.val g)
        (inLabel c zeroBlock st.wires g.input1) (inVal1 c st.val g) st.ts
    else [])

/-- One cycle of the evaluator: flip-flops in cycle 0 (low_mem.cpp:602, high_mem.cpp:531), inputs
(low_mem.cpp:635, high_mem.cpp:565), consumed tables, outputs (low_mem.cpp:741, high_mem.cpp:676).
`st` is the state when the tables of the cycle have been received. -/
def evalCycleLines (c : Circuit) (enc : Block → Block) (sfan : Nat → Nat) (cid : Nat) (x : ECycleIn)
    (st : EState) : List Line :=
  let r := forLoop (evalStepLines c enc cid) c.gateSize (evalPrep c sfan cid x st, [])
  (if cid = 0 then (List.range c.dffSize).map
      (fun i => (File.dff, (evalDff c x.pInit x.initLabels cid st).wires (c.dffLo + i)))
    else [])
  ++ (List.range c.secretInputSize).map (fun i => (File.input, x.inputLabels i))
  ++ r.2
  ++ (List.range c.outputSize).map (fun i => (File.output, r.1.wires (c.outputs i).toNat))

/-- The garbler's lines in `n` cycles: first offset and key (low_mem.cpp:109-110, high_mem.cpp:150-151). -/
def garbleLines (mark : Bool) (c : Circuit) (enc : Block → Block) (R key : Block) (sfan : Nat → Nat)
    (gin : Nat → GCycleIn) (st0 : GState) (n : Nat) : List Line :=
  [(.rKey, R), (.rKey, key)] ++ (List.range n).flatMap (fun cid =>
    garbleCycleLines mark c enc R sfan cid (gin cid)
      (match cid with
       | 0 => st0
       | k + 1 => (garbleRun mark c enc R sfan gin st0 k).1))

/-- The evaluator's lines in `n` cycles: first the key it received (low_mem.cpp:258, high_mem.cpp:458). -/
def evalLines (c : Circuit) (enc : Block → Block) (key : Block) (sfan : Nat → Nat) (ein : Nat → ECycleIn)
    (sent : Nat → List Table) (st0 : EState) (n : Nat) : List Line :=
  [(.rKey, key)] ++ (List.range n).flatMap (fun cid =>
    evalCycleLines c enc sfan cid (ein cid)
      (match cid with
       | 0 => st0.receive (sent 0)
       | k + 1 => (evalRun c enc sfan ein sent st0 k).clear.receive (sent (k + 1))))

end TinyGarble.Dumps
