import Verif.Model.Scd

/-!
# Named netlists and the numbering of their wires

Models `ReadCircuitString` (scd/v_2_scd.h:29-62), `AddWireArray`, `IdAssignment`, `GetBristWire` and `ParseBrisNetlist`
(scd/parse_netlist.cpp:416-637). Names are lists of single-byte characters. Logging is left out; `uint` loop counters do not
overflow (less than 2^32 bits of a port and gates).
-/

namespace TinyGarble

/-- `string`. -/
abbrev Name := List Char

/-- `ReadGateString` (v_2_scd.h:29-34). -/
structure GateStr where
  input0 : Name
  input1 : Name
  output : Name
  type : Int
deriving DecidableEq, Repr

/-- `ReadCircuitString` (v_2_scd.h:36-62). -/
structure CircuitStr where
  gates : List GateStr
  dffs : List GateStr
  assigns : List (Name × Name)
  pInit : Nat
  gInit : Nat
  eInit : Nat
  pInput : Nat
  gInput : Nat
  eInput : Nat
  outputSize : Nat
  hasTerminate : Bool
deriving DecidableEq, Repr

/-- The constructor (v_2_scd.h:50-61). -/
def CircuitStr.empty : CircuitStr := ⟨[], [], [], 0, 0, 0, 0, 0, 0, 0, false⟩

/-! ## Numbering -/

/-- `map<string, int64_t>`. -/
abbrev WireTable := Name → Option Int

/-- `map::insert`: an existing entry stays. -/
def WireTable.insert (t : WireTable) (k : Name) (w : Int) : WireTable :=
  fun n => if n = k then (match t k with
    | some u => some u
    | none => some w) else t n

/-- `map[k] = w`. -/
def WireTable.set (t : WireTable) (k : Name) (w : Int) : WireTable := fun n => if n = k then some w else t n

/-- `name + "[" + std::to_string(i) + "]"`. -/
def indexName (name : Name) (i : Nat) : Name := name ++ '[' :: (printNat i ++ [']'])

/-- The table and `wire_index`. -/
structure Numbering where
  table : WireTable
  next : Nat

/-- `wire_name_table.insert(pair(name, wire_index++))`. -/
def Numbering.add (s : Numbering) (name : Name) : Numbering := ⟨s.table.insert name s.next, s.next + 1⟩

/-- `AddWireArray` (parse_netlist.cpp:416-429). -/
def addWireArray (name : Name) (size : Nat) (s : Numbering) : Numbering :=
  if size = 1 then ⟨(s.table.insert name s.next).insert (indexName name 0) s.next, s.next + 1⟩
  else forLoop (fun i s => s.add (indexName name i)) size s

def pInitName : Name := "p_init".toList
def gInitName : Name := "g_init".toList
def eInitName : Name := "e_init".toList
def pInputName : Name := "p_input".toList
def gInputName : Name := "g_input".toList
def eInputName : Name := "e_input".toList
def zeroName : Name := "1'b0".toList
def oneName : Name := "1'b1".toList
def outName : Name := "o".toList
def terminateName : Name := "terminate".toList

/-- `wire_name_table` before the assignments (parse_netlist.cpp:515-547). -/
def driverTable (s : CircuitStr) : Numbering :=
  let n : Numbering := ⟨fun _ => none, 0⟩
  let n := addWireArray pInitName s.pInit n
  let n := addWireArray gInitName s.gInit n
  let n := addWireArray eInitName s.eInit n
  let n := addWireArray pInputName s.pInput n
  let n := addWireArray gInputName s.gInput n
  let n := addWireArray eInputName s.eInput n
  let n := s.dffs.foldl (fun n g => n.add g.output) n
  let n := s.gates.foldl (fun n g => n.add g.output) n
  { n with table := ((n.table.insert [] (-1)).insert zeroName CONST_ZERO).insert oneName CONST_ONE }

/-- One assignment (parse_netlist.cpp:551-560): when neither side is known it is only logged. -/
def assignStep (t : WireTable) (a : Name × Name) : WireTable :=
  match t a.1 with
  | some w => t.set a.2 w
  | none => match t a.2 with
    | some w => t.set a.1 w
    | none => t

/-- A `CHECK_EXPR_MSG` that a name is in the table, then `wire_name_table[n]`. `log` tells whether the program is compiled
with ENABLE_LOG: otherwise the check has no effect (util/log.h:66-81) and `operator[]` enters a missing name with the value 0. -/
def access (log : Bool) (t : WireTable) (n : Name) : Option (Int × WireTable) :=
  match t n with
  | some w => some (w, t)
  | none => if log then none else some (0, t.set n 0)

/-- One gate or flip-flop (parse_netlist.cpp:568-589, 591-614). -/
def accessGate (log : Bool) (t : WireTable) (g : GateStr) : Option (ReadGate × WireTable) := do
  let a ← access log t g.input0
  let b ← access log a.2 g.input1
  let o ← access log b.2 g.output
  return (⟨a.1, b.1, o.1, g.type⟩, o.2)

/-- The loops over gates and flip-flops. -/
def accessGates (log : Bool) : WireTable → List GateStr → Option (List ReadGate × WireTable)
  | t, [] => some ([], t)
  | t, g :: gs => do
    let r ← accessGate log t g
    let rs ← accessGates log r.2 gs
    return (r.1 :: rs.1, rs.2)

/-- The loop over the outputs (parse_netlist.cpp:616-630); `k` are left, the next one is `i`. -/
def accessOutputs (log : Bool) (size : Nat) : Nat → Nat → WireTable → Option (List Int × WireTable)
  | 0, _, t => some ([], t)
  | k + 1, i, t => do
    let r ← (if size = 1 then
        if (t (indexName outName 0)).isSome then access log t (indexName outName 0) else access log t outName
      else access log t (indexName outName i) : Option (Int × WireTable))
    let rs ← accessOutputs log size k (i + 1) r.2
    return (r.1 :: rs.1, rs.2)

/-- `IdAssignment` (parse_netlist.cpp:502-637); `none` is FAILURE. -/
def idAssignment (log : Bool) (s : CircuitStr) : Option ReadCircuit := do
  let t := s.assigns.foldl assignStep (driverTable s).table
  let gates ← accessGates log t s.gates
  let dffs ← accessGates log gates.2 s.dffs
  let outputs ← accessOutputs log s.outputSize s.outputSize 0 dffs.2
  let terminateId ← (if s.hasTerminate then
      let w := (outputs.2 terminateName).getD 0
      if log ∧ w = 0 then none else some w
    else some 0 : Option Int)
  return ⟨s.pInit, s.gInit, s.eInit, s.pInput, s.gInput, s.eInput, gates.1, dffs.1, outputs.1, terminateId, []⟩

/-! ## Bristol circuits -/

/-- `GetBristWire` (parse_netlist.cpp:431-444). The subtractions are those of `uint64_t`. -/
def bristWire (w wireSize : Nat) (s : CircuitStr) : Name :=
  if w < s.gInput then indexName gInputName w
  else if w < (s.gInput + s.eInput) % 2 ^ 64 then indexName eInputName (w - s.gInput)
  else if (wireSize + 2 ^ 64 - s.outputSize) % 2 ^ 64 ≤ w then
    indexName outName ((w + 2 ^ 64 - wireSize + s.outputSize) % 2 ^ 64)
  else 'w' :: printNat w

/-- `stream >> s` for a string that was empty before: white space is skipped, the word up to the next white space is read. -/
def readWord (s : InStream) : Name × InStream :=
  if s.good = false then ([], s)
  else
    let t := s.rest.dropWhile isWhite
    if t = [] then ([], ⟨[], false⟩)
    else (t.takeWhile (fun ch => !isWhite ch),
      ⟨t.dropWhile (fun ch => !isWhite ch), !(t.dropWhile (fun ch => !isWhite ch)).isEmpty⟩)

/-- The gate type (parse_netlist.cpp:483-492); `none` is FAILURE. -/
def bristType (g : Name) : Option Int :=
  if g = "INV".toList then some NOTGATE
  else if g = "XOR".toList then some XORGATE
  else if g = "AND".toList then some ANDGATE
  else none

/-- One gate (parse_netlist.cpp:463-495); `junk` are the values of the uninitialised variables. -/
def parseBristGate (s : CircuitStr) (wireSize : Nat) (junk : Nat → Nat) (st : InStream) : Option (GateStr × InStream) := do
  let inputs := readU64 (junk 0) st
  let outputs := readU64 (junk 1) inputs.2
  let i0 := readU64 (junk 2) outputs.2
  let i1 := if inputs.1 = 1 then (0, i0.2) else if inputs.1 = 2 then readU64 (junk 3) i0.2 else (junk 3, i0.2)
  let o := if inputs.1 = 1 ∨ inputs.1 = 2 then readU64 (junk 4) i1.2 else (junk 4, i1.2)
  let g := if inputs.1 = 1 ∨ inputs.1 = 2 then readWord o.2 else ([], o.2)
  let type ← bristType g.1
  return (⟨bristWire i0.1 wireSize s, if 1 < inputs.1 then bristWire i1.1 wireSize s else [], bristWire o.1 wireSize s, type⟩,
    g.2)

/-- The loop over the gates (parse_netlist.cpp:463-497): `n` are left, the next one is `gid`. -/
def parseBristGates (s : CircuitStr) (wireSize : Nat) (junk : Nat → Nat → Nat) : Nat → Nat → InStream → Option (List GateStr)
  | 0, _, _ => some []
  | n + 1, gid, st => do
    let g ← parseBristGate s wireSize (junk gid) st
    let gs ← parseBristGates s wireSize junk n (gid + 1) g.2
    return g.1 :: gs

/-- `ParseBrisNetlist` (parse_netlist.cpp:446-500) on the contents of the file; `none` is FAILURE. `junk0` are the values of
the uninitialised variables `gate_size`, `wire_size`, `junk` those of the variables of each iteration. -/
def parseBrist (log : Bool) (file : List Char) (junk0 : Nat → Nat) (junk : Nat → Nat → Nat) : Option CircuitStr := do
  let gateSize := readU64 (junk0 0) ⟨file, true⟩
  let wireSize := readU64 (junk0 1) gateSize.2
  if log ∧ (gateSize.1 = 0 ∨ wireSize.1 = 0) then none
  else
    let gIn := readU64 0 wireSize.2
    let eIn := readU64 0 gIn.2
    let out := readU64 0 eIn.2
    let s := { CircuitStr.empty with gInput := gIn.1, eInput := eIn.1, outputSize := out.1 }
    let gates ← parseBristGates s wireSize.1 junk gateSize.1 0 out.2
    return { s with gates := gates }

/-! ## Compilation -/

/-- The last part of `Verilog2SCD` and of `Bris2SCD` (scd/v_2_scd.cpp:39-58, 76-95), compiled with ENABLE_LOG, when the output
files can be written: `none` is undefined behaviour, an exception or non-termination, `some none` is FAILURE, else the
contents of the `.scd` file. The `.map` file is in `Verif.Model.Mapping`. -/
def compile (s : CircuitStr) : Option (Option (List Char)) :=
  match idAssignment true s with
  | none => some none
  | some c => do
    let r ← sortNetlist c
    match r with
    | none => some none
    | some c => do
      let file ← writeScd c
      return some file

/-- `Bris2SCD` (scd/v_2_scd.cpp:65-98), likewise. -/
def brist2Scd (file : List Char) (junk0 : Nat → Nat) (junk : Nat → Nat → Nat) : Option (Option (List Char)) :=
  match parseBrist true file junk0 junk with
  | none => some none
  | some s => compile s

end TinyGarble
