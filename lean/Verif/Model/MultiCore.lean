import Verif.Model.Sort

/-!
# Distributing the gates over several cores

Models `GetMinIndex`, `DFS`, `FindPath`, `Schedule`, `TopologicalSortMultiCore` (scd/scheduling.cpp:87-97, 110-329). No
other part of the program calls `TopologicalSortMultiCore`. As in `Verif.Model.Sched`, `none` stands for an access outside
of an array or non-termination. Left out: the logging. `int` and `int64_t` values are unbounded integers; the counters stay
below the number of gates.
-/

namespace TinyGarble

/-- The loop of `GetMinIndex` (scheduling.cpp:89-95), with the entries from `i` on. -/
def minIndexFrom (minimum minIndex i : Int) : List Int → Int
  | [] => minIndex
  | x :: rest => if x < minimum then minIndexFrom x i (i + 1) rest else minIndexFrom minimum minIndex (i + 1) rest

/-- `GetMinIndex` of an entire array (scheduling.cpp:87-97). -/
def getMinIndex : List Int → Option Int
  | [] => none
  | x :: rest => some (minIndexFrom x 0 1 rest)

/-- `DFS` (scheduling.cpp:110-136) for one wire after the other, until it fails. `DFS` does what `TopologicalSortVisit` does,
apart from the list of sorted wires, of which it makes none: its states 0, 1, 2 are the marks. -/
def dfsAll (c : ReadCircuit) (st : SortState) : List Int → Option (Except (List Int) SortState)
  | [] => some (.ok st)
  | w :: ws => do
    let r ← visit c st w
    match r with
    | .error loop => some (.error loop)
    | .ok st => dfsAll c st ws

/-- `FindPath` (scheduling.cpp:138-170); `true` is SUCCESS. -/
def findPath (c : ReadCircuit) : Option Bool := do
  let status := (List.range (c.iid + c.gates.length)).map fun i => if i < c.iid then Mark.per else Mark.un
  let r ← dfsAll c ⟨status, (List.range c.iid).map fun i : Nat => (i : Int)⟩ (c.dffs.map (·.input0) ++ c.outputs)
  match r with
  | .error _ => some false
  | .ok st => some (st.marks.all fun m => decide (m = Mark.per))

/-- `p1`, `core`, `core_index`, `core_busy`, `scheduled` of `Schedule` (scheduling.cpp:199-211). -/
structure CoreState where
  p1 : List Int
  core : List (List Int)
  coreIndex : List Int
  coreBusy : List Int
  scheduled : Int

/-- The test of one operand (scheduling.cpp:216-217, 218-219): not a gate, or a gate that `p0` has. -/
def operandReady (c : ReadCircuit) (p0 : List Int) (w : Int) : Option Bool :=
  if w - (c.iid : Int) < 0 then some true
  else do
    let x ← getI p0 (w - (c.iid : Int))
    return decide (x ≠ -1)

/-- Gate `k` goes to the core with the least to do (scheduling.cpp:220-224). -/
def placeGate (s : CoreState) (k : Int) : Option CoreState := do
  let m ← getMinIndex s.coreBusy
  let p1 ← setI s.p1 k m
  let row ← getI s.core m
  let j ← getI s.coreIndex m
  let row ← setI row j k
  let core ← setI s.core m row
  let coreIndex ← setI s.coreIndex m (j + 1)
  let b ← getI s.coreBusy m
  let coreBusy ← setI s.coreBusy m (b + 1)
  return ⟨p1, core, coreIndex, coreBusy, s.scheduled + 1⟩

/-- Body of the inner loop (scheduling.cpp:214-228) for `index[i] = k`. -/
def scheduleStep (c : ReadCircuit) (p0 : List Int) (s : CoreState) (k : Int) : Option CoreState := do
  let x ← getI p0 k
  if x = -1 then do
    let g ← getI c.gates k
    let r0 ← operandReady c p0 g.input0
    if r0 then do
      let r1 ← operandReady c p0 g.input1
      if r1 then placeGate s k else some s
    else some s
  else some s

/-- The inner loop (scheduling.cpp:213-229). -/
def schedulePass (c : ReadCircuit) (index p0 : List Int) (s : CoreState) : Option CoreState :=
  index.foldlM (scheduleStep c p0) s

/-- The `while` loop (scheduling.cpp:212-234). Before it and after each round, `p0` is a copy of `p1`
(lines 202-204, 231-233). -/
def scheduleLoop (c : ReadCircuit) (index : List Int) (s : CoreState) : Option CoreState :=
  if s.scheduled < (c.gates.length : Int) then do
    let s' ← schedulePass c index s.p1 s
    scheduleLoop c index s'
  else some s
partial_fixpoint

/-- The arrays before the loop (scheduling.cpp:201-211); `core` is the caller's. -/
def startCores (c : ReadCircuit) (noCore : Nat) (core : List (List Int)) : CoreState :=
  ⟨List.replicate c.gates.length (-1), core, List.replicate noCore 0, List.replicate noCore 0, 0⟩

/-- `Schedule` (scheduling.cpp:172-243): `core` afterwards. The result of `FindPath` is only logged (lines 184-194). -/
def scheduleCores (c : ReadCircuit) (noCore : Nat) (core : List (List Int)) : Option (List (List Int)) := do
  let _ ← findPath c
  let index ← topSort c.gates
  let s ← scheduleLoop c index (startCores c noCore core)
  return s.core

/-- `TopologicalSortMultiCore` (scheduling.cpp:245-329). The array `ts_1` (lines 264-273) is the inverse of the list of the
wires that are not gates, followed by the gates in the order of `core[0]`. `terminate_id` is left as it is. -/
def topologicalSortMultiCore (c : ReadCircuit) : Option ReadCircuit := do
  let core ← scheduleCores c 1 [List.replicate (c.gates.length + 1) (-1)]
  let row ← getI core 0
  let order := row.take c.gates.length
  let inv ← invertList (((List.range c.iid).map fun i : Nat => (i : Int)) ++ order.map fun k : Int => k + (c.iid : Int))
  let dffs ← c.dffs.mapM (renumberDff inv)
  let gates ← (List.range c.gates.length).mapM (renumberGate c inv)
  let outputs ← c.outputs.mapM (getI inv)
  return { c with gates := gates, dffs := dffs, outputs := outputs, schedule := order }

end TinyGarble
