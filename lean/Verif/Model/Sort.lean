import Verif.Model.Sched
import Verif.Model.Circuit

/-!
# Ordering and renumbering the gates of a netlist

Models `TopologicalSortVisit`, `TopologicalSort`, `SortNetlist` (scd/scheduling.cpp:338-499). As in `Verif.Model.Sched`,
`none` stands for an access outside of an array, an exception of `vector::at`, or non-termination. Logging is left out.
-/

namespace TinyGarble

/-- `ReadCircuit` (scd/v_2_scd.h:72-110). `dff_size`, `gate_size`, `output_size` are the lengths of the lists
(`IdAssignment`, scd/parse_netlist.cpp:511-513, 560-562). `output_list` and `terminate_id` are unsigned in the code; a
negative number there stands for itself modulo 2^64, which is beyond the end of every array. -/
structure ReadCircuit where
  pInit : Nat
  gInit : Nat
  eInit : Nat
  pInput : Nat
  gInput : Nat
  eInput : Nat
  gates : List ReadGate
  dffs : List ReadGate
  outputs : List Int
  terminateId : Int
  schedule : List Int
deriving DecidableEq, Repr

/-- `init_input_dff_size` (scheduling.cpp:342-343; `get_init_input_size`, v_2_scd.h:91-94): the number of wires that are
not gates. -/
def ReadCircuit.iid (c : ReadCircuit) : Nat :=
  c.pInit + c.gInit + c.eInit + c.pInput + c.gInput + c.eInput + c.dffs.length

/-- `Mark` (scheduling.cpp:332-336). -/
inductive Mark where
  | un
  | temp
  | per
deriving DecidableEq, Repr

/-- The vectors `marks`, `sorted_list`. -/
structure SortState where
  marks : List Mark
  sorted : List Int

/-- `TopologicalSortVisit` (scheduling.cpp:338-376): SUCCESS with the new vectors, or FAILURE with `loop`. -/
def visit (c : ReadCircuit) (st : SortState) (idx : Int) : Option (Except (List Int) SortState) :=
  if idx < 0 then some (.ok st)
  else do
    let m ← getI st.marks idx
    match m with
    | .temp => some (.error [idx])
    | .un => do
      let marks ← setI st.marks idx .temp
      let g ← getI c.gates (idx - c.iid)
      let r0 ← visit c ⟨marks, st.sorted⟩ g.input0
      match r0 with
      | .error loop => some (.error (loop ++ [idx]))
      | .ok st => do
        let r1 ← visit c st g.input1
        match r1 with
        | .error loop => some (.error (loop ++ [idx]))
        | .ok st => do
          let marks ← setI st.marks idx .per
          some (.ok ⟨marks, st.sorted ++ [idx]⟩)
    | .per => some (.ok st)
partial_fixpoint

/-- The search for an unmarked gate (scheduling.cpp:402-408); `none`: there is no such gate. -/
def firstUnmarked (c : ReadCircuit) (marks : List Mark) : Option Int :=
  ((List.range c.gates.length).find? fun i => marks[c.iid + i]? = some .un).map fun i => ((c.iid + i : Nat) : Int)

/-- The `while` loop of `TopologicalSort` (scheduling.cpp:396-430). -/
def sortLoop (c : ReadCircuit) (st : SortState) : Option (Except (List Int) SortState) :=
  if st.sorted.length = c.iid + c.gates.length then some (.ok st)
  else match firstUnmarked c st.marks with
    | none => some (.ok st)
    | some w => do
      let r ← visit c st w
      match r with
      | .error loop => some (.error loop)
      | .ok st => sortLoop c st
partial_fixpoint

/-- `TopologicalSort` (scheduling.cpp:378-436): `sorted_list`, or `some none` for FAILURE. -/
def topologicalSort (c : ReadCircuit) : Option (Option (List Int)) := do
  let marks := (List.range (c.iid + c.gates.length)).map fun i => if i < c.iid then Mark.per else Mark.un
  let r ← sortLoop c ⟨marks, (List.range c.iid).map fun i : Nat => (i : Int)⟩
  match r with
  | .error _ => some none
  | .ok st => if st.sorted.length = c.iid + c.gates.length then some (some st.sorted) else some none

/-- `sorted_list_1` (scheduling.cpp:448-452). -/
def invertList (sorted : List Int) : Option (List Int) :=
  (List.range sorted.length).foldlM (fun (inv : List Int) (i : Nat) => do
    let w ← getI sorted i
    setI inv w i) (List.replicate sorted.length 0)

/-- The renumbering of a wire that is skipped for numbers up to 0 (scheduling.cpp:462-469, 475-488). -/
def renumber (inv : List Int) (w : Int) : Option Int := if 0 < w then getI inv w else some w

/-- One flip-flop (scheduling.cpp:461-472). -/
def renumberDff (inv : List Int) (g : ReadGate) : Option ReadGate := do
  let i0 ← renumber inv g.input0
  let i1 ← renumber inv g.input1
  let o ← getI inv g.output
  return { g with input0 := i0, input1 := i1, output := o }

/-- Gate `i` (scheduling.cpp:473-489). -/
def renumberGate (c : ReadCircuit) (inv : List Int) (i : Nat) : Option ReadGate := do
  let g ← getI c.gates i
  let o ← getI inv (c.iid + i : Nat)
  let i0 ← renumber inv g.input0
  let i1 ← renumber inv g.input1
  return { g with input0 := i0, input1 := i1, output := o }

/-- The two `CHECK_EXPR_MSG` (scheduling.cpp:478-480, 485-487). -/
def gateChecked (c : ReadCircuit) (new : List ReadGate) : Bool :=
  (List.range new.length).all fun i =>
    match c.gates[i]?, new[i]? with
    | some g, some g' => (!decide (0 < g.input0) || decide (g'.input0 < g'.output))
        && (!decide (0 < g.input1) || decide (g'.input1 < g'.output))
    | _, _ => true

/-- `SortNetlist` (scheduling.cpp:438-499); `some none` is FAILURE. Here the checks come after all gates are renumbered, in
the code after each of them, so that a failing check would hide an access outside of an array for a later gate. -/
def sortNetlist (c : ReadCircuit) : Option (Option ReadCircuit) := do
  let r ← topologicalSort c
  match r with
  | none => some none
  | some sorted => do
    let inv ← invertList sorted
    let schedule := (sorted.drop c.iid).map fun w : Int => w - (c.iid : Int)
    let dffs ← c.dffs.mapM (renumberDff inv)
    let gates ← (List.range c.gates.length).mapM (renumberGate c inv)
    if gateChecked c gates = false then some none
    else do
      let outputs ← c.outputs.mapM (getI inv)
      let terminateId ← (if c.terminateId ≠ 0 then getI inv c.terminateId else some 0 : Option Int)
      return some { c with gates := gates, dffs := dffs, outputs := outputs, terminateId := terminateId, schedule := schedule }

end TinyGarble
