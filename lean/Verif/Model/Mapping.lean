import Verif.Model.Verilog

/-!
# The mapping file

Models `WriteMapping` (scd/scheduling.cpp:501-527) and its calls (scd/v_2_scd.cpp:46-50, 79-83), when the file can be written.
A result `none` means an access outside of an array.
-/

namespace TinyGarble

/-- One line: a name, a number. -/
def mapLine (name : Name) (w : List Char) : List Char := name ++ ' ' :: (w ++ ['\n'])

/-- `WriteMapping` (scheduling.cpp:501-527): `output` is an `int64_t`, `terminate_id` a `uint64_t`. -/
def writeMapping (s : CircuitStr) (c : ReadCircuit) : Option (List Char) := do
  let dffs ← (List.range c.dffs.length).mapM fun i => do
    let g ← s.dffs[i]?
    let w ← c.dffs[i]?
    return mapLine g.output (printInt w.output)
  let gates ← (List.range c.gates.length).mapM fun i => do
    let gid ← c.schedule[i]?
    let g ← getI s.gates gid
    let w ← getI c.gates gid
    return mapLine g.output (printInt w.output)
  return dffs.flatten ++ gates.flatten ++ mapLine "terminate".toList (printU64 c.terminateId)

/-- `compile` with the contents of the `.map` file instead of those of the `.scd` file (v_2_scd.cpp:37-50, 70-83). -/
def compileMap (s : CircuitStr) : Option (Option (List Char)) :=
  match idAssignment true s with
  | none => some none
  | some c => do
    let r ← sortNetlist c
    match r with
    | none => some none
    | some c => do
      let file ← writeMapping s c
      return some file

/-- The `.map` file of `Verilog2SCD` (v_2_scd.cpp:29-50), compiled with ENABLE_LOG. -/
def verilog2Map (file : List Char) : Option (Option (List Char)) :=
  match parseNetlist true file with
  | none => none
  | some none => some none
  | some (some s) => compileMap s

end TinyGarble
