import Verif.Model.Str
import Verif.Model.Plain

/-!
# The functions called by applications

`GarbleStr`, `EvaluateStr` (garbled_circuit/garbled_circuit.cpp) and `EvalauatePlaintextStr`
(scd/scd_evaluator.cpp) with their string arguments and results. The circuit file is a parameter: the
circuit `ReadSCD` returns, `none` if it returns FAILURE (see `Verif.Model.Scd`).
-/

namespace TinyGarble

/-- The arguments of `GarbleStr`/`EvaluateStr` (garbled_circuit.cpp:52-57, 130-135). -/
structure StrArgs where
  pInit : List Char
  pInput : List Char
  init : List Char
  input : List Char
  cycles : Nat
  mask : List Char
  period : Nat
  mode : OutputMode
  disableOT : Bool
  lowMem : Bool

/-- The numbers, by `ParseInitInputStr` (garbled_circuit_util.cpp:70-77), which ignores the results of
`BN_hex2bn`; the mask is parsed likewise (garbled_circuit_low_mem.cpp:1099-1100). -/
def StrArgs.parse (s : StrArgs) : Args :=
  ⟨hex2bn s.pInit, hex2bn s.pInput, hex2bn s.init, hex2bn s.input, s.cycles, hex2bn s.mask, s.period, s.mode, s.disableOT,
    s.lowMem⟩

/-- The string from the number and the final number of cycles (garbled_circuit.cpp:108-110, 118-120). -/
def Args.outputStr (A : Args) (c : Circuit) (r : Nat × Nat) : List Char :=
  if A.useLow then outputStrLow c.outputSize r.1 r.2 A.mode else outputStrHigh c.outputSize r.1 r.2 A.mode

/-- `GarbleStr` (garbled_circuit.cpp:52-128). -/
def garbleStr (cr : Crypto) (file : Option Circuit) (s : StrArgs) (G : GEnv) : Proc (List Char) :=
  if s.cycles = 0 then .fail
  else match file with
    | none => .fail
    | some c => (garbleBN cr c s.parse G).bind fun r => .ret (s.parse.outputStr c r)

/-- `EvaluateStr` (garbled_circuit.cpp:130-200). -/
def evaluateStr (cr : Crypto) (file : Option Circuit) (s : StrArgs) (E : EEnv) : Proc (List Char) :=
  if s.cycles = 0 then .fail
  else match file with
    | none => .fail
    | some c => (evaluateBN cr c s.parse E).bind fun r => .ret (s.parse.outputStr c r)

/-- The six numbers of `EvalauatePlaintextStr`, as strings. -/
structure StrInputs where
  pInit : List Char
  gInit : List Char
  eInit : List Char
  pInput : List Char
  gInput : List Char
  eInput : List Char

/-- `BN_hex2bn` on each (scd_evaluator.cpp:267-272). -/
def StrInputs.parse (s : StrInputs) : Inputs :=
  ⟨hex2bn s.pInit, hex2bn s.gInit, hex2bn s.eInit, hex2bn s.pInput, hex2bn s.gInput, hex2bn s.eInput⟩

/-- `EvalauatePlaintext` with its files (scd_evaluator.cpp:32-250): `mapFile`, `csvFile` tell whether the `.map` and
`.csv` files can be opened. Result: whether SUCCESS is returned, the output number, the cycles. The contents of
the `.map` file only influence the `.csv` file; a line without two words is undefined behaviour that is not
modelled. -/
def evaluatePlaintextFiles (mapFile csvFile : Bool) (c : Circuit) (x : Inputs) (w0 : Nat → Bool) (cycles period : Nat) :
    Bool × Nat × Nat :=
  if mapFile && csvFile then (true, evaluatePlaintext c x w0 cycles period) else (false, 0, cycles)

/-- `EvalauatePlaintextStr` (scd_evaluator.cpp:252-301): `none` is FAILURE. The result of `EvalauatePlaintext` is
ignored (scd_evaluator.cpp:294-296). -/
def evaluatePlaintextStr (file : Option Circuit) (mapFile csvFile : Bool) (s : StrInputs) (w0 : Nat → Bool)
    (cycles period : Nat) (mode : OutputMode) : Option (List Char) :=
  match file with
  | none => none
  | some c =>
    if period ≠ 0 ∧ c.terminateId = 0 then none
    else
      let r := evaluatePlaintextFiles mapFile csvFile c s.parse w0 cycles period
      some (outputStrHigh c.outputSize r.2.1 r.2.2 mode)

end TinyGarble
