import Verif.Model.StrApi
import Verif.Model.InputFile
import Verif.Model.Mapping
import Verif.Model.Protocol
import Verif.Model.Scd

/-!
# The programs

Models the `main` functions of V2SCD_Main (scd/v_2_scd_main.cpp), SCD_Evaluator_Main (scd/scd_evaluator_main.cpp) and TinyGarble
(garbled_circuit/garbled_circuit_main.cpp), and `CheckOptionsAlice` and `CheckOptionsBob`, which are not called. The command line is given as parsed
by Boost: the options with their defaults, not modelled are its errors and `--help`. A file system maps names to texts; what is not in it cannot be
opened for reading.
-/

namespace TinyGarble

/-! ## Comparison of options -/

/-- The arguments of `CheckOptionsAlice` and `CheckOptionsBob` (garbled_circuit_main.cpp:53-55, 82-84) except for the socket. -/
structure SharedOptions where
  scdFile : List Byte
  cycles : Nat
  mask : List Byte
  disableOT : Bool
  lowMem : Bool
deriving DecidableEq

/-- `string(buff)` for a buffer with the given contents: up to the first zero byte; without one, memory behind the buffer is read. -/
def cString (buff : List Byte) : Option (List Byte) := if 0 ∈ buff then some (buff.takeWhile (· ≠ 0)) else none

/-- The part of `CheckOptionsAlice` for a string (garbled_circuit_main.cpp:57-61, 65-69). -/
def sendString (s : List Byte) : Proc Unit :=
  (sendData (leBytes 4 s.length) 4).bind fun _ => if 0 < toInt32 s.length then sendData s s.length else .ret ()

/-- The part of `CheckOptionsBob` for a string (garbled_circuit_main.cpp:95-103, 107-115). -/
def recvString : Proc (List Byte) :=
  (recvData 4).bind fun l =>
  if toInt32 (leValue l) ≤ 0 then .ret []
  else (recvData (leValue l)).bind fun buff =>
    match cString buff with
    | some s => .ret s
    | none => .undef

/-- `SendData` of a `bool`. -/
def sendBool (b : Bool) : Proc Unit := sendData [if b then 1 else 0] 1

/-- `RecvData` of a `bool`; other values than 0 and 1 are none of its type. -/
def recvBool : Proc Bool :=
  (recvData 1).bind fun l => if leValue l = 0 then .ret false else if leValue l = 1 then .ret true else .undef

/-- `CheckOptionsAlice` (garbled_circuit_main.cpp:53-80): the returned status, 0 for SUCCESS and -1 for FAILURE. -/
def checkOptionsAlice (o : SharedOptions) : Proc Int :=
  (sendString o.scdFile).bind fun _ =>
  (sendData (leBytes 8 o.cycles) 8).bind fun _ =>
  (sendString o.mask).bind fun _ =>
  (sendBool o.disableOT).bind fun _ =>
  (sendBool o.lowMem).bind fun _ =>
  (recvData 4).bind fun l => .ret (toInt32 (leValue l))

/-- `CheckOptionsBob` (garbled_circuit_main.cpp:82-133). -/
def checkOptionsBob (o : SharedOptions) : Proc Int :=
  recvString.bind fun scdFile =>
  (recvData 8).bind fun l =>
  recvString.bind fun mask =>
  recvBool.bind fun disableOT =>
  recvBool.bind fun lowMem =>
  if scdFile ≠ o.scdFile ∨ leValue l ≠ o.cycles ∨ mask ≠ o.mask ∨ disableOT ≠ o.disableOT ∨ lowMem ≠ o.lowMem then
    (sendData (leBytes 4 (2 ^ 32 - 1)) 4).bind fun _ => .ret (-1)
  else (sendData (leBytes 4 0) 4).bind fun _ => .ret 0

/-! ## Files and results -/

/-- The files that can be opened for reading, with their texts. -/
abbrev Files := List Char → Option (List Char)

/-- The files after one has been written. -/
def Files.write (fs : Files) (name text : List Char) : Files := fun n => if n = name then some text else fs n

/-- How a program ends: its exit status and what it leaves. -/
inductive Exit (α : Type) where
  /-- `return SUCCESS` -/
  | success (a : α)
  /-- `return FAILURE` -/
  | failure
  /-- undefined behaviour, an exception or an endless loop -/
  | undefined
deriving DecidableEq

/-- The option `--output_mode` (garbled_circuit_main.cpp:218-235, scd_evaluator_main.cpp:97-115); `none` is an unknown one. -/
def parseMode : Option (List Char) → Option OutputMode
  | none => some .consecutive
  | some s =>
    if s = "0".toList ∨ s = "consecutive".toList then some .consecutive
    else if s = "1".toList ∨ s = "separated_clock".toList then some .separatedClock
    else if s = "2".toList ∨ s = "last_clock".toList then some .lastClock
    else none

/-- `ReadSCD` of a file (scd.cpp:46-51, then `readScd`). The file is opened with `std::ios::out`, for reading and writing, so it has to be writable.
`mem` is what the memory held before. -/
def openScd (writable : List Char → Bool) (fs : Files) (name : List Char) (mem : Circuit) : Option Circuit :=
  if writable name then (fs name).map fun text => readScd text mem else none

/-! ## V2SCD_Main -/

/-- The options `--netlist`, `--brist_netlist` and `--scd`; empty if not given. -/
structure ConvertOptions where
  netlist : List Char
  brist : List Char
  scd : List Char

/-- `WriteMapping` and `WriteSCD` (v_2_scd.cpp:45-56, 79-90) with the texts that they write; `writable` tells which files can be opened for
writing. -/
def writeOutputs (writable : List Char → Bool) (fs : Files) (scd : List Char) (map text : Option (Option (List Char))) : Exit Files :=
  match map with
  | none => .undefined
  | some none => .failure
  | some (some m) =>
    if writable (scd ++ ".map".toList) then
      match text with
      | none => .undefined
      | some none => .failure
      | some (some t) => if writable scd then .success ((fs.write (scd ++ ".map".toList) m).write scd t) else .failure
    else .failure

/-- The mapping file of a Bristol netlist: `ParseBrisNetlist`, then `WriteMapping` as for a Verilog netlist (scd/v_2_scd.cpp:60-83). The type is
that of `verilog2Map`. -/
def brist2Map (text : List Char) (junk0 : Nat → Nat) (junk : Nat → Nat → Nat) : Option (Option (List Char)) :=
  match parseBrist true text junk0 junk with
  | none => some none
  | some s => compileMap s

/-- `main` of V2SCD_Main (v_2_scd_main.cpp:70-102): the files afterwards. `junk0` and `junk` are for `Bris2SCD`. -/
def convertMain (writable : List Char → Bool) (fs : Files) (junk0 : Nat → Nat) (junk : Nat → Nat → Nat) (o : ConvertOptions) : Exit Files :=
  if o.scd = [] then .failure
  else if o.netlist ≠ [] then
    match fs o.netlist with
    | none => .failure
    | some text => writeOutputs writable fs o.scd (verilog2Map text) (verilog2Scd text)
  else if o.brist ≠ [] then
    match fs o.brist with
    | none => .failure
    | some text =>
      writeOutputs writable fs o.scd (brist2Map text junk0 junk) (brist2Scd text junk0 junk)
  else .failure

/-! ## SCD_Evaluator_Main -/

/-- The options of SCD_Evaluator_Main (scd_evaluator_main.cpp:46-72). The inputs are numbers or names of files. -/
structure EvaluatorOptions where
  scd : List Char
  cycles : Nat
  pInit : List Char
  gInit : List Char
  eInit : List Char
  pInput : List Char
  gInput : List Char
  eInput : List Char
  period : Nat
  mode : Option (List Char)

/-- The inputs (scd_evaluator_main.cpp:117-122). -/
def EvaluatorOptions.inputs (o : EvaluatorOptions) (fs : Files) : StrInputs :=
  ⟨readFileOrPassHex fs o.pInit, readFileOrPassHex fs o.gInit, readFileOrPassHex fs o.eInit, readFileOrPassHex fs o.pInput,
    readFileOrPassHex fs o.gInput, readFileOrPassHex fs o.eInput⟩

/-- `main` of SCD_Evaluator_Main (scd_evaluator_main.cpp:90-133): the line that it prints. The result of `EvalauatePlaintextStr` is ignored; when it
fails `output_str` is still empty. `w0` is what the array of wires holds. -/
def evaluatorMain (writable : List Char → Bool) (fs : Files) (mem : Circuit) (w0 : Nat → Bool) (o : EvaluatorOptions) : Exit (List Char) :=
  if o.scd = [] then .failure
  else match parseMode o.mode with
    | none => .failure
    | some mode =>
      .success ((evaluatePlaintextStr (openScd writable fs o.scd mem) (fs (o.scd ++ ".map".toList)).isSome (writable (o.scd ++ ".csv".toList))
        (o.inputs fs) w0 o.cycles o.period mode).getD [])

/-! ## TinyGarble -/

/-- The options of TinyGarble (garbled_circuit_main.cpp:161-200). The inputs are numbers or names of files. -/
structure RunOptions where
  alice : Bool
  bob : Bool
  scd : List Char
  pInit : List Char
  pInput : List Char
  init : List Char
  input : List Char
  cycles : Nat
  mask : List Char
  period : Nat
  mode : Option (List Char)
  disableOT : Bool
  lowMem : Bool

/-- The arguments of `GarbleStr` and `EvaluateStr` (garbled_circuit_main.cpp:256-259, 277-279, 314-316). -/
def RunOptions.args (o : RunOptions) (fs : Files) (mode : OutputMode) : StrArgs :=
  ⟨readFileOrPassHex fs o.pInit, readFileOrPassHex fs o.pInput, readFileOrPassHex fs o.init, readFileOrPassHex fs o.input, o.cycles, o.mask,
    o.period, mode, o.disableOT, o.lowMem⟩

/-- `main` of TinyGarble (garbled_circuit_main.cpp:218-329) up to and including the printed line; `connected` tells whether `ServerInit` or
`ClientInit` succeeds. With both `--alice` and `--bob` the program is Alice. -/
def tinyGarbleMain (cr : Crypto) (writable : List Char → Bool) (fs : Files) (mem : Circuit) (connected : Bool) (G : GEnv) (E : EEnv)
    (o : RunOptions) : Proc (List Char) :=
  match parseMode o.mode with
  | none => .fail
  | some mode =>
    if o.alice = false ∧ o.bob = false then .fail
    else if connected = false then .fail
    else if o.alice then garbleStr cr (openScd writable fs o.scd mem) (o.args fs mode) G
    else evaluateStr cr (openScd writable fs o.scd mem) (o.args fs mode) E

end TinyGarble
