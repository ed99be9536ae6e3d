import Verif.Model.StrApi
import Verif.Model.InputFile
import Verif.Model.OTExt

/-!
# The test of a garbled execution

`TcpipTestRun` (tcpip/tcpip_testsuit.cpp:34-102), which runs two functions as server and as client in
two processes, `Alice` and `Bob` (garbled_circuit/garbled_circuit_testing.cpp:56-106), which compare
the results with expected ones, `main` of garbled_circuit/a23_test_main.cpp:37-139 after the
parsing of the options, the tests of garbled_circuit_test.cpp, crypto/OT_test.cpp,
crypto/OT_extension_test.cpp and tcpip/tcpip_test.cpp, and the counters of util/minunit.h.
-/

namespace TinyGarble

/-- `FAILURE` (util/common.h:33). -/
def testFailure : Int := -1
/-- `SUCCESS` (util/common.h:34). -/
def testSuccess : Int := 0

/-- A program whose result is checked: FAILURE if the check fails. -/
def checkedBy {α : Type} (p : Proc α) (ok : α → Bool) : Proc Unit :=
  p.bind fun r => if ok r = false then .fail else .ret ()

/-- `Alice` and `Bob` (garbled_circuit_testing.cpp:56-79, 81-106): `p` is the call of `GarbleStr` or
`EvaluateStr`. -/
def checkedAgainst (p : Proc (List Char)) (expected : List Char) : Proc Unit :=
  checkedBy p fun output_str => !decide (output_str ≠ expected)

/-- What the operating system decides in `TcpipTestRun`: whether trial `i` of opening the socket succeeds,
whether `fork`, `ServerWaitForClient` and `ClientInit` succeed, and the signal by which the child is
killed before it exits, if any (a signal has a number from 1 to 127). Closing always succeeds
(tcpip.cpp:94-98, 134-137), and `waitpid` is taken to succeed. -/
structure TestWorld where
  opens : Nat → Bool
  fork : Bool
  accept : Bool
  connect : Bool
  killed : Option (Fin 127)

/-- The loop over ports (tcpip_testsuit.cpp:42-53) from trial `i` on: whether the function goes on. -/
def openTrials (opens : Nat → Bool) : Nat → Nat → Bool
  | 0, _ => true
  | n + 1, i =>
    if opens i = false then
      if i = 20 - 1 then false else openTrials opens n (i + 1)
    else true

/-- The argument of `exit` in the child (tcpip_testsuit.cpp:57-74); `none`: the client function returns FAILURE. -/
def clientExit (connect : Bool) (client : Option Unit) : Int :=
  if connect = false then testFailure
  else match client with
    | none => testFailure
    | some () => testSuccess

/-- The status that `waitpid` stores: the low byte of the argument of `exit` times 256, or the number of the
signal (Linux). -/
def waitStatus (killed : Option (Fin 127)) (code : Int) : Nat :=
  match killed with
  | some s => s.val + 1
  | none => (code % 256).toNat * 256

/-- `((char) WEXITSTATUS(status)) != SUCCESS || WIFEXITED(status) == false` (tcpip_testsuit.cpp:90-91). -/
def clientFailed (status : Nat) : Bool :=
  decide ((BitVec.ofNat 8 (status / 256)).toInt ≠ testSuccess) || decide (status % 128 ≠ 0)

/-- `TcpipTestRun` (tcpip_testsuit.cpp:34-102), with the results of the two functions; the server does not wait for the
client if it fails itself. -/
def tcpipTestRun (w : TestWorld) (server client : Option Unit) : Int :=
  if openTrials w.opens 20 0 = false then testFailure
  else if w.fork = false then testFailure
  else if w.accept = false then testFailure
  else match server with
    | none => testFailure
    | some () => if clientFailed (waitStatus w.killed (clientExit w.connect client)) then testFailure else testSuccess

/-- The pattern of a test: a23_test_main.cpp:86-136 and the tests of garbled_circuit_test.cpp (e.g. 44-92, 96-146): the
inputs, the number of cycles, the mask, who gets the outputs, and the modes. -/
structure NetlistTest where
  inputs : StrInputs
  cycles : Nat
  mask : List Char
  toAlice : Bool
  period : Nat
  mode : OutputMode
  disableOT : Bool
  lowMem : Bool

/-- Alice's arguments (a23_test_main.cpp:116-121). -/
def NetlistTest.alice (t : NetlistTest) : StrArgs :=
  ⟨t.inputs.pInit, t.inputs.pInput, t.inputs.gInit, t.inputs.gInput, t.cycles, t.mask, t.period, t.mode, t.disableOT, t.lowMem⟩

/-- Bob's arguments (a23_test_main.cpp:122-127). -/
def NetlistTest.bob (t : NetlistTest) : StrArgs :=
  ⟨t.inputs.pInit, t.inputs.pInput, t.inputs.eInit, t.inputs.eInput, t.cycles, t.mask, t.period, t.mode, t.disableOT, t.lowMem⟩

/-- The expected result: the call of `EvalauatePlaintextStr` (a23_test_main.cpp:108-111); `none`: the test returns FAILURE
here. -/
def NetlistTest.expected (t : NetlistTest) (file : Option Circuit) (mapFile csvFile : Bool) (w0 : Nat → Bool) : Option (List Char) :=
  evaluatePlaintextStr file mapFile csvFile t.inputs w0 t.cycles t.period t.mode

/-- The string that Alice expects: "0" (a23_test_main.cpp:90), in the test with a mask the result of the plaintext evaluator
(garbled_circuit_test.cpp:396). -/
def NetlistTest.aliceOutput (t : NetlistTest) (output_str : List Char) : List Char := if t.toAlice then output_str else "0".toList

/-- The string that Bob expects: the result of the plaintext evaluator (a23_test_main.cpp:125), in the test with a mask "0"
(garbled_circuit_test.cpp:397). -/
def NetlistTest.bobOutput (t : NetlistTest) (output_str : List Char) : List Char := if t.toAlice then "0".toList else output_str

/-- The server. -/
def NetlistTest.server (t : NetlistTest) (cr : Crypto) (file : Option Circuit) (output_str : List Char) (G : GEnv) : Proc Unit :=
  checkedAgainst (garbleStr cr file t.alice G) (t.aliceOutput output_str)

/-- The client. -/
def NetlistTest.client (t : NetlistTest) (cr : Crypto) (file : Option Circuit) (output_str : List Char) (E : EEnv) : Proc Unit :=
  checkedAgainst (evaluateStr cr file t.bob E) (t.bobOutput output_str)

/-- The test of a23_test_main.cpp:86-107: no inputs, all outputs for Bob, `last_clock`, with OT, low memory. -/
def a23Test (fs : List Char → Option (List Char)) (p_init g_init e_init : List Char) (cycles period : Nat) : NetlistTest :=
  ⟨⟨readFileOrPassHex fs p_init, readFileOrPassHex fs g_init, readFileOrPassHex fs e_init, [], [], []⟩, cycles, "0".toList, false, period,
    .lastClock, false, true⟩

/-! ## Oblivious transfer and connection -/

/-- `Bob` of OT_test.cpp:71-78 (and OT_extension_test.cpp): the loop that compares; all messages are compared. -/
def otChecked (message : Nat → Nat → Block) (select : Nat → Bool) (len : Nat) (message_recv : Nat → Block) : Bool :=
  (List.range len).foldl (fun test_passed i =>
    if !decide (message i (if select i then 1 else 0) = message_recv i) then false else test_passed) true

/-- `Bob` of OT_test.cpp:57-90. `Alice` (lines 39-55) is `otSend`. -/
def otTestBob (message : Nat → Nat → Block) (select : Nat → Bool) (len : Nat) (rk : Nat → Nat) : Proc Unit :=
  checkedBy (otRecv select len rk) (otChecked message select len)

/-- `Bob` of OT_extension_test.cpp:57-90. `Alice` is `otExtSend`. -/
def otExtTestBob (H : List Byte → List Byte) (message : Nat → Nat → Block) (select : Nat → Bool) (len : Nat) (co : ExtRecvCoins) : Proc Unit :=
  checkedBy (otExtRecv H select len co) (otChecked message select len)

/-- `strcmp(a, b) == 0`: equal up to the first zero byte. Reading past the end of `b` is not possible when `b` is as long as `a`
with its zero byte; the lists end here. -/
def strEq : List Byte → List Byte → Bool
  | a :: as, b :: bs => if a ≠ b then false else if a = 0 then true else strEq as bs
  | [], [] => true
  | _, _ => false

/-- `ServerFunc` (tcpip_test.cpp:28-44) on the string `data` without its zero byte; the buffers are not released. -/
def echoServer (data : List Byte) : Proc Unit :=
  checkedBy ((recvData (data.length + 1)).bind fun data_recv =>
      (sendData (data ++ [0]) (data.length + 1)).bind fun _ => .ret data_recv)
    fun data_recv => strEq (data ++ [0]) data_recv

/-- `ClientFunc` (tcpip_test.cpp:47-63). -/
def echoClient (data : List Byte) : Proc Unit :=
  checkedBy ((sendData (data ++ [0]) (data.length + 1)).bind fun _ => recvData (data.length + 1))
    fun data_recv => strEq (data ++ [0]) data_recv

/-! ## minunit -/

/-- The counters of util/minunit.h:65-68. -/
structure MinUnit where
  run : Nat := 0
  assert : Nat := 0
  fail : Nat := 0
  status : Bool := false

/-- The body of a test: the conditions of its assertions in order (`mu_check`, `mu_assert`, minunit.h:134-143, 152-161): a failing
one sets the status and returns from the test. -/
def muBody : List Bool → MinUnit → MinUnit
  | [], u => u
  | c :: cs, u =>
    let u := { u with assert := u.assert + 1 }
    if !c then { u with status := true } else muBody cs u

/-- `MU_RUN_TEST` (minunit.h:103-119). -/
def muRunTest (test : List Bool) (u : MinUnit) : MinUnit :=
  let u := muBody test { u with status := false }
  let u := { u with run := u.run + 1 }
  if u.status then { u with fail := u.fail + 1 } else u

/-- `MU_RUN_SUITE` (minunit.h:90-94). -/
def muSuite (tests : List (List Bool)) : MinUnit := tests.foldl (fun u t => muRunTest t u) {}

/-- The numbers that `MU_REPORT` prints (minunit.h:122-131): tests, assertions, failures. -/
def muReport (u : MinUnit) : Nat × Nat × Nat := (u.run, u.assert, u.fail)

/-- `main` of garbled_circuit_test.cpp:1145-1156 (and util_test.cpp:92-99, BN_test.cpp:149-156, scd_evaluator_test.cpp:491-499,
v_2_scd_test.cpp:63-71): what is printed, and the exit status. -/
def muMain (tests : List (List Bool)) : (Nat × Nat × Nat) × Int :=
  (muReport (muSuite tests), testSuccess)

end TinyGarble
