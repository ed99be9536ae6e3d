import Verif.Model.OTExt
import Verif.Model.Net
import Verif.Model.Run

/-!
# The protocol

Models the transfer of labels, tables, outputs and the terminate signal, and the functions
`GarbleBNLowMem`, `EvaluateBNLowMem` (garbled_circuit_low_mem.cpp:49-344), `GarbleBNHighMem`,
`EvaluateBNHighMem` (garbled_circuit_high_mem.cpp:50-728) together with the exchange of the global
key in `GarbleStr`/`EvaluateStr` (garbled_circuit.cpp:98-99, 166-167).

Random choices, cryptographic functions and the contents of uninitialised memory are parameters
(`Crypto`, `GEnv`, `EEnv`). Simplifications: the `int` argument of `BN_is_bit_set` and the `uint`
loop counters do not overflow (bit positions below 2^31, cycles below 2^32); memory allocation does
not fail; timing and logging are left out.
-/

namespace TinyGarble

/-- `OutputMode` (util/util.h:39-43). -/
inductive OutputMode where
  | consecutive
  | separatedClock
  | lastClock
deriving DecidableEq, Repr

/-- The arguments of `GarbleStr`/`EvaluateStr` after parsing (garbled_circuit.cpp:52-57, 130-135):
`init`, `input` are the party's own secret numbers. -/
structure Args where
  pInit : Nat
  pInput : Nat
  init : Nat
  input : Nat
  cycles : Nat
  mask : Nat
  period : Nat
  mode : OutputMode
  disableOT : Bool
  lowMem : Bool

/-- AES under a key, and the digest of the oblivious transfer. -/
structure Crypto where
  enc : Block → Block → Block
  H : List Byte → List Byte

/-- What else the garbler's execution depends on: the values returned by `RandomBlock` in order, the
random choices of the oblivious transfers (transfer 0 is that of the initial values in low-memory mode
and the only one in high-memory mode, transfer `cid + 1` that of cycle `cid`), uninitialised memory:
use counts, wire arrays, and the padding bytes of the table array. -/
structure GEnv where
  rnd : Nat → Block
  ot : Nat → OTSendCoins
  ext : Nat → ExtSendCoins
  fan0 : Nat → Nat
  st0 : GState
  pad : Nat → Nat → Nat → Byte

/-- What else the evaluator's execution depends on: random choices of the transfers, uninitialised
memory: use counts, wire arrays, label arrays, output arrays. -/
structure EEnv where
  rk : Nat → Nat → Nat
  ext : Nat → ExtRecvCoins
  fan0 : Nat → Nat
  st0 : EState
  init0 : Nat → Block
  input0 : Nat → Block
  out0 : Nat → Block × WVal

/-! ## Labels -/

/-- A fresh pair: `label0 = RandomBlock()`, `label1 = XorBlock(R, label0)` (low_mem.cpp:763-764). -/
def mkPair (R label0 : Block) : BlockPair := ⟨label0, xorBlock R label0⟩

/-- `R = RandomBlock(); *((short *) (&R)) |= 1` (garbled_circuit.cpp:77-78): the first draw. -/
def offsetOf (rnd : Nat → Block) : Block := rnd 0 ||| 1#128

/-- `global_key = RandomBlock()` (garbled_circuit.cpp:98): the second draw. -/
def keyOf (rnd : Nat → Block) : Block := rnd 1

/-- Draws wasted in `GarbleAllocLabels` (low_mem.cpp:758-766). -/
def wastedLow (c : Circuit) : Nat := if 0 < c.initSize then c.secretInitSize else 0

/-- `init_labels` in low-memory mode: `GarbleAllocLabels` draws them, `GarbleGneInitLabels` draws them
again (low_mem.cpp:752-796). -/
def initLabelsLow (c : Circuit) (rnd : Nat → Block) (k : Nat) : BlockPair :=
  mkPair (offsetOf rnd) (rnd (2 + wastedLow c + k))

/-- `input_labels` of cycle `cid` in low-memory mode (`GarbleGenInputLabels`, low_mem.cpp:798-807). -/
def inputLabelsLow (c : Circuit) (rnd : Nat → Block) (cid k : Nat) : BlockPair :=
  mkPair (offsetOf rnd) (rnd (2 + wastedLow c + c.secretInitSize + cid * c.secretInputSize + k))

/-- `init_labels` in high-memory mode (`GarbleMakeLabels`, high_mem.cpp:958-966): also pairs for the
public values are drawn. -/
def initLabelsHigh (rnd : Nat → Block) (k : Nat) : BlockPair := mkPair (offsetOf rnd) (rnd (2 + k))

/-- `input_labels` in high-memory mode (high_mem.cpp:972-987), indexed as in memory: cycle `cid` uses
the entries from `cid * get_secret_input_size()` on. -/
def inputLabelsHigh (c : Circuit) (rnd : Nat → Block) (j : Nat) : BlockPair :=
  mkPair (offsetOf rnd) (rnd (2 + c.initSize + j))

/-- The label sent for bit `i` of `n` (low_mem.cpp:972, 1010-1012 and the other copies). -/
def pick (l : BlockPair) (n i : Nat) : Block :=
  if numBits n ≤ i ∨ n.testBit i = false then l.label0 else l.label1

/-- Loop that sends labels `base, …, base + size - 1` according to the bits of `n` from `off` on
(low_mem.cpp:971-977, 983-995, 1009-1018, 1024-1038; high_mem.cpp:823-849, 854-893). -/
def sendLabels (lab : Nat → BlockPair) (base n off size : Nat) : Proc Unit :=
  .forP (fun i _ => sendData (blockBytes (pick (lab (base + i)) n (off + i))) 16) size ()

/-- Loop that receives labels `base, …, base + size - 1` (low_mem.cpp:1051-1053, 1058-1062, 1074-1076,
1081-1085; high_mem.cpp:912-924, 929-943). -/
def recvLabels (base size : Nat) (mem : Nat → Block) : Proc (Nat → Block) :=
  .forP (fun i mem => (recvData 16).bind fun l => .ret (upd mem (base + i) (bytesBlock l))) size mem

/-- The choice between the two transfers (low_mem.cpp:855-859, 888-892; high_mem.cpp:756-760).
`message_len` is a `uint32_t`; when the size does not fit, the code writes outside of `message`. -/
def garbleOT (cr : Crypto) (m : Nat → Nat → Block) (len : Nat) (co : OTSendCoins) (ce : ExtSendCoins) : Proc Unit :=
  if 2 ^ 32 ≤ len then .undef
  else if 128 < len then otExtSend cr.H m len ce else otSend m len co

/-- The evaluator's side (low_mem.cpp:919-923, 951-955; high_mem.cpp:796-800). -/
def evalOT (cr : Crypto) (sel : Nat → Bool) (len : Nat) (rk : Nat → Nat) (ce : ExtRecvCoins) : Proc (Nat → Block) :=
  if 2 ^ 32 ≤ len then .undef
  else if 128 < len then otExtRecv cr.H sel len ce else otRecv sel len rk

/-- `message[i][j]` for a pair (low_mem.cpp:850-852). -/
def BlockPair.get (p : BlockPair) (j : Nat) : Block := if j = 0 then p.label0 else p.label1

/-- `GarbleTransferInitLabels` (with `cid = 0`, `gSize = g_init_size`, `eSize = e_init_size`) and
`GarbleTransferInputLabels` (`gSize = g_input_size`, `eSize = e_input_size`), including
`GarbleOTInitLowMem`, `GarbleOTInputLowMem` (low_mem.cpp:838-902, 966-1045). -/
def garbleTransferLow (cr : Crypto) (gSize eSize cid : Nat) (gNum : Nat) (lab : Nat → BlockPair) (disableOT : Bool)
    (co : OTSendCoins) (ce : ExtSendCoins) : Proc Unit :=
  (sendLabels lab 0 gNum (cid * gSize) gSize).bind fun _ =>
  if disableOT then
    recvBN.bind fun eNum => sendLabels lab gSize eNum.natAbs (cid * eSize) eSize
  else if eSize = 0 then .ret ()
  else garbleOT cr (fun i j => (lab (i + gSize)).get j) eSize co ce

/-- `EvaluateTransferInitLabels`, `EvaluateTransferInputLabels`, `EvalauteOTInitLowMem`,
`EvalauteOTInputLowMem` (low_mem.cpp:904-964, 1047-1092): the label memory afterwards. -/
def evalTransferLow (cr : Crypto) (gSize eSize cid : Nat) (eNum : Nat) (mem : Nat → Block) (disableOT : Bool)
    (rk : Nat → Nat) (ce : ExtRecvCoins) : Proc (Nat → Block) :=
  (recvLabels 0 gSize mem).bind fun mem =>
  if disableOT then
    (sendBN eNum).bind fun _ => recvLabels gSize eSize mem
  else if eSize = 0 then .ret mem
  else (evalOT cr (fun i => eNum.testBit (cid * eSize + i)) eSize rk ce).bind fun m =>
    .ret (setRange mem gSize eSize m)

/-- `message` of `GarbleOT` (high_mem.cpp:736-754): first the evaluator's initial values, then its
inputs, cycle by cycle. -/
def messageHigh (c : Circuit) (initLab inputLab : Nat → BlockPair) (i j : Nat) : Block :=
  if i < c.eInit then (initLab (i + c.gInit)).get j
  else (inputLab ((i - c.eInit) / c.eInput * c.secretInputSize + (i - c.eInit) % c.eInput + c.gInput)).get j

/-- `select` of `EvalauteOT` (high_mem.cpp:779-789). -/
def selectHigh (c : Circuit) (eInit eInput : Nat) (i : Nat) : Bool :=
  if i < c.eInit then eInit.testBit i
  else eInput.testBit ((i - c.eInit) / c.eInput * c.eInput + (i - c.eInit) % c.eInput)

/-- `GarbleTransferLabels`, `GarbleOT` (high_mem.cpp:730-770, 818-905). -/
def garbleTransferHigh (cr : Crypto) (c : Circuit) (A : Args) (initLab inputLab : Nat → BlockPair)
    (co : OTSendCoins) (ce : ExtSendCoins) : Proc Unit :=
  (sendLabels initLab 0 A.init 0 c.gInit).bind fun _ =>
  (Proc.forP (fun cid _ => sendLabels inputLab (cid * c.secretInputSize) A.input (cid * c.gInput) c.gInput)
    A.cycles ()).bind fun _ =>
  if A.disableOT then
    recvBN.bind fun eInit =>
    (sendLabels initLab c.gInit eInit.natAbs 0 c.eInit).bind fun _ =>
    recvBN.bind fun eInput =>
    Proc.forP (fun cid _ => sendLabels inputLab (cid * c.secretInputSize + c.gInput) eInput.natAbs
      (cid * c.eInput) c.eInput) A.cycles ()
  else garbleOT cr (messageHigh c initLab inputLab) (c.eInit + A.cycles * c.eInput) co ce

/-- `EvaluateTransferLabels`, `EvalauteOT` (high_mem.cpp:772-816, 907-952): both label arrays. -/
def evalTransferHigh (cr : Crypto) (c : Circuit) (A : Args) (init0 input0 : Nat → Block)
    (rk : Nat → Nat) (ce : ExtRecvCoins) : Proc ((Nat → Block) × (Nat → Block)) :=
  (recvLabels 0 c.gInit init0).bind fun init =>
  (Proc.forP (fun cid mem => recvLabels (cid * c.secretInputSize) c.gInput mem) A.cycles input0).bind fun input =>
  if A.disableOT then
    (sendBN A.init).bind fun _ =>
    (recvLabels c.gInit c.eInit init).bind fun init =>
    (sendBN A.input).bind fun _ =>
    (Proc.forP (fun cid mem => recvLabels (cid * c.secretInputSize + c.gInput) c.eInput mem) A.cycles input).bind
      fun input => .ret (init, input)
  else
    (evalOT cr (selectHigh c A.init A.input) (c.eInit + A.cycles * c.eInput) rk ce).bind fun m =>
    .ret (setRange init c.gInit c.eInit m,
      forLoop (fun cid mem => setRange mem (cid * c.secretInputSize + c.gInput) c.eInput
        (fun i => m (c.eInit + cid * c.eInput + i))) A.cycles input)

/-! ## Tables -/

/-- The 48 bytes of a `GarbledTable` in memory (garbled_circuit_util.h:65-68): two rows, the gate
number, 12 bytes of padding that are never written. -/
def tableMem (t : Table) (pad : Nat → Byte) : List Byte :=
  blockBytes t.row0 ++ blockBytes t.row1 ++ leBytes 4 t.gid.toNat ++ (List.range 12).map pad

/-- A `GarbledTable` read from memory. -/
def tableOf (l : List Byte) : Table :=
  ⟨bytesBlock (l.take 16), bytesBlock ((l.drop 16).take 16), BitVec.ofNat 32 (leValue ((l.drop 32).take 4))⟩

/-- The array of tables in memory. -/
def tablesMem (tabs : List Table) (pad : Nat → Nat → Byte) : List Byte :=
  (List.range tabs.length).flatMap fun i => tableMem (tabs.getD i ⟨0, 0, 0⟩) (pad i)

/-- The tables read from memory. -/
def tablesOf (l : List Byte) : List Table :=
  (List.range (l.length / tableBytes)).map fun i => tableOf (l.drop (i * tableBytes))

/-- Sending the tables of a cycle (low_mem.cpp:136-142; high_mem.cpp:390-395). -/
def sendTables (tabs : List Table) (pad : Nat → Nat → Byte) : Proc Unit :=
  (sendData (leBytes 8 tabs.length) 8).bind fun _ => sendData (tablesMem tabs pad) (tabs.length * tableBytes)

/-- Receiving the tables of a cycle (low_mem.cpp:271-277; high_mem.cpp:493-497): the announced number
and the tables. The number is not compared with the size of the buffer, `NumOfNonXor` tables. -/
def recvTables (c : Circuit) : Proc (Nat × List Table) :=
  (recvData 8).bind fun l =>
  if ((numOfNonXor c * tableBytes : Nat) : Int) < toInt32 (leValue l * tableBytes) then .undef
  else (recvData (leValue l * tableBytes)).bind fun bytes => .ret (leValue l, tablesOf bytes)

/-! ## Outputs -/

/-- A `short` holding a bit, in memory. -/
def shortBytes (b : Bool) : List Byte := leBytes 2 (if b then 1 else 0)

/-- The `short` in memory equals the one holding bit `b`. -/
def shortIs (l : List Byte) (b : Bool) : Bool := decide (leValue l = if b then 1 else 0)

/-- Iteration `i` of the output loop of the garbler (`GarbleTransferOutputLowMem`,
low_mem.cpp:1112-1136; `GarbleTransferOutput`, high_mem.cpp:1036-1061). -/
def garbleOutputStep (mask : Nat) (lab : Nat → BlockPair) (val : Nat → WVal) (off i : Nat) (out : Nat) : Proc Nat :=
  match val i with
  | .pub false => .ret (bnSetBit out (off + i) false)
  | .pub true =>
    if i < numBits mask ∧ mask.testBit i = true then .ret (bnSetBit out (off + i) true) else .ret out
  | .sec _ =>
    if numBits mask ≤ i ∨ mask.testBit i = false then
      (sendData (shortBytes (getLSB (lab i).label0)) 2).bind fun _ => .ret (bnSetBit out (off + i) false)
    else
      (recvData 2).bind fun l => .ret (bnSetBit out (off + i) (!shortIs l (getLSB (lab i).label0)))

/-- The garbler's output loop for one cycle. -/
def garbleOutputs (mask : Nat) (lab : Nat → BlockPair) (val : Nat → WVal) (off n : Nat) (out : Nat) : Proc Nat :=
  .forP (garbleOutputStep mask lab val off) n out

/-- Iteration `i` of the output loop of the evaluator (`EvaluateTransferOutputLowMem`,
low_mem.cpp:1159-1183; `EvaluateTransferOutput`, high_mem.cpp:1077-1102). -/
def evalOutputStep (mask : Nat) (lab : Nat → Block) (val : Nat → WVal) (off i : Nat) (out : Nat) : Proc Nat :=
  match val i with
  | .pub false => .ret (bnSetBit out (off + i) false)
  | .pub true =>
    if numBits mask ≤ i ∧ mask.testBit i = false then .ret (bnSetBit out (off + i) true) else .ret out
  | .sec _ =>
    if numBits mask ≤ i ∨ mask.testBit i = false then
      (recvData 2).bind fun l => .ret (bnSetBit out (off + i) (!shortIs l (getLSB (lab i))))
    else
      (sendData (shortBytes (getLSB (lab i))) 2).bind fun _ => .ret (bnSetBit out (off + i) false)

/-- The evaluator's output loop for one cycle. -/
def evalOutputs (mask : Nat) (lab : Nat → Block) (val : Nat → WVal) (off n : Nat) (out : Nat) : Proc Nat :=
  .forP (evalOutputStep mask lab val off) n out

/-- `output_bit_offset` in low-memory mode (low_mem.cpp:1103-1110, 1150-1157). -/
def outputOffset (c : Circuit) (mode : OutputMode) (cid : Nat) : Nat :=
  match mode with
  | .consecutive => cid * c.outputSize
  | .separatedClock => cid * c.outputSize
  | .lastClock => 0

/-! ## Terminate signal -/

/-- `GarbleTransferTerminate` (garbled_circuit_util.cpp:591-608). -/
def garbleTerminate (lab : BlockPair) (val : WVal) : Proc Bool :=
  match val with
  | .pub b => .ret b
  | .sec _ =>
    (sendData (shortBytes (getLSB lab.label0)) 2).bind fun _ =>
    (recvData 2).bind fun l => .ret (shortIs l (getLSB lab.label0))

/-- `EvaluateTransferTerminate` (garbled_circuit_util.cpp:610-628): receives twice. -/
def evalTerminate (_lab : Block) (val : WVal) : Proc Bool :=
  match val with
  | .pub b => .ret b
  | .sec _ =>
    (recvData 2).bind fun g => (recvData 2).bind fun l => .ret (decide (leValue l = leValue g))

/-- The garbler's part of the terminate block (low_mem.cpp:149-162; high_mem.cpp:400-415). -/
def garbleStop (c : Circuit) (period cid : Nat) (st : GState) : Proc Bool :=
  if period ≠ 0 ∧ 0 < c.terminateId ∧ cid % period = 0 then
    garbleTerminate (st.wires c.terminateId) (st.val c.terminateId)
  else .ret false

/-- The evaluator's part (low_mem.cpp:300-314; high_mem.cpp:687-703). -/
def evalStop (c : Circuit) (period cid : Nat) (st : EState) : Proc Bool :=
  if period ≠ 0 ∧ 0 < c.terminateId ∧ cid % period = 0 then
    evalTerminate (st.wires c.terminateId) (st.val c.terminateId)
  else .ret false

/-! ## Low-memory mode -/

/-- Outputs, the terminate signal and flip-flop inputs are used as indices without a test
(garbled_circuit_util.cpp:472-493; low_mem.cpp:543-551): all must be wires (`D` may be negative). -/
def refsInRange (c : Circuit) : Bool :=
  (List.range c.outputSize).all (fun i => decide (0 ≤ c.outputs i ∧ c.outputs i < (c.wireSize : Int)))
  && (List.range c.dffSize).all (fun i => decide (c.D i < (c.wireSize : Int)))
  && (c.terminateId == 0 || decide (c.terminateId < c.wireSize))

/-- Cycle loop of `GarbleBNLowMem` (low_mem.cpp:113-172): `n` cycles remain, the next one is `cid`.
Returns `output_bn` and the final `*clock_cycles`. -/
def garbleLoopLow (cr : Crypto) (c : Circuit) (A : Args) (G : GEnv) :
    Nat → Nat → GState → Nat → Proc (Nat × Nat)
  | 0, cid, _, out => .ret (out, cid)
  | n + 1, cid, st, out =>
    (garbleTransferLow cr c.gInput c.eInput cid A.input (inputLabelsLow c G.rnd cid) A.disableOT
      (G.ot (cid + 1)) (G.ext (cid + 1))).bind fun _ =>
    let r := garbleCycle true c (cr.enc (keyOf G.rnd)) (offsetOf G.rnd) (fillFanout c G.fan0).1 cid
      ⟨A.pInit, A.pInput, initLabelsLow c G.rnd, inputLabelsLow c G.rnd cid⟩ st
    (sendTables (selectTables r.1.fan r.2) (G.pad cid)).bind fun _ =>
    (garbleOutputs A.mask (fun i => r.1.wires (c.outputs i).toNat) (fun i => r.1.val (c.outputs i).toNat)
      (outputOffset c A.mode cid) c.outputSize out).bind fun out =>
    (garbleStop c A.period cid r.1).bind fun stop =>
    if stop then .ret (out, cid + 1) else garbleLoopLow cr c A G n (cid + 1) r.1 out

/-- `GarbleBNLowMem` (low_mem.cpp:49-203). -/
def garbleLow (cr : Crypto) (c : Circuit) (A : Args) (G : GEnv) : Proc (Nat × Nat) :=
  (garbleTransferLow cr c.gInit c.eInit 0 A.init (initLabelsLow c G.rnd) A.disableOT (G.ot 0) (G.ext 0)).bind fun _ =>
  if refsInRange c = false then .undef else garbleLoopLow cr c A G A.cycles 0 G.st0 0

/-- Cycle loop of `EvaluateBNLowMem` (low_mem.cpp:260-322). `input` is the label memory, `key` the
received global key. -/
def evalLoopLow (cr : Crypto) (c : Circuit) (A : Args) (E : EEnv) (key : Block) (init : Nat → Block) :
    Nat → Nat → EState → (Nat → Block) → Nat → Proc (Nat × Nat)
  | 0, cid, _, _, out => .ret (out, cid)
  | n + 1, cid, st, input, out =>
    (evalTransferLow cr c.gInput c.eInput cid A.input input A.disableOT (E.rk (cid + 1)) (E.ext (cid + 1))).bind
      fun input =>
    (recvTables c).bind fun rt =>
    let st := evalCycle c (cr.enc key) (fillFanout c E.fan0).1 cid ⟨A.pInit, A.pInput, init, input⟩ (st.receive rt.2)
    if st.ts.ind ≠ rt.1 then .fail
    else
      (evalOutputs A.mask (fun i => st.wires (c.outputs i).toNat) (fun i => st.val (c.outputs i).toNat)
        (outputOffset c A.mode cid) c.outputSize out).bind fun out =>
      (evalStop c A.period cid st).bind fun stop =>
      if stop then .ret (out, cid + 1) else evalLoopLow cr c A E key init n (cid + 1) st.clear input out

/-- `EvaluateBNLowMem` (low_mem.cpp:205-344). -/
def evalLow (cr : Crypto) (c : Circuit) (A : Args) (E : EEnv) (key : Block) : Proc (Nat × Nat) :=
  (evalTransferLow cr c.gInit c.eInit 0 A.init E.init0 A.disableOT (E.rk 0) (E.ext 0)).bind fun init =>
  if refsInRange c = false then .undef else evalLoopLow cr c A E key init A.cycles 0 E.st0 E.input0 0

/-! ## High-memory mode -/

/-- `output_labels`, `output_vals` after the loop of high_mem.cpp:378-387 for cycle `cid`. -/
def recordOutputs {α : Type} (c : Circuit) (cid : Nat) (wires : Nat → α) (val : Nat → WVal) (saved : Nat → α × WVal) :
    Nat → α × WVal :=
  setRange saved (cid * c.outputSize) c.outputSize fun i => (wires (c.outputs i).toNat, val (c.outputs i).toNat)

/-- Cycle loop of `GarbleHighMem` (high_mem.cpp:190-425): the recorded outputs and the final
`*clock_cycles`. -/
def garbleLoopHigh (cr : Crypto) (c : Circuit) (A : Args) (G : GEnv) :
    Nat → Nat → GState → (Nat → BlockPair × WVal) → Proc ((Nat → BlockPair × WVal) × Nat)
  | 0, cid, _, saved => .ret (saved, cid)
  | n + 1, cid, st, saved =>
    let r := garbleCycle false c (cr.enc (keyOf G.rnd)) (offsetOf G.rnd) (fillFanout c G.fan0).1 cid
      ⟨A.pInit, A.pInput, initLabelsHigh G.rnd, fun k => inputLabelsHigh c G.rnd (cid * c.secretInputSize + k)⟩ st
    let saved := recordOutputs c cid r.1.wires r.1.val saved
    (sendTables (selectTables r.1.fan r.2) (G.pad cid)).bind fun _ =>
    (garbleStop c A.period cid r.1).bind fun stop =>
    if stop then .ret (saved, cid + 1) else garbleLoopHigh cr c A G n (cid + 1) r.1 saved

/-- `GarbleBNHighMem` (high_mem.cpp:50-96). The uninitialised output arrays are written before they are
read. -/
def garbleHigh (cr : Crypto) (c : Circuit) (A : Args) (G : GEnv) : Proc (Nat × Nat) :=
  (garbleTransferHigh cr c A (initLabelsHigh G.rnd) (inputLabelsHigh c G.rnd) (G.ot 0) (G.ext 0)).bind fun _ =>
  if refsInRange c = false then .undef
  else
    (garbleLoopHigh cr c A G A.cycles 0 G.st0 (fun _ => (zeroPair, .sec false))).bind fun r =>
    (Proc.forP (fun cid out => garbleOutputs A.mask (fun i => (r.1 (cid * c.outputSize + i)).1)
      (fun i => (r.1 (cid * c.outputSize + i)).2) (cid * c.outputSize) c.outputSize out) r.2 0).bind fun out =>
    .ret (out, r.2)

/-- Cycle loop of `EvaluateHighMem` (high_mem.cpp:488-711). When the number of tables is not the
announced one the function returns FAILURE, which the caller ignores (high_mem.cpp:128-135): it goes
on with the outputs recorded so far and the original number of cycles. -/
def evalLoopHigh (cr : Crypto) (c : Circuit) (A : Args) (E : EEnv) (key : Block) (init input : Nat → Block) :
    Nat → Nat → EState → (Nat → Block × WVal) → Proc ((Nat → Block × WVal) × Nat)
  | 0, cid, _, saved => .ret (saved, cid)
  | n + 1, cid, st, saved =>
    (recvTables c).bind fun rt =>
    let st := evalCycle c (cr.enc key) (fillFanout c E.fan0).1 cid
      ⟨A.pInit, A.pInput, init, fun k => input (cid * c.secretInputSize + k)⟩ (st.receive rt.2)
    let saved := recordOutputs c cid st.wires st.val saved
    if st.ts.ind ≠ rt.1 then .ret (saved, A.cycles)
    else
      (evalStop c A.period cid st).bind fun stop =>
      if stop then .ret (saved, cid + 1) else evalLoopHigh cr c A E key init input n (cid + 1) st.clear saved

/-- `EvaluateBNHighMem` (high_mem.cpp:98-142). -/
def evalHigh (cr : Crypto) (c : Circuit) (A : Args) (E : EEnv) (key : Block) : Proc (Nat × Nat) :=
  (evalTransferHigh cr c A E.init0 E.input0 (E.rk 0) (E.ext 0)).bind fun lab =>
  if refsInRange c = false then .undef
  else
    (evalLoopHigh cr c A E key lab.1 lab.2 A.cycles 0 E.st0 E.out0).bind fun r =>
    (Proc.forP (fun cid out => evalOutputs A.mask (fun i => (r.1 (cid * c.outputSize + i)).1)
      (fun i => (r.1 (cid * c.outputSize + i)).2) (cid * c.outputSize) c.outputSize out) r.2 0).bind fun out =>
    .ret (out, r.2)

/-! ## Both modes -/

/-- `low_mem_foot && clock_cycles > 1` (garbled_circuit.cpp:101, 169). -/
def Args.useLow (A : Args) : Bool := A.lowMem && decide (1 < A.cycles)

/-- `GarbleStr` (garbled_circuit.cpp:52-128) after the circuit is read and the numbers are parsed, up
to `output_bn` and `clock_cycles`. -/
def garbleBN (cr : Crypto) (c : Circuit) (A : Args) (G : GEnv) : Proc (Nat × Nat) :=
  if A.cycles = 0 then .fail
  else if A.period ≠ 0 ∧ c.terminateId = 0 then .fail
  else
    (sendData (blockBytes (keyOf G.rnd)) 16).bind fun _ =>
    if A.useLow then garbleLow cr c A G else garbleHigh cr c A G

/-- `EvaluateStr` (garbled_circuit.cpp:130-200), likewise. -/
def evaluateBN (cr : Crypto) (c : Circuit) (A : Args) (E : EEnv) : Proc (Nat × Nat) :=
  if A.cycles = 0 then .fail
  else if A.period ≠ 0 ∧ c.terminateId = 0 then .fail
  else
    (recvData 16).bind fun l =>
    if A.useLow then evalLow cr c A E (bytesBlock l) else evalHigh cr c A E (bytesBlock l)

end TinyGarble
