import Verif.Model.Lost

/-!
# The build without logging

Without `ENABLE_LOG`, which is the default of CMakeLists.txt:71 (the script `configure` switches it on), the macros `CHECK`, `CHECK_EXPR` and
`CHECK_EXPR_MSG` evaluate their argument and ignore it (util/log.h:73-81). So when `RecvData` fails, the caller goes on with what is in the
buffer, and when `SendData` fails, with the next instruction. Modelled here: the evaluator.
-/

namespace TinyGarble

/-- A program whose failing transfers are ignored, on a connection that may break: `s i` is byte `i` that is read, and after the end of the
connection what the buffer has held before. How many bytes can be written makes no difference. The outcome and the bytes that have not been read. -/
def Proc.quiet {α : Type} : Proc α → (Nat → Byte) → Ret α × (Nat → Byte)
  | ret a, s => (.ok a, s)
  | fail, s => (.failed, s)
  | undef, s => (.undefined, s)
  | send _ k, s => k.quiet s
  | recv k, s => (k (s 0)).quiet fun i => s (i + 1)

/-- `evalLoopLow` without the test of the number of tables (low_mem.cpp:287-289). -/
def evalLoopLowQuiet (cr : Crypto) (c : Circuit) (A : Args) (E : EEnv) (key : Block) (init : Nat → Block) :
    Nat → Nat → EState → (Nat → Block) → Nat → Proc (Nat × Nat)
  | 0, cid, _, _, out => .ret (out, cid)
  | n + 1, cid, st, input, out =>
    (evalTransferLow cr c.gInput c.eInput cid A.input input A.disableOT (E.rk (cid + 1)) (E.ext (cid + 1))).bind
      fun input =>
    (recvTables c).bind fun rt =>
    let st := evalCycle c (cr.enc key) (fillFanout c E.fan0).1 cid ⟨A.pInit, A.pInput, init, input⟩ (st.receive rt.2)
    (evalOutputs A.mask (fun i => st.wires (c.outputs i).toNat) (fun i => st.val (c.outputs i).toNat)
      (outputOffset c A.mode cid) c.outputSize out).bind fun out =>
    (evalStop c A.period cid st).bind fun stop =>
    if stop then .ret (out, cid + 1) else evalLoopLowQuiet cr c A E key init n (cid + 1) st.clear input out

/-- `evalLow`, likewise. -/
def evalLowQuiet (cr : Crypto) (c : Circuit) (A : Args) (E : EEnv) (key : Block) : Proc (Nat × Nat) :=
  (evalTransferLow cr c.gInit c.eInit 0 A.init E.init0 A.disableOT (E.rk 0) (E.ext 0)).bind fun init =>
  if refsInRange c = false then .undef else evalLoopLowQuiet cr c A E key init A.cycles 0 E.st0 E.input0 0

/-- `evalLoopHigh` without the test of the number of tables (high_mem.cpp:680-682). -/
def evalLoopHighQuiet (cr : Crypto) (c : Circuit) (A : Args) (E : EEnv) (key : Block) (init input : Nat → Block) :
    Nat → Nat → EState → (Nat → Block × WVal) → Proc ((Nat → Block × WVal) × Nat)
  | 0, cid, _, saved => .ret (saved, cid)
  | n + 1, cid, st, saved =>
    (recvTables c).bind fun rt =>
    let st := evalCycle c (cr.enc key) (fillFanout c E.fan0).1 cid
      ⟨A.pInit, A.pInput, init, fun k => input (cid * c.secretInputSize + k)⟩ (st.receive rt.2)
    let saved := recordOutputs c cid st.wires st.val saved
    (evalStop c A.period cid st).bind fun stop =>
    if stop then .ret (saved, cid + 1) else evalLoopHighQuiet cr c A E key init input n (cid + 1) st.clear saved

/-- `evalHigh`, likewise. -/
def evalHighQuiet (cr : Crypto) (c : Circuit) (A : Args) (E : EEnv) (key : Block) : Proc (Nat × Nat) :=
  (evalTransferHigh cr c A E.init0 E.input0 (E.rk 0) (E.ext 0)).bind fun lab =>
  if refsInRange c = false then .undef
  else
    (evalLoopHighQuiet cr c A E key lab.1 lab.2 A.cycles 0 E.st0 E.out0).bind fun r =>
    (evalOutputsHigh c A r.1 r.2).bind fun out => .ret (out, r.2)

/-- `EvaluateStr` (garbled_circuit.cpp:130-200), like `evaluateBN`, built without logging. Simplified: the transfers for which `RecvData` fails are
those of this function; failures in the oblivious transfer other than those of `SendData` and `RecvData` are still failures here. -/
def evaluateQuiet (cr : Crypto) (c : Circuit) (A : Args) (E : EEnv) : Proc (Nat × Nat) :=
  if A.cycles = 0 then .fail
  else if A.period ≠ 0 ∧ c.terminateId = 0 then .fail
  else
    (recvData 16).bind fun l =>
    if A.useLow then evalLowQuiet cr c A E (bytesBlock l) else evalHighQuiet cr c A E (bytesBlock l)

end TinyGarble
