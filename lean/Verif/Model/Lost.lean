import Verif.Model.Protocol

/-!
# Lost connections

`Proc` (Verif.Model.Proc) describes the parties as long as the connection works. Here a connection can break: only the bytes that have already
arrived can be read, and only a limited number of bytes can be written; then `read` and `write` report an error or a closed connection, and
`RecvData` and `SendData` return FAILURE (tcpip/tcpip.cpp:147-153, 168-174). Everywhere but in high-memory mode a failure ends the whole
function (`CHECK`, with `ENABLE_LOG`, which the script `configure` switches on).
-/

namespace TinyGarble

/-- A connection: the bytes that can be read, and the number of bytes that can be written. -/
structure Conn where
  inc : List Byte
  room : Nat
deriving DecidableEq

/-- How a function returns. -/
inductive Ret (α : Type) where
  /-- SUCCESS -/
  | ok (a : α)
  /-- FAILURE -/
  | failed
  /-- undefined behaviour -/
  | undefined
deriving DecidableEq

namespace Proc
variable {α : Type}

/-- A program on a connection that may break: its outcome and what is left of the connection. A failing `RecvData` has read what was there. -/
def on : Proc α → Conn → Ret α × Conn
  | ret a, w => (.ok a, w)
  | fail, w => (.failed, w)
  | undef, w => (.undefined, w)
  | send _ _, ⟨inc, 0⟩ => (.failed, ⟨inc, 0⟩)
  | send _ k, ⟨inc, n + 1⟩ => k.on ⟨inc, n⟩
  | recv _, ⟨[], n⟩ => (.failed, ⟨[], n⟩)
  | recv k, ⟨b :: inc, n⟩ => (k b).on ⟨inc, n⟩

end Proc

/-- Go on after a function that succeeded. -/
def Ret.andThen {α β : Type} (r : Ret α × Conn) (f : α → Conn → Ret β × Conn) : Ret β × Conn :=
  match r with
  | (.ok a, w) => f a w
  | (.failed, w) => (.failed, w)
  | (.undefined, w) => (.undefined, w)

/-- Go on after a function whose failure is ignored; `d` is what it has left in the memory of the caller. -/
def Ret.orElse {α β : Type} (r : Ret α × Conn) (d : β) (f : α → Conn → Ret β × Conn) : Ret β × Conn :=
  match r with
  | (.ok a, w) => f a w
  | (.failed, w) => (.ok d, w)
  | (.undefined, w) => (.undefined, w)

/-- `EvaluateHighMem` (high_mem.cpp:488-711) as its caller sees it, which ignores the returned FAILURE (high_mem.cpp:128-130): the recorded outputs
and `*clock_cycles`. A failing transfer returns immediately: the outputs recorded so far and the original number of cycles remain. -/
def evalLoopHighOn (cr : Crypto) (c : Circuit) (A : Args) (E : EEnv) (key : Block) (init input : Nat → Block) :
    Nat → Nat → EState → (Nat → Block × WVal) → Conn → Ret ((Nat → Block × WVal) × Nat) × Conn
  | 0, cid, _, saved, w => (.ok (saved, cid), w)
  | n + 1, cid, st, saved, w =>
    Ret.orElse ((recvTables c).on w) (saved, A.cycles) fun rt w =>
    let st := evalCycle c (cr.enc key) (fillFanout c E.fan0).1 cid
      ⟨A.pInit, A.pInput, init, fun k => input (cid * c.secretInputSize + k)⟩ (st.receive rt.2)
    let saved := recordOutputs c cid st.wires st.val saved
    if st.ts.ind ≠ rt.1 then (.ok (saved, A.cycles), w)
    else
      Ret.orElse ((evalStop c A.period cid st).on w) (saved, A.cycles) fun stop w =>
      if stop then (.ok (saved, cid + 1), w) else evalLoopHighOn cr c A E key init input n (cid + 1) st.clear saved w

/-- `EvaluateTransferOutput` (high_mem.cpp:1067-1105). -/
def evalOutputsHigh (c : Circuit) (A : Args) (saved : Nat → Block × WVal) (cycles : Nat) : Proc Nat :=
  Proc.forP (fun cid out => evalOutputs A.mask (fun i => (saved (cid * c.outputSize + i)).1)
    (fun i => (saved (cid * c.outputSize + i)).2) (cid * c.outputSize) c.outputSize out) cycles 0

/-- `EvaluateBNHighMem` (high_mem.cpp:98-142). -/
def evalHighOn (cr : Crypto) (c : Circuit) (A : Args) (E : EEnv) (key : Block) (w : Conn) : Ret (Nat × Nat) × Conn :=
  Ret.andThen ((evalTransferHigh cr c A E.init0 E.input0 (E.rk 0) (E.ext 0)).on w) fun lab w =>
  if refsInRange c = false then (.undefined, w)
  else
    Ret.andThen (evalLoopHighOn cr c A E key lab.1 lab.2 A.cycles 0 E.st0 E.out0 w) fun r w =>
    Ret.andThen ((evalOutputsHigh c A r.1 r.2).on w) fun out w => (.ok (out, r.2), w)

/-- `EvaluateStr` (garbled_circuit.cpp:130-200), like `evaluateBN`, on a connection that may break. -/
def evaluateOn (cr : Crypto) (c : Circuit) (A : Args) (E : EEnv) (w : Conn) : Ret (Nat × Nat) × Conn :=
  if A.cycles = 0 then (.failed, w)
  else if A.period ≠ 0 ∧ c.terminateId = 0 then (.failed, w)
  else
    Ret.andThen ((recvData 16).on w) fun l w =>
    if A.useLow then (evalLow cr c A E (bytesBlock l)).on w else evalHighOn cr c A E (bytesBlock l) w

/-- `GarbleHighMem` (high_mem.cpp:190-436) as its caller sees it, which ignores the returned FAILURE (high_mem.cpp:84-86). -/
def garbleLoopHighOn (cr : Crypto) (c : Circuit) (A : Args) (G : GEnv) :
    Nat → Nat → GState → (Nat → BlockPair × WVal) → Conn → Ret ((Nat → BlockPair × WVal) × Nat) × Conn
  | 0, cid, _, saved, w => (.ok (saved, cid), w)
  | n + 1, cid, st, saved, w =>
    let r := garbleCycle false c (cr.enc (keyOf G.rnd)) (offsetOf G.rnd) (fillFanout c G.fan0).1 cid
      ⟨A.pInit, A.pInput, initLabelsHigh G.rnd, fun k => inputLabelsHigh c G.rnd (cid * c.secretInputSize + k)⟩ st
    let saved := recordOutputs c cid r.1.wires r.1.val saved
    Ret.orElse ((sendTables (selectTables r.1.fan r.2) (G.pad cid)).on w) (saved, A.cycles) fun _ w =>
    Ret.orElse ((garbleStop c A.period cid r.1).on w) (saved, A.cycles) fun stop w =>
    if stop then (.ok (saved, cid + 1), w) else garbleLoopHighOn cr c A G n (cid + 1) r.1 saved w

/-- `GarbleTransferOutput` (high_mem.cpp:1020-1065). -/
def garbleOutputsHigh (c : Circuit) (A : Args) (saved : Nat → BlockPair × WVal) (cycles : Nat) : Proc Nat :=
  Proc.forP (fun cid out => garbleOutputs A.mask (fun i => (saved (cid * c.outputSize + i)).1)
    (fun i => (saved (cid * c.outputSize + i)).2) (cid * c.outputSize) c.outputSize out) cycles 0

/-- `GarbleBNHighMem` (high_mem.cpp:50-96); `out0` is what the uninitialised output arrays hold. -/
def garbleHighOn (cr : Crypto) (c : Circuit) (A : Args) (G : GEnv) (out0 : Nat → BlockPair × WVal) (w : Conn) : Ret (Nat × Nat) × Conn :=
  Ret.andThen ((garbleTransferHigh cr c A (initLabelsHigh G.rnd) (inputLabelsHigh c G.rnd) (G.ot 0) (G.ext 0)).on w) fun _ w =>
  if refsInRange c = false then (.undefined, w)
  else
    Ret.andThen (garbleLoopHighOn cr c A G A.cycles 0 G.st0 out0 w) fun r w =>
    Ret.andThen ((garbleOutputsHigh c A r.1 r.2).on w) fun out w => (.ok (out, r.2), w)

/-- `GarbleStr` (garbled_circuit.cpp:52-128), like `garbleBN`, on a connection that may break. -/
def garbleOn (cr : Crypto) (c : Circuit) (A : Args) (G : GEnv) (out0 : Nat → BlockPair × WVal) (w : Conn) : Ret (Nat × Nat) × Conn :=
  if A.cycles = 0 then (.failed, w)
  else if A.period ≠ 0 ∧ c.terminateId = 0 then (.failed, w)
  else
    Ret.andThen ((sendData (blockBytes (keyOf G.rnd)) 16).on w) fun _ w =>
    if A.useLow then (garbleLow cr c A G).on w else garbleHighOn cr c A G out0 w

end TinyGarble
