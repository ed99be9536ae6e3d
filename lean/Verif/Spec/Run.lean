import Verif.Model.Run
import Verif.Model.Plain
import Verif.Spec.Symbolic

/-!
# What it means for an execution of both parties to be set up properly
-/

namespace TinyGarble.Spec

/-- Secret initial bit `k`: first the garbler's, then the evaluator's. -/
def secretInitBit (c : Circuit) (x : Inputs) (k : Nat) : Bool :=
  if k < c.gInit then x.gInit.testBit k else x.eInit.testBit (k - c.gInit)

/-- Secret input bit `k` of cycle `cid`: first the garbler's, then the evaluator's. -/
def secretInputBit (c : Circuit) (x : Inputs) (cid k : Nat) : Bool :=
  if k < c.gInput then x.gInput.testBit (cid * c.gInput + k)
  else x.eInput.testBit (cid * c.eInput + (k - c.gInput))

/-- The labels the parties start from: the garbler's pairs are at distance `R`, and the evaluator
holds those of the actual inputs. -/
structure LabelsOK (c : Circuit) (x : Inputs) (R : Block) (gin : Nat → GCycleIn) (ein : Nat → ECycleIn) :
    Prop where
  gPub : ∀ cid, (gin cid).pInit = x.pInit ∧ (gin cid).pInput = x.pInput
  ePub : ∀ cid, (ein cid).pInit = x.pInit ∧ (ein cid).pInput = x.pInput
  init : ∀ cid, ∀ k < c.secretInitSize, ((gin cid).initLabels k).label1 = ((gin cid).initLabels k).label0 ^^^ R
  input : ∀ cid, ∀ k < c.secretInputSize, ((gin cid).inputLabels k).label1 = ((gin cid).inputLabels k).label0 ^^^ R
  eInit : ∀ cid, ∀ k < c.secretInitSize, (ein cid).initLabels k =
    if secretInitBit c x k then ((gin cid).initLabels k).label1 else ((gin cid).initLabels k).label0
  eInput : ∀ cid, ∀ k < c.secretInputSize, (ein cid).inputLabels k =
    if secretInputBit c x cid k then ((gin cid).inputLabels k).label1 else ((gin cid).inputLabels k).label0

/-- Freshly allocated memory: all wires are marked `SECRET`, everything else is arbitrary. -/
def GFresh (st : GState) : Prop := ∀ w, st.val w = .sec false

/-- Freshly allocated memory of the evaluator. The table buffer is not initialised by the code; we
have to assume that the garbage in its `gid` fields is not the number of a gate. -/
def EFresh (c : Circuit) (st : EState) : Prop :=
  (∀ w, st.val w = .sec false) ∧ ∀ i, c.gateSize ≤ (st.ts.tables i).gid.toNat

/-- Everything an execution of the two parties depends on: circuit, block cipher, offset, the six
input numbers, the labels of each cycle, uninitialised memory, and the mode. -/
structure Session where
  c : Circuit
  enc : Block → Block
  R : Block
  x : Inputs
  gin : Nat → GCycleIn
  ein : Nat → ECycleIn
  fan0 : Nat → Nat
  gst0 : GState
  est0 : EState
  lowMem : Bool

namespace Session
variable (S : Session)

/-- The counts of `FillFanout`. -/
def sfan : Nat → Nat := (fillFanout S.c S.fan0).1
/-- The garbler after cycle `cid`. -/
def g (cid : Nat) : GState := (garbleRun S.lowMem S.c S.enc S.R S.sfan S.gin S.gst0 cid).1
/-- The tables sent in cycle `cid`. -/
def sent : Nat → List Table := sentTables S.lowMem S.c S.enc S.R S.sfan S.gin S.gst0
/-- The evaluator after cycle `cid`. -/
def e (cid : Nat) : EState := evalRun S.c S.enc S.sfan S.ein S.sent S.est0 cid

/-- Proper set-up: well-formed circuit, odd offset, labels that encode the inputs, fresh memory. -/
structure OK : Prop where
  wf : WF S.c
  odd : getLSB S.R = true
  labels : LabelsOK S.c S.x S.R S.gin S.ein
  gFresh : GFresh S.gst0
  eFresh : EFresh S.c S.est0

/-- No two unrelated labels that meet at a gate agree in their lower halves, up to cycle `cid`. -/
def NoAccident (cid : Nat) : Prop :=
  ∀ k ≤ cid, NoCollisionG S.c (symRun S.c S.sfan S.x.pInit S.x.pInput k).sw (S.g k).wires
    ∧ NoCollisionE S.c (symRun S.c S.sfan S.x.pInit S.x.pInput k).sw (S.e k).wires

end Session

end TinyGarble.Spec
