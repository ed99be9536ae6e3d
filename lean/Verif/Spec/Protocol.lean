import Verif.Model.Protocol
import Verif.Spec.Run
import Verif.Spec.Semantics
import Verif.Spec.OT
import Verif.Spec.Schedule

/-!
# Set-up of a protocol execution
-/

namespace TinyGarble.Spec

/-- The two parties were started with the same public arguments. -/
structure Paired (A B : Args) : Prop where
  pInit : A.pInit = B.pInit
  pInput : A.pInput = B.pInput
  cycles : A.cycles = B.cycles
  mask : A.mask = B.mask
  period : A.period = B.period
  mode : A.mode = B.mode
  disableOT : A.disableOT = B.disableOT
  lowMem : A.lowMem = B.lowMem

/-- All six input numbers: the garbler's arguments `A` and the evaluator's arguments `B`. -/
def inputsOf (A B : Args) : Inputs := ⟨A.pInit, A.init, B.init, A.pInput, A.input, B.input⟩

/-- The label of a pair that stands for `b`. -/
def chosen (p : BlockPair) (b : Bool) : Block := if b then p.label1 else p.label0

/-- The garbler's pairs for the secret initial values. -/
def initPairs (c : Circuit) (A : Args) (G : GEnv) : Nat → BlockPair :=
  if A.useLow then initLabelsLow c G.rnd else initLabelsHigh G.rnd

/-- The garbler's pairs for the secret inputs of cycle `cid`. -/
def inputPairs (c : Circuit) (A : Args) (G : GEnv) (cid : Nat) : Nat → BlockPair :=
  if A.useLow then inputLabelsLow c G.rnd cid else fun k => inputLabelsHigh c G.rnd (cid * c.secretInputSize + k)

/-- The execution of both parties inside of the protocol when the evaluator obtains the labels of the
actual inputs. -/
def sessionOf (cr : Crypto) (c : Circuit) (A B : Args) (G : GEnv) (E : EEnv) : Session where
  c := c
  enc := cr.enc (keyOf G.rnd)
  R := offsetOf G.rnd
  x := inputsOf A B
  gin := fun cid => ⟨A.pInit, A.pInput, initPairs c A G, inputPairs c A G cid⟩
  ein := fun cid => ⟨B.pInit, B.pInput,
    fun k => chosen (initPairs c A G k) (secretInitBit c (inputsOf A B) k),
    fun k => chosen (inputPairs c A G cid k) (secretInputBit c (inputsOf A B) cid k)⟩
  fan0 := G.fan0
  gst0 := G.st0
  est0 := E.st0
  lowMem := A.useLow

/-- RSA parameters as OpenSSL generates them for 1024 bits. -/
structure CoinsOK (co : OTSendCoins) : Prop where
  valid : ValidKey co.key
  N : co.key.N < 2 ^ 1024
  e : co.key.e < 2 ^ 1024
  x : ∀ i j, co.x i j < 2 ^ 1024

/-- The connection: some buffer space; with oblivious transfer, proper random choices and enough space
for the 128 values a receiver sends without reading (128 * 132 = 16896 bytes). -/
structure Connected (cap : Nat) (disableOT : Bool) (G : GEnv) (E : EEnv) : Prop where
  space : 0 < cap
  otCap : disableOT = false → 16896 ≤ cap
  base : disableOT = false → ∀ i, CoinsOK (G.ot i)
  extBase : disableOT = false → ∀ i, CoinsOK (E.ext i).base
  extT : disableOT = false → ∀ i k, (E.ext i).T k < 2 ^ 128

/-- Sizes stay within the ranges of the types used for them. -/
structure Sizes (c : Circuit) (A B : Args) : Prop where
  /-- `count * sizeof(GarbledTable)` fits an `int` -/
  tables : numOfNonXor c * 48 < 2 ^ 31
  /-- number of oblivious transfers -/
  otInit : c.eInit < 2 ^ 30
  otInput : c.eInput < 2 ^ 30
  otAll : c.eInit + A.cycles * c.eInput < 2 ^ 30
  /-- the evaluator's numbers can be sent -/
  bnInit : numBytes B.init < 2 ^ 31
  bnInput : numBytes B.input < 2 ^ 31

/-- Everything the theorems about protocol executions assume: well-formed circuit, at least one cycle,
a terminate signal when a period is given, matching arguments, working connection, sizes in range,
fresh memory. -/
structure Setup (cap : Nat) (cr : Crypto) (c : Circuit) (A B : Args) (G : GEnv) (E : EEnv) : Prop where
  wf : WF c
  cycles : 0 < A.cycles
  term : A.period ≠ 0 → 0 < c.terminateId
  paired : Paired A B
  conn : Connected cap A.disableOT G E
  sizes : Sizes c A B
  gFresh : GFresh G.st0
  eFresh : EFresh c E.st0

/-- The labels of distinct wires that meet at a gate do not agree by accident in the cycles that are
executed. -/
def Session.Lucky (S : Session) (T n : Nat) (v : Nat → Nat → Bool) : Prop :=
  ∀ k < n, (∀ j < k, ¬ StopAt S.c T v j) → S.NoAccident k

/-- The terminate signal is publicly known whenever it is looked at. -/
def Session.PublicStop (S : Session) (T n : Nat) (v : Nat → Nat → Bool) : Prop :=
  T ≠ 0 → ∀ k < n, (∀ j < k, ¬ StopAt S.c T v j) → k % T = 0 → ((S.g k).val S.c.terminateId).isSecret = false

/-- A proper execution: set up as above, `v` gives the values of all wires, no labels agree by accident,
and the terminate signal is publicly known whenever it is looked at. -/
structure Proper (cap : Nat) (cr : Crypto) (c : Circuit) (A B : Args) (G : GEnv) (E : EEnv) (v : Nat → Nat → Bool) : Prop where
  setup : Setup cap cr c A B G E
  values : Solves c (inputsOf A B) v
  lucky : (sessionOf cr c A B G E).Lucky A.period A.cycles v
  publicStop : (sessionOf cr c A B G E).PublicStop A.period A.cycles v

/-- The first look at a secret terminate signal happens in cycle `k`. -/
structure Session.SecretLook (S : Session) (T n : Nat) (v : Nat → Nat → Bool) (k : Nat) : Prop where
  lt : k < n
  period : T ≠ 0
  look : k % T = 0
  secret : ((S.g k).val S.c.terminateId).isSecret = true
  before : ∀ j < k, ¬ StopAt S.c T v j ∧ (j % T = 0 → ((S.g j).val S.c.terminateId).isSecret = false)
  lucky : S.NoAccident k

/-- A party's output number after `m` cycles reports `bit t i` as output `i` of cycle `t`, and nothing
else: in low-memory `last_clock` mode the bits of the last cycle only, otherwise all cycles one after
the other. -/
def Reports (c : Circuit) (A : Args) (m out : Nat) (bit : Nat → Nat → Bool) : Prop :=
  if A.useLow = true ∧ A.mode = .lastClock then
    (∀ i < c.outputSize, out.testBit i = bit (m - 1) i) ∧ ∀ j, c.outputSize ≤ j → out.testBit j = false
  else
    (∀ t < m, ∀ i < c.outputSize, out.testBit (t * c.outputSize + i) = bit t i)
      ∧ ∀ j, m * c.outputSize ≤ j → out.testBit j = false

/-- An output bit of the evaluator that the program fails to store: it is 1, publicly known, belongs to
the evaluator, and lies below the highest bit of the mask. -/
def Session.LostAt (S : Session) (mask : Nat) (v : Nat → Nat → Bool) (t i : Nat) : Prop :=
  i < numBits mask ∧ mask.testBit i = false
    ∧ ((S.g t).val (S.c.outputs i).toNat).isSecret = false ∧ v t (S.c.outputs i).toNat = true

instance (S : Session) (mask : Nat) (v : Nat → Nat → Bool) (t i : Nat) : Decidable (S.LostAt mask v t i) := by
  unfold Session.LostAt; infer_instance

/-- What the evaluator stores for output `i` of cycle `t` when every cycle has its own place: its bit,
or 0 when the bit is lost. -/
def Session.stored (S : Session) (mask : Nat) (v : Nat → Nat → Bool) (t i : Nat) : Bool :=
  if S.LostAt mask v t i then false else !mask.testBit i && v t (S.c.outputs i).toNat

/-- What the evaluator stores for output `i` after `m` cycles when all cycles share one place: its bit in
the last cycle that did not lose it. -/
def Session.storedLast (S : Session) (mask : Nat) (v : Nat → Nat → Bool) (i : Nat) : Nat → Bool
  | 0 => false
  | t + 1 => if S.LostAt mask v t i then S.storedLast mask v i t else !mask.testBit i && v t (S.c.outputs i).toNat

end TinyGarble.Spec
