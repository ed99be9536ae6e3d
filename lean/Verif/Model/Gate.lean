import Verif.Model.Block

/-!
# Garbling and evaluating one gate

Models garbled_circuit/garbled_circuit_util.cpp:79-449.
-/

namespace TinyGarble

/-- The `short` wire values: `0`, `1`, `SECRET` (-1) and `SECRET_INV` (-2)
(garbled_circuit_util.h:47-50). `sec false` is `SECRET`, `sec true` is `SECRET_INV`.
No other value is ever stored by the code. -/
inductive WVal where
  | pub (b : Bool)
  | sec (inv : Bool)
deriving DecidableEq, Repr

/-- `IsSecret(X)` (garbled_circuit_util.h:50). -/
def WVal.isSecret : WVal → Bool
  | .pub _ => false
  | .sec _ => true

/-- `BlockPair` (garbled_circuit_util.h:57-60). -/
structure BlockPair where
  label0 : Block
  label1 : Block
deriving DecidableEq, Repr

/-- `GarbledTable` (garbled_circuit_util.h:65-68); `gid` is a `uint32_t`. -/
structure Table where
  row0 : Block
  row1 : Block
  gid : BitVec 32
deriving DecidableEq, Repr

/-- The pair `x0`, `x1` of the three half functions (garbled_circuit_util.cpp:82-89, 105-112,
312-320): the gate function with one input fixed to `v`. -/
def halfValues (t : Int) (knownInd : Nat) (v : Bool) : Bool × Bool :=
  if knownInd = 0 then (gateOperator t v false, gateOperator t v true)
  else (gateOperator t false v, gateOperator t true v)

/-- `HalfGarbleEvalGateKnownValue` (garbled_circuit_util.cpp:79-100). -/
def halfKnownValue (t : Int) (knownInd : Nat) (v : Bool) : WVal :=
  let x := halfValues t knownInd v
  if x.1 = x.2 then (if x.1 = false then .pub false else .pub true) else .sec false

/-- `GarbleEvalGateKnownValue` (garbled_circuit_util.cpp:129-140). -/
def knownValue (v0 v1 : WVal) (t : Int) : WVal :=
  match v0, v1 with
  | .pub a, .pub b => .pub (gateOperator t a b)
  | .pub a, .sec _ => halfKnownValue t 0 a
  | .sec _, .pub b => halfKnownValue t 1 b
  | .sec _, .sec _ => .sec false

/-- `HalfGarbleGate` (garbled_circuit_util.cpp:102-127). The caller has preset the output labels to
zero and the output value to `SECRET` (lines 148-150), which is what remains when not assigned. -/
def halfGarbleGate (t : Int) (knownInd : Nat) (v : Bool) (l : BlockPair) : BlockPair × WVal :=
  let x := halfValues t knownInd v
  if x.1 = x.2 then
    (⟨zeroBlock, zeroBlock⟩, if x.1 = false then .pub false else .pub true)
  else if x.1 = false ∧ x.2 = true then (⟨l.label0, l.label1⟩, .sec false)
  else (⟨l.label1, l.label0⟩, .sec false)

/-- The tweaked hash of lines 218-238 (garbler) and 425-437 (evaluator):
`mask = (x ^ tweak) ^ AES(x ^ tweak)`. `enc` is AES under the session key
(`AESEcbEncryptBlks`); it is an arbitrary function here. -/
def hashBlock (enc : Block → Block) (x tweak : Block) : Block :=
  xorBlock (xorBlock x tweak) (enc (xorBlock x tweak))

/-- Lines 215-216: `tweak0 = MakeBlock(cid, 2*gid+0)`. -/
def tweak0 (cid gid : Nat) : Block := makeBlock cid (2 * gid)
/-- Lines 215-216: `tweak1 = MakeBlock(cid, 2*gid+1)`. -/
def tweak1 (cid gid : Nat) : Block := makeBlock cid (2 * gid + 1)

/-- The half-gate part of `GarbleGate` (garbled_circuit_util.cpp:189-288): output labels and the two
table rows. -/
def garbleHalfGates (enc : Block → Block) (R : Block) (cid gid : Nat) (t : Int)
    (l0 l1 : BlockPair) : BlockPair × (Block × Block) :=
  let v := type2V t
  let A0 := if v.1 then l0.label1 else l0.label0
  let A1 := if v.1 then l0.label0 else l0.label1
  let B0 := if v.2.1 then l1.label1 else l1.label0
  let B1 := if v.2.1 then l1.label0 else l1.label1
  let pa := getLSB A0
  let pb := getLSB B0
  let m0 := hashBlock enc A0 (tweak0 cid gid)
  let m1 := hashBlock enc A1 (tweak0 cid gid)
  let m2 := hashBlock enc B0 (tweak1 cid gid)
  let m3 := hashBlock enc B1 (tweak1 cid gid)
  let t0 := xorBlock m0 m1
  let t0 := if pb then xorBlock t0 R else t0
  let G := if pa then xorBlock m0 t0 else m0
  let t1 := xorBlock (xorBlock m2 m3) A0
  let E := if pb then xorBlock (xorBlock m2 t1) A0 else m2
  if v.2.2 then
    let C1 := xorBlock G E
    (⟨xorBlock R C1, C1⟩, (t0, t1))
  else
    let C0 := xorBlock G E
    (⟨C0, xorBlock R C0⟩, (t0, t1))

/-- `GarbleGate` (garbled_circuit_util.cpp:142-292). Result: output labels, output value, and the
table appended to `garbled_tables` (and `*garbled_table_ind` incremented), if any. -/
def garbleGate (enc : Block → Block) (R : Block) (cid gid : Nat) (t : Int)
    (l0 : BlockPair) (v0 : WVal) (l1 : BlockPair) (v1 : WVal) :
    BlockPair × WVal × Option Table :=
  let zero : BlockPair := ⟨zeroBlock, zeroBlock⟩
  match v0, v1 with
  | .pub a, .pub b => (zero, .pub (gateOperator t a b), none)
  | .pub a, .sec _ => let r := halfGarbleGate t 0 a l1; (r.1, r.2, none)
  | .sec _, .pub b => let r := halfGarbleGate t 1 b l0; (r.1, r.2, none)
  | .sec _, .sec _ =>
    if t ≠ NOTGATE ∧ cmpBlock l0.label0 l1.label0 = true then
      if t = XORGATE ∨ t = ANDNGATE ∨ t = NORNGATE then (zero, .pub false, none)
      else if t = XNORGATE ∨ t = ORNGATE ∨ t = NANDNGATE then (zero, .pub true, none)
      else if t = ANDGATE ∨ t = ORGATE then (⟨l0.label0, l0.label1⟩, .sec false, none)
      else if t = NANDGATE ∨ t = NORGATE then (⟨l0.label1, l0.label0⟩, .sec false, none)
      else (zero, .sec false, none)
    else if t ≠ NOTGATE ∧ cmpBlock l0.label0 l1.label1 = true then
      if t = XNORGATE ∨ t = ANDGATE ∨ t = NORGATE then (zero, .pub false, none)
      else if t = XORGATE ∨ t = ORGATE ∨ t = NANDGATE then (zero, .pub true, none)
      else if t = ANDNGATE ∨ t = ORNGATE then (⟨l0.label0, l0.label1⟩, .sec false, none)
      else if t = NANDNGATE ∨ t = NORNGATE then (⟨l0.label1, l0.label0⟩, .sec false, none)
      else (zero, .sec false, none)
    else if t = XORGATE then
      (⟨xorBlock l0.label0 l1.label0, xorBlock l0.label1 l1.label0⟩, .sec false, none)
    else if t = XNORGATE then
      (⟨xorBlock l0.label1 l1.label0, xorBlock l0.label0 l1.label0⟩, .sec false, none)
    else if t = NOTGATE then (⟨l0.label1, l0.label0⟩, .sec false, none)
    else
      let r := garbleHalfGates enc R cid gid t l0 l1
      (r.1, .sec false, some ⟨r.2.1, r.2.2, BitVec.ofNat 32 gid⟩)

/-- `InvertSecretValue` (garbled_circuit_util.cpp:294-299): `SECRET` becomes `SECRET_INV`, anything
else becomes `SECRET`. -/
def invertSecretValue (v : WVal) : WVal :=
  if v = .sec false then .sec true else .sec false

/-- `XorSecret` (garbled_circuit_util.cpp:301-307). -/
def xorSecret (a b : WVal) : WVal := if a = b then .sec false else .sec true

/-- `HalfEvalGate` (garbled_circuit_util.cpp:309-335); labels are preset to zero by the caller. -/
def halfEvalGate (t : Int) (knownInd : Nat) (v : Bool) (sv : WVal) (l : Block) : Block × WVal :=
  let x := halfValues t knownInd v
  if x.1 = x.2 then (zeroBlock, if x.1 = false then .pub false else .pub true)
  else if x.1 = false ∧ x.2 = true then (l, sv)
  else (l, invertSecretValue sv)

/-- The half-gate part of `EvalGate` (garbled_circuit_util.cpp:398-445) given the two rows. -/
def evalHalfGates (enc : Block → Block) (cid gid : Nat) (A B : Block) (t0 t1 : Block) : Block :=
  let sa := getLSB A
  let sb := getLSB B
  let m0 := hashBlock enc A (tweak0 cid gid)
  let m1 := hashBlock enc B (tweak1 cid gid)
  let G := if sa then xorBlock m0 t0 else m0
  let E := if sb then xorBlock (xorBlock m1 t1) A else m1
  xorBlock E G

/-- State of the evaluator's table buffer while a cycle is evaluated: `garbled_tables` (all its
memory, received or not), `*garbled_table_ind`, and the local random generator (a stream of blocks
and a position) from which `RandomBlock()` draws. -/
structure TabState where
  tables : Nat → Table
  ind : Nat
  rnd : Nat → Block
  rndPos : Nat

/-- `EvalGate` (garbled_circuit_util.cpp:337-449). The comparison
`garbled_tables[ind].gid == gid` is between a `uint32_t` and a `uint64_t`. -/
def evalGate (enc : Block → Block) (cid gid : Nat) (t : Int)
    (l0 : Block) (v0 : WVal) (l1 : Block) (v1 : WVal) (ts : TabState) :
    Block × WVal × TabState :=
  match v0, v1 with
  | .pub a, .pub b => (zeroBlock, .pub (gateOperator t a b), ts)
  | .pub a, .sec _ => let r := halfEvalGate t 0 a v1 l1; (r.1, r.2, ts)
  | .sec _, .pub b => let r := halfEvalGate t 1 b v0 l0; (r.1, r.2, ts)
  | .sec _, .sec _ =>
    if t ≠ NOTGATE ∧ cmpBlock l0 l1 = true ∧ v0 = v1 then
      if t = XORGATE ∨ t = ANDNGATE ∨ t = NORNGATE then (zeroBlock, .pub false, ts)
      else if t = XNORGATE ∨ t = ORNGATE ∨ t = NANDNGATE then (zeroBlock, .pub true, ts)
      else if t = ANDGATE ∨ t = ORGATE then (l0, v0, ts)
      else if t = NANDGATE ∨ t = NORGATE then (l0, invertSecretValue v0, ts)
      else (zeroBlock, .sec false, ts)
    else if t ≠ NOTGATE ∧ cmpBlock l0 l1 = true ∧ v0 ≠ v1 then
      if t = XNORGATE ∨ t = ANDGATE ∨ t = NORGATE then (zeroBlock, .pub false, ts)
      else if t = XORGATE ∨ t = ORGATE ∨ t = NANDGATE then (zeroBlock, .pub true, ts)
      else if t = ANDNGATE ∨ t = ORNGATE then (l0, v0, ts)
      else if t = NANDNGATE ∨ t = NORNGATE then (l0, invertSecretValue v0, ts)
      else (zeroBlock, .sec false, ts)
    else if t = XORGATE then (xorBlock l0 l1, xorSecret v0 v1, ts)
    else if t = XNORGATE then (xorBlock l0 l1, invertSecretValue (xorSecret v0 v1), ts)
    else if t = NOTGATE then (l0, invertSecretValue v0, ts)
    else if (ts.tables ts.ind).gid.toNat = gid then
      let T := ts.tables ts.ind
      (evalHalfGates enc cid gid l0 l1 T.row0 T.row1, .sec false, { ts with ind := ts.ind + 1 })
    else
      (evalHalfGates enc cid gid l0 l1 (ts.rnd ts.rndPos) (ts.rnd (ts.rndPos + 1)), .sec false,
        { ts with rndPos := ts.rndPos + 2 })

end TinyGarble
