import Verif.Spec.Run
import Verif.Spec.Semantics

/-!
# A concrete session

A serial adder with a carry flip-flop: three gates with secret inputs need tables from the second
cycle on, while in the first cycle the carry is publicly 0. The session is used to show that the
hypotheses of the property theorems can be met.
-/

namespace TinyGarble.Spec

/-- Boolean test for `NoCollisionG` (used for the example only). -/
def checkG (c : Circuit) (sw : Nat → SWire) (wires : Nat → BlockPair) : Bool :=
  (List.range c.gateSize).all fun i =>
    match symIn0 c sw (c.gate i), symIn1 c sw (c.gate i) with
    | .sec s _, .sec s' _ => s == s' ||
      (cmpBlock (wires (c.gate i).input0.toNat).label0 (wires (c.gate i).input1.toNat).label0 == false &&
       cmpBlock (wires (c.gate i).input0.toNat).label0 (wires (c.gate i).input1.toNat).label1 == false)
    | _, _ => true

/-- Boolean test for `NoCollisionE` (used for the example only). -/
def checkE (c : Circuit) (sw : Nat → SWire) (wires : Nat → Block) : Bool :=
  (List.range c.gateSize).all fun i =>
    match symIn0 c sw (c.gate i), symIn1 c sw (c.gate i) with
    | .sec s _, .sec s' _ => s == s' ||
      cmpBlock (wires (c.gate i).input0.toNat) (wires (c.gate i).input1.toNat) == false
    | _, _ => true

theorem checkG_sound {c : Circuit} {sw : Nat → SWire} {wires : Nat → BlockPair} (h : checkG c sw wires = true) :
    NoCollisionG c sw wires := by
  intro i hi s j s' j' e e' hne
  unfold checkG at h
  rw [List.all_eq_true] at h
  have := h i (List.mem_range.mpr hi)
  rw [e, e'] at this
  simpa [hne] using this

theorem checkE_sound {c : Circuit} {sw : Nat → SWire} {wires : Nat → Block} (h : checkE c sw wires = true) :
    NoCollisionE c sw wires := by
  intro i hi s j s' j' e e' hne
  unfold checkE at h
  rw [List.all_eq_true] at h
  have := h i (List.mem_range.mpr hi)
  rw [e, e'] at this
  simpa [hne] using this

/-- Serial adder: inputs 0 (garbler) and 1 (evaluator), carry flip-flop 2, gates 3 to 7. -/
def exCircuit : Circuit where
  pInit := 0
  gInit := 0
  eInit := 0
  pInput := 0
  gInput := 1
  eInput := 1
  dffSize := 1
  outputSize := 1
  terminateId := 0
  gateSize := 5
  gate := fun i => match i with
    | 0 => ⟨0, 1, 6⟩
    | 1 => ⟨3, 2, 6⟩
    | 2 => ⟨0, 1, 8⟩
    | 3 => ⟨3, 2, 8⟩
    | _ => ⟨5, 6, 14⟩
  outputs := fun _ => 4
  D := fun _ => 7
  I := fun _ => -2

/-- Some function in place of AES. -/
def exEnc (b : Block) : Block := b * b + 12345#128
def exR : Block := 0x1234567890abcdef1234567890abcdef#128
def exPair (n : Nat) : BlockPair :=
  ⟨BitVec.ofNat 128 (n * 0x9e3779b97f4a7c15f39cc0605cedc835),
   BitVec.ofNat 128 (n * 0x9e3779b97f4a7c15f39cc0605cedc835) ^^^ exR⟩
/-- 5 + 7, least significant bit first. -/
def exX : Inputs := ⟨0, 0, 0, 0, 0b101, 0b111⟩

def exS : Session where
  c := exCircuit
  enc := exEnc
  R := exR
  x := exX
  gin := fun cid => ⟨0, 0, fun _ => exPair 77, fun i => exPair (3 + 2 * cid + i)⟩
  ein := fun cid => ⟨0, 0, fun _ => (exPair 77).label0, fun i =>
    if secretInputBit exCircuit exX cid i then (exPair (3 + 2 * cid + i)).label1
    else (exPair (3 + 2 * cid + i)).label0⟩
  fan0 := fun _ => 7
  gst0 := ⟨fun _ => ⟨5#128, 6#128⟩, fun _ => .sec false, fun _ => ⟨7#128, 6#128⟩, fun _ => .sec false, fun _ => 3⟩
  est0 := ⟨fun _ => 5#128, fun _ => .sec false, fun _ => 1#128, fun _ => .sec false, fun _ => 3,
    ⟨fun _ => ⟨0, 0, BitVec.allOnes 32⟩, 0, fun _ => 0, 0⟩⟩
  lowMem := true

theorem exCircuit_wf : WF exCircuit where
  in0 := by
    intro i hi
    have : i < 5 := hi
    rcases i with _ | _ | _ | _ | _ | i <;> first | omega | (right; constructor <;> decide)
  in1 := by
    intro i hi
    have : i < 5 := hi
    rcases i with _ | _ | _ | _ | _ | i <;> first | omega | (right; constructor <;> decide)
  type := by
    intro i hi
    have : i < 5 := hi
    rcases i with _ | _ | _ | _ | _ | i <;> first | omega | decide
  D := fun _ _ => Or.inr (show (0 : Int) ≤ 7 ∧ (7 : Int) < 8 by decide)
  outputs := fun _ _ => show (0 : Int) ≤ 4 ∧ (4 : Int) < 8 by decide
  term := Or.inl rfl
  size := by decide

theorem exS_ok : exS.OK where
  wf := exCircuit_wf
  odd := by decide
  labels :=
    { gPub := fun _ => ⟨rfl, rfl⟩
      ePub := fun _ => ⟨rfl, rfl⟩
      init := fun _ k hk => absurd hk (by simp [exS, exCircuit, Circuit.secretInitSize])
      input := fun _ _ _ => rfl
      eInit := fun _ k hk => absurd hk (by simp [exS, exCircuit, Circuit.secretInitSize])
      eInput := fun _ _ _ => rfl }
  gFresh := fun _ => rfl
  eFresh := ⟨fun _ => rfl, fun _ => by show 5 ≤ (BitVec.allOnes 32).toNat; decide⟩

theorem exS_noAccident : exS.NoAccident 2 := by
  intro k hk
  have : k = 0 ∨ k = 1 ∨ k = 2 := by omega
  rcases this with rfl | rfl | rfl <;>
    exact ⟨checkG_sound (by decide +kernel), checkE_sound (by decide +kernel)⟩

/-- The session does use garbled tables. -/
theorem exS_tables : (exS.sent 0).length = 1 ∧ (exS.sent 1).length = 3 := by decide +kernel

/-- A circuit with a gate that is given up: its only reader is an AND with 0. -/
def skipCircuit : Circuit :=
  { exCircuit with
    dffSize := 0
    gateSize := 2
    gate := fun i => match i with
      | 0 => ⟨0, 1, 8⟩
      | _ => ⟨2, -2, 8⟩
    outputs := fun _ => 3 }

def exSkip : Session := { exS with c := skipCircuit }

theorem exSkip_ok : exSkip.OK where
  wf :=
    { in0 := by
        intro i hi
        have : i < 2 := hi
        rcases i with _ | _ | i <;> first | omega | (right; constructor <;> decide)
      in1 := by
        intro i hi
        have : i < 2 := hi
        rcases i with _ | _ | i <;> first | omega | (right; constructor <;> decide) | (left; decide)
      type := by
        intro i hi
        have : i < 2 := hi
        rcases i with _ | _ | i <;> first | omega | decide
      D := fun i hi => absurd (show i < 0 from hi) (by omega)
      outputs := fun _ _ => show (0 : Int) ≤ 3 ∧ (3 : Int) < 4 by decide
      term := Or.inl rfl
      size := by decide }
  odd := by decide
  labels :=
    { gPub := fun _ => ⟨rfl, rfl⟩
      ePub := fun _ => ⟨rfl, rfl⟩
      init := fun _ k hk => absurd hk (by simp [exSkip, skipCircuit, exCircuit, Circuit.secretInitSize])
      input := fun _ _ _ => rfl
      eInit := fun _ k hk => absurd hk (by simp [exSkip, skipCircuit, exCircuit, Circuit.secretInitSize])
      eInput := fun _ _ _ => rfl }
  gFresh := fun _ => rfl
  eFresh := ⟨fun _ => rfl, fun _ => by show 2 ≤ (BitVec.allOnes 32).toNat; decide⟩

theorem exSkip_noAccident : exSkip.NoAccident 0 := by
  intro k hk
  obtain rfl : k = 0 := by omega
  exact ⟨checkG_sound (by decide +kernel), checkE_sound (by decide +kernel)⟩

end TinyGarble.Spec
