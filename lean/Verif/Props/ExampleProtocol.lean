import Verif.Model.Rng
import Verif.Spec.Protocol
import Verif.Proof.Semantics
import Verif.Props.ExampleSession

/-!
# A concrete protocol execution

A serial adder with a public input that also ends the execution: used to show that the hypotheses of
the theorems about the whole protocol can be met, and as the wrong program's witness.
-/

namespace TinyGarble.Spec

/-- Inputs 0 (public), 1 (garbler), 2 (evaluator), carry flip-flop 3, gates 4 to 10. Output 0 is
"public input or garbler's input" (public when the public input is 1, secret otherwise), output 1 the
sum; the public input is the terminate signal. -/
def prCircuit : Circuit where
  pInit := 0
  gInit := 0
  eInit := 0
  pInput := 1
  gInput := 1
  eInput := 1
  dffSize := 1
  outputSize := 2
  terminateId := 10
  gateSize := 7
  gate := fun i => match i with
    | 0 => ⟨1, 2, 6⟩
    | 1 => ⟨4, 3, 6⟩
    | 2 => ⟨1, 2, 8⟩
    | 3 => ⟨4, 3, 8⟩
    | 4 => ⟨6, 7, 14⟩
    | 5 => ⟨0, 1, 14⟩
    | _ => ⟨0, -2, 6⟩
  outputs := fun i => match i with
    | 0 => 9
    | _ => 5
  D := fun _ => 8
  I := fun _ => -2

theorem prCircuit_wf : WF prCircuit where
  in0 := by
    intro i hi
    have : i < 7 := hi
    rcases i with _ | _ | _ | _ | _ | _ | _ | i <;> first | omega | (right; constructor <;> decide)
  in1 := by
    intro i hi
    have : i < 7 := hi
    rcases i with _ | _ | _ | _ | _ | _ | _ | i <;> first | omega | (right; constructor <;> decide) | (left; decide)
  type := by
    intro i hi
    have : i < 7 := hi
    rcases i with _ | _ | _ | _ | _ | _ | _ | i <;> first | omega | decide
  D := fun _ _ => Or.inr (show (0 : Int) ≤ 8 ∧ (8 : Int) < 11 by decide)
  outputs := by
    intro i hi
    have : i < 2 := hi
    rcases i with _ | _ | i <;> first | omega | (constructor <;> decide)
  term := Or.inr (by decide)
  size := by decide

/-- Block cipher and digest: anything. -/
def prCrypto : Crypto := ⟨fun k b => exEnc b + k, fun l => l⟩

/-- The garbler holds 5, the public input is 1 in the third cycle. -/
def prA (mask : Nat) (mode : OutputMode) (low : Bool) : Args := ⟨0, 0b100, 0, 0b101, 4, mask, 1, mode, true, low⟩

/-- The evaluator holds 7. -/
def prB (mask : Nat) (mode : OutputMode) (low : Bool) : Args := ⟨0, 0b100, 0, 0b111, 4, mask, 1, mode, true, low⟩

def prG : GEnv where
  rnd := randomBlocks (srandSSE 1111#32)
  ot := fun _ => ⟨⟨15, 3, 3⟩, fun i j => (7 * i + 2 * j + 3) % 2 ^ 1024⟩
  ext := fun _ => ⟨0, fun _ => 0⟩
  fan0 := fun _ => 7
  st0 := ⟨fun _ => ⟨5#128, 6#128⟩, fun _ => .sec false, fun _ => ⟨7#128, 6#128⟩, fun _ => .sec false, fun _ => 3⟩
  pad := fun _ _ _ => 0

def prE : EEnv where
  rk := fun _ _ => 4
  ext := fun _ => ⟨fun _ => 0, ⟨⟨15, 3, 3⟩, fun i j => (7 * i + 2 * j + 3) % 2 ^ 1024⟩⟩
  fan0 := fun _ => 8
  st0 := ⟨fun _ => 5#128, fun _ => .sec false, fun _ => 1#128, fun _ => .sec false, fun _ => 3,
    ⟨fun _ => ⟨0, 0, BitVec.allOnes 32⟩, 0, fun _ => 0, 0⟩⟩
  init0 := fun _ => 9#128
  input0 := fun _ => 9#128
  out0 := fun _ => (9#128, .sec false)

theorem prSetup (mask : Nat) (mode : OutputMode) (low : Bool) :
    Setup 1 prCrypto prCircuit (prA mask mode low) (prB mask mode low) prG prE where
  wf := prCircuit_wf
  cycles := by show 0 < 4; decide
  term := fun _ => by decide
  paired := ⟨rfl, rfl, rfl, rfl, rfl, rfl, rfl, rfl⟩
  conn := ⟨by decide, fun h => (by cases h), fun h => (by cases h), fun h => (by cases h), fun h => (by cases h)⟩
  sizes := ⟨by decide, by decide, by decide, by show 0 + 4 * 1 < 2 ^ 30; decide, by show numBytes 0 < 2 ^ 31; decide,
    by show numBytes 7 < 2 ^ 31; decide⟩
  gFresh := fun _ => rfl
  eFresh := ⟨fun _ => rfl, fun _ => by show 7 ≤ (BitVec.allOnes 32).toNat; decide⟩

/-- The session of the example. -/
abbrev prS (mask : Nat) (mode : OutputMode) (low : Bool) : Session :=
  sessionOf prCrypto prCircuit (prA mask mode low) (prB mask mode low) prG prE

/-- The values of all wires. -/
def prV : Nat → Nat → Bool := plainWires prCircuit ⟨0, 0, 0, 0b100, 0b101, 0b111⟩ fun _ => false

theorem prV_solves (mask : Nat) (mode : OutputMode) (low : Bool) :
    Solves prCircuit (inputsOf (prA mask mode low) (prB mask mode low)) prV :=
  plainWires_solves prCircuit_wf _ _

theorem prS_eq (mask : Nat) (mode : OutputMode) (low : Bool) : prS mask mode low = prS 0 .consecutive low := by
  cases low <;> rfl

theorem prS_noAccident (mask : Nat) (mode : OutputMode) (low : Bool) : (prS mask mode low).NoAccident 3 := by
  rw [prS_eq]
  intro k hk
  have : k = 0 ∨ k = 1 ∨ k = 2 ∨ k = 3 := by omega
  cases low <;> rcases this with rfl | rfl | rfl | rfl <;>
    exact ⟨checkG_sound (by decide +kernel), checkE_sound (by decide +kernel)⟩

theorem prS_lucky (mask : Nat) (mode : OutputMode) (low : Bool) (T : Nat) (v : Nat → Nat → Bool) :
    (prS mask mode low).Lucky T 4 v := by
  intro k hk _ j hj
  exact prS_noAccident mask mode low j (by omega)

theorem prS_public (mask : Nat) (mode : OutputMode) (low : Bool) (T : Nat) (v : Nat → Nat → Bool) :
    (prS mask mode low).PublicStop T 4 v := by
  rw [prS_eq]
  intro _ k hk _ _
  have : k = 0 ∨ k = 1 ∨ k = 2 ∨ k = 3 := by omega
  cases low <;> rcases this with rfl | rfl | rfl | rfl <;> decide +kernel

theorem prProper (mask : Nat) (mode : OutputMode) (low : Bool) :
    Proper 1 prCrypto prCircuit (prA mask mode low) (prB mask mode low) prG prE prV :=
  ⟨prSetup mask mode low, prV_solves mask mode low, prS_lucky mask mode low 1 prV, prS_public mask mode low 1 prV⟩

/-- Also with oblivious transfer, given enough buffer space. -/
theorem prSetup_ot (mask : Nat) (mode : OutputMode) (low : Bool) :
    Setup 16896 prCrypto prCircuit { prA mask mode low with disableOT := false } { prB mask mode low with disableOT := false }
      prG prE :=
  have hco : CoinsOK ⟨⟨15, 3, 3⟩, fun i j => (7 * i + 2 * j + 3) % 2 ^ 1024⟩ :=
    ⟨⟨3, 5, by decide, by decide, by decide, rfl, by decide⟩, Nat.lt_of_lt_of_le (by decide : 15 < 2 ^ 4) (Nat.pow_le_pow_right (by decide) (by decide)),
      Nat.lt_of_lt_of_le (by decide : 3 < 2 ^ 4) (Nat.pow_le_pow_right (by decide) (by decide)), fun _ _ => Nat.mod_lt _ (Nat.two_pow_pos _)⟩
  { wf := prCircuit_wf
    cycles := (by show 0 < 4; decide)
    term := fun _ => by decide
    paired := ⟨rfl, rfl, rfl, rfl, rfl, rfl, rfl, rfl⟩
    conn := ⟨by decide, fun _ => Nat.le_refl _, fun _ _ => hco, fun _ _ => hco, fun _ _ _ => Nat.two_pow_pos _⟩
    sizes := ⟨by decide, by decide, by decide, by show 0 + 4 * 1 < 2 ^ 30; decide, by show numBytes 0 < 2 ^ 31; decide,
      by show numBytes 7 < 2 ^ 31; decide⟩
    gFresh := fun _ => rfl
    eFresh := ⟨fun _ => rfl, fun _ => by show 7 ≤ (BitVec.allOnes 32).toNat; decide⟩ }

theorem prProper_ot (mask : Nat) (mode : OutputMode) (low : Bool) :
    Proper 16896 prCrypto prCircuit { prA mask mode low with disableOT := false } { prB mask mode low with disableOT := false }
      prG prE prV :=
  ⟨prSetup_ot mask mode low, prV_solves mask mode low, prS_lucky mask mode low 1 prV, prS_public mask mode low 1 prV⟩

/-- The same circuit with the sum as (secret) terminate signal. -/
def prT : Circuit := { prCircuit with terminateId := 5 }

theorem prT_wf : WF prT := { prCircuit_wf with term := Or.inr (by decide) }

theorem prT_setup (low : Bool) : Setup 1 prCrypto prT (prA 0 .consecutive low) (prB 0 .consecutive low) prG prE :=
  { prSetup 0 .consecutive low with
    wf := prT_wf
    term := fun _ => by decide
    sizes := ⟨by decide, by decide, by decide, by show 0 + 4 * 1 < 2 ^ 30; decide, by show numBytes 0 < 2 ^ 31; decide,
      by show numBytes 7 < 2 ^ 31; decide⟩ }

theorem prT_look (low : Bool) :
    (sessionOf prCrypto prT (prA 0 .consecutive low) (prB 0 .consecutive low) prG prE).SecretLook 1 4
      (plainWires prT ⟨0, 0, 0, 0b100, 0b101, 0b111⟩ fun _ => false) 0 where
  lt := by decide
  period := by decide
  look := by decide
  secret := by cases low <;> decide +kernel
  before := fun j hj => absurd hj (by omega)
  lucky := by
    intro k hk
    obtain rfl : k = 0 := by omega
    cases low <;> exact ⟨checkG_sound (by decide +kernel), checkE_sound (by decide +kernel)⟩

end TinyGarble.Spec
