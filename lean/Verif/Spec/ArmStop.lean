import Verif.Spec.Arm

/-!
# Programs that stay away from the end

The circuit recognises the end of a program by the addresses that it issues: `0x18` and then `0x1c`, the two words after the `b .` at `0x14`.
-/

namespace TinyGarble.Spec.Arm

/-- A multiple load or store does not access the word at `0x18` and then the one at `0x1c`. The circuit issues the addresses even if the
condition of the instruction does not hold. -/
def Instr.apart (i : Instr) (s : State) : Prop :=
  match i with
  | .multi _ up pre _ rn list =>
    words (fun a => align a ≠ 0x18) (start up pre (s.base rn) (registers list).length) ((registers list).length - 1) = true
  | _ => True

/-- The instruction is a branch. -/
def Instr.isBranch : Instr → Bool
  | .branch .. => true
  | _ => false

/-- An instruction that is not part of the end: it is not at `0x14`, `0x18` or `0x1c`; at `0x10`, where the start code calls the program,
there is a branch; and multiple transfers do not go through the words from `0x18` to `0x1f`. -/
def Ordinary (s : State) (i : Instr) : Prop :=
  (s.pc ≠ 5 ∧ s.pc ≠ 6 ∧ s.pc ≠ 7) ∧ (s.pc = 4 → i.isBranch = true) ∧ i.apart s

end TinyGarble.Spec.Arm
