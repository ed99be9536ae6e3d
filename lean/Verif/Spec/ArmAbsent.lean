import Verif.Spec.ArmCircuit

/-!
# Instructions that do nothing

The machine of `Spec/ArmCircuit`, in which moreover `swp`, the coprocessor instructions and `swi` do nothing, whatever their condition.
-/

namespace TinyGarble.Spec.Arm.Absent

open TinyGarble.Spec.Mips (bits)

/-- `swp` and `swpb`: bits 27 to 23 are 00010, bits 21 and 20 are 00, bits 11 to 4 are 00001001. -/
def isSwap (x : BitVec 32) : Prop := bits x 23 5 = 2 ∧ bits x 20 2 = 0 ∧ bits x 4 8 = 9

/-- `ldc`, `stc`, `cdp`, `mrc`, `mcr` and `swi`: bits 27 and 26 are 11. -/
def isCoprocessorOrSwi (x : BitVec 32) : Prop := bits x 26 2 = 3

/-- The instructions that do nothing. -/
def absent (x : BitVec 32) : Prop := isSwap x ∨ isCoprocessorOrSwi x

instance (x : BitVec 32) : Decidable (isSwap x) := by unfold isSwap; infer_instance
instance (x : BitVec 32) : Decidable (isCoprocessorOrSwi x) := by unfold isCoprocessorOrSwi; infer_instance
instance (x : BitVec 32) : Decidable (absent x) := by unfold absent; infer_instance

/-- The next instruction is one of them. -/
def atAbsent (l : Layout) (s : State) : Prop := s.pc.toNat < l.code ∧ absent (s.word (addr s.pc))

instance (l : Layout) (s : State) : Decidable (atAbsent l s) := by unfold atAbsent; infer_instance

/-- One instruction. -/
def step (l : Layout) (s : State) : Option State := if atAbsent l s then some s.next else Circuit.step l s

/-- The state after `t` instructions. -/
def trace (l : Layout) (s : State) : Nat → Option State
  | 0 => some s
  | t + 1 => (trace l s t).bind (step l)

/-- The number of cycles of the next instruction. -/
def cycles (l : Layout) (s : State) : Nat := if atAbsent l s then 1 else ((s.fetch l).map fun (_, i) => i.cycles).getD 0

/-- The number of cycles of the first `t` instructions. -/
def cost (l : Layout) (s : State) : Nat → Nat
  | 0 => 0
  | t + 1 => cost l s t + ((trace l s t).map (cycles l)).getD 0

end TinyGarble.Spec.Arm.Absent
