import Verif.Spec.ArmStop

/-!
# ARM as the circuit has it

The machine of `Spec/Arm` with three changes, which describe what the circuit does in cases where it does not follow the manual: an addition
or subtraction with carry that sets the flags clears N, Z and V; `mla` does not add; data processing with register 15 as destination jumps
even if its condition does not hold.
-/

namespace TinyGarble.Spec.Arm.Circuit

/-- Additions and subtractions with carry. -/
def withCarry : Op → Bool
  | .adc | .sbc | .rsc => true
  | _ => false

/-- The flags that an operation sets, from those that the manual says. -/
def flags (op : Op) (f : Flags) : Flags := if withCarry op then ⟨false, false, f.c, false⟩ else f

/-- The effect of an instruction whose condition holds. -/
def exec (l : Layout) (s : State) : Instr → Option State
  | .dp op set rd rn o =>
    if set ∧ rd ≠ 15 then (Arm.exec l s (.dp op set rd rn o)).map fun s' => { s' with flags := flags op s'.flags }
    else Arm.exec l s (.dp op set rd rn o)
  | .mul _ set rd rn rs rm => Arm.exec l s (.mul false set rd rn rs rm)
  | i => Arm.exec l s i

/-- The effect of an instruction whose condition does not hold. -/
def pass (s : State) : Instr → Option State
  | .dp op set rd rn o =>
    if (Instr.dp op set rd rn o).jumps then (o.eval s rn).map fun (b, sc) => s.write 15 (op.eval (s.base rn) b sc s.flags).1
    else some s.next
  | _ => some s.next

/-- One instruction. -/
def step (l : Layout) (s : State) : Option State :=
  (s.fetch l).bind fun (c, i) => if holds c s.flags then exec l s i else pass s i

/-- The state after `t` instructions. -/
def trace (l : Layout) (s : State) : Nat → Option State
  | 0 => some s
  | t + 1 => (trace l s t).bind (step l)

/-- The number of cycles of the first `t` instructions. -/
def cost (l : Layout) (s : State) : Nat → Nat
  | 0 => 0
  | t + 1 => cost l s t + (((trace l s t).bind (State.fetch l)).map fun (_, i) => i.cycles).getD 0

/-- Instructions, to be executed, for which the changes above describe what the circuit does: as `Instr.supported`, without the conditions
on the operations with carry and on `mla`. -/
def supported (i : Instr) (s : State) : Prop :=
  match i with
  | .dp op set rd _ o => o.supported s ∧ (set ∧ rd ≠ 15 → (op = .and ∨ op = .tst) ∧ o.plain s → s.flags.c = false)
  | .mul .. => True
  | i => i.supported s

/-- Instructions, not to be executed, for which the changes above describe what the circuit does: a jump is by data processing. -/
def skipped (i : Instr) (s : State) : Prop :=
  match i with
  | .dp op set rd rn o => (Instr.dp op set rd rn o).jumps = true → o.supported s
  | i => i.jumps = false

/-- The executions of instructions in which the circuit does what this machine does. -/
def Supported (l : Layout) (s : State) (c : BitVec 4) (i : Instr) : Prop :=
  (holds c s.flags = true → supported i s) ∧ (holds c s.flags = false → skipped i s) ∧ i.passable l s

end TinyGarble.Spec.Arm.Circuit
