import Verif.Proof.Hdl.A23Stop
import Verif.Proof.Hdl.A23Manual
import Verif.Props.Hdl.Stable

/-!
# The ARM processor (C80, C81)
-/

namespace TinyGarble.Props.Hdl

open TinyGarble.Hdl TinyGarble.Spec.Hdl TinyGarble.Proof.Hdl
open TinyGarble.Hdl.A23 (Sizes a23 run)
open TinyGarble.Spec.Arm (Layout State Instr Operand Offset Shift addr align holds trace cost Supported step start words registers move)

/-- The sizes of the memories of the circuit, for the machine. -/
def armLayout (z : Sizes) : Layout := ⟨z.code, z.g, z.e, z.out, z.stack⟩

/-- The machine at the start: the program and the inputs of the parties, which are vectors, in the memory. -/
def armStart (z : Sizes) (p : BitVec (z.code * 32)) (g : BitVec (z.g * 32)) (e : BitVec (z.e * 32)) : State :=
  .init (part 8 p) (part 8 g) (part 8 e)

section
variable (z : Sizes) (undef : Nat → BitVec 32) (p : BitVec (z.code * 32)) (g : BitVec (z.g * 32)) (e : BitVec (z.e * 32))

theorem armStart_eq : armStart z p g e = .init (entry 8 p) (entry 8 g) (entry 8 e) := by
  rw [armStart, entry_eq_part, entry_eq_part, entry_eq_part]

theorem part_setWidth {n k : Nat} (x : BitVec n) (h : n = k) (M i : Nat) : part M (x.setWidth k) i = part M x i := by
  subst h
  rw [BitVec.setWidth_eq]

theorem a23_byte {T : Nat} {s : State} (h : s.mem = A23.absMem (run z undef p g e T).2) (j : Nat) (hj : j < 4 * z.out) (hj' : j < 2 ^ 24) :
    part 8 (a23 z undef p g e T) j = s.mem (BitVec.ofNat 32 (0x03000000 + j)) := by
  rw [a23, part_setWidth _ (by omega), part_ofEntries _ _ _ _ hj, h, A23.absMem, BitVec.toNat_ofNat,
    show (0x03000000 + j) % 2 ^ 32 / 2 ^ 24 = 3 by omega, show (0x03000000 + j) % 2 ^ 32 % 2 ^ 24 = j by omega]
  rfl

/-- C80: the circuit is the machine of `Spec/ArmCircuit`, which differs from the manual in three points (flags after operations with carry, `mla`,
conditional jumps), if the program executes instructions only in the cases that `Circuit.Supported` lists: when the circuit has gone through the
first `t` instructions, which takes the sum of their numbers of cycles, its output is the output region of the memory after these instructions,
and its registers and flags are those of the machine. Missing: the other cases. -/
theorem C80_circuit_partial (hz : z.code ≤ 2 ^ 22) (t : Nat) (s : State) (ht : Spec.Arm.Circuit.trace (armLayout z) (armStart z p g e) t = some s)
    (hs : ∀ k < t, ∀ s' c i, Spec.Arm.Circuit.trace (armLayout z) (armStart z p g e) k = some s' → s'.fetch (armLayout z) = some (c, i) →
      Spec.Arm.Circuit.Supported (armLayout z) s' c i) :
    (∀ j < 4 * z.out, j < 2 ^ 24 →
      part 8 (a23 z undef p g e (2 + Spec.Arm.Circuit.cost (armLayout z) (armStart z p g e) t)) j = s.mem (BitVec.ofNat 32 (0x03000000 + j))) ∧
    (∀ k, k ≠ 15 → (run z undef p g e (2 + Spec.Arm.Circuit.cost (armLayout z) (armStart z p g e) t)).1.regs k = s.reg k) ∧
    (run z undef p g e (2 + Spec.Arm.Circuit.cost (armLayout z) (armStart z p g e) t)).1.r15 = s.pc + 2 ∧
    ∀ c, A23.conditional c (run z undef p g e (2 + Spec.Arm.Circuit.cost (armLayout z) (armStart z p g e) t)).1.flags = holds c s.flags := by
  rw [armStart_eq] at *
  have hR := A23.run_refines z undef p g e hz t s ht hs
  refine ⟨fun j hj hj' => a23_byte z undef p g e hR.mem j hj hj', hR.regs, hR.r15, fun c => ?_⟩
  rw [A23.conditional_eq, ← hR.flags]
  rfl

/-- C80: if the program executes instructions only in the cases that `Supported` lists, then when the circuit has gone through the first `t`
instructions, which takes the sum of their numbers of cycles, its output is the output region of the memory after these instructions, and
its registers and flags are those of the machine. This is so whatever reads outside of the memories yield. Missing: the cases that `Supported`
excludes, in which the circuit does something else (see below). -/
theorem C80_arm_partial (hz : z.code ≤ 2 ^ 22) (t : Nat) (s : State) (ht : trace (armLayout z) (armStart z p g e) t = some s)
    (hs : ∀ k < t, ∀ s' c i, trace (armLayout z) (armStart z p g e) k = some s' → s'.fetch (armLayout z) = some (c, i) →
      Supported (armLayout z) s' c i) :
    (∀ j < 4 * z.out, j < 2 ^ 24 →
      part 8 (a23 z undef p g e (2 + cost (armLayout z) (armStart z p g e) t)) j = s.mem (BitVec.ofNat 32 (0x03000000 + j))) ∧
    (∀ k, k ≠ 15 → (run z undef p g e (2 + cost (armLayout z) (armStart z p g e) t)).1.regs k = s.reg k) ∧
    (run z undef p g e (2 + cost (armLayout z) (armStart z p g e) t)).1.r15 = s.pc + 2 ∧
    ∀ c, A23.conditional c (run z undef p g e (2 + cost (armLayout z) (armStart z p g e) t)).1.flags = holds c s.flags := by
  rw [← A23.cost_circuit hs t le_rfl]
  refine C80_circuit_partial z undef p g e hz t s (by rw [A23.trace_circuit hs t le_rfl, ht]) fun k hk s' c i h1 h2 => ?_
  rw [A23.trace_circuit hs k (by omega)] at h1
  exact A23.supported_circuit (hs k hk s' c i h1 h2)

/-- The instruction `b .`, a branch to itself. -/
def branchToSelf : BitVec 32 := 0xeafffffe

theorem self_effect (l : Layout) (s : State) : A23.effect l s 14 (.branch false 0xfffffe) = some s := by
  have : s.pc + 2 + 0xfffffe = s.pc := by
    rw [BitVec.add_assoc, show (2 : BitVec 24) + 0xfffffe = 0 by decide]
    exact BitVec.add_zero _
  rw [A23.effect, if_pos (show holds 14 s.flags = true from rfl)]
  show TinyGarble.Spec.Arm.exec l s (.branch false 0xfffffe) = _
  rw [TinyGarble.Spec.Arm.exec]
  simp only [Bool.false_eq_true, if_false]
  rw [this]

theorem self_jump (hz : z.code ≤ 2 ^ 22) {s : State} {c : TinyGarble.Hdl.A23.Core} {m : TinyGarble.Hdl.A23.Mem} (hR : A23.R z s c m) (hp : s.pc.toNat < z.code)
    (hx : s.word (addr s.pc) = branchToSelf) : A23.Jump z s c m := by
  have hi := A23.isInstr (show TinyGarble.Spec.Arm.decode branchToSelf = some (.branch false 0xfffffe) by decide +kernel)
  exact A23.branch_jump hz hR hp hx hi (by rw [show A23.slice branchToSelf 28 4 = 14 by decide]; exact self_effect _ s)

theorem self_loop (hz : z.code ≤ 2 ^ 22) {s : State} {T : Nat} (hR : A23.R z s (run z undef p g e T).1 (run z undef p g e T).2) (hp : s.pc.toNat < z.code)
    (hx : s.word (addr s.pc) = branchToSelf) (n : Nat) : A23.R z s (run z undef p g e (T + 3 * n)).1 (run z undef p g e (T + 3 * n)).2 := by
  induction n with
  | zero => exact hR
  | succ n ih =>
    rw [show T + 3 * (n + 1) = T + 3 * n + 3 by omega, A23.run_add]
    exact A23.jump hz (self_jump z hz ih hp hx) _

/-- C81, for the machine of `Spec/ArmCircuit`: when the program has arrived at a branch to itself the output stays as it is, and if that branch is
at address `0x14`, `terminate` is set in every third cycle. Missing: the cases that `Circuit.Supported` excludes. -/
theorem C81_circuit_halt_partial (hz : z.code ≤ 2 ^ 22) (t : Nat) (s : State) (ht : Spec.Arm.Circuit.trace (armLayout z) (armStart z p g e) t = some s)
    (hs : ∀ k < t, ∀ s' c i, Spec.Arm.Circuit.trace (armLayout z) (armStart z p g e) k = some s' → s'.fetch (armLayout z) = some (c, i) →
      Spec.Arm.Circuit.Supported (armLayout z) s' c i)
    (hp : s.pc.toNat < z.code) (hx : s.word (addr s.pc) = branchToSelf) (n : Nat) :
    (∀ j < 4 * z.out, j < 2 ^ 24 →
      part 8 (a23 z undef p g e (2 + Spec.Arm.Circuit.cost (armLayout z) (armStart z p g e) t + n)) j = s.mem (BitVec.ofNat 32 (0x03000000 + j))) ∧
    (s.pc = 5 → n % 3 = 2 → (run z undef p g e (2 + Spec.Arm.Circuit.cost (armLayout z) (armStart z p g e) t + n)).1.terminate = true) := by
  rw [armStart_eq] at *
  have hR0 := A23.run_refines z undef p g e hz t s ht hs
  rw [show A23.lay z = armLayout z from rfl] at hR0
  have hR := self_loop z undef p g e hz hR0 hp hx (n / 3)
  generalize 2 + Spec.Arm.Circuit.cost (armLayout z) (.init (entry 8 p) (entry 8 g) (entry 8 e)) t = T at *
  have hJ := self_jump z hz hR hp hx
  have hT : T + n = T + 3 * (n / 3) + n % 3 := by omega
  constructor
  · intro j hj hj'
    apply a23_byte z undef p g e _ j hj hj'
    rw [hT, A23.run_add, hR.mem]
    congr 1
    exact (hJ.quiet _ (n % 3) (by omega)).symm
  · intro h5 hn
    have := hJ.addresses hz hp (fun k => undef (k + (T + 3 * (n / 3))))
    rw [hT, hn, A23.run_add]
    unfold A23.Core.terminate
    rw [this.1, this.2, h5]
    decide

/-- C81: when the program has arrived at a branch to itself the output stays as it is, and if that branch is at address `0x14`, where the
start code has it, `terminate` is set in every third cycle. Missing: that `terminate` is not set before, which is false
(`C81_false_premature`), and the cases that `Supported` excludes. -/
theorem C81_halt_partial (hz : z.code ≤ 2 ^ 22) (t : Nat) (s : State) (ht : trace (armLayout z) (armStart z p g e) t = some s)
    (hs : ∀ k < t, ∀ s' c i, trace (armLayout z) (armStart z p g e) k = some s' → s'.fetch (armLayout z) = some (c, i) →
      Supported (armLayout z) s' c i)
    (hp : s.pc.toNat < z.code) (hx : s.word (addr s.pc) = branchToSelf) (n : Nat) :
    (∀ j < 4 * z.out, j < 2 ^ 24 →
      part 8 (a23 z undef p g e (2 + cost (armLayout z) (armStart z p g e) t + n)) j = s.mem (BitVec.ofNat 32 (0x03000000 + j))) ∧
    (s.pc = 5 → n % 3 = 2 → (run z undef p g e (2 + cost (armLayout z) (armStart z p g e) t + n)).1.terminate = true) := by
  rw [← A23.cost_circuit hs t le_rfl]
  refine C81_circuit_halt_partial z undef p g e hz t s (by rw [A23.trace_circuit hs t le_rfl, ht]) (fun k hk s' c i h1 h2 => ?_) hp hx n
  rw [A23.trace_circuit hs k (by omega)] at h1
  exact A23.supported_circuit (hs k hk s' c i h1 h2)

/-- C81, for the machine of `Spec/ArmCircuit`: if the program arrives at address `0x14` and its instructions before are all `Ordinary` (none is at
`0x14` to `0x1c`, the one at `0x10` is a branch, and no multiple transfer accesses the word at `0x18` and then that at `0x1c`), then `terminate` is set
for the first time in the last cycle before the instruction at `0x14`, and the output of the circuit in this cycle is that of the machine. Missing:
programs with other instructions, and the cases that `Circuit.Supported` excludes. -/
theorem C81_circuit_partial (hz : z.code ≤ 2 ^ 22) (t : Nat) (s : State) (ht : Spec.Arm.Circuit.trace (armLayout z) (armStart z p g e) t = some s)
    (hs : ∀ k < t, ∀ s' c i, Spec.Arm.Circuit.trace (armLayout z) (armStart z p g e) k = some s' → s'.fetch (armLayout z) = some (c, i) →
      Spec.Arm.Circuit.Supported (armLayout z) s' c i ∧ TinyGarble.Spec.Arm.Ordinary s' i)
    (hp : 5 < z.code) (h5 : s.pc = 5) :
    (∀ T < 1 + Spec.Arm.Circuit.cost (armLayout z) (armStart z p g e) t, (run z undef p g e T).1.terminate = false) ∧
    (run z undef p g e (1 + Spec.Arm.Circuit.cost (armLayout z) (armStart z p g e) t)).1.terminate = true ∧
    ∀ j < 4 * z.out, j < 2 ^ 24 →
      part 8 (a23 z undef p g e (1 + Spec.Arm.Circuit.cost (armLayout z) (armStart z p g e) t)) j = s.mem (BitVec.ofNat 32 (0x03000000 + j)) := by
  rw [armStart_eq] at *
  obtain ⟨h1, h2, h3⟩ := A23.run_stop z undef p g e hz t s ht hs hp h5 rfl
  exact ⟨h1, h2, fun j hj hj' => a23_byte z undef p g e h3 j hj hj'⟩

/-- C81: if the program arrives at address `0x14` and its instructions before are all `Ordinary` (none is at `0x14` to `0x1c`, the one at `0x10`
is a branch, and no multiple transfer accesses the word at `0x18` and then that at `0x1c`), then `terminate` is set for the first time in the last
cycle before the instruction at `0x14`, and the output of the circuit in this cycle is that of the machine. So the parties that stop at the first
`terminate` get the result of the program. Missing: programs with other instructions, for which it is false (`C81_false_premature`), and the cases that
`Supported` excludes. -/
theorem C81_exact_partial (hz : z.code ≤ 2 ^ 22) (t : Nat) (s : State) (ht : trace (armLayout z) (armStart z p g e) t = some s)
    (hs : ∀ k < t, ∀ s' c i, trace (armLayout z) (armStart z p g e) k = some s' → s'.fetch (armLayout z) = some (c, i) →
      Supported (armLayout z) s' c i ∧ TinyGarble.Spec.Arm.Ordinary s' i)
    (hp : 5 < z.code) (h5 : s.pc = 5) :
    (∀ T < 1 + cost (armLayout z) (armStart z p g e) t, (run z undef p g e T).1.terminate = false) ∧
    (run z undef p g e (1 + cost (armLayout z) (armStart z p g e) t)).1.terminate = true ∧
    ∀ j < 4 * z.out, j < 2 ^ 24 →
      part 8 (a23 z undef p g e (1 + cost (armLayout z) (armStart z p g e) t)) j = s.mem (BitVec.ofNat 32 (0x03000000 + j)) := by
  have hs' := fun k hk s' c i a b => (hs k hk s' c i a b).1
  rw [← A23.cost_circuit hs' t le_rfl]
  refine C81_circuit_partial z undef p g e hz t s (by rw [A23.trace_circuit hs' t le_rfl, ht]) (fun k hk s' c i h1 h2 => ?_) hp h5
  rw [A23.trace_circuit hs' k (by omega)] at h1
  exact ⟨A23.supported_circuit (hs k hk s' c i h1 h2).1, (hs k hk s' c i h1 h2).2⟩

end

/-! ## Examples -/

@[reducible] def decSome {α : Type} (o : Option α) (P : α → Prop) [∀ d, Decidable (P d)] : Decidable (∀ d, o = some d → P d) :=
  match o with
  | none => isTrue fun _ h => by cases h
  | some d => if h : P d then isTrue fun _ he => by cases he; exact h else isFalse fun h1 => h (h1 d rfl)

instance (o : Operand) (s : State) : Decidable (o.supported s) := by
  cases o <;> (unfold Operand.supported; infer_instance)

instance (o : Operand) (s : State) : Decidable (o.plain s) := by
  cases o <;> (unfold Operand.plain; infer_instance)

instance (i : Instr) (s : State) : Decidable (i.supported s) := by
  cases i with
  | transfer load byte up pre wb rd rn o =>
    have := decSome (o.eval s) fun d => align (if pre then move up (s.base rn) d else s.base rn) ≠ addr (s.pc + 1)
    cases o <;> exact instDecidableAnd
  | _ => unfold Instr.supported; infer_instance

instance (i : Instr) (l : Layout) (s : State) : Decidable (i.passable l s) := by
  cases i <;> (unfold Instr.passable; infer_instance)

instance (l : Layout) (s : State) (c : BitVec 4) (i : Instr) : Decidable (Supported l s c i) := by
  unfold Supported; infer_instance

/-- Whether the first `t` instructions are executed in cases that `Supported` lists. -/
def allSupported (l : Layout) (s : State) (t : Nat) : Bool :=
  (List.range t).all fun k => ((trace l s k).bind fun s' => (s'.fetch l).map fun (c, i) => decide (Supported l s' c i)).getD true

theorem allSupported_spec {l : Layout} {s : State} {t : Nat} (h : allSupported l s t = true) :
    ∀ k < t, ∀ s' c i, trace l s k = some s' → s'.fetch l = some (c, i) → Supported l s' c i := by
  intro k hk s' c i h1 h2
  have := List.all_eq_true.1 h k (List.mem_range.2 hk)
  rw [h1] at this
  have this : ((s'.fetch l).map fun (c, i) => decide (Supported l s' c i)).getD true = true := this
  rw [h2] at this
  exact of_decide_eq_true this

instance (i : Instr) (s : State) : Decidable (i.apart s) := by
  cases i <;> (unfold Instr.apart; infer_instance)

instance (s : State) (i : Instr) : Decidable (TinyGarble.Spec.Arm.Ordinary s i) := by
  unfold TinyGarble.Spec.Arm.Ordinary; infer_instance

/-- Whether the first `t` instructions are `Ordinary`. -/
def allOrdinary (l : Layout) (s : State) (t : Nat) : Bool :=
  (List.range t).all fun k => ((trace l s k).bind fun s' => (s'.fetch l).map fun (_, i) => decide (TinyGarble.Spec.Arm.Ordinary s' i)).getD true

theorem allOrdinary_spec {l : Layout} {s : State} {t : Nat} (h : allOrdinary l s t = true) :
    ∀ k < t, ∀ s' c i, trace l s k = some s' → s'.fetch l = some (c, i) → TinyGarble.Spec.Arm.Ordinary s' i := by
  intro k hk s' c i h1 h2
  have := List.all_eq_true.1 h k (List.mem_range.2 hk)
  rw [h1] at this
  have this : ((s'.fetch l).map fun (_, i) => decide (TinyGarble.Spec.Arm.Ordinary s' i)).getD true = true := this
  rw [h2] at this
  exact of_decide_eq_true this

/-- A program as a vector. -/
def program (l : List (BitVec 32)) : BitVec (l.length * 32) := BitVec.ofNat _ (l.foldr (fun w a => w.toNat + 2 ^ 32 * a) 0)

/-- The memories for a program: one word of output, four words of stack. -/
def small (l : List (BitVec 32)) : Sizes := ⟨l.length, 1, 1, 1, 4⟩

/-- The word that the circuit outputs after `T` cycles for inputs `a` and `b`. -/
def circuitOut (l : List (BitVec 32)) (a b : BitVec 32) (T : Nat) : Nat := (a23 (small l) (fun _ => 0) (program l) (a.setWidth _) (b.setWidth _) T).toNat

/-- The word that the machine outputs after `t` instructions. -/
def machineOut (l : List (BitVec 32)) (a b : BitVec 32) (t : Nat) : Option Nat :=
  (trace (armLayout (small l)) (armStart (small l) (program l) (a.setWidth _) (b.setWidth _)) t).map fun s => (s.word 0x03000000).toNat

/-- The start code with a function that multiplies, using the stack; it returns to `b .` at address `0x14`. -/
def multiply : List (BitVec 32) :=
  [0xe59fd01c, -- ldr sp, [pc, #28]
   0xe59f000c, -- ldr r0, [pc, #12]
   0xe59f100c, -- ldr r1, [pc, #12]
   0xe59f200c, -- ldr r2, [pc, #12]
   0xeb000004, -- bl 0x28
   0xeafffffe, -- b .
   0x01000000, 0x02000000, 0x03000000, 0x04000010,
   0xe92d4010, -- push {r4, lr}
   0xe5903000, -- ldr r3, [r0]
   0xe5914000, -- ldr r4, [r1]
   0xe0030394, -- mul r3, r4, r3
   0xe5823000, -- str r3, [r2]
   0xe8bd8010] -- pop {r4, pc}

example : ∃ s, trace (armLayout (small multiply)) (armStart (small multiply) (program multiply) 6#32 7#32) 11 = some s ∧ s.pc = 5 ∧
    s.word (addr s.pc) = branchToSelf ∧ s.word 0x03000000 = 42 ∧
    cost (armLayout (small multiply)) (armStart (small multiply) (program multiply) 6#32 7#32) 11 = 38 ∧
    ∀ k < 11, ∀ s' c i, trace (armLayout (small multiply)) (armStart (small multiply) (program multiply) 6#32 7#32) k = some s' →
      s'.fetch (armLayout (small multiply)) = some (c, i) → Supported (armLayout (small multiply)) s' c i := by
  have h : (trace (armLayout (small multiply)) (armStart (small multiply) (program multiply) 6#32 7#32) 11).map (fun s =>
      (s.pc, s.word (addr s.pc), s.word 0x03000000)) = some (5, branchToSelf, 42) := by decide +kernel
  obtain ⟨s, h1, h2⟩ := Option.map_eq_some_iff.1 h
  rw [Prod.mk.injEq, Prod.mk.injEq] at h2
  exact ⟨s, h1, h2.1, h2.2.1, h2.2.2, by decide +kernel, allSupported_spec (by decide +kernel)⟩

/-- The hypotheses of `C81_exact_partial` hold for this program: `terminate` is set first in cycle 39. -/
example : ∃ s, trace (armLayout (small multiply)) (armStart (small multiply) (program multiply) 6#32 7#32) 11 = some s ∧ s.pc = 5 ∧ 5 < (small multiply).code ∧
    1 + cost (armLayout (small multiply)) (armStart (small multiply) (program multiply) 6#32 7#32) 11 = 39 ∧
    ∀ k < 11, ∀ s' c i, trace (armLayout (small multiply)) (armStart (small multiply) (program multiply) 6#32 7#32) k = some s' →
      s'.fetch (armLayout (small multiply)) = some (c, i) → Supported (armLayout (small multiply)) s' c i ∧ TinyGarble.Spec.Arm.Ordinary s' i := by
  have h : (trace (armLayout (small multiply)) (armStart (small multiply) (program multiply) 6#32 7#32) 11).map (fun s => s.pc) = some 5 := by decide +kernel
  obtain ⟨s, h1, h2⟩ := Option.map_eq_some_iff.1 h
  exact ⟨s, h1, h2, by decide, by decide +kernel, fun k hk s' c i a b =>
    ⟨allSupported_spec (t := 11) (by decide +kernel) k hk s' c i a b, allOrdinary_spec (t := 11) (by decide +kernel) k hk s' c i a b⟩⟩

/-- The hypotheses of `C80_circuit_partial`, `C81_circuit_halt_partial` and `C81_circuit_partial` hold for it as well. -/
example : ∃ s, Spec.Arm.Circuit.trace (armLayout (small multiply)) (armStart (small multiply) (program multiply) 6#32 7#32) 11 = some s ∧ s.pc = 5 ∧
    s.word (addr s.pc) = branchToSelf ∧ 5 < (small multiply).code ∧
    ∀ k < 11, ∀ s' c i, Spec.Arm.Circuit.trace (armLayout (small multiply)) (armStart (small multiply) (program multiply) 6#32 7#32) k = some s' →
      s'.fetch (armLayout (small multiply)) = some (c, i) → Spec.Arm.Circuit.Supported (armLayout (small multiply)) s' c i ∧ TinyGarble.Spec.Arm.Ordinary s' i := by
  have h : (trace (armLayout (small multiply)) (armStart (small multiply) (program multiply) 6#32 7#32) 11).map (fun s => (s.pc, s.word (addr s.pc))) =
      some (5, branchToSelf) := by decide +kernel
  obtain ⟨s, h1, h2⟩ := Option.map_eq_some_iff.1 h
  rw [Prod.mk.injEq] at h2
  have hs := allSupported_spec (l := armLayout (small multiply)) (s := armStart (small multiply) (program multiply) 6#32 7#32) (t := 11) (by decide +kernel)
  refine ⟨s, by rw [A23.trace_circuit hs 11 le_rfl, h1], h2.1, h2.2, by decide, fun k hk s' c i a b => ?_⟩
  rw [A23.trace_circuit hs k (by omega)] at a
  exact ⟨A23.supported_circuit (hs k hk s' c i a b), allOrdinary_spec (t := 11) (by decide +kernel) k hk s' c i a b⟩

/-! ## What the circuit does otherwise

In each case the machine, and the circuit, arrive at the final `b .` with different outputs. -/

/-- C80 is false: a shift by a register is by its lowest five bits; a shift by 32 should give 0. -/
theorem C80_false_shift_by_register :
    let l : List (BitVec 32) :=
      [0xe3a00403, -- mov r0, #0x03000000
       0xe3a01001, -- mov r1, #1
       0xe3a02020, -- mov r2, #32
       0xe1a01211, -- mov r1, r1, lsl r2
       0xe5801000, -- str r1, [r0]
       0xeafffffe, 0, 0]
    machineOut l 0 0 6 = some 0 ∧ circuitOut l 0 0 12 = 1 := by decide +kernel

/-- C80 is false: `lsr #32` and `asr #32` do not shift. -/
theorem C80_false_shift_by_32 :
    let l : List (BitVec 32) :=
      [0xe3a00403, -- mov r0, #0x03000000
       0xe3a01001, -- mov r1, #1
       0xe1a01021, -- mov r1, r1, lsr #32
       0xe5801000, -- str r1, [r0]
       0xeafffffe, 0, 0]
    machineOut l 0 0 5 = some 0 ∧ circuitOut l 0 0 11 = 1 := by decide +kernel

/-- C80 is false: `rrx` does not shift. -/
theorem C80_false_rrx :
    let l : List (BitVec 32) :=
      [0xe3a00403, -- mov r0, #0x03000000
       0xe3a01002, -- mov r1, #2
       0xe1a01061, -- mov r1, r1, rrx
       0xe5801000, -- str r1, [r0]
       0xeafffffe, 0, 0]
    machineOut l 0 0 5 = some 1 ∧ circuitOut l 0 0 11 = 2 := by decide +kernel

/-- C80 is false: `adcs` (like `sbcs` and `rscs`) clears N, Z and V. -/
theorem C80_false_adcs :
    let l : List (BitVec 32) :=
      [0xe3a00403, -- mov r0, #0x03000000
       0xe2b11000, -- adcs r1, r1, #0
       0x03a02001, -- moveq r2, #1
       0xe5802000, -- str r2, [r0]
       0xeafffffe, 0, 0]
    machineOut l 0 0 5 = some 1 ∧ circuitOut l 0 0 11 = 0 := by decide +kernel

/-- C80 is false: `ands` (like `tst`) of a register that is not shifted clears the carry. -/
theorem C80_false_ands :
    let l : List (BitVec 32) :=
      [0xe3a00403, -- mov r0, #0x03000000
       0xe1510001, -- cmp r1, r1
       0xe0113001, -- ands r3, r1, r1
       0x23a02001, -- movcs r2, #1
       0xe5802000, -- str r2, [r0]
       0xeafffffe, 0, 0]
    machineOut l 0 0 6 = some 1 ∧ circuitOut l 0 0 12 = 0 := by decide +kernel

/-- C80 is false: an instruction that writes to the program counter does so even if its condition does not hold. -/
theorem C80_false_conditional_jump :
    let l : List (BitVec 32) :=
      [0xe3a00403, -- mov r0, #0x03000000
       0xe3a0e018, -- mov lr, #0x18
       0xe1500000, -- cmp r0, r0
       0x11a0f00e, -- movne pc, lr
       0xe3a01001, -- mov r1, #1
       0xe5801000, -- str r1, [r0]
       0xeafffffe, 0, 0]
    machineOut l 0 0 7 = some 1 ∧ circuitOut l 0 0 15 = 0 := by decide +kernel

/-- C80 is false: `mla` does not add. -/
theorem C80_false_mla :
    let l : List (BitVec 32) :=
      [0xe3a00403, -- mov r0, #0x03000000
       0xe3a02002, -- mov r2, #2
       0xe3a03003, -- mov r3, #3
       0xe3a04005, -- mov r4, #5
       0xe0214392, -- mla r1, r2, r3, r4
       0xe5801000, -- str r1, [r0]
       0xeafffffe, 0, 0]
    machineOut l 0 0 7 = some 11 ∧ circuitOut l 0 0 16 = 6 := by decide +kernel

/-- C80 is false: the second of two multiplications in sequence has the result of the first one. -/
theorem C80_false_two_multiplications :
    let l : List (BitVec 32) :=
      [0xe3a00403, -- mov r0, #0x03000000
       0xe3a02002, -- mov r2, #2
       0xe3a03003, -- mov r3, #3
       0xe0010392, -- mul r1, r2, r3
       0xe0040292, -- mul r4, r2, r2
       0xe5804000, -- str r4, [r0]
       0xeafffffe, 0, 0]
    machineOut l 0 0 7 = some 4 ∧ circuitOut l 0 0 19 = 6 := by decide +kernel

/-- C80 is false: a store to the next instruction comes too late. -/
theorem C80_false_self_modification :
    let l : List (BitVec 32) :=
      [0xe3a00403, -- mov r0, #0x03000000
       0xe59f100c, -- ldr r1, [pc, #12]
       0xe50f1004, -- str r1, [pc, #-4]
       0xe3a02002, -- mov r2, #2
       0xe5802000, -- str r2, [r0]
       0xeafffffe,
       0xe3a02001, -- mov r2, #1
       0, 0]
    machineOut l 0 0 6 = some 1 ∧ circuitOut l 0 0 16 = 2 := by decide +kernel

/-- C80 is false: after a multiple load of no registers, whose condition does not hold, the next instruction is skipped. -/
theorem C80_false_empty_list :
    let l : List (BitVec 32) :=
      [0xe3a00403, -- mov r0, #0x03000000
       0xe1500000, -- cmp r0, r0
       0x18900000, -- ldmne r0, {}
       0xe3a01001, -- mov r1, #1
       0xe5801000, -- str r1, [r0]
       0xeafffffe, 0, 0]
    machineOut l 0 0 6 = some 1 ∧ circuitOut l 0 0 15 = 0 := by decide +kernel

/-- C81 is false: `terminate` is also set, before the output is stored, when a multiple load reads the words at `0x18` and `0x1c`. -/
theorem C81_false_premature :
    let l : List (BitVec 32) :=
      [0xe3a00403, -- mov r0, #0x03000000
       0xe3a01018, -- mov r1, #0x18
       0xe891000c, -- ldm r1, {r2, r3}
       0xe5802000, -- str r2, [r0]
       0xeafffffe, 0, 1, 2, 0, 0]
    machineOut l 0 0 5 = some 1 ∧ circuitOut l 0 0 5 = 0 ∧ (run (small l) (fun _ => 0) (program l) 0 0 5).1.terminate = true ∧
      circuitOut l 0 0 12 = 1 := by decide +kernel

end TinyGarble.Props.Hdl
