import Verif.Proof.Hdl.A23Absent
import Verif.Props.Hdl.A23

/-!
# The ARM processor: instructions that do nothing (C95)
-/

namespace TinyGarble.Props.Hdl

open TinyGarble.Hdl TinyGarble.Spec.Hdl TinyGarble.Proof.Hdl
open TinyGarble.Hdl.A23 (Sizes a23 run)
open TinyGarble.Spec.Arm (Layout State Instr addr holds decode)
open TinyGarble.Spec.Arm.Absent (absent atAbsent isSwap)

section
variable (z : Sizes) (undef : Nat → BitVec 32) (p : BitVec (z.code * 32)) (g : BitVec (z.g * 32)) (e : BitVec (z.e * 32))

/-- C95: the circuit is the machine in which `swp`, the coprocessor instructions and `swi` do nothing and take one cycle, while the other instructions are
those of `Spec/ArmCircuit`: when it has gone through the first `t` instructions its output, registers and flags are those of the machine. Missing: the cases
of the other instructions that `Circuit.Supported` excludes. -/
theorem C95_absent_partial (hz : z.code ≤ 2 ^ 22) (t : Nat) (s : State) (ht : Spec.Arm.Absent.trace (armLayout z) (armStart z p g e) t = some s)
    (hs : ∀ k < t, ∀ s' c i, Spec.Arm.Absent.trace (armLayout z) (armStart z p g e) k = some s' → ¬ atAbsent (armLayout z) s' →
      s'.fetch (armLayout z) = some (c, i) → Spec.Arm.Circuit.Supported (armLayout z) s' c i) :
    (∀ j < 4 * z.out, j < 2 ^ 24 →
      part 8 (a23 z undef p g e (2 + Spec.Arm.Absent.cost (armLayout z) (armStart z p g e) t)) j = s.mem (BitVec.ofNat 32 (0x03000000 + j))) ∧
    (∀ k, k ≠ 15 → (run z undef p g e (2 + Spec.Arm.Absent.cost (armLayout z) (armStart z p g e) t)).1.regs k = s.reg k) ∧
    (run z undef p g e (2 + Spec.Arm.Absent.cost (armLayout z) (armStart z p g e) t)).1.r15 = s.pc + 2 ∧
    ∀ c, A23.conditional c (run z undef p g e (2 + Spec.Arm.Absent.cost (armLayout z) (armStart z p g e) t)).1.flags = holds c s.flags := by
  rw [armStart_eq] at *
  have hR := A23.run_absent z undef p g e hz t s ht hs
  refine ⟨fun j hj hj' => a23_byte z undef p g e hR.mem j hj hj', hR.regs, hR.r15, fun c => ?_⟩
  rw [A23.conditional_eq, ← hR.flags]
  rfl

/-- C95, a single instruction: if the program has arrived at such an instruction, then one cycle later the output, the registers and the flags are as
they were, and the next instruction is the one after it. -/
theorem C95_one_partial (hz : z.code ≤ 2 ^ 22) (t : Nat) (s : State) (ht : Spec.Arm.Circuit.trace (armLayout z) (armStart z p g e) t = some s)
    (hs : ∀ k < t, ∀ s' c i, Spec.Arm.Circuit.trace (armLayout z) (armStart z p g e) k = some s' → s'.fetch (armLayout z) = some (c, i) →
      Spec.Arm.Circuit.Supported (armLayout z) s' c i) (hp : s.pc.toNat < z.code) (hx : absent (s.word (addr s.pc))) :
    let T := 2 + Spec.Arm.Circuit.cost (armLayout z) (armStart z p g e) t
    (∀ j < 4 * z.out, j < 2 ^ 24 → part 8 (a23 z undef p g e (T + 1)) j = part 8 (a23 z undef p g e T) j) ∧
    (∀ k, k ≠ 15 → (run z undef p g e (T + 1)).1.regs k = (run z undef p g e T).1.regs k) ∧
    (run z undef p g e (T + 1)).1.r15 = (run z undef p g e T).1.r15 + 1 ∧
    (∀ c, A23.conditional c (run z undef p g e (T + 1)).1.flags = A23.conditional c (run z undef p g e T).1.flags) := by
  intro T
  rw [armStart_eq] at *
  have hR : A23.R z s (run z undef p g e T).1 (run z undef p g e T).2 := by
    have := A23.run_refines z undef p g e hz t s ht hs
    rw [← armStart_eq] at this
    exact this
  have hR' : A23.R z s.next (run z undef p g e (T + 1)).1 (run z undef p g e (T + 1)).2 := by
    rw [A23.run_add]
    exact A23.absent_step hz hR ⟨hp, hx⟩ _
  refine ⟨fun j hj hj' => ?_, fun k hk => ?_, ?_, fun c => ?_⟩
  · rw [a23_byte z undef p g e hR.mem j hj hj', a23_byte z undef p g e hR'.mem j hj hj']
    rfl
  · rw [hR.regs k hk, hR'.regs k hk]; rfl
  · rw [hR.r15, hR'.r15]
    show s.pc + 1 + 2 = s.pc + 2 + 1
    rw [BitVec.add_assoc, BitVec.add_assoc]; rfl
  · rw [A23.conditional_eq, A23.conditional_eq, hR.flags, hR'.flags]
    rfl

end

/-- C95: none of these is an instruction of the machine of `Spec/Arm`, so they are exactly added to it. -/
theorem C95_apart (x : BitVec 32) (h : absent x) : decode x = none := A23.absent_decode h

/-! ## Examples -/

instance (i : Instr) (s : State) : Decidable (Spec.Arm.Circuit.supported i s) := by
  cases i <;> (unfold Spec.Arm.Circuit.supported; infer_instance)

instance (i : Instr) (s : State) : Decidable (Spec.Arm.Circuit.skipped i s) := by
  cases i <;> (unfold Spec.Arm.Circuit.skipped; infer_instance)

instance (l : Layout) (s : State) (c : BitVec 4) (i : Instr) : Decidable (Spec.Arm.Circuit.Supported l s c i) := by
  unfold Spec.Arm.Circuit.Supported; infer_instance

/-- A program with a swap, a coprocessor instruction and a software interrupt. -/
def exchanging : List (BitVec 32) :=
  [0xe3a00403, -- mov r0, #0x03000000
   0xe3a01005, -- mov r1, #5
   0xe5801000, -- str r1, [r0]
   0xe3a02007, -- mov r2, #7
   0xe1003092, -- swp r3, r2, [r0]
   0xee010f10, -- mcr p15, 0, r0, c1, c0, 0
   0xef000011, -- swi 0x11
   0xeafffffe, 0, 0]

/-- Whether the first `t` instructions are executed in cases that `Circuit.Supported` lists, or do nothing. -/
def allAbsent (l : Layout) (s : State) (t : Nat) : Bool :=
  (List.range t).all fun k => ((Spec.Arm.Absent.trace l s k).bind fun s' => (s'.fetch l).map fun (c, i) => decide (Spec.Arm.Circuit.Supported l s' c i)).getD true

theorem allAbsent_spec {l : Layout} {s : State} {t : Nat} (h : allAbsent l s t = true) :
    ∀ k < t, ∀ s' c i, Spec.Arm.Absent.trace l s k = some s' → s'.fetch l = some (c, i) → Spec.Arm.Circuit.Supported l s' c i := by
  intro k hk s' c i h1 h2
  have := List.all_eq_true.1 h k (List.mem_range.2 hk)
  rw [h1] at this
  have this : ((s'.fetch l).map fun (c, i) => decide (Spec.Arm.Circuit.Supported l s' c i)).getD true = true := this
  rw [h2] at this
  exact of_decide_eq_true this

/-- The hypotheses of `C95_absent_partial` hold for it: after 7 instructions the machine is at `b .`, the output is still 5 and register 3 is still 0. -/
example : ∃ s, Spec.Arm.Absent.trace (armLayout (small exchanging)) (armStart (small exchanging) (program exchanging) 0#32 0#32) 7 = some s ∧ s.pc = 7 ∧
    s.word 0x03000000 = 5 ∧ s.reg 3 = 0 ∧
    ∀ k < 7, ∀ s' c i, Spec.Arm.Absent.trace (armLayout (small exchanging)) (armStart (small exchanging) (program exchanging) 0#32 0#32) k = some s' →
      ¬ atAbsent (armLayout (small exchanging)) s' → s'.fetch (armLayout (small exchanging)) = some (c, i) →
      Spec.Arm.Circuit.Supported (armLayout (small exchanging)) s' c i := by
  have h : (Spec.Arm.Absent.trace (armLayout (small exchanging)) (armStart (small exchanging) (program exchanging) 0#32 0#32) 7).map (fun s =>
      (s.pc, s.word 0x03000000, s.reg 3)) = some (7, 5, 0) := by decide +kernel
  obtain ⟨s, h1, h2⟩ := Option.map_eq_some_iff.1 h
  rw [Prod.mk.injEq, Prod.mk.injEq] at h2
  exact ⟨s, h1, h2.1, h2.2.1, h2.2.2, fun k hk s' c i a _ b => allAbsent_spec (t := 7) (by decide +kernel) k hk s' c i a b⟩

/-- The hypotheses of `C95_one_partial` hold: after 4 instructions the machine is at the swap. -/
example : ∃ s, Spec.Arm.Circuit.trace (armLayout (small exchanging)) (armStart (small exchanging) (program exchanging) 0#32 0#32) 4 = some s ∧
    s.pc.toNat < (small exchanging).code ∧ isSwap (s.word (addr s.pc)) := by
  have h : (Spec.Arm.Circuit.trace (armLayout (small exchanging)) (armStart (small exchanging) (program exchanging) 0#32 0#32) 4).map (fun s =>
      (s.pc.toNat, s.word (addr s.pc))) = some (4, 0xe1003092) := by decide +kernel
  obtain ⟨s, h1, h2⟩ := Option.map_eq_some_iff.1 h
  rw [Prod.mk.injEq] at h2
  exact ⟨s, h1, by rw [h2.1]; decide, by rw [h2.2]; decide⟩

/-- What `swp rd, rm, [rn]` does according to the manual, for an address that is a multiple of 4: the word at the address goes to `rd`, what was in `rm` goes to
the word. -/
def swapped (s : State) (rd rm rn : BitVec 4) : State := (s.next.putWord (s.reg rn) (s.reg rm)).write rd (s.word (s.reg rn))

/-- The state in which the program has arrived at the swap. -/
def beforeSwap : Option State := Spec.Arm.trace (armLayout (small exchanging)) (armStart (small exchanging) (program exchanging) 0#32 0#32) 4

/-- The circuit does not swap: before `swp r3, r2, [r0]` the word at `r0` is 5 and `r2` is 7; the manual has the word be 7 and `r3` be 5 after it, while in the
circuit, which is at the swap in cycle 8 and at the next instruction in cycle 9, the word is 5 and `r3` is 0, also when the program has ended. -/
theorem C95_false_swap :
    beforeSwap.map (fun s => (s.word (addr s.pc), s.word 0x03000000, (swapped s 3 2 0).word 0x03000000, (swapped s 3 2 0).reg 3)) = some (0xe1003092, 5, 7, 5) ∧
    (run (small exchanging) (fun _ => 0) (program exchanging) 0 0 8).1.r15 = 4 + 2 ∧ (run (small exchanging) (fun _ => 0) (program exchanging) 0 0 9).1.r15 = 5 + 2 ∧
    circuitOut exchanging 0 0 9 = 5 ∧ (run (small exchanging) (fun _ => 0) (program exchanging) 0 0 9).1.regs 3 = 0 ∧
    circuitOut exchanging 0 0 14 = 5 ∧ (run (small exchanging) (fun _ => 0) (program exchanging) 0 0 14).1.regs 3 = 0 := by decide +kernel

/-- The software interrupt does not jump to its vector, address 8 (word 2): in cycle 10 the circuit is at it, in cycle 11 at the instruction after it. -/
theorem C95_false_swi :
    program exchanging >>> (6 * 32) &&& 0x0f000000 = 0x0f000000 ∧
    (run (small exchanging) (fun _ => 0) (program exchanging) 0 0 10).1.r15 = 6 + 2 ∧ (run (small exchanging) (fun _ => 0) (program exchanging) 0 0 11).1.r15 = 7 + 2 := by
  decide +kernel

end TinyGarble.Props.Hdl
