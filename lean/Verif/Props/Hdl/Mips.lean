import Verif.Proof.Hdl.Mips
import Verif.Props.Hdl.Stable

/-!
# The MIPS processor (C79)
-/

namespace TinyGarble.Props.Hdl

open TinyGarble.Hdl TinyGarble.Spec.Hdl TinyGarble.Proof.Hdl
open TinyGarble.Spec.Mips (State Instr decode exec trace Supported bits Cond)
open TinyGarble.Hdl.Mips (Regs step liteMips)
open TinyGarble.Proof.Hdl.Mips (abs)

/-- The machine at the start: at address 0, all registers zero, byte `a` of the memory is byte `a` of the evaluator's input. -/
def mipsStart (L : Nat) (eInit : BitVec (2 ^ L * 32)) : State (L + 2) := ⟨0, fun _ => 0, fun a => part 8 eInit a.toNat⟩

theorem byte_of_part {n : Nat} (v : BitVec n) (a : Nat) : (part 32 v (a / 4)).extractLsb' (8 * (a % 4)) 8 = part 8 v a := by
  rw [← entry_eq_part, ← entry_eq_part]
  apply eq_of_bits
  intro i hi
  rw [TinyGarble.Hdl.entry, TinyGarble.Hdl.entry, BitVec.getLsbD_extractLsb', BitVec.getLsbD_extractLsb', BitVec.getLsbD_extractLsb']
  have h : 8 * (a % 4) + i < 32 := by omega
  simp only [hi, h, decide_true, Bool.true_and]
  congr 1
  omega

theorem mipsStart_eq (L : Nat) (eInit : BitVec (2 ^ L * 32)) : abs L (TinyGarble.Hdl.Mips.reset fun i => TinyGarble.Hdl.entry 32 eInit i) = mipsStart L eInit := by
  refine TinyGarble.Proof.Hdl.Mips.state_ext (by show 0#30 ++ 0#2 = 0#32; decide) rfl ?_
  funext a
  show (TinyGarble.Hdl.entry 32 eInit (a.toNat / 4)).extractLsb' (8 * (a.toNat % 4)) 8 = part 8 eInit a.toNat
  rw [entry_eq_part, byte_of_part]

/-- C79: as long as the program stays in the memory of instructions and executes instructions only in the cases that `Supported` lists, the
output of the circuit after `t` cycles is the memory after `t` instructions. Missing: the cases that `Supported` excludes, in which the
circuit does something else (see below). -/
theorem C79_memory_partial (L t : Nat) (gInit eInit : BitVec (2 ^ L * 32)) (s' : State (L + 2))
    (ht : trace (part 32 gInit) (mipsStart L eInit) t = some s')
    (hs : ∀ u < t, ∀ s i, trace (part 32 gInit) (mipsStart L eInit) u = some s → decode (part 32 gInit (s.pc.toNat / 4)) = some i →
      s.pc.toNat / 4 < 2 ^ L ∧ Supported s i) :
    ∃ o, liteMips L gInit eInit t = some o ∧ ∀ a, part 8 o a.toNat = s'.mem a := by
  rw [← mipsStart_eq] at ht hs
  obtain ⟨st, h1, h2, -⟩ := TinyGarble.Proof.Hdl.Mips.run_refines (part 32 gInit) _ t s' ht hs
  refine ⟨ofEntries (2 ^ L) 32 st.memory, ?_, fun a => ?_⟩
  · rw [liteMips, show (fun i => TinyGarble.Hdl.entry 32 gInit i) = part 32 gInit from entry_eq_part 32 gInit, h1]; rfl
  · subst h2
    have ha : a.toNat / 4 < 2 ^ L := by
      have := a.isLt
      rw [Nat.pow_add] at this
      omega
    rw [← byte_of_part, part_ofEntries _ _ _ _ ha]
    rfl

/-- C79, one instruction in any state of the circuit in which register 0 is 0, as it always is. -/
theorem C79_step_partial (L : Nat) (prog : Nat → BitVec 32) (st : Regs) (i : Instr) (s' : State (L + 2)) (h0 : st.registers 0 = 0)
    (hr : st.pc.toNat < 2 ^ L) (hi : decode (prog st.pc.toNat) = some i) (he : exec (abs L st) i = some s') (hs : Supported (abs L st) i) :
    ∃ st', step L prog st = some st' ∧ abs L st' = s' ∧ st'.registers 0 = 0 :=
  ⟨_, TinyGarble.Proof.Hdl.Mips.step_eq prog hr, TinyGarble.Proof.Hdl.Mips.execute_refines h0 hi he hs, TinyGarble.Proof.Hdl.Mips.execute_zero h0⟩

/-- C79: every branch that is taken goes to the instruction before the one that it should go to. -/
theorem C79_branch (L : Nat) (prog : Nat → BitVec 32) (st : Regs) (c : Cond) (link : Bool) (rs rt : BitVec 5) (off : BitVec 16) (s' : State (L + 2))
    (h0 : st.registers 0 = 0) (hr : st.pc.toNat < 2 ^ L) (hi : decode (prog st.pc.toNat) = some (.branch c link rs rt off))
    (ht : c.holds ((abs L st).reg rs) ((abs L st).reg rt) = true) (he : exec (abs L st) (.branch c link rs rt off) = some s') :
    ∃ st', step L prog st = some st' ∧ (abs L st').pc + 4 = s'.pc := by
  refine ⟨_, TinyGarble.Proof.Hdl.Mips.step_eq prog hr, ?_⟩
  rw [TinyGarble.Proof.Hdl.Mips.taken_refines h0 hi ht]
  obtain rfl := Option.some.inj he
  simp only [ht, if_true]
  rw [BitVec.add_assoc, BitVec.add_comm (_ * _) 4, BitVec.add_assoc]

/-- C79: the circuit is undefined exactly when the program leaves the memory of instructions; only the `L + 2` lowest bits of the number of
the instruction count. -/
theorem C79_outside (L : Nat) (prog : Nat → BitVec 32) (st : Regs) :
    step L prog st = none ↔ 2 ^ L ≤ st.pc.toNat % 2 ^ (L + 2) := by
  have h : (st.pc.extractLsb' 0 (L + 2)).toNat = st.pc.toNat % 2 ^ (L + 2) := by simp
  unfold step
  simp only [h]
  split <;> rename_i hc
  · exact ⟨fun _ => hc, fun _ => rfl⟩
  · exact ⟨fun e => (by cases e), fun e => absurd e hc⟩

/-- In a memory of four instructions, the instruction 5 is undefined, and 18 is 2. -/
example : (2 ^ 2 ≤ 5 % 2 ^ (2 + 2)) ∧ ¬ 2 ^ 2 ≤ 18 % 2 ^ (2 + 2) := by decide

/-- A state of the circuit for the following theorems: register 2 is `r`, all words of the memory are `w`. -/
def mipsState (pc : BitVec 30) (r w : BitVec 32) : Regs := ⟨pc, fun k => if k = 2 then r else 0, fun _ => w⟩

/-- C79: `sltiu $1, $2, -1` with 65536 in register 2: the manual says 1, the circuit 0. -/
theorem C79_sltiu : decode 0x2C41FFFF#32 = some (.imm .sltu 1 2 0xFFFF#16) ∧
    ((exec (abs 4 (mipsState 0 0x10000 0)) (.imm .sltu 1 2 0xFFFF#16)).map fun s => s.reg 1) = some 1 ∧
    ((step 4 (fun _ => 0x2C41FFFF#32) (mipsState 0 0x10000 0)).map fun st => st.registers 1) = some 0 := by
  decide +kernel

/-- C79: `lb $1, 1($2)` of the byte 128 in a word 32768: the manual says -128, the circuit 128. -/
theorem C79_load_byte : decode 0x80410001#32 = some (.load .byte true 1 2 1) ∧
    ((exec (abs 4 (mipsState 0 0 0x8000)) (.load .byte true 1 2 1)).map fun s => s.reg 1) = some 0xFFFFFF80#32 ∧
    ((step 4 (fun _ => 0x80410001#32) (mipsState 0 0 0x8000)).map fun st => st.registers 1) = some 0x80#32 := by
  decide +kernel

/-- C79: `lh $1, 2($2)` of the half 0x8000 in a word 0x80000000: the manual says -32768, the circuit 32768. -/
theorem C79_load_half : decode 0x84410002#32 = some (.load .half true 1 2 2) ∧
    ((exec (abs 4 (mipsState 0 0 0x80000000)) (.load .half true 1 2 2)).map fun s => s.reg 1) = some 0xFFFF8000#32 ∧
    ((step 4 (fun _ => 0x84410002#32) (mipsState 0 0 0x80000000)).map fun st => st.registers 1) = some 0x8000#32 := by
  decide +kernel

/-- C79: `j 0` in the last word of the first 256 megabytes: the manual says 256 megabytes, the circuit 0. -/
theorem C79_jump : decode 0x08000000#32 = some (.jump false 0) ∧
    ((exec (abs 26 (mipsState 0x3FFFFFF 0 0)) (.jump false 0)).map fun s => s.pc) = some 0x10000000#32 ∧
    ((step 26 (fun _ => 0x08000000#32) (mipsState 0x3FFFFFF 0 0)).map fun st => st.pc ++ 0#2) = some 0#32 := by
  decide +kernel

/-- C79: an overflow causes no exception; the sum is stored. -/
theorem C79_overflow : decode 0x00420820#32 = some (.reg .add 1 2 2) ∧
    (exec (abs 4 (mipsState 0 0x40000000 0)) (.reg .add 1 2 2)).isNone ∧
    ((step 4 (fun _ => 0x00420820#32) (mipsState 0 0x40000000 0)).map fun st => st.registers 1) = some 0x80000000#32 := by
  decide +kernel

/-- C79: the results of multiplications and divisions cannot be read: `mfhi` and `mflo` store 0 in every state. -/
theorem C79_hi_lo (L : Nat) (prog : Nat → BitVec 32) (st : Regs) (x : BitVec 32) (hx : prog st.pc.toNat = x) (hr : st.pc.toNat < 2 ^ L)
    (h1 : (bits x 26 6).toNat = 0) (h2 : (bits x 0 6).toNat = 16 ∨ (bits x 0 6).toNat = 18) :
    ∃ st', step L prog st = some st' ∧ abs L st' = ((abs L st).set (bits x 11 5) 0).next := by
  refine ⟨_, TinyGarble.Proof.Hdl.Mips.step_eq prog hr, ?_⟩
  rw [hx]
  have hC := TinyGarble.Hdl.Mips.control.eq_1 x
  simp only [TinyGarble.Proof.Hdl.Mips.field_eq, h1] at hC
  obtain h2 | h2 := h2
  all_goals
    simp only [h2] at hC
    rw [hC]
    refine TinyGarble.Proof.Hdl.Mips.write_class 0 (by simp) (by simp) (by simp) rfl fun h => ?_
    rw [TinyGarble.Proof.Hdl.Mips.dest_eq h]
    show (0 : BitVec 32) ||| 0 ||| 0 = 0
    decide

/-- C79: `lwl` and `lwr` load the whole word that the address is in, in every state; so for `lwl` with the addresses 0 to 2 and for `lwr` with
the addresses 1 to 3 of a word the circuit does not do what the manual says, for example if register and word are as below. -/
theorem C79_unaligned (L : Nat) (prog : Nat → BitVec 32) (st : Regs) (x : BitVec 32) (hx : prog st.pc.toNat = x) (hr : st.pc.toNat < 2 ^ L)
    (h1 : (bits x 26 6).toNat = 34 ∨ (bits x 26 6).toNat = 38) :
    ∃ st', step L prog st = some st' ∧ abs L st' = ((abs L st).set (bits x 16 5)
      (st.memory ((((abs L st).reg (bits x 21 5) + (bits x 0 16).signExtend 32).setWidth (L + 2)).toNat / 4))).next ∧
    (∀ k < 3, TinyGarble.Spec.Mips.loadLeft 0x11223344#32 0xAABBCCDD#32 k ≠ 0xAABBCCDD#32) ∧
    ∀ k < 4, 0 < k → TinyGarble.Spec.Mips.loadRight 0x11223344#32 0xAABBCCDD#32 k ≠ 0xAABBCCDD#32 := by
  refine ⟨_, TinyGarble.Proof.Hdl.Mips.step_eq prog hr, ?_, by decide, by decide⟩
  rw [hx]
  have hC := TinyGarble.Hdl.Mips.control.eq_1 x
  simp only [TinyGarble.Proof.Hdl.Mips.field_eq] at hC
  obtain h1 | h1 := h1
  all_goals
    simp only [h1] at hC
    rw [hC]
    exact TinyGarble.Proof.Hdl.Mips.load_case (m := 4) (by simp) (by simp) (by simp) fun c hc => by subst hc; rfl

/-! ## Examples -/

/-- A program: `addi $1, $0, 5; sw $1, 8($0); lw $2, 8($0); add $3, $2, $1; sh $3, 14($0); slt $4, $1, $3; sb $4, 1($0); j 7`. -/
def mipsProgram : BitVec (2 ^ 3 * 32) :=
  ofEntries 8 32 fun i => #[0x20010005#32, 0xAC010008, 0x8C020008, 0x00411820, 0xA403000E, 0x0023202A, 0xA0040001, 0x08000007].getD i 0

/-- The hypotheses of C79_memory_partial hold for it, and the memory it leaves. -/
example : ((trace (part 32 mipsProgram) (mipsStart 3 0) 9).map fun s => (s.mem 8, s.mem 14, s.mem 1, s.mem 0, s.pc)) = some (5, 10, 1, 0, 28) := by
  decide +kernel

example : ∀ u < 9, ∀ s i, trace (part 32 mipsProgram) (mipsStart 3 0) u = some s → decode (part 32 mipsProgram (s.pc.toNat / 4)) = some i →
    s.pc.toNat / 4 < 2 ^ 3 ∧ Supported s i := by
  have h : ∀ u < 9, ∃ s, trace (part 32 mipsProgram) (mipsStart 3 0) u = some s ∧ s.pc.toNat = 4 * min u 7 := by
    intro u hu
    have hp : ∀ v < 9, ((trace (part 32 mipsProgram) (mipsStart 3 0) v).map fun s => s.pc.toNat) = some (4 * min v 7) := by decide +kernel
    obtain ⟨s, h1, h2⟩ := Option.map_eq_some_iff.mp (hp u hu)
    exact ⟨s, h1, h2⟩
  intro u hu s i h1 h2
  obtain ⟨s', h3, h4⟩ := h u hu
  obtain rfl : s' = s := Option.some.inj (h3.symm.trans h1)
  rw [h4] at h2 ⊢
  refine ⟨by omega, ?_⟩
  have hd : ∀ k < 8, ∃ j, decode (part 32 mipsProgram k) = some j ∧ (k < 7 → ∀ s : State 5, Supported s j) ∧ (k = 7 → j = .jump false 7) := by
    intro k hk
    have : k = 0 ∨ k = 1 ∨ k = 2 ∨ k = 3 ∨ k = 4 ∨ k = 5 ∨ k = 6 ∨ k = 7 := by omega
    obtain rfl | rfl | rfl | rfl | rfl | rfl | rfl | rfl := this
    · exact ⟨.imm .add 1 0 5, by decide +kernel, fun _ _ => trivial, fun h => by omega⟩
    · exact ⟨.store .word 1 0 8, by decide +kernel, fun _ _ => trivial, fun h => by omega⟩
    · exact ⟨.load .word true 2 0 8, by decide +kernel, fun _ _ => trivial, fun h => by omega⟩
    · exact ⟨.reg .add 3 2 1, by decide +kernel, fun _ _ => trivial, fun h => by omega⟩
    · exact ⟨.store .half 3 0 14, by decide +kernel, fun _ _ => trivial, fun h => by omega⟩
    · exact ⟨.reg .slt 4 1 3, by decide +kernel, fun _ _ => trivial, fun h => by omega⟩
    · exact ⟨.store .byte 4 0 1, by decide +kernel, fun _ _ => trivial, fun h => by omega⟩
    · exact ⟨.jump false 7, by decide +kernel, fun h => by omega, fun _ => rfl⟩
  rw [show 4 * min u 7 / 4 = min u 7 by omega] at h2
  obtain ⟨j, h5, h6, h7⟩ := hd (min u 7) (by omega)
  obtain rfl : j = i := Option.some.inj (h5.symm.trans h2)
  by_cases hk : min u 7 < 7
  · exact h6 hk s'
  · rw [h7 (by omega)]
    show s'.pc.toNat % 2 ^ 28 + 4 < 2 ^ 28
    rw [h4]; omega

/-- `beq $0, $0, -1`, a branch to itself, is taken in state `mipsState`. -/
example : decode 0x1000FFFF#32 = some (.branch .eq false 0 0 0xFFFF#16) ∧
    Cond.eq.holds ((abs 4 (mipsState 1 0 0)).reg 0) ((abs 4 (mipsState 1 0 0)).reg 0) = true ∧
    ((exec (abs 4 (mipsState 1 0 0)) (.branch .eq false 0 0 0xFFFF#16)).map fun s => s.pc) = some 4 ∧
    ((step 4 (fun _ => 0x1000FFFF#32) (mipsState 1 0 0)).map fun st => st.pc ++ 0#2) = some 0#32 := by
  decide +kernel

/-- `lwl $12, 2($1)`, the first one of aes.S. -/
example : (bits 0x882C0002#32 26 6).toNat = 34 ∧ (bits 0x882C0002#32 16 5) = 12#5 ∧ (bits 0x882C0002#32 21 5) = 1#5 ∧ (bits 0x882C0002#32 0 16) = 2#16 := by decide

/-- `mult $2, $2; mflo $1`. -/
example : (bits 0x00000812#32 26 6).toNat = 0 ∧ (bits 0x00000812#32 0 6).toNat = 18 ∧ (bits 0x00000812#32 11 5) = 1#5 := by decide

end TinyGarble.Props.Hdl
