import Verif.Proof.Hdl.A23Pipe
import Verif.Spec.ArmCircuit

/-! # The ARM processor: data processing and branches -/

namespace TinyGarble.Proof.Hdl.A23

open TinyGarble TinyGarble.Hdl TinyGarble.Hdl.A23
open TinyGarble.Spec.Arm (Layout State Instr Op Shift Operand Offset align addr bit holds)
open TinyGarble.Spec.Arm.Circuit (exec Supported)

theorem conditional_eq (c : BitVec 4) (f : Flags) : conditional c f = holds c (absF f) := rfl

theorem flags_word (f : Flags) (p : BitVec 24) :
    (f.bits ++ 1#1 ++ 1#1 ++ p ++ 0#2 : BitVec 32) = (absF f).word + 0x0c000000#32 + addr p := by
  apply BitVec.eq_of_toNat_eq
  have hp := p.isLt
  have hd := addr_toNat p
  have hf : (f.bits ++ 1#1 ++ 1#1 : BitVec 6).toNat * 2 ^ 26 = ((absF f).word + 0x0c000000#32).toNat := by
    obtain ⟨n, z, c, v⟩ := f
    revert n z c v
    decide
  have hl := (f.bits ++ 1#1 ++ 1#1 : BitVec 6).isLt
  rw [BitVec.toNat_add, ← hf, hd, BitVec.toNat_append, BitVec.toNat_append, ← Nat.shiftLeft_add_eq_or_of_lt (show (0#2).toNat < 2 ^ 2 by decide),
    ← Nat.shiftLeft_add_eq_or_of_lt p.isLt]
  simp only [Nat.shiftLeft_eq, BitVec.toNat_ofNat]
  omega

/-- What the execution stage has to know about registers. -/
structure Regs (s : State) (c : Core) : Prop where
  regs : ∀ k, k ≠ 15 → c.regs k = s.reg k
  flags : absF c.flags = s.flags
  r15 : c.r15 = s.pc + 2

theorem R.toRegs {z : Sizes} {s : State} {c : Core} {m : Mem} (h : R z s c m) : Regs s c := ⟨h.regs, h.flags, h.r15⟩

section
variable {s : State} {c : Core} (h : Regs s c)
include h

theorem word15_eq (p : BitVec 24) : c.word15 p = s.r15 p := by
  unfold Core.word15 State.r15
  rw [flags_word, h.flags]

theorem carry_eq : c.flags.c = s.flags.c := by rw [← h.flags]; rfl

theorem rn_eq : c.rn = s.base c.ctl.rnSel := by
  unfold Core.rn State.base
  split
  · rw [pc_eq, h.r15]
  · rename_i h1; exact h.regs _ h1

theorem rm_eq : c.rm = s.second c.ctl.rmSel := by
  unfold Core.rm State.second
  split
  · rw [word15_eq h, h.r15]
  · rename_i h1; exact h.regs _ h1

theorem rs_eq (h1 : c.ctl.rdsSel ≠ 15) : c.rs = s.reg c.ctl.rdsSel := by
  unfold Core.rs
  rw [if_neg h1]
  exact h.regs _ h1

theorem execute_eq : c.execute = holds c.ctl.condition s.flags := by
  unfold Core.execute
  rw [conditional_eq, h.flags]

end

theorem decodeReg_bit (r k : BitVec 4) : (decodeReg r).getLsbD k.toNat = decide (k = r ∧ k ≠ 15) := by
  revert r k
  decide

/-- The immediate operand. -/
def immOf (rot : BitVec 4) (imm8 : BitVec 8) : BitVec 32 :=
  match rot.toNat with
    | 0 => 0#24 ++ imm8
    | 1 => slice imm8 0 2 ++ 0#24 ++ slice imm8 2 6
    | 2 => slice imm8 0 4 ++ 0#24 ++ slice imm8 4 4
    | 3 => slice imm8 0 6 ++ 0#24 ++ slice imm8 6 2
    | 4 => imm8 ++ 0#24
    | 5 => 0#2 ++ imm8 ++ 0#22
    | 6 => 0#4 ++ imm8 ++ 0#20
    | 7 => 0#6 ++ imm8 ++ 0#18
    | 8 => 0#8 ++ imm8 ++ 0#16
    | 9 => 0#10 ++ imm8 ++ 0#14
    | 10 => 0#12 ++ imm8 ++ 0#12
    | 11 => 0#14 ++ imm8 ++ 0#10
    | 12 => 0#16 ++ imm8 ++ 0#8
    | 13 => 0#18 ++ imm8 ++ 0#6
    | 14 => 0#20 ++ imm8 ++ 0#4
    | _ => 0#22 ++ imm8 ++ 0#2

set_option maxRecDepth 100000 in
theorem immOf_eq (rot : BitVec 4) (v : BitVec 8) : immOf rot v = (v.zeroExtend 32).rotateRight (2 * rot.toNat) := by
  revert rot v
  decide +kernel

theorem imm32_regop {x : BitVec 32} (h : itype x = .regop) : imm32 x = immOf (slice x 8 4) (slice x 0 8) := by
  unfold imm32
  rw [h]
  rfl

theorem slice_slice_imm (x : BitVec 32) : slice (slice x 7 5) 1 4 = slice x 8 4 := by
  apply eq_of_bits
  intro i hi
  rw [getLsbD_slice, getLsbD_slice, getLsbD_slice, decide_eq_true hi, decide_eq_true (show 1 + i < 5 by omega)]
  simp only [Bool.true_and]
  congr 1
  omega

section
variable {x : BitVec 32} (hx : itype x = .regop)
include hx

theorem dp_bsData : (ctlOf x).bsData = if x.getLsbD 25 then 0 else 2 := by
  show (validNxt x {}).bsData = _
  rw [validNxt_regop hx, regopNxt_eq]

theorem dp_bsAmount : (ctlOf x).bsAmount = if x.getLsbD 25 then 0 else if x.getLsbD 4 then 1 else 2 := by
  show (validNxt x {}).bsAmount = _
  rw [validNxt_regop hx, regopNxt_eq]

theorem dp_bsFunc : (ctlOf x).bsFunc = if x.getLsbD 25 then 0 else slice x 5 2 := by
  show (validNxt x {}).bsFunc = _
  rw [validNxt_regop hx, regopNxt_eq]

theorem dp_useCarry : (ctlOf x).useCarry = carryTable x (opcode x) := by
  show (validNxt x {}).useCarry = _
  rw [validNxt_regop hx, regopNxt_eq]

theorem dp_rnSel : (ctlOf x).rnSel = slice x 16 4 := by
  show (if itype x = .branch then 15 else slice x 16 4) = _
  rw [hx]; rfl

theorem dp_wsel : (validNxt x {}).wsel = if opcodeCompare x then 15 else slice x 12 4 := by
  rw [validNxt_regop hx, regopNxt_eq]

theorem dp_flagsWen : (ctlOf x).flagsWen = x.getLsbD 20 := by
  show (validNxt x {}).flagsWen = _
  rw [validNxt_regop hx, regopNxt_eq]

theorem dp_statusSel : (ctlOf x).statusSel = if x.getLsbD 20 = true ∧ slice x 12 4 = 15 then 1 else statusTable (opcode x) := by
  show (validNxt x {}).statusSel = _
  rw [validNxt_regop hx, regopNxt_eq]

theorem dp_pcSel : (validNxt x {}).pcSel = if opcodeCompare x = false ∧ slice x 12 4 = 15 then 1 else 0 := by
  rw [validNxt_regop hx, regopNxt_eq]

theorem dp_address : (validNxt x {}).address = if opcodeCompare x = false ∧ slice x 12 4 = 15 then 1 else 0 := by
  rw [validNxt_regop hx, regopNxt_eq]

theorem dp_pcWen : (validNxt x {}).pcWen = true := by
  rw [validNxt_regop hx, regopNxt_eq]

theorem dp_writeWen : (validNxt x {}).writeWen = false := by
  rw [validNxt_regop hx, regopNxt_eq]

theorem dp_mulEnable : (validNxt x {}).mulEnable = false := by
  rw [validNxt_regop hx, regopNxt_eq]

theorem dp_regWrite : (validNxt x {}).regWrite = 0 := by
  rw [validNxt_regop hx, regopNxt_eq]

theorem dp_alu {c : Core} (hc : c.ctl = ctlOf x) : c.alu = A23.alu c.rn c.shifted.1 c.shiftCarry c.flags.c (aluTable (opcode x)).1
    (aluTable (opcode x)).2.1 (aluTable (opcode x)).2.2.1 (aluTable (opcode x)).2.2.2.1 (aluTable (opcode x)).2.2.2.2 := by
  unfold Core.alu
  rw [hc]
  show A23.alu _ _ _ _ (validNxt x {}).aluSwap (validNxt x {}).aluNot (validNxt x {}).aluCin (validNxt x {}).aluCout (validNxt x {}).aluOut = _
  rw [validNxt_regop hx, regopNxt_eq]

theorem dp_state : stateNxt .execute x (validNxt x {}) = if opcodeCompare x = false ∧ slice x 12 4 = 15 then .pcStall1 else .execute := by
  unfold stateNxt
  dsimp only
  rw [hx, dp_pcWen hx, dp_pcSel hx]
  by_cases h : opcodeCompare x = false ∧ slice x 12 4 = 15
  · rw [if_pos h, if_pos h]; rfl
  · rw [if_neg h, if_neg h]; rfl

end

theorem amount_imm (n : BitVec 5) : (0#3 ++ n : BitVec 8).toNat = n.toNat := by
  revert n; decide

/-- A shift by a constant. -/
theorem shift_const (k : Shift) (x : BitVec 32) (n : BitVec 5) (c c' : Bool) (h : n = 0 → k = .lsl) :
    (barrelShift x c' (0#3 ++ n) (code k)).1 = (k.const x n c).1 ∧
    ((n = 0 → c' = c) → (barrelShift x c' (0#3 ++ n) (code k)).2 = (k.const x n c).2) := by
  by_cases hn : n = 0
  · subst hn
    rw [h rfl, show (0#3 ++ (0 : BitVec 5) : BitVec 8) = 0 from rfl, barrelShift_zero]
    exact ⟨rfl, fun h => h rfl⟩
  · have h1 : n.toNat ≠ 0 := fun h => hn (BitVec.eq_of_toNat_eq h)
    have h2 := n.isLt
    rw [barrelShift_pos k x c' _ (by rw [amount_imm]; omega), amount_imm, Nat.mod_eq_of_lt (by omega)]
    unfold Shift.const
    rw [if_neg hn]
    exact ⟨rfl, fun _ => rfl⟩

/-- A shift by a register. -/
theorem shift_register (k : Shift) (x : BitVec 32) (n : BitVec 8) (c c' : Bool) (h : k = .ror ∨ n.toNat < 32) :
    (barrelShift x c' n (code k)).1 = (k.register x n.toNat c).1 ∧
    ((n.toNat = 0 → c' = c) → (barrelShift x c' n (code k)).2 = (k.register x n.toNat c).2) := by
  by_cases hn : n = 0
  · subst hn
    rw [barrelShift_zero]
    exact ⟨rfl, fun h => h rfl⟩
  · have h1 : n.toNat ≠ 0 := fun h => hn (BitVec.eq_of_toNat_eq h)
    unfold Shift.register
    rw [if_neg h1]
    by_cases h3 : n.toNat % 32 = 0
    · rcases h with h | h
      · subst h
        rw [show code .ror = 3 from rfl, barrelShift_ror x c' n hn h3]
        by_cases h4 : n.toNat ≤ 32
        · rw [if_pos h4, show n.toNat = 32 by omega]
          exact ⟨rfl, fun _ => rfl⟩
        · rw [if_neg h4]
          show _ = (Shift.by .ror x (if n.toNat % 32 = 0 then 32 else n.toNat % 32)).1 ∧ (_ → _ = (Shift.by .ror x (if n.toNat % 32 = 0 then 32 else n.toNat % 32)).2)
          rw [if_pos h3]
          exact ⟨rfl, fun _ => rfl⟩
      · omega
    · rw [barrelShift_pos k x c' n h3]
      by_cases h4 : n.toNat ≤ 32
      · rw [if_pos h4, Nat.mod_eq_of_lt (show n.toNat < 32 by omega)]
        exact ⟨rfl, fun _ => rfl⟩
      · rcases h with h | h
        · subst h
          rw [if_neg h4]
          show _ = (Shift.by .ror x (if n.toNat % 32 = 0 then 32 else n.toNat % 32)).1 ∧ (_ → _ = (Shift.by .ror x (if n.toNat % 32 = 0 then 32 else n.toNat % 32)).2)
          rw [if_neg h3]
          exact ⟨rfl, fun _ => rfl⟩
        · omega

theorem operand_eq {s : State} {c : Core} {x : BitVec 32} {o : Operand} {rn : BitVec 4} {b : BitVec 32} {sc : Bool} (h : Regs s c)
    (hc : c.ctl = ctlOf x) (hx : itype x = .regop) (ho : IsOperand x o) (he : o.eval s rn = some (b, sc)) (hs : o.supported s) :
    c.shifted.1 = b ∧ ((o.plain s → carryTable x (opcode x) = true ∨ s.flags.c = false) → c.shiftCarry = sc) := by
  have hcar := carry_eq h
  have hplain : ∀ p : Prop, (p → carryTable x (opcode x) = true ∨ s.flags.c = false) → p →
      (if c.ctl.useCarry then c.flags.c else false) = s.flags.c := by
    intro p h1 h2
    rw [hc, dp_useCarry hx, hcar]
    rcases h1 h2 with h1 | h1
    · rw [h1, if_pos rfl]
    · rw [h1]; split <;> rfl
  cases o with
  | imm rot v =>
    obtain ⟨h1, h2, h3⟩ := ho
    have he : ((v.zeroExtend 32).rotateRight (2 * rot.toNat), if rot = 0 then s.flags.c else bit ((v.zeroExtend 32).rotateRight (2 * rot.toNat)) 31) = (b, sc) :=
      Option.some.inj he
    have e1 := congrArg Prod.fst he
    have e2 := congrArg Prod.snd he
    dsimp only at e1 e2
    rw [← immOf_eq] at e1 e2
    have hin : c.shiftIn = immOf rot v := by
      unfold Core.shiftIn
      rw [hc, dp_bsData hx, h1]
      show imm32 x = _
      rw [imm32_regop hx, h2, h3]
    have ham : c.shiftAmount = 0 := by
      unfold Core.shiftAmount
      rw [hc, dp_bsAmount hx, h1]
      rfl
    refine ⟨?_, fun _ => ?_⟩
    · unfold Core.shifted
      rw [ham, barrelShift_zero, hin, e1]
    · unfold Core.shiftCarry
      rw [hc, dp_bsData hx, h1, if_pos rfl]
      show (if slice (slice x 7 5) 1 4 = 0 then c.flags.c else (imm32 x).getLsbD 31) = _
      rw [slice_slice_imm, ← h2, imm32_regop hx, ← h2, ← h3, hcar, ← e2, bit_eq]
  | reg rm k n =>
    obtain ⟨h1, h2, h3, h4, h5⟩ := ho
    have he : k.const (s.second rm) n s.flags.c = (b, sc) := Option.some.inj he
    have hin : c.shiftIn = s.second rm := by
      unfold Core.shiftIn
      rw [rm_eq h, hc, dp_bsData hx, h1, h3]
      rfl
    have ham : c.shiftAmount = 0#3 ++ n := by
      unfold Core.shiftAmount
      rw [hc, dp_bsAmount hx, h1, h2, h5]
      rfl
    have hfn : c.ctl.bsFunc = code k := by
      rw [hc, dp_bsFunc hx, h1, ← h4]; rfl
    have hh := shift_const k (s.second rm) n s.flags.c (if c.ctl.useCarry then c.flags.c else false) hs
    refine ⟨?_, fun hp => ?_⟩
    · unfold Core.shifted
      rw [ham, hin, hfn, hh.1, he]
    · unfold Core.shiftCarry
      rw [if_neg (by rw [hc, dp_bsData hx, h1]; decide)]
      unfold Core.shifted
      rw [ham, hin, hfn, hh.2 (hplain _ hp), he]
  | regReg rm k rs =>
    obtain ⟨h1, h2, h3, h4, h5⟩ := ho
    have he : (if rm = 15 ∨ rs = 15 ∨ rn = 15 then none else some (k.register (s.reg rm) ((s.reg rs).toNat % 2 ^ 8) s.flags.c)) = some (b, sc) := he
    split at he
    · cases he
    rename_i hne
    have he := Option.some.inj he
    have hrds : c.ctl.rdsSel = rs := by
      rw [hc]
      show rdsSel .execute x = _
      unfold rdsSel rdsUseRs
      rw [hx, h1, h2, h5]
      rfl
    have hin : c.shiftIn = s.reg rm := by
      unfold Core.shiftIn
      have : c.ctl.rmSel = rm := by rw [hc]; exact h3.symm
      rw [rm_eq h, this, hc, dp_bsData hx, h1]
      show s.second rm = _
      rw [State.second, if_neg (fun h => hne (Or.inl h))]
    have ham : c.shiftAmount = slice (s.reg rs) 0 8 := by
      unfold Core.shiftAmount
      rw [rs_eq h (by rw [hrds]; exact fun h => hne (Or.inr (Or.inl h))), hrds, hc, dp_bsAmount hx, h1, h2]
      rfl
    have hfn : c.ctl.bsFunc = code k := by
      rw [hc, dp_bsFunc hx, h1, ← h4]; rfl
    have hnn : (slice (s.reg rs) 0 8).toNat = (s.reg rs).toNat % 2 ^ 8 := by rw [toNat_slice, Nat.pow_zero, Nat.div_one]
    have hh := shift_register k (s.reg rm) (slice (s.reg rs) 0 8) s.flags.c (if c.ctl.useCarry then c.flags.c else false) (by rw [hnn]; exact hs)
    rw [hnn] at hh
    refine ⟨?_, fun hp => ?_⟩
    · unfold Core.shifted
      rw [ham, hin, hfn, hh.1, he]
    · unfold Core.shiftCarry
      rw [if_neg (by rw [hc, dp_bsData hx, h1]; decide)]
      unfold Core.shifted
      rw [ham, hin, hfn, hh.2 (hplain _ hp), he]

/-- The ALU, for the operation with code `n`. -/
theorem alu_op (n : Nat) (hn : n < 16) (a b : BitVec 32) (bc : Bool) (f : TinyGarble.Spec.Arm.Flags) :
    (A23.alu a b bc f.c (aluTable n).1 (aluTable n).2.1 (aluTable n).2.2.1 (aluTable n).2.2.2.1 (aluTable n).2.2.2.2).1 =
      ((Op.ofCode n).eval a b bc f).1 := by
  interval_cases n
  · rfl
  · rfl
  · show _ = (TinyGarble.Spec.Arm.diff a b true).1
    rw [diff_eq]; exact alu_value a b bc f.c true 1 false
  · show _ = (TinyGarble.Spec.Arm.diff b a true).1
    rw [diff_eq]; exact alu_value b a bc f.c true 1 false
  · exact alu_value a b bc f.c false 0 false
  · exact alu_value a b bc f.c false 2 false
  · show _ = (TinyGarble.Spec.Arm.diff a b f.c).1
    rw [diff_eq]; exact alu_value a b bc f.c true 2 false
  · show _ = (TinyGarble.Spec.Arm.diff b a f.c).1
    rw [diff_eq]; exact alu_value b a bc f.c true 2 false
  · rfl
  · rfl
  · show _ = (TinyGarble.Spec.Arm.diff a b true).1
    rw [diff_eq]; exact alu_value a b bc f.c true 1 false
  · exact alu_value a b bc f.c false 0 false
  · rfl
  · rfl
  · rfl
  · rfl

theorem alu_carry (a b : BitVec 32) (bc sc notSel : Bool) :
    absF (A23.alu a b bc sc false notSel 2 false 1).2 = ⟨false, false, (TinyGarble.Spec.Arm.sum a (if notSel then ~~~b else b) sc).2.c, false⟩ := by
  have hf := fadder_toNat a (if notSel then ~~~b else b) sc
  show TinyGarble.Spec.Arm.Flags.mk false false (BitVec.getLsbD _ 32) false = _
  rw [show ∀ t : BitVec 33, t.toNat = a.toNat + (if notSel then ~~~b else b).toNat + sc.toNat → t.getLsbD 32 = (TinyGarble.Spec.Arm.sum a (if notSel then ~~~b else b) sc).2.c from
    fun t ht => bit32_fadder ht]
  exact hf

theorem alu_flags (n : Nat) (hn : n < 16) (a b : BitVec 32) (bc : Bool) (f : Flags) :
    let r := A23.alu a b bc f.c (aluTable n).1 (aluTable n).2.1 (aluTable n).2.2.1 (aluTable n).2.2.2.1 (aluTable n).2.2.2.2
    absF (match statusTable n with
      | 0 => r.2
      | _ => { r.2 with v := f.v }) = TinyGarble.Spec.Arm.Circuit.flags (Op.ofCode n) ((Op.ofCode n).eval a b bc (absF f)).2 := by
  have logical : ∀ v : BitVec 32, (⟨v.getLsbD 31, v == 0, bc, f.v⟩ : TinyGarble.Spec.Arm.Flags) = .result v bc f.v := by
    intro v
    rw [TinyGarble.Spec.Arm.Flags.result, bit_eq]
    congr 1
  interval_cases n
  · exact logical _
  · exact logical _
  · show _ = (TinyGarble.Spec.Arm.diff a b true).2
    rw [diff_eq]; exact congrArg Prod.snd (alu_sum a b bc f.c true 1 (by decide))
  · show _ = (TinyGarble.Spec.Arm.diff b a true).2
    rw [diff_eq]; exact congrArg Prod.snd (alu_sum b a bc f.c true 1 (by decide))
  · exact congrArg Prod.snd (alu_sum a b bc f.c false 0 (by decide))
  · exact alu_carry a b bc f.c false
  · show _ = TinyGarble.Spec.Arm.Flags.mk false false (TinyGarble.Spec.Arm.diff a b f.c).2.c false
    rw [diff_eq]; exact alu_carry a b bc f.c true
  · show _ = TinyGarble.Spec.Arm.Flags.mk false false (TinyGarble.Spec.Arm.diff b a f.c).2.c false
    rw [diff_eq]; exact alu_carry b a bc f.c true
  · exact logical _
  · exact logical _
  · show _ = (TinyGarble.Spec.Arm.diff a b true).2
    rw [diff_eq]; exact congrArg Prod.snd (alu_sum a b bc f.c true 1 (by decide))
  · exact congrArg Prod.snd (alu_sum a b bc f.c false 0 (by decide))
  · exact logical _
  · exact logical _
  · exact logical _
  · exact logical _

theorem eval_value (op : Op) (a b : BitVec 32) (sc sc' : Bool) (f : TinyGarble.Spec.Arm.Flags) : (op.eval a b sc f).1 = (op.eval a b sc' f).1 := by
  cases op <;> rfl

theorem compare_eq (x : BitVec 32) : (Op.ofCode (opcode x)).compare = opcodeCompare x := by
  unfold opcodeCompare
  have h := opcode_lt x
  generalize opcode x = n at *
  interval_cases n <;> rfl

theorem of_slice (v : BitVec 32) : absF (.of (slice v 28 4)) = .ofWord v := by
  unfold absF Flags.of TinyGarble.Spec.Arm.Flags.ofWord
  simp only [getLsbD_slice, bit_eq]
  rfl

theorem word_congr {s s' : State} (h : s'.mem = s.mem) (a : BitVec 32) : s'.word a = s.word a := by
  unfold State.word; rw [h]

/-- The effect of an instruction with condition `cond`. -/
def effect (l : Layout) (s : State) (cond : BitVec 4) (i : Instr) : Option State :=
  if holds cond s.flags then exec l s i else TinyGarble.Spec.Arm.Circuit.pass s i

theorem exec_dp (l : Layout) (s : State) (op : Op) (set : Bool) (rd rn : BitVec 4) (o : Operand) :
    exec l s (.dp op set rd rn o) = (o.eval s rn).map fun (b, sc) =>
      let r := op.eval (s.base rn) b sc s.flags
      if op.compare then { s.next with flags := r.2 }
      else if rd = 15 then { s.write 15 r.1 with flags := if set then .ofWord r.1 else s.flags }
      else { s.next.write rd r.1 with flags := if set then TinyGarble.Spec.Arm.Circuit.flags op r.2 else s.flags } := by
  have hcmp : op.compare = true → ∀ f, TinyGarble.Spec.Arm.Circuit.flags op f = f := by
    cases op <;> first | (intro _ _; rfl) | (intro h; cases h)
  have hu : TinyGarble.Spec.Arm.exec l s (.dp op set rd rn o) = (o.eval s rn).map fun (b, sc) =>
      let r := op.eval (s.base rn) b sc s.flags
      if op.compare then { s.next with flags := r.2 }
      else if rd = 15 then { s.write 15 r.1 with flags := if set then .ofWord r.1 else s.flags }
      else { s.next.write rd r.1 with flags := if set then r.2 else s.flags } := rfl
  unfold exec
  dsimp only
  rw [hu]
  split
  · rename_i h
    rw [Option.map_map]
    congr 1
    funext ⟨b, sc⟩
    show (fun s' : State => { s' with flags := TinyGarble.Spec.Arm.Circuit.flags op s'.flags }) (if op.compare then _ else if rd = 15 then _ else _) = _
    by_cases hc : op.compare = true
    · rw [if_pos hc]
      dsimp only
      rw [if_pos hc, hcmp hc]
    · rw [if_neg hc, if_neg h.2]
      dsimp only
      rw [if_neg hc, if_neg h.2, h.1, if_pos rfl, if_pos rfl]
  · rename_i h
    congr 1
    funext ⟨b, sc⟩
    dsimp only
    by_cases hr : rd = 15
    · rw [if_pos hr, if_pos hr]
    · have hs : set = false := by
        cases set with
        | false => rfl
        | true => exact absurd ⟨rfl, hr⟩ h
      rw [if_neg hr, if_neg hr, hs]
      rfl

/-- The value of data processing. -/
theorem dp_value {s : State} {c : Core} {x : BitVec 32} {op : Op} {set : Bool} {rd rn : BitVec 4} {o : Operand} {b : BitVec 32} {sc : Bool}
    (h : Regs s c) (hc : c.ctl = ctlOf x) (hi : IsInstr x (.dp op set rd rn o)) (he : o.eval s rn = some (b, sc))
    (hs : o.supported s) : c.alu.1 = (op.eval (s.base rn) b sc s.flags).1 := by
  obtain ⟨hx, hop, hset, hrd, hrn, ho, hcmp⟩ := hi
  obtain ⟨hb, hsc⟩ := operand_eq h hc hx ho he hs
  have hrn' : c.rn = s.base rn := by rw [rn_eq h, hc, dp_rnSel hx, hrn]
  have halu := dp_alu hx hc
  rw [hb, hrn'] at halu
  rw [halu, carry_eq h, alu_op _ (opcode_lt x), hop]
  exact eval_value ..

/-- The flags of data processing. -/
theorem dp_flags {s : State} {c : Core} {x : BitVec 32} {op : Op} {set : Bool} {rd rn : BitVec 4} {o : Operand} {b : BitVec 32} {sc : Bool}
    (h : Regs s c) (hc : c.ctl = ctlOf x) (hi : IsInstr x (.dp op set rd rn o)) (he : o.eval s rn = some (b, sc))
    (hs : TinyGarble.Spec.Arm.Circuit.supported (.dp op set rd rn o) s) :
    set = true → rd ≠ 15 → absF c.flagsNxt = TinyGarble.Spec.Arm.Circuit.flags op (op.eval (s.base rn) b sc s.flags).2 := by
  obtain ⟨hx, hop, hset, hrd, hrn, ho, hcmp⟩ := hi
  obtain ⟨h1, h2⟩ := hs
  obtain ⟨hb, hsc⟩ := operand_eq h hc hx ho he h1
  have hrn' : c.rn = s.base rn := by rw [rn_eq h, hc, dp_rnSel hx, hrn]
  have halu := dp_alu hx hc
  rw [hb, hrn'] at halu
  have hlt := opcode_lt x
  intro hs hr
  have hplain := h2 ⟨hs, hr⟩
  have hfl := alu_flags (opcode x) hlt (s.base rn) b c.shiftCarry c.flags
  have hst : c.flagsNxt = (match statusTable (opcode x) with
    | 0 => c.alu.2
    | _ => { c.alu.2 with v := c.flags.v }) := by
    unfold Core.flagsNxt
    rw [hc, dp_statusSel hx, if_neg (by rw [← hrd]; exact fun h => hr h.2)]
    generalize opcode x = n at hlt
    interval_cases n <;> rfl
  rw [hst, halu, hfl, h.flags, ← hop]
  by_cases hlog : statusTable (opcode x) = 5
  · rw [hsc]
    intro hp
    have hf := hplain
    rw [hop] at hf
    clear hfl hst halu hop hplain hcmp
    generalize opcode x = n at *
    interval_cases n <;> first
      | exact Or.inl rfl
      | exact Or.inr (hf ⟨Or.inl rfl, hp⟩)
      | exact Or.inr (hf ⟨Or.inr rfl, hp⟩)
      | exact absurd hlog (by decide)
  · rw [hop]
    clear hfl hst halu hop hplain hcmp
    generalize opcode x = n at *
    interval_cases n <;> first
      | rfl
      | exact absurd rfl hlog

theorem dp_step {z : Sizes} (hz : z.code ≤ 2 ^ 22) {s s' : State} {c : Core} {m : Mem} (hR : R z s c m) (hp : s.pc.toNat < z.code) {x : BitVec 32}
    (hw : s.word (addr s.pc) = x) {op : Op} {set : Bool} {rd rn : BitVec 4} {o : Operand} (hi : IsInstr x (.dp op set rd rn o))
    (he : effect (lay z) s (slice x 28 4) (.dp op set rd rn o) = some s') (hs : Supported (lay z) s (slice x 28 4) (.dp op set rd rn o))
    (u : Nat → BitVec 32) : R z s' (cycles z u (Instr.dp op set rd rn o).cycles (c, m)).1 (cycles z u (Instr.dp op set rd rn o).cycles (c, m)).2 := by
  have hpipe := hR.pipe hp
  rw [hw] at hpipe
  have hc := hpipe.ctl
  have hRg := hR.toRegs
  have hx := hi.1
  have hop := hi.2.1
  have hset := hi.2.2.1
  have hrd := hi.2.2.2.1
  have hcmp := hi.2.2.2.2.2.2
  have hcc : opcodeCompare x = op.compare := by rw [hop, compare_eq]
  have hex : c.execute = holds (slice x 28 4) s.flags := by rw [execute_eq hRg, hc]; rfl
  have hwr : c.regWriteNxt = c.alu.1 := by
    unfold Core.regWriteNxt
    rw [show c.ctl.regWrite = 0 by rw [hc]; exact dp_regWrite hx]
    rfl
  have hwen : c.ctl.writeWen = false := by rw [hc]; exact dp_writeWen hx
  have hpw : c.ctl.pcWen = true := by rw [hc]; exact dp_pcWen hx
  have hrw : ∀ k : BitVec 4, c.ctl.regWen.getLsbD k.toNat = decide (k = (if op.compare then 15 else rd) ∧ k ≠ 15) := by
    intro k
    rw [hc]
    show (decodeReg (validNxt x {}).wsel).getLsbD k.toNat = _
    rw [dp_wsel hx, decodeReg_bit, hcc, hrd]
  have hfw : c.ctl.flagsWen = set := by rw [hc, dp_flagsWen hx, hset]
  by_cases hj : (Instr.dp op set rd rn o).jumps = true
  · have hj' : op.compare = false ∧ rd = 15 := by
      have : (!op.compare && decide (rd = 15)) = true := hj
      rw [Bool.and_eq_true, decide_eq_true_eq] at this
      exact ⟨by simpa using this.1, this.2⟩
    have hcy : (Instr.dp op set rd rn o).cycles = 3 := by
      show (if (Instr.dp op set rd rn o).jumps = true then 3 else 1) = 3
      rw [if_pos hj]
    rw [hcy]
    obtain ⟨v, hv, s_pc', s_mem, s_reg, s_flags'⟩ : ∃ v, c.alu.1 = v ∧ s'.pc = TinyGarble.Spec.Mips.bits v 2 24 ∧ s'.mem = s.mem ∧ s'.reg = s.reg ∧
        s'.flags = if holds (slice x 28 4) s.flags && set then .ofWord v else s.flags := by
      by_cases hho : holds (slice x 28 4) s.flags = true
      · rw [effect, if_pos hho, exec_dp] at he
        obtain ⟨⟨b, sc⟩, ho, he⟩ := Option.map_eq_some_iff.1 he
        dsimp only at he
        rw [if_neg (by rw [hj'.1]; decide), if_pos hj'.2] at he
        refine ⟨_, dp_value hRg hc hi ho (hs.1 hho).1, ?_, ?_, ?_, ?_⟩
        · rw [← he]; rfl
        · rw [← he]; rfl
        · rw [← he]; rfl
        · rw [← he, hho, Bool.true_and]
      · rw [effect, if_neg hho] at he
        have he : (if (Instr.dp op set rd rn o).jumps then (o.eval s rn).map fun (b, sc) => s.write 15 (op.eval (s.base rn) b sc s.flags).1
          else some s.next) = some s' := he
        rw [if_pos hj] at he
        obtain ⟨⟨b, sc⟩, ho, he⟩ := Option.map_eq_some_iff.1 he
        have hho : holds (slice x 28 4) s.flags = false := by simpa using hho
        refine ⟨_, dp_value hRg hc hi ho (hs.2.1 hho hj), ?_, ?_, ?_, ?_⟩
        · rw [← he]; rfl
        · rw [← he]; rfl
        · rw [← he]; rfl
        · rw [← he, hho, Bool.false_and]; rfl
    have hcond : opcodeCompare x = false ∧ slice x 12 4 = 15 := ⟨hcc.trans hj'.1, by rw [← hrd]; exact hj'.2⟩
    have hps : c.ctl.pcSel = 1 := by
      rw [hc]; show (validNxt x {}).pcSel = _
      rw [dp_pcSel hx, if_pos hcond]
    have has : c.ctl.address = 1 := by
      rw [hc]; show (validNxt x {}).address = _
      rw [dp_address hx, if_pos hcond]
    rw [← hv] at s_pc' s_flags'
    have s_pc : s'.pc = slice c.alu.1 2 24 := by rw [s_pc', ← bits_eq]
    apply jump hz
    refine ⟨s_mem.trans hR.mem, hR.we, ?_, hwen, hpw, ?_, ?_, ?_, ?_⟩
    · rw [hpipe.state, dp_state hx, if_pos hcond]
    · rw [s_pc]; unfold Core.pcNxt; rw [hps]; rfl
    · intro _
      rw [s_pc]; unfold Core.addressNxt; rw [has]
      dsimp only
      rw [if_pos ⟨hpw, hps⟩, append_addr]
      rfl
    · intro k hk
      rw [hrw, hj'.1, s_reg]
      rw [if_neg (by simp [hj'.2])]
      exact hR.regs k hk
    · rw [hfw, hex, s_flags']
      by_cases hss : (holds (slice x 28 4) s.flags && set) = true
      swap
      · rw [if_neg hss, if_neg hss]
        exact hR.flags
      · rw [if_pos hss, if_pos hss]
        rw [Bool.and_eq_true] at hss
        have hset : true = x.getLsbD 20 := by rw [← hset, hss.2]
        unfold Core.flagsNxt
        rw [show c.ctl.statusSel = 1 by rw [hc, dp_statusSel hx, if_pos ⟨hset.symm, hcond.2⟩]]
        exact of_slice _
  · have hcy : (Instr.dp op set rd rn o).cycles = 1 := by
      show (if (Instr.dp op set rd rn o).jumps = true then 3 else 1) = 1
      rw [if_neg hj]
    rw [hcy]
    have hj' : ¬ (op.compare = false ∧ rd = 15) := by
      intro h
      apply hj
      show (!op.compare && decide (rd = 15)) = true
      rw [h.1, h.2]; rfl
    have hcond : ¬ (opcodeCompare x = false ∧ slice x 12 4 = 15) := by rw [hcc, ← hrd]; exact hj'
    have hst : c.state = .execute := by rw [hpipe.state, dp_state hx, if_neg hcond]
    apply boundary hz
    have key : s'.pc = s.pc + 1 ∧ s'.mem = s.mem ∧
        (∀ k : BitVec 4, k ≠ 15 → (if c.execute && c.ctl.regWen.getLsbD k.toNat then c.regWriteNxt else c.regs k) = s'.reg k) ∧
        absF (if c.execute && c.ctl.flagsWen then c.flagsNxt else c.flags) = s'.flags := by
      by_cases hho : holds (slice x 28 4) s.flags = true
      · rw [effect, if_pos hho, exec_dp] at he
        obtain ⟨⟨b, sc⟩, ho, he⟩ := Option.map_eq_some_iff.1 he
        have hv := dp_value hRg hc hi ho (hs.1 hho).1
        have hf := dp_flags hRg hc hi ho (hs.1 hho)
        dsimp only at he
        by_cases hcp : op.compare = true
        · rw [if_pos hcp] at he
          rw [← he]
          refine ⟨rfl, rfl, fun k hk => ?_, ?_⟩
          · rw [hrw, hcp, if_neg (by simp)]
            exact hR.regs k hk
          · rw [hex, hho, hfw, (hcmp hcp).1]
            refine (hf (hcmp hcp).1 (hcmp hcp).2).trans ?_
            unfold TinyGarble.Spec.Arm.Circuit.flags
            rw [if_neg]
            cases op <;> first | decide | cases hcp
        · have hr15 : rd ≠ 15 := fun h => hj' ⟨by simpa using hcp, h⟩
          rw [if_neg hcp, if_neg hr15] at he
          rw [← he]
          have hwrt : s.next.write rd (op.eval (s.base rn) b sc s.flags).1 = { s.next with reg := fun k => if k = rd then (op.eval (s.base rn) b sc s.flags).1 else s.next.reg k } := by
            rw [State.write, if_neg hr15]
          rw [hwrt]
          refine ⟨rfl, rfl, fun k hk => ?_, ?_⟩
          · rw [hrw, if_neg hcp, hex, hho, hwr, hv]
            show _ = if k = rd then _ else s.reg k
            by_cases hkr : k = rd
            · rw [if_pos hkr, if_pos (by subst hkr; simpa using hr15)]
            · rw [if_neg hkr, if_neg (by simp [hkr])]
              exact hR.regs k hk
          · rw [hex, hho, hfw]
            cases set with
            | false => exact hR.flags
            | true => exact hf rfl hr15
      · rw [effect, if_neg hho] at he
        have he : (if (Instr.dp op set rd rn o).jumps then (o.eval s rn).map fun (b, sc) => s.write 15 (op.eval (s.base rn) b sc s.flags).1
          else some s.next) = some s' := he
        rw [if_neg hj] at he
        cases he
        rw [hex, show holds (slice x 28 4) s.flags = false by simpa using hho]
        exact ⟨rfl, rfl, hR.regs, hR.flags⟩
    obtain ⟨s_pc, s_mem, s_reg, s_flags⟩ := key
    refine ⟨s_mem.trans hR.mem, hR.we, by rw [hst]; rfl, hwen, ?_, hpw, ?_, ?_, s_reg, s_flags, ?_⟩
    · rw [hc]; show (validNxt x {}).pcSel = _
      rw [dp_pcSel hx, if_neg hcond]
    · rw [hc]; show (validNxt x {}).address = _
      rw [dp_address hx, if_neg hcond]
    · rw [s_pc, add11]; exact hR.r15
    · intro h1
      rw [s_pc, toNat_add1 _ (by omega)] at h1
      rw [s_pc, word_congr s_mem, add11]
      refine ⟨?_, hpipe.address, fun _ => by rw [hc]; exact dp_mulEnable hx⟩
      unfold Core.instruction
      rw [hst]
      exact hR.data h1

end TinyGarble.Proof.Hdl.A23
