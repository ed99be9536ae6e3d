import Verif.Proof.Hdl.A23Dp

/-! # The ARM processor: branches -/

namespace TinyGarble.Proof.Hdl.A23

open TinyGarble TinyGarble.Hdl TinyGarble.Hdl.A23
open TinyGarble.Spec.Arm (Layout State Instr align addr bit holds)
open TinyGarble.Spec.Arm.Circuit (exec Supported)

/-- The offset of a branch in bytes. -/
theorem branch_offset (off : BitVec 24) :
    ((if off.getLsbD 23 then BitVec.allOnes 6 else 0) ++ off ++ 0#2 : BitVec 32).toNat =
      if off.toNat < 2 ^ 23 then 4 * off.toNat else 2 ^ 32 - 2 ^ 26 + 4 * off.toNat := by
  have h := off.isLt
  have hb : off.getLsbD 23 = decide (2 ^ 23 ≤ off.toNat) := by
    rw [BitVec.getLsbD, Nat.testBit_eq_decide_div_mod_eq]
    congr 1
    rw [eq_iff_iff]
    omega
  rw [BitVec.toNat_append, BitVec.toNat_append, ← Nat.shiftLeft_add_eq_or_of_lt (show (0#2).toNat < 2 ^ 2 by decide),
    ← Nat.shiftLeft_add_eq_or_of_lt off.isLt, hb]
  by_cases h1 : off.toNat < 2 ^ 23
  · rw [if_pos h1, decide_eq_false (by omega), if_neg (by decide), show (0 : BitVec 6).toNat = 0 from rfl, show (0#2).toNat = 0 from rfl,
      Nat.shiftLeft_eq, Nat.shiftLeft_eq]
    omega
  · rw [if_neg h1, decide_eq_true (by omega), if_pos rfl, show (BitVec.allOnes 6).toNat = 63 from rfl, show (0#2).toNat = 0 from rfl, Nat.shiftLeft_eq, Nat.shiftLeft_eq]
    omega

theorem imm32_branch {x : BitVec 32} (h : itype x = .branch) :
    imm32 x = (if (slice x 0 24).getLsbD 23 then BitVec.allOnes 6 else 0) ++ slice x 0 24 ++ 0#2 := by
  unfold imm32
  rw [h, getLsbD_slice]
  rfl

theorem branch_jump {z : Sizes} (hz : z.code ≤ 2 ^ 22) {s s' : State} {c : Core} {m : Mem} (hR : R z s c m) (hp : s.pc.toNat < z.code) {x : BitVec 32}
    (hw : s.word (addr s.pc) = x) {link : Bool} {off : BitVec 24} (hi : IsInstr x (.branch link off))
    (he : effect (lay z) s (slice x 28 4) (.branch link off) = some s') : Jump z s' c m := by
  have hpipe := hR.pipe hp
  rw [hw] at hpipe
  have hc := hpipe.ctl
  have hRg := hR.toRegs
  obtain ⟨hx, hlink, hoff⟩ := hi
  have hex : c.execute = holds (slice x 28 4) s.flags := by rw [execute_eq hRg, hc]; rfl
  have hn : validNxt x {} = { pcSel := 3, address := 8, aluOut := 1, wsel := if link then 14 else 15, regWrite := if link then 1 else 0 } := by
    rw [validNxt_branch hx, branchNxt_eq, hlink]
  have hps : c.ctl.pcSel = 3 := by rw [hc]; show (validNxt x {}).pcSel = _; rw [hn]
  have has : c.ctl.address = 8 := by rw [hc]; show (validNxt x {}).address = _; rw [hn]
  have hpw : c.ctl.pcWen = true := by rw [hc]; show (validNxt x {}).pcWen = _; rw [hn]
  have hwen : c.ctl.writeWen = false := by rw [hc]; show (validNxt x {}).writeWen = _; rw [hn]
  have hfw : c.ctl.flagsWen = false := by rw [hc]; show (validNxt x {}).flagsWen = _; rw [hn]
  have hrw : ∀ k : BitVec 4, c.ctl.regWen.getLsbD k.toNat = decide (k = (if link then 14 else 15) ∧ k ≠ 15) := by
    intro k
    rw [hc]
    show (decodeReg (validNxt x {}).wsel).getLsbD k.toNat = _
    rw [hn, decodeReg_bit]
  have hst : c.state = .pcStall1 := by
    rw [hpipe.state, hn]
    unfold stateNxt
    rw [hx]
    rfl
  have hal : c.alu.1 = BitVec.ofNat 32 ((addr (s.pc + 2)).toNat + (if off.toNat < 2 ^ 23 then 4 * off.toNat else 2 ^ 32 - 2 ^ 26 + 4 * off.toNat)) := by
    have hin : c.shifted.1 = imm32 x := by
      unfold Core.shifted
      have h1 : c.shiftAmount = 0 := by
        unfold Core.shiftAmount
        rw [show c.ctl.bsAmount = 0 by rw [hc]; show (validNxt x {}).bsAmount = _; rw [hn]]
        rfl
      have h2 : c.shiftIn = imm32 x := by
        unfold Core.shiftIn
        rw [show c.ctl.bsData = 0 by rw [hc]; show (validNxt x {}).bsData = _; rw [hn]]
        show c.ctl.imm32 = _
        rw [hc]; rfl
      rw [h1, h2, barrelShift_zero]
    have h3 : c.ctl.rnSel = 15 := by
      rw [hc]; show (if itype x = .branch then 15 else slice x 16 4) = 15
      rw [if_pos hx]
    unfold Core.alu
    rw [rn_eq hRg, h3, hin, show c.ctl.aluSwap = false by rw [hc]; show (validNxt x {}).aluSwap = _; rw [hn],
      show c.ctl.aluNot = false by rw [hc]; show (validNxt x {}).aluNot = _; rw [hn],
      show c.ctl.aluCin = 0 by rw [hc]; show (validNxt x {}).aluCin = _; rw [hn],
      show c.ctl.aluOut = 1 by rw [hc]; show (validNxt x {}).aluOut = _; rw [hn], alu_value]
    show BitVec.ofNat 32 ((addr (s.pc + 2)).toNat + (imm32 x).toNat + 0) = _
    rw [imm32_branch hx, ← hoff, branch_offset, Nat.add_zero]
  have hadd2 : (s.pc + 2).toNat = s.pc.toNat + 2 := by rw [BitVec.toNat_add, toNat_2_24, Nat.mod_eq_of_lt (by omega)]
  have hpcN : c.pcNxt = if c.execute = false then addr (s.pc + 2) - 4 else c.alu.1 := by
    unfold Core.pcNxt
    rw [hps, pc_eq, hR.r15]
    rfl
  have hadN : c.addressNxt = if c.execute = false then addr (s.pc + 2) - 4 else c.alu.1 := by
    unfold Core.addressNxt
    rw [has, hps, pc_eq, hR.r15]
    rw [if_neg (by omega)]
    rfl
  by_cases hho : holds (slice x 28 4) s.flags = true
  · rw [effect, if_pos hho] at he
    have he := (Option.some.inj he).symm
    have hexe : c.execute = true := hex.trans hho
    rw [if_neg (by rw [hexe]; decide)] at hpcN hadN
    have s_pc : s'.pc = s.pc + 2 + off := by rw [he]
    have s_mem : s'.mem = s.mem := by rw [he]; cases link <;> rfl
    have s_flags : s'.flags = s.flags := by rw [he]; cases link <;> rfl
    refine ⟨s_mem.trans hR.mem, hR.we, hst, hwen, hpw, ?_, ?_, ?_, ?_⟩
    · rw [hpcN, hal, slice_iff, s_pc, BitVec.toNat_add, hadd2, addr_toNat, hadd2, BitVec.toNat_ofNat]
      have := off.isLt
      split <;> omega
    · intro h1
      rw [s_pc, BitVec.toNat_add, hadd2] at h1
      rw [hadN, hal, s_pc]
      apply BitVec.eq_of_toNat_eq
      rw [addr_toNat, addr_toNat, hadd2, BitVec.toNat_add, hadd2, BitVec.toNat_ofNat]
      have := off.isLt
      split <;> omega
    · intro k hk
      rw [hrw, hexe]
      cases link with
      | false =>
        rw [if_neg (by simp)]
        rw [he]; exact hR.regs k hk
      | true =>
        have hwr : c.regWriteNxt = s.r15 (s.pc + 1) := by
          unfold Core.regWriteNxt
          rw [show c.ctl.regWrite = 1 by rw [hc]; show (validNxt x {}).regWrite = _; rw [hn]; rfl]
          show c.word15 (slice (c.pc - 4) 2 24) = _
          rw [word15_eq hRg, pc_eq, slice_addr_sub4, hR.r15, add2sub1]
        have hreg : s'.reg k = if k = 14 then s.r15 (s.pc + 1) else s.reg k := by rw [he]; rfl
        rw [hreg, hwr]
        by_cases hkr : k = 14
        · rw [if_pos hkr, if_pos (by rw [hkr]; decide)]
        · rw [if_neg hkr, if_neg (by rw [Bool.true_and, decide_eq_true_eq]; exact fun h => hkr h.1)]
          exact hR.regs k hk
    · rw [hfw, Bool.and_false, s_flags]; exact hR.flags
  · have hf : holds (slice x 28 4) s.flags = false := by simpa using hho
    rw [effect, if_neg hho] at he
    cases he
    have hexe : c.execute = false := hex.trans hf
    rw [if_pos hexe] at hpcN hadN
    refine ⟨hR.mem, hR.we, hst, hwen, hpw, ?_, ?_, ?_, ?_⟩
    · rw [hpcN, slice_addr_sub4, add2sub1]; rfl
    · intro _
      rw [hadN]
      show addr (s.pc + 2) - 4 = addr (s.pc + 1)
      apply BitVec.eq_of_toNat_eq
      rw [BitVec.toNat_sub, addr_toNat, addr_toNat, hadd2, toNat_add1 _ (by omega), toNat_4]
      omega
    · intro k hk
      rw [hexe]; exact hR.regs k hk
    · rw [hexe]; exact hR.flags

theorem branch_step {z : Sizes} (hz : z.code ≤ 2 ^ 22) {s s' : State} {c : Core} {m : Mem} (hR : R z s c m) (hp : s.pc.toNat < z.code) {x : BitVec 32}
    (hw : s.word (addr s.pc) = x) {link : Bool} {off : BitVec 24} (hi : IsInstr x (.branch link off))
    (he : effect (lay z) s (slice x 28 4) (.branch link off) = some s')
    (u : Nat → BitVec 32) : R z s' (cycles z u 3 (c, m)).1 (cycles z u 3 (c, m)).2 :=
  jump hz (branch_jump hz hR hp hw hi he) u

end TinyGarble.Proof.Hdl.A23
