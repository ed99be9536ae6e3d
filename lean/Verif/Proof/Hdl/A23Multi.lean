import Verif.Proof.Hdl.A23List

/-! # The ARM processor: the cycles of multiple loads and stores -/

namespace TinyGarble.Proof.Hdl.A23

open TinyGarble TinyGarble.Hdl TinyGarble.Hdl.A23
open TinyGarble.Spec.Arm (Layout State Instr align addr bit holds move registers start words)
open TinyGarble.Spec.Arm.Circuit (exec Supported)
open TinyGarble.Spec.Mips (fetch put)

section
variable (y : BitVec 32) (me ma : Bool) (low : BitVec 2) (d : BitVec 4)

theorem exec1_eq : controlNxt .mtransExec1 y me ma low d = { preWen := true, address := 5, pcWen := false, writeWen := !y.getLsbD 20 } := by
  unfold controlNxt
  have hv : valid .mtransExec1 = false := rfl
  simp only [hv, reduceCtorEq, if_false, false_and, Bool.false_eq_true, if_true]
  cases y.getLsbD 20 <;> rfl

theorem exec2_eq : controlNxt .mtransExec2 y me ma low d =
    { address := 5, pcWen := false, bsData := 1, wsel := if y.getLsbD 20 then d else 15, writeWen := !y.getLsbD 20 } := by
  unfold controlNxt
  have hv : valid .mtransExec2 = false := rfl
  simp only [hv, reduceCtorEq, if_false, false_and, Bool.false_eq_true, if_true]
  cases y.getLsbD 20 <;> rfl

theorem exec3_eq : controlNxt .mtransExec3 y me ma low d =
    { address := 3, pcWen := false, bsData := 1, wsel := if y.getLsbD 20 then d else 15 } := by
  unfold controlNxt
  have hv : valid .mtransExec3 = false := rfl
  simp only [hv, reduceCtorEq, if_false, false_and, Bool.false_eq_true, if_true]
  cases y.getLsbD 20 <;> rfl

theorem exec3b_eq : controlNxt .mtransExec3b y me ma low d = { preWen := true, address := 3, pcWen := false } := rfl

theorem exec4_eq (h : y.getLsbD 22 = false) : controlNxt .mtransExec4 y me ma low d =
    { bsData := 1, wsel := if y.getLsbD 20 then d else 15, address := if y.getLsbD 20 = true ∧ d = 15 then 1 else 0, pcSel := if y.getLsbD 20 = true ∧ d = 15 then 1 else 0 } := by
  unfold controlNxt
  have hv : valid .mtransExec4 = false := rfl
  simp only [hv, reduceCtorEq, if_false, false_and, Bool.false_eq_true, if_true, h]
  cases y.getLsbD 20 with
  | false => rfl
  | true =>
    by_cases hd : d = 15#4
    · simp [hd]
    · simp [hd]

end

/-- The control part of a multiple load or store in cycle 1 and later: `r` is the register whose address is in `address`, `y` is the instruction
with the registers after `r`. -/
structure Multi (z : Sizes) (s : State) (x y : BitVec 32) (r : BitVec 4) (c : Core) : Prop where
  ty : itype y = .mtrans
  load : y.getLsbD 20 = x.getLsbD 20
  noS : y.getLsbD 22 = false
  state : c.state = if (regsOf y).length = 0 then .mtransExec4 else if (regsOf y).length = 1 then .mtransExec3 else .mtransExec2
  saved : c.saved = mtransInstruction y
  d1 : c.mtransD1 = mtransReg y
  d2 : c.mtransD2 = r
  address : c.ctl.address = if (regsOf y).length = 0 then 3 else 5
  writeWen : c.ctl.writeWen = (!x.getLsbD 20 && decide ((regsOf y).length ≠ 0))
  rds : c.ctl.rdsSel = mtransReg y
  pcWen : c.ctl.pcWen = false
  pcSel : c.ctl.pcSel = 0
  flagsWen : c.ctl.flagsWen = false
  byteSel : c.ctl.byteSel = 0
  condition : c.ctl.condition = slice x 28 4
  flags : absF c.flags = s.flags
  r15 : c.r15 = s.pc + 2
  pre : s.pc.toNat + 1 < z.code → c.preFetch = s.word (addr (s.pc + 1))

theorem alu_read {c : Core} (h1 : c.ctl.bsData = 1) (h2 : c.ctl.bsAmount = 0) (h3 : c.ctl.aluSwap = false) (h4 : c.ctl.aluNot = false)
    (h5 : c.ctl.aluOut = 0) : c.alu.1 = c.readData := by
  have h6 : c.shifted.1 = c.readData := by
    unfold Core.shifted
    rw [show c.shiftAmount = 0 by unfold Core.shiftAmount; rw [h2]; rfl, barrelShift_zero]
    show c.shiftIn = _
    unfold Core.shiftIn
    rw [h1]; rfl
  unfold Core.alu
  rw [h3, h4, h5, h6]
  rfl

section
variable {z : Sizes} {s : State} {x y : BitVec 32} {r : BitVec 4} {c : Core} (h : Multi z s x y r c)
include h

theorem Multi.execute : c.execute = holds (slice x 28 4) s.flags := by
  unfold Core.execute
  rw [h.condition, conditional_eq, h.flags]

theorem Multi.notValid : valid c.state = false := by
  rw [h.state]
  split
  · rfl
  · split <;> rfl

theorem Multi.instruction : c.instruction = mtransInstruction y := by
  rw [← h.saved]
  have h1 : c.state = .mtransExec4 ∨ c.state = .mtransExec3 ∨ c.state = .mtransExec2 := by
    rw [h.state]
    split
    · exact Or.inl rfl
    · split
      · exact Or.inr (Or.inl rfl)
      · exact Or.inr (Or.inr rfl)
  unfold Core.instruction
  rcases h1 with h1 | h1 | h1 <;> rw [h1]

theorem Multi.load' : (mtransInstruction y).getLsbD 20 = x.getLsbD 20 := by
  rw [getLsbD_mtrans y 20 (by decide), if_neg (by decide), h.load]

theorem Multi.noS' : (mtransInstruction y).getLsbD 22 = false := by
  rw [getLsbD_mtrans y 22 (by decide), if_neg (by decide), h.noS]

theorem Multi.nx (hn : regsOf y ≠ []) : nx c =
    { address := if (regsOf (mtransInstruction y)).length = 0 then 3 else 5, pcWen := false, bsData := 1, wsel := if x.getLsbD 20 then r else 15, writeWen := !x.getLsbD 20 && decide ((regsOf (mtransInstruction y)).length ≠ 0) } := by
  have hl : (regsOf y).length = (regsOf (mtransInstruction y)).length + 1 := by
    conv_lhs => rw [regsOf_cons y hn]
    rfl
  have hst := h.state
  rw [if_neg (by omega)] at hst
  unfold A23.nx
  rw [h.instruction, h.d2, hst]
  by_cases h1 : (regsOf (mtransInstruction y)).length = 0
  · rw [if_pos (by omega), exec3_eq, h.load', h1]
    cases x.getLsbD 20 <;> rfl
  · rw [if_neg (by omega), exec2_eq, h.load', if_neg h1, decide_eq_true h1, Bool.and_true]

theorem Multi.next (hn : regsOf y ≠ []) (rd : BitVec 32) : Multi z s x (mtransInstruction y) (mtransReg y) (c.next rd) ∧
    (c.next rd).ctl.regWen = decodeReg (if x.getLsbD 20 then r else 15) ∧ (c.next rd).regWriteNxt = rd := by
  have hnx := h.nx hn
  have hc := next_has c rd
  rw [hnx] at hc
  have hl : (regsOf y).length = (regsOf (mtransInstruction y)).length + 1 := by
    conv_lhs => rw [regsOf_cons y hn]
    rfl
  refine ⟨⟨itype_rest h.ty, h.load', h.noS', ?_, ?_, ?_, h.d1, hc.address, hc.writeWen, ?_, hc.pcWen, hc.pcSel, hc.flagsWen, hc.byteSel, ?_, ?_, ?_, ?_⟩, hc.regWen, ?_⟩
  · show stateNxt c.state c.instruction (A23.nx c) = _
    have hst := h.state
    rw [if_neg (by omega)] at hst
    rw [hst, h.instruction]
    by_cases h1 : (regsOf (mtransInstruction y)).length = 0
    · rw [if_pos (by omega), if_pos h1]; rfl
    · rw [if_neg (by omega), if_neg h1]
      show (if mtransNum (mtransInstruction y) = 1 then Control.mtransExec3 else Control.mtransExec2) = _
      have : mtransNum (mtransInstruction y) = 1 ↔ _ := mtransNum_iff (mtransInstruction y) 1 (by decide)
      by_cases h2 : (regsOf (mtransInstruction y)).length = 1
      · rw [if_pos h2, if_pos (this.2 h2)]
      · rw [if_neg h2, if_neg (fun h => h2 (this.1 h))]
  · show (if itype c.instruction = .mtrans then mtransInstruction c.instruction else _) = _
    rw [h.instruction, if_pos (itype_rest h.ty)]
  · show mtransReg c.instruction = _
    rw [h.instruction]
  · show rdsSel c.state c.instruction = _
    rw [h.instruction]
    unfold rdsSel
    rw [if_pos (itype_rest h.ty)]
  · rw [next_condition rd h.notValid]; exact h.condition
  · rw [next_flags rd h.flagsWen]; exact h.flags
  · rw [next_r15 rd h.pcWen]; exact h.r15
  · intro h1
    rw [next_preFetch rd (by rw [hnx])]; exact h.pre h1
  · have : (c.next rd).regWriteNxt = (c.next rd).alu.1 := by unfold Core.regWriteNxt; rw [hc.regWrite]; rfl
    rw [this, alu_read hc.bsData hc.bsAmount hc.aluSwap hc.aluNot hc.aluOut]
    rfl

/-- The last cycle, with register 15 not loaded. -/
theorem Multi.last (hz : z.code ≤ 2 ^ 22) (hp : s.pc.toNat < z.code) (hn : regsOf y = []) (h15 : x.getLsbD 20 = true → r ≠ 15) (rd : BitVec 32) {t : State} {m : Mem}
    (hpc : t.pc = s.pc + 1) (hfl : t.flags = s.flags) (hmem : t.mem = absMem m)
    (hreg : ∀ k : BitVec 4, k ≠ 15 → t.reg k = if c.execute = true ∧ x.getLsbD 20 = true ∧ k = r then rd else (c.next rd).regs k)
    (hcode : s.pc.toNat + 1 < z.code → t.word (addr (s.pc + 1)) = s.word (addr (s.pc + 1))) (u : BitVec 32) :
    R z t (cycle z u (c.next rd, m)).1 (cycle z u (c.next rd, m)).2 := by
  have hl : (regsOf y).length = 0 := by rw [hn]; rfl
  have hst := h.state
  rw [if_pos hl] at hst
  have hnx : A23.nx c = { bsData := 1, wsel := if x.getLsbD 20 then r else 15 } := by
    unfold A23.nx
    rw [hst, h.instruction, h.d2, exec4_eq _ _ _ _ _ h.noS', h.load', if_neg (fun h => h15 h.1 h.2)]
  have hc := next_has c rd
  rw [hnx] at hc
  have hst' : (c.next rd).state = .preFetchExec := by
    show stateNxt c.state c.instruction (A23.nx c) = _
    rw [hst, hnx]; rfl
  have hwr : (c.next rd).regWriteNxt = rd := by
    have : (c.next rd).regWriteNxt = (c.next rd).alu.1 := by unfold Core.regWriteNxt; rw [hc.regWrite]; rfl
    rw [this, alu_read hc.bsData hc.bsAmount hc.aluSwap hc.aluNot hc.aluOut]
    rfl
  have hex : (c.next rd).execute = c.execute := by
    unfold Core.execute
    rw [next_condition rd h.notValid, next_flags rd h.flagsWen]
  apply boundary hz
  refine ⟨hmem, ?_, by rw [hst']; rfl, hc.writeWen, hc.pcSel, hc.pcWen, hc.address, ?_, ?_, ?_, ?_⟩
  · apply next_we
    rw [h.writeWen, hl]; simp
  · rw [next_r15 rd h.pcWen, h.r15, hpc, add11]
  · intro k hk
    rw [hreg k hk, hex, hc.regWen, hwr, decodeReg_bit]
    by_cases h1 : c.execute = true ∧ x.getLsbD 20 = true ∧ k = r
    · rw [if_pos h1, if_pos]
      rw [h1.1, h1.2.1, Bool.true_and, decide_eq_true_eq, if_pos rfl]
      exact ⟨h1.2.2, hk⟩
    · rw [if_neg h1, if_neg]
      intro h2
      rw [Bool.and_eq_true, decide_eq_true_eq] at h2
      apply h1
      refine ⟨h2.1, ?_⟩
      cases hL : x.getLsbD 20 with
      | false => rw [hL, if_neg (by decide)] at h2; exact absurd h2.2.1 hk
      | true => rw [hL, if_pos rfl] at h2; exact ⟨rfl, h2.2.1⟩
  · rw [hc.flagsWen, Bool.and_false, next_flags rd h.flagsWen, hfl]; exact h.flags
  · intro h1
    rw [hpc, toNat_add1 _ (by omega)] at h1
    rw [hpc, hcode h1, add11]
    refine ⟨?_, ?_, fun _ => hc.mulEnable⟩
    · unfold Core.instruction
      rw [hst']
      show (c.next rd).preFetch = _
      rw [next_preFetch rd (by rw [hnx])]; exact h.pre h1
    · show c.addressNxt = _
      unfold Core.addressNxt
      rw [h.address, if_pos hl]
      show c.pc = _
      rw [pc_eq, h.r15]

/-- The last cycles when register 15 is loaded. -/
theorem Multi.lastJump (hz : z.code ≤ 2 ^ 22) (hn : regsOf y = []) (hL : x.getLsbD 20 = true) (h15 : r = 15) (rd : BitVec 32) {t : State} {m : Mem}
    (hpc : t.pc = slice rd 2 24) (hfl : t.flags = s.flags) (hmem : t.mem = absMem m) (hreg : ∀ k : BitVec 4, k ≠ 15 → t.reg k = (c.next rd).regs k)
    (u : Nat → BitVec 32) : R z t (cycles z u 3 (c.next rd, m)).1 (cycles z u 3 (c.next rd, m)).2 := by
  have hl : (regsOf y).length = 0 := by rw [hn]; rfl
  have hst := h.state
  rw [if_pos hl] at hst
  have hnx : A23.nx c = { bsData := 1, wsel := 15, address := 1, pcSel := 1 } := by
    unfold A23.nx
    rw [hst, h.instruction, h.d2, exec4_eq _ _ _ _ _ h.noS', h.load', if_pos ⟨hL, h15⟩, hL, h15]; rfl
  have hc := next_has c rd
  rw [hnx] at hc
  have hst' : (c.next rd).state = .pcStall1 := by
    show stateNxt c.state c.instruction (A23.nx c) = _
    rw [hst, hnx]; rfl
  have hal : (c.next rd).alu.1 = rd := by
    rw [alu_read hc.bsData hc.bsAmount hc.aluSwap hc.aluNot hc.aluOut]
    rfl
  apply jump hz
  refine ⟨hmem, ?_, hst', hc.writeWen, hc.pcWen, ?_, ?_, ?_, ?_⟩
  · apply next_we
    rw [h.writeWen, hl]; simp
  · unfold Core.pcNxt; rw [hc.pcSel]
    show slice (c.next rd).alu.1 2 24 = _
    rw [hal, hpc]
  · intro _
    unfold Core.addressNxt
    rw [hc.address]
    dsimp only
    rw [if_pos ⟨hc.pcWen, hc.pcSel⟩, append_addr, hal, hpc]
    rfl
  · intro k hk
    rw [hc.regWen, decodeReg_bit, if_neg (by rw [Bool.and_eq_true, decide_eq_true_eq]; exact fun h => h.2.2 h.2.1), hreg k hk]
  · rw [hc.flagsWen, Bool.and_false, next_flags rd h.flagsWen, hfl]; exact h.flags

end

end TinyGarble.Proof.Hdl.A23
