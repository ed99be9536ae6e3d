import Verif.Proof.Hdl.A23Branch

/-! # The ARM processor: multiplication -/

namespace TinyGarble.Proof.Hdl.A23

open TinyGarble TinyGarble.Hdl TinyGarble.Hdl.A23
open TinyGarble.Spec.Arm (Layout State Instr align addr bit holds isMul)
open TinyGarble.Spec.Arm.Circuit (exec Supported)

/-- The control signals of a cycle. -/
def nx (c : Core) : Nxt := controlNxt c.state c.instruction c.ctl.mulEnable c.ctl.mulAccum (slice c.address 0 2) c.mtransD2

theorem cycle_quiet (z : Sizes) (u : BitVec 32) (c : Core) (m : Mem) (h : c.writeEnable = false) :
    cycle z u (c, m) = (c.next (m.read z c.address u), m) := by
  show (_, m.next z c.address c.writeEnable c.byteEnable c.writeData) = _
  rw [h]; rfl

theorem next_regs {c : Core} (r : BitVec 32) (h : c.ctl.regWen = 0) : (c.next r).regs = c.regs := by
  funext k
  show (if c.execute && c.ctl.regWen.getLsbD k.toNat then _ else c.regs k) = _
  rw [h, if_neg (by simp)]

theorem next_flags {c : Core} (r : BitVec 32) (h : c.ctl.flagsWen = false) : (c.next r).flags = c.flags := by
  show (if c.execute && c.ctl.flagsWen then _ else c.flags) = _
  rw [h, Bool.and_false]; rfl

theorem next_r15 {c : Core} (r : BitVec 32) (h : c.ctl.pcWen = false) : (c.next r).r15 = c.r15 := by
  show (if c.ctl.pcWen then _ else c.r15) = _
  rw [h]; rfl

theorem next_we {c : Core} (r : BitVec 32) (h : c.ctl.writeWen = false) : (c.next r).writeEnable = false := by
  show (c.execute && c.ctl.writeWen) = false
  rw [h, Bool.and_false]

theorem next_condition {c : Core} (r : BitVec 32) (h : valid c.state = false) : (c.next r).ctl.condition = c.ctl.condition := by
  show (if valid c.state then _ else c.ctl.condition) = _
  rw [h]; rfl

theorem next_saved {c : Core} (r : BitVec 32) (h : itype c.instruction ≠ .mtrans) (hn : (nx c).savedWen = false) : (c.next r).saved = c.saved := by
  show (if itype c.instruction = .mtrans then _ else if (nx c).savedWen then _ else c.saved) = _
  rw [if_neg h, hn]; rfl

theorem next_preFetch {c : Core} (r : BitVec 32) (hn : (nx c).preWen = false) : (c.next r).preFetch = c.preFetch := by
  show (if (nx c).preWen then _ else c.preFetch) = _
  rw [hn]; rfl

theorem mul_step {z : Sizes} (hz : z.code ≤ 2 ^ 22) {s s' : State} {c : Core} {m : Mem} (hR : R z s c m) (hp : s.pc.toNat < z.code) {x : BitVec 32}
    (hw : s.word (addr s.pc) = x) {acc set : Bool} {rd rn rs rm : BitVec 4} (hi : IsInstr x (.mul acc set rd rn rs rm))
    (he : effect (lay z) s (slice x 28 4) (.mul acc set rd rn rs rm) = some s')
    (hs : Supported (lay z) s (slice x 28 4) (.mul acc set rd rn rs rm))
    (u : Nat → BitVec 32) : R z s' (cycles z u 4 (c, m)).1 (cycles z u 4 (c, m)).2 := by
  have hpipe := hR.pipe hp
  rw [hw] at hpipe
  have hc := hpipe.ctl
  have hRg := hR.toRegs
  obtain ⟨hx, hacc, hset, hrd, hrn, hrs, hrm⟩ := hi
  have hnm : itype x ≠ .mtrans := by rw [hx]; decide
  have hn : validNxt x {} = { mulEnable := true, savedWen := true, pcWen := false, mulAccum := acc } := by
    rw [validNxt_mult hx, multNxt_eq, hacc]
  have hst : c.state = .multProc1 := by
    rw [hpipe.state]
    unfold stateNxt
    rw [hx]; rfl
  have hin : c.instruction = x := by
    unfold Core.instruction
    rw [hst]; exact hpipe.saved (Or.inr hx)
  have c_me : c.ctl.mulEnable = true := by rw [hc]; show (validNxt x {}).mulEnable = _; rw [hn]
  have c_rw : c.ctl.regWen = 0 := by rw [hc]; show decodeReg (validNxt x {}).wsel = _; rw [hn]; rfl
  have c_fw : c.ctl.flagsWen = false := by rw [hc]; show (validNxt x {}).flagsWen = _; rw [hn]
  have c_pw : c.ctl.pcWen = false := by rw [hc]; show (validNxt x {}).pcWen = _; rw [hn]
  have c_ww : c.ctl.writeWen = false := by rw [hc]; show (validNxt x {}).writeWen = _; rw [hn]
  have c_cond : c.ctl.condition = slice x 28 4 := by rw [hc]; rfl
  -- first cycle
  show R z s' (cycle z (u 3) (cycle z (u 2) (cycle z (u 1) (cycle z (u 0) (c, m))))).1 (cycle z (u 3) (cycle z (u 2) (cycle z (u 1) (cycle z (u 0) (c, m))))).2
  rw [cycle_quiet z _ c m hR.we]
  generalize m.read z c.address (u 0) = r1
  have n0 : nx c = { preWen := true, pcWen := false, mulEnable := c.ctl.mulEnable, mulAccum := c.ctl.mulAccum } := by unfold nx; rw [hst]; rfl
  have d_state : (c.next r1).state = .multProc2 := by show stateNxt c.state _ _ = _; rw [hst]; rfl
  have d_saved : (c.next r1).saved = x := by
    rw [next_saved r1 (by rw [hin]; exact hnm) (by rw [n0])]; exact hpipe.saved (Or.inr hx)
  have d_pre : (c.next r1).preFetch = c.readData := by
    show (if (nx c).preWen then c.readData else c.preFetch) = _
    rw [n0]; rfl
  have d_regs := next_regs r1 c_rw
  have d_flags := next_flags r1 c_fw
  have d_r15 := next_r15 r1 c_pw
  have d_we := next_we r1 c_ww
  have d_cond := next_condition r1 (show valid c.state = false by rw [hst]; rfl)
  have d_me : (c.next r1).ctl.mulEnable = true := by show (nx c).mulEnable = _; rw [n0]; exact c_me
  have d_rw : (c.next r1).ctl.regWen = 0 := by show decodeReg (nx c).wsel = _; rw [n0]; rfl
  have d_fw : (c.next r1).ctl.flagsWen = false := by show (nx c).flagsWen = _; rw [n0]
  have d_pw : (c.next r1).ctl.pcWen = false := by show (nx c).pcWen = _; rw [n0]
  have d_ww : (c.next r1).ctl.writeWen = false := by show (nx c).writeWen = _; rw [n0]
  have d_count : (c.next r1).count = 1 := by
    show c.mulNext.2 = _
    unfold Core.mulNext
    rw [c_me, hpipe.count hx]; rfl
  have d_prod : c.execute = true → (c.next r1).product = c.rs * c.rm := by
    intro h
    show c.mulNext.1 = _
    unfold Core.mulNext
    rw [c_me, hpipe.count hx, h]; rfl
  generalize hd : c.next r1 = d at *
  -- second cycle
  have d_in : d.instruction = x := by unfold Core.instruction; rw [d_state]; exact d_saved
  rw [cycle_quiet z _ d m d_we]
  generalize m.read z d.address (u 1) = r2
  have n1 : nx d = { pcWen := false, address := 3, mulEnable := d.ctl.mulEnable, mulAccum := d.ctl.mulAccum } := by unfold nx; rw [d_state]; rfl
  have e_state : (d.next r2).state = .multStore := by show stateNxt d.state _ _ = _; rw [d_state]; rfl
  have e_saved : (d.next r2).saved = x := by
    rw [next_saved r2 (by rw [d_in]; exact hnm) (by rw [n1])]; exact d_saved
  have e_pre : (d.next r2).preFetch = c.readData := by rw [next_preFetch r2 (by rw [n1])]; exact d_pre
  have e_regs := next_regs r2 d_rw
  have e_flags := next_flags r2 d_fw
  have e_r15 := next_r15 r2 d_pw
  have e_we := next_we r2 d_ww
  have e_cond := next_condition r2 (show valid d.state = false by rw [d_state]; rfl)
  have e_me : (d.next r2).ctl.mulEnable = true := by show (nx d).mulEnable = _; rw [n1]; exact d_me
  have e_rw : (d.next r2).ctl.regWen = 0 := by show decodeReg (nx d).wsel = _; rw [n1]; rfl
  have e_fw : (d.next r2).ctl.flagsWen = false := by show (nx d).flagsWen = _; rw [n1]
  have e_pw : (d.next r2).ctl.pcWen = false := by show (nx d).pcWen = _; rw [n1]
  have e_ww : (d.next r2).ctl.writeWen = false := by show (nx d).writeWen = _; rw [n1]
  have e_as : (d.next r2).ctl.address = 3 := by show (nx d).address = _; rw [n1]
  have e_count : (d.next r2).count = 2 := by
    show d.mulNext.2 = _
    unfold Core.mulNext
    rw [d_me, d_count]; rfl
  have e_prod : (d.next r2).product = d.product := by
    show d.mulNext.1 = _
    unfold Core.mulNext
    rw [d_me, d_count, if_pos rfl, if_neg (by simp), if_neg (by simp)]
  generalize he' : d.next r2 = e at *
  -- third cycle
  have e_in : e.instruction = x := by unfold Core.instruction; rw [e_state]; exact e_saved
  rw [cycle_quiet z _ e m e_we]
  generalize m.read z e.address (u 2) = r3
  have n2 : nx e = { regWrite := 2, mulEnable := e.ctl.mulEnable, mulAccum := e.ctl.mulAccum, wsel := rd, statusSel := if set then 4 else 0, flagsWen := set } := by
    unfold nx
    rw [e_state, e_in, hrd, hset]
    cases hb : x.getLsbD 20 <;> (unfold controlNxt; rw [hb]; rfl)
  have f_state : (e.next r3).state = .preFetchExec := by show stateNxt e.state _ _ = _; rw [e_state]; rfl
  have f_pre : (e.next r3).preFetch = c.readData := by rw [next_preFetch r3 (by rw [n2])]; exact e_pre
  have f_regs := next_regs r3 e_rw
  have f_flags := next_flags r3 e_fw
  have f_r15 := next_r15 r3 e_pw
  have f_we := next_we r3 e_ww
  have f_cond := next_condition r3 (show valid e.state = false by rw [e_state]; rfl)
  have f_rw : ∀ k : BitVec 4, (e.next r3).ctl.regWen.getLsbD k.toNat = decide (k = rd ∧ k ≠ 15) := by
    intro k
    show (decodeReg (nx e).wsel).getLsbD k.toNat = _
    rw [n2, decodeReg_bit]
  have f_fw : (e.next r3).ctl.flagsWen = set := by show (nx e).flagsWen = _; rw [n2]
  have f_ss : (e.next r3).ctl.statusSel = if set then 4 else 0 := by show (nx e).statusSel = _; rw [n2]
  have f_wr : (e.next r3).ctl.regWrite = 2 := by show (nx e).regWrite = _; rw [n2]
  have f_pw : (e.next r3).ctl.pcWen = true := by show (nx e).pcWen = _; rw [n2]
  have f_ps : (e.next r3).ctl.pcSel = 0 := by show (nx e).pcSel = _; rw [n2]
  have f_as : (e.next r3).ctl.address = 0 := by show (nx e).address = _; rw [n2]
  have f_ww : (e.next r3).ctl.writeWen = false := by show (nx e).writeWen = _; rw [n2]
  have f_ad : (e.next r3).address = addr (s.pc + 2) := by
    show e.addressNxt = _
    unfold Core.addressNxt
    rw [e_as]
    show e.pc = _
    rw [pc_eq, e_r15, d_r15, hR.r15]
  have f_prod : (e.next r3).product = e.product := by
    show e.mulNext.1 = _
    unfold Core.mulNext
    rw [e_me, e_count, if_pos rfl, if_neg (by simp), if_neg (by simp)]
  generalize hf' : e.next r3 = f at *
  -- last cycle
  have fR : f.regs = c.regs := f_regs.trans (e_regs.trans d_regs)
  have fF : f.flags = c.flags := f_flags.trans (e_flags.trans d_flags)
  have fC : f.ctl.condition = slice x 28 4 := f_cond.trans (e_cond.trans (d_cond.trans c_cond))
  have fX : f.execute = holds (slice x 28 4) s.flags := by
    unfold Core.execute; rw [fC, fF, conditional_eq, hR.flags]
  have cX : c.execute = holds (slice x 28 4) s.flags := by rw [execute_eq hRg, c_cond]
  have hmul : c.execute = true → (rs ≠ 15 ∧ rm ≠ 15) → f.product = s.reg rm * s.reg rs := by
    intro h ⟨h1, h2⟩
    have hrds : c.ctl.rdsSel = rs := by
      rw [hc]; show rdsSel .execute x = _
      unfold rdsSel rdsUseRs
      rw [hx, hrs]; rfl
    have hrmS : c.ctl.rmSel = rm := by rw [hc]; exact hrm.symm
    rw [f_prod, e_prod, d_prod h, rs_eq hRg (by rw [hrds]; exact h1), rm_eq hRg, hrds, hrmS, State.second, if_neg h2, BitVec.mul_comm]
  apply boundary hz
  have key : s'.pc = s.pc + 1 ∧ s'.mem = s.mem ∧
      (∀ k : BitVec 4, k ≠ 15 → (if f.execute && f.ctl.regWen.getLsbD k.toNat then f.regWriteNxt else f.regs k) = s'.reg k) ∧
      absF (if f.execute && f.ctl.flagsWen then f.flagsNxt else f.flags) = s'.flags := by
    by_cases hho : holds (slice x 28 4) s.flags = true
    · rw [effect, if_pos hho] at he
      have he : (if rd = 15 ∨ rs = 15 ∨ rm = 15 ∨ (false = true ∧ rn = 15) then none
        else some { s.next.write rd (s.reg rm * s.reg rs + 0) with
          flags := if set then .result (s.reg rm * s.reg rs + 0) s.flags.c s.flags.v else s.flags }) = some s' := he
      split at he
      · cases he
      rename_i hne
      rw [show s.reg rm * s.reg rs + (0 : BitVec 32) = s.reg rm * s.reg rs from BitVec.add_zero _] at he
      have he := (Option.some.inj he).symm
      have hd15 : rd ≠ 15 := fun h => hne (Or.inl h)
      have hprod := hmul (cX.trans hho) ⟨fun h => hne (Or.inr (Or.inl h)), fun h => hne (Or.inr (Or.inr (Or.inl h)))⟩
      have hwrt : s.next.write rd (s.reg rm * s.reg rs) = { s.next with reg := fun k => if k = rd then s.reg rm * s.reg rs else s.next.reg k } := by
        rw [State.write, if_neg hd15]
      rw [hwrt] at he
      rw [he]
      refine ⟨rfl, rfl, fun k hk => ?_, ?_⟩
      · rw [f_rw, fX, hho]
        have : f.regWriteNxt = f.product := by unfold Core.regWriteNxt; rw [f_wr]; rfl
        rw [this, hprod]
        show _ = if k = rd then _ else s.reg k
        by_cases hkr : k = rd
        · rw [if_pos hkr, if_pos (by subst hkr; simpa using hd15)]
        · rw [if_neg hkr, if_neg (by simp [hkr]), fR]
          exact hR.regs k hk
      · rw [fX, hho, f_fw]
        cases set with
        | false => rw [fF]; exact hR.flags
        | true =>
          show absF f.flagsNxt = _
          unfold Core.flagsNxt
          rw [f_ss]
          show (⟨f.product.getLsbD 31, f.product == 0, f.flags.c, f.flags.v⟩ : TinyGarble.Spec.Arm.Flags) = _
          rw [hprod, if_pos rfl, TinyGarble.Spec.Arm.Flags.result, bit_eq, ← hR.flags, fF]
          congr 1
    · rw [effect, if_neg hho] at he
      cases he
      rw [fX, show holds (slice x 28 4) s.flags = false by simpa using hho]
      refine ⟨rfl, rfl, fun k hk => ?_, ?_⟩
      · show f.regs k = _; rw [fR]; exact hR.regs k hk
      · show absF f.flags = _; rw [fF]; exact hR.flags
  obtain ⟨s_pc, s_mem, s_reg, s_flags⟩ := key
  refine ⟨s_mem.trans hR.mem, f_we, by rw [f_state]; rfl, f_ww, f_ps, f_pw, f_as, ?_, s_reg, s_flags, ?_⟩
  · rw [f_r15, e_r15, d_r15, s_pc, add11]; exact hR.r15
  · intro h1
    rw [s_pc, toNat_add1 _ (by omega)] at h1
    rw [s_pc, word_congr s_mem, add11]
    refine ⟨?_, f_ad, fun h => absurd h (itype_not_mult (hs.2.2 h1))⟩
    unfold Core.instruction
    rw [f_state]
    show f.preFetch = _
    rw [f_pre]
    exact hR.data h1

end TinyGarble.Proof.Hdl.A23
