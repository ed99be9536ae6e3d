import Verif.Proof.Hdl.A23MultiStep

/-! # The ARM processor: the first cycle of multiple loads and stores -/

namespace TinyGarble.Proof.Hdl.A23

open TinyGarble TinyGarble.Hdl TinyGarble.Hdl.A23
open TinyGarble.Spec.Arm (Layout State Instr align addr bit holds move registers start words)
open TinyGarble.Spec.Arm.Circuit (exec Supported)
open TinyGarble.Spec.Mips (fetch put)

theorem mtrans_nxt {x : BitVec 32} (hx : itype x = .mtrans) : validNxt x {} = {
      savedWen := true
      pcWen := false
      aluOut := 1
      aluCin := if x.getLsbD 23 then 0 else 1
      aluNot := !x.getLsbD 23
      writeWen := !x.getLsbD 20
      wsel := if x.getLsbD 21 then slice x 16 4 else 15
      address := if x.getLsbD 23 then (if x.getLsbD 24 then 7 else 4) else (if x.getLsbD 24 then 1 else 6) } := by
  rw [validNxt_mtrans hx, mtransNxt_eq]

/-- The state after the first cycle. -/
theorem multi_first {z : Sizes} {s : State} {c : Core} {m : Mem} (hR : R z s c m) (hp : s.pc.toNat < z.code) {x : BitVec 32}
    (hw : s.word (addr s.pc) = x) (hx : itype x = .mtrans) (hS : x.getLsbD 22 = false) (hn : regsOf x ≠ []) (rd : BitVec 32) :
    Multi z s x (mtransInstruction x) (mtransReg x) (c.next rd) ∧ (c.next rd).ctl.regWen = 0 := by
  have hpipe := hR.pipe hp
  rw [hw] at hpipe
  have hc := hpipe.ctl
  have hnx0 := mtrans_nxt hx
  have hcons := regsOf_cons x hn
  have hl : (regsOf x).length = (regsOf (mtransInstruction x)).length + 1 := by
    conv_lhs => rw [hcons]
    rfl
  have hL : (mtransInstruction x).getLsbD 20 = x.getLsbD 20 := by rw [getLsbD_mtrans x 20 (by decide), if_neg (by decide)]
  have hst : c.state = if (regsOf (mtransInstruction x)).length = 0 then .mtransExec3b else .mtransExec1 := by
    rw [hpipe.state]
    unfold stateNxt
    dsimp only
    rw [if_neg (by rw [hx]; decide), if_pos hx]
    have h0 : mtransNum x = 0 ↔ _ := mtransNum_iff x 0 (by decide)
    have h1 : mtransNum x = 1 ↔ _ := mtransNum_iff x 1 (by decide)
    rw [if_pos (fun h => by have := h0.1 h; omega)]
    by_cases h2 : (regsOf (mtransInstruction x)).length = 0
    · rw [if_pos h2, if_pos (h1.2 (by omega))]
    · rw [if_neg h2, if_neg (fun h => h2 (by have := h1.1 h; omega))]
  have hv : valid c.state = false := by
    rw [hst]; split <;> rfl
  have hin : c.instruction = mtransInstruction x := by
    rw [← hpipe.savedM hx]
    have h1 : c.state = .mtransExec3b ∨ c.state = .mtransExec1 := by
      rw [hst]; split
      · exact Or.inl rfl
      · exact Or.inr rfl
    unfold Core.instruction
    rcases h1 with h1 | h1 <;> rw [h1]
  have hnx : nx c = { preWen := true, address := if (regsOf (mtransInstruction x)).length = 0 then 3 else 5, pcWen := false, writeWen := !x.getLsbD 20 && decide ((regsOf (mtransInstruction x)).length ≠ 0) } := by
    unfold nx
    rw [hin, hst]
    by_cases h1 : (regsOf (mtransInstruction x)).length = 0
    · rw [if_pos h1, exec3b_eq, h1]
      cases x.getLsbD 20 <;> rfl
    · rw [if_neg h1, exec1_eq, hL, if_neg h1, decide_eq_true h1, Bool.and_true]
  have hk := next_has c rd
  rw [hnx] at hk
  refine ⟨⟨itype_rest hx, hL, ?_, ?_, ?_, ?_, hpipe.d1, hk.address, hk.writeWen, ?_, hk.pcWen, hk.pcSel, hk.flagsWen, hk.byteSel, ?_, ?_, ?_, ?_⟩, hk.regWen⟩
  · rw [getLsbD_mtrans x 22 (by decide), if_neg (by decide), hS]
  · show stateNxt c.state c.instruction (nx c) = _
    rw [hst, hin]
    by_cases h1 : (regsOf (mtransInstruction x)).length = 0
    · rw [if_pos h1, if_pos h1]; rfl
    · rw [if_neg h1, if_neg h1]
      show (if slice (mtransInstruction (mtransInstruction x)) 0 16 ≠ 0 then Control.mtransExec2 else Control.mtransExec3) = _
      have h2 := regsOf_cons (mtransInstruction x) (fun h => h1 (by rw [h]; rfl))
      have h3 := regsOf_nil (mtransInstruction (mtransInstruction x))
      by_cases h4 : slice (mtransInstruction (mtransInstruction x)) 0 16 = 0
      · rw [if_neg (fun h => h h4), h2, h3.2 h4]; rfl
      · rw [if_pos h4, if_neg]
        intro h5
        rw [h2] at h5
        exact h4 (h3.1 (List.length_eq_zero_iff.1 (Nat.succ.inj h5)))
  · show (if itype c.instruction = .mtrans then mtransInstruction c.instruction else _) = _
    rw [hin, if_pos (itype_rest hx)]
  · show mtransReg c.instruction = _
    rw [hin]
  · show rdsSel c.state c.instruction = _
    rw [hin]
    unfold rdsSel
    rw [if_pos (itype_rest hx)]
  · rw [next_condition rd hv, hc]; rfl
  · rw [next_flags rd (by rw [hc]; show (validNxt x {}).flagsWen = _; rw [hnx0])]; exact hR.flags
  · rw [next_r15 rd (by rw [hc]; show (validNxt x {}).pcWen = _; rw [hnx0])]; exact hR.r15
  · intro h1
    show (if (nx c).preWen then c.readData else c.preFetch) = _
    rw [hnx, if_pos rfl]; exact hR.data h1

theorem imm32_mtrans {x : BitVec 32} (hx : itype x = .mtrans) : imm32 x = BitVec.ofNat 32 (4 * (regsOf x).length) := by
  unfold imm32
  rw [hx]
  show 0#25 ++ mtransNum x ++ 0#2 = _
  rw [mtransNum_eq]
  have := length_le x
  apply BitVec.eq_of_toNat_eq
  rw [BitVec.toNat_append, BitVec.toNat_append, ← Nat.shiftLeft_add_eq_or_of_lt (show (0#2).toNat < 2 ^ 2 by decide),
    ← Nat.shiftLeft_add_eq_or_of_lt (BitVec.ofNat 5 (regsOf x).length).isLt, BitVec.toNat_ofNat, BitVec.toNat_ofNat]
  simp [Nat.shiftLeft_eq]
  omega

theorem multi_step {z : Sizes} (hz : z.code ≤ 2 ^ 22) {s s' : State} {c : Core} {m : Mem} (hR : R z s c m) (hp : s.pc.toNat < z.code) {x : BitVec 32}
    (hw : s.word (addr s.pc) = x) {load up pre wb : Bool} {rn : BitVec 4} {list : BitVec 16}
    (hi : IsInstr x (.multi load up pre wb rn list))
    (he : effect (lay z) s (slice x 28 4) (.multi load up pre wb rn list) = some s')
    (hs : Supported (lay z) s (slice x 28 4) (.multi load up pre wb rn list)) (u : Nat → BitVec 32) :
    R z s' (cycles z u (Instr.multi load up pre wb rn list).cycles (c, m)).1
      (cycles z u (Instr.multi load up pre wb rn list).cycles (c, m)).2 := by
  have hpipe := hR.pipe hp
  rw [hw] at hpipe
  have hc := hpipe.ctl
  have hRg := hR.toRegs
  obtain ⟨hx, rfl, rfl, rfl, rfl, rfl, rfl, hS⟩ := hi
  have hne : regsOf x ≠ [] := fun h => hs.2.2 ((regsOf_nil x).1 h)
  have hcons := regsOf_cons x hne
  have hl : (regsOf x).length = (regsOf (mtransInstruction x)).length + 1 := by
    conv_lhs => rw [hcons]
    rfl
  have hn := mtrans_nxt hx
  have hX : c.execute = holds (slice x 28 4) s.flags := by rw [execute_eq hRg, hc]; rfl
  have hrn : c.rn = s.base (slice x 16 4) := by
    rw [rn_eq hRg, hc]
    show s.base (if itype x = .branch then 15 else slice x 16 4) = _
    rw [hx]; rfl
  have hoff : c.shifted.1 = BitVec.ofNat 32 (4 * (regsOf x).length) := by
    unfold Core.shifted
    have h1 : c.shiftAmount = 0 := by
      unfold Core.shiftAmount
      rw [show c.ctl.bsAmount = 0 by rw [hc]; show (validNxt x {}).bsAmount = _; rw [hn]]; rfl
    rw [h1, barrelShift_zero, ← imm32_mtrans hx]
    unfold Core.shiftIn
    rw [show c.ctl.bsData = 0 by rw [hc]; show (validNxt x {}).bsData = _; rw [hn]]
    show c.ctl.imm32 = _
    rw [hc]; rfl
  have hal : c.alu.1 = move (x.getLsbD 23) (s.base (slice x 16 4)) (BitVec.ofNat 32 (4 * (regsOf x).length)) := by
    rw [← hrn, ← hoff]
    apply alu_move
    · rw [hc]; show (validNxt x {}).aluSwap = _; rw [hn]
    · rw [hc]; show (validNxt x {}).aluNot = _; rw [hn]
    · rw [hc]; show (validNxt x {}).aluCin = _; rw [hn]
    · rw [hc]; show (validNxt x {}).aluOut = _; rw [hn]
  have hadr : c.addressNxt = start (x.getLsbD 23) (x.getLsbD 24) (s.base (slice x 16 4)) (regsOf x).length := by
    unfold Core.addressNxt
    rw [show c.ctl.address = if x.getLsbD 23 then (if x.getLsbD 24 then 7 else 4) else (if x.getLsbD 24 then 1 else 6) by rw [hc]; show (validNxt x {}).address = _; rw [hn],
      show c.ctl.pcWen = false by rw [hc]; show (validNxt x {}).pcWen = _; rw [hn], hrn, hal]
    cases x.getLsbD 23 <;> cases x.getLsbD 24 <;> rfl
  have hrw : ∀ k : BitVec 4, c.ctl.regWen.getLsbD k.toNat = decide (k = (if x.getLsbD 21 then slice x 16 4 else 15) ∧ k ≠ 15) := by
    intro k
    rw [hc]
    show (decodeReg (validNxt x {}).wsel).getLsbD k.toNat = _
    rw [hn, decodeReg_bit]
  have hwr : c.regWriteNxt = c.alu.1 := by
    unfold Core.regWriteNxt
    rw [show c.ctl.regWrite = 0 by rw [hc]; show (validNxt x {}).regWrite = _; rw [hn]]
    rfl
  have hww : c.ctl.writeWen = !x.getLsbD 20 := by rw [hc]; show (validNxt x {}).writeWen = _; rw [hn]
  have hbs : c.ctl.byteSel = 0 := by rw [hc]; show (validNxt x {}).byteSel = _; rw [hn]
  have hcyc : (Instr.multi (x.getLsbD 20) (x.getLsbD 23) (x.getLsbD 24) (x.getLsbD 21) (slice x 16 4) (slice x 0 16)).cycles =
      1 + ((regsOf (mtransInstruction x)).length + 2 + if x.getLsbD 20 && (slice x 0 16).getLsbD 15 then 2 else 0) := by
    show (if (regsOf x).length = 1 then 3 else (regsOf x).length + 2) + (if x.getLsbD 20 && (slice x 0 16).getLsbD 15 then 2 else 0) = _
    have : (if (regsOf x).length = 1 then 3 else (regsOf x).length + 2) = (regsOf x).length + 2 := by
      split <;> omega
    omega
  have h15 : (15 : BitVec 4) ∈ mtransReg x :: regsOf (mtransInstruction x) ↔ (slice x 0 16).getLsbD 15 = true := by
    rw [← hcons, mem_regsOf, getLsbD_slice]; rfl
  rw [hcyc, cycles_add]
  show R z s' (cycles z _ _ (cycle z (u 0) (c, m))).1 (cycles z _ _ (cycle z (u 0) (c, m))).2
  rw [cycle_quiet z _ c m hR.we]
  generalize m.read z c.address (u 0) = rd
  obtain ⟨hM, hM0⟩ := multi_first hR hp hw hx hS hne rd
  have had1 : (c.next rd).address = start (x.getLsbD 23) (x.getLsbD 24) (s.base (slice x 16 4)) (regsOf x).length := hadr
  by_cases hho : holds (slice x 28 4) s.flags = true
  · -- the condition holds
    rw [effect, if_pos hho] at he
    have hsup := hs.1 hho
    unfold exec TinyGarble.Spec.Arm.exec at he
    dsimp only at he
    rw [show (registers (slice x 0 16)) = regsOf x from rfl] at he
    split at he
    · cases he
    rename_i hbad
    have hrn15 : slice x 16 4 ≠ 15 := fun h => hbad (Or.inl h)
    have hbase : s.base (slice x 16 4) = s.reg (slice x 16 4) := by rw [State.base, if_neg hrn15]
    rw [hbase] at hal hadr had1
    generalize hs1 : (if x.getLsbD 21 = true then s.next.write (slice x 16 4) (move (x.getLsbD 23) (s.reg (slice x 16 4)) (BitVec.ofNat 32 (4 * (regsOf x).length))) else s.next) = s1 at he
    have s1_pc : s1.pc = s.pc + 1 := by
      rw [← hs1]; split
      · rw [write_pc _ _ hrn15]; rfl
      · rfl
    have s1_mem : s1.mem = s.mem := by
      rw [← hs1]; split
      · rw [write_mem]; rfl
      · rfl
    have s1_flags : s1.flags = s.flags := by
      rw [← hs1]; split
      · rw [write_flags]; rfl
      · rfl
    have hregs : ∀ k : BitVec 4, k ≠ 15 → (c.next rd).regs k = s1.reg k := by
      intro k hk
      show (if c.execute && c.ctl.regWen.getLsbD k.toNat then c.regWriteNxt else c.regs k) = _
      rw [hrw, hX, hho, hwr, hal, ← hs1, Bool.true_and]
      cases h : x.getLsbD 21 with
      | true =>
        rw [if_pos rfl, if_pos rfl, write_reg _ _ _ _ hk]
        by_cases h1 : k = slice x 16 4
        · rw [if_pos h1, if_pos (by rw [decide_eq_true_eq]; exact ⟨h1, hk⟩)]
        · rw [if_neg h1, if_neg (by rw [decide_eq_true_eq]; exact fun h => h1 h.1)]
          exact hR.regs k hk
      | false =>
        have h1 : ¬ decide ((k = if false = true then slice x 16 4 else 15) ∧ k ≠ 15) = true := by
          rw [decide_eq_true_eq]; exact fun h => h.2 h.1
        rw [if_neg h1]
        exact hR.regs k hk
    have hregs0 : ∀ k : BitVec 4, k ≠ 15 → (if (c.next rd).execute && (c.next rd).ctl.regWen.getLsbD k.toNat then (c.next rd).regWriteNxt else (c.next rd).regs k) = s1.reg k := by
      intro k hk
      rw [hM0, if_neg (by simp)]
      exact hregs k hk
    cases hL : x.getLsbD 20 with
    | true =>
      rw [hL, if_pos rfl] at he
      split at he
      · rename_i hread
        have he := (Option.some.inj he).symm
        rw [he, ← had1, hcons]
        apply multi_load hz hp hL hho (regsOf (mtransInstruction x)).length rfl hM
        · rw [had1, ← hl]; exact hread
        · exact s1_pc
        · exact s1_flags
        · exact s1_mem
        · rw [s1_mem]; exact hR.mem
        · apply next_we
          rw [hww, hL]; rfl
        · exact hregs0
        · exact fun k hk => (regsOf_rest x k hk).1
        · congr 1
          rw [Bool.true_and]
          by_cases h : (slice x 0 16).getLsbD 15 = true
          · rw [if_pos h, if_pos (h15.2 h)]
          · rw [if_neg h, if_neg (fun h1 => h (h15.1 h1))]
      · cases he
    | false =>
      rw [hL, if_neg (by decide)] at he
      split at he
      · rename_i hwrite
        have he := (Option.some.inj he).symm
        have hcode : words (fun a => align a ≠ addr (s.pc + 1)) (start (x.getLsbD 23) (x.getLsbD 24) (s.reg (slice x 16 4)) (regsOf x).length) (regsOf x).length = true := hsup hL
        rw [Bool.false_and, if_neg (by decide), Nat.add_zero]
        rw [← had1, hl, words, Bool.and_eq_true] at hcode hwrite
        rw [he, ← had1, hcons, List.map_cons, State.storeAll]
        have hrds : c.ctl.rdsSel = mtransReg x := by
          rw [hc]; show rdsSel .execute x = _
          unfold rdsSel
          rw [if_pos hx]
        have hps : c.ctl.pcSel = 0 := by rw [hc]; show (validNxt x {}).pcSel = _; rw [hn]
        have hrd : c.rd = s.stored (mtransReg x) := by rw [stored_eq hRg hps, hrds]
        apply multi_store hz hp hL hho (regsOf (mtransInstruction x)).length rfl hM
        · exact hwrite.2
        · exact hcode.2
        · exact s1_pc
        · exact s1_flags
        · have : s.word (addr (s.pc + 1)) = s1.word (addr (s.pc + 1)) := (word_congr s1_mem _).symm
          rw [this]
          apply word_put_word s1 _ (c.next rd).address _ (s.stored (mtransReg x)).toNat rfl
          rw [align_addr]
          exact of_decide_eq_true hcode.1
        · have hwe : (c.next rd).writeEnable = true := by
            show (c.execute && c.ctl.writeWen) = true
            rw [hX, hho, hww, hL]; rfl
          have hbe : (c.next rd).byteEnable = 0b1111 := by
            show c.byteEnableNxt = _
            unfold Core.byteEnableNxt
            rw [hbs]; rfl
          have hwd : (c.next rd).writeData = s.stored (mtransReg x) := by
            show (if c.ctl.byteSel = 0 then c.rd else _) = _
            rw [if_pos hbs, hrd]
          rw [hwe, hbe, hwd, write_word z _ _ _ hwrite.1]
          show put s1.mem _ _ 4 = _
          rw [s1_mem, hR.mem]
        · exact hregs0
        · intro k hk hk15
          have h2 : s1.reg k = s.reg k := by
            rw [← hs1]
            split
            · rename_i hwb
              rw [write_reg _ _ _ _ hk15, if_neg]
              · rfl
              · intro h
                apply hbad
                refine Or.inr (Or.inr ⟨hwb, ?_⟩)
                rw [← h, getLsbD_slice, decide_eq_true k.isLt, Bool.true_and, Nat.zero_add]
                exact (mem_regsOf x k).1 (regsOf_rest x k hk).2
            · rfl
          exact ⟨(hregs k hk15).trans h2, h2⟩
      · cases he
  · -- the condition does not hold
    have hf : holds (slice x 28 4) s.flags = false := by simpa using hho
    rw [effect, if_neg hho] at he
    rw [← Option.some.inj he]
    have hj : (x.getLsbD 20 && (slice x 0 16).getLsbD 15) = false := hs.2.1 hf
    rw [hj, if_neg (by decide), Nat.add_zero]
    apply multi_idle hz hp hf (regsOf (mtransInstruction x)).length rfl hM hR.mem
    · show (c.execute && _) = false
      rw [hX, hf]; rfl
    · intro k hk
      show (if c.execute && _ then _ else c.regs k) = _
      rw [hX, hf]; exact hR.regs k hk
    · intro hL h
      rw [hL, h15.1 h] at hj
      cases hj

end TinyGarble.Proof.Hdl.A23
