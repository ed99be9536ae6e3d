import Verif.Proof.Hdl.A23Run
import Verif.Spec.ArmStop

/-! # The ARM processor: when `terminate` is set -/

namespace TinyGarble.Proof.Hdl.A23

open TinyGarble TinyGarble.Hdl TinyGarble.Hdl.A23
open TinyGarble.Spec.Arm (Layout State Instr align addr bit holds decode move registers start words)
open TinyGarble.Spec.Arm.Circuit (exec Supported step trace cost)

theorem slice_addr30 (p : BitVec 24) (h : slice (addr p) 2 30 = 6) : p = 6 := by
  rw [slice_iff, addr_toNat] at h
  have := p.isLt
  apply BitVec.eq_of_toNat_eq
  rw [show (6 : BitVec 30).toNat = 6 from rfl] at h
  rw [show (6 : BitVec 24).toNat = 6 from rfl]
  omega

theorem addr_inj7 (p : BitVec 24) (h : addr p = 0x1c) : p = 7 := by
  have := congrArg BitVec.toNat h
  rw [addr_toNat, show (0x1c : BitVec 32).toNat = 28 from rfl] at this
  apply BitVec.eq_of_toNat_eq
  rw [show (7 : BitVec 24).toNat = 7 from rfl]
  omega

theorem addr_add4_inj (p : BitVec 24) (h : addr p + 4 = 0x1c) : p = 6 := by
  have := congrArg BitVec.toNat h
  rw [BitVec.toNat_add, addr_toNat, toNat_4, show (0x1c : BitVec 32).toNat = 28 from rfl] at this
  have := p.isLt
  apply BitVec.eq_of_toNat_eq
  rw [show (6 : BitVec 24).toNat = 6 from rfl]
  omega

theorem terminate_iff (c : Core) : c.terminate = true ↔ slice c.address 2 30 = 6 ∧ c.addressNxt = 0x1c := by
  unfold Core.terminate
  rw [Bool.and_eq_true, beq_iff_eq, beq_iff_eq]

theorem off_of_address {c : Core} {p : BitVec 24} (h : c.address = addr p) (hp : p ≠ 6) : c.terminate = false := by
  rw [← Bool.not_eq_true, terminate_iff, h]
  exact fun h1 => hp (slice_addr30 p h1.1)

theorem off_of_next {c : Core} {p : BitVec 24} (h : c.addressNxt = addr p) (hp : p ≠ 7) : c.terminate = false := by
  rw [← Bool.not_eq_true, terminate_iff, h]
  exact fun h1 => hp (addr_inj7 p h1.2)

theorem add2_ne {p : BitVec 24} (q : BitVec 24) (h : p ≠ q - 2) : p + 2 ≠ q := by
  intro h1
  apply h
  rw [← h1]
  exact (BitVec.add_sub_cancel p 2).symm

/-- A sequence of states of the core; the words that are read are arbitrary. -/
def Seq (C : Nat → Core) : Prop := ∀ j, ∃ r, C (j + 1) = (C j).next r

theorem Seq.drop {C : Nat → Core} (h : Seq C) (k : Nat) : Seq fun j => C (k + j) := fun j => h (k + j)

theorem cycles_seq (z : Sizes) (u : Nat → BitVec 32) (s : Core × Mem) : Seq fun j => (cycles z u j s).1 := by
  intro j
  refine ⟨(cycles z u j s).2.read z (cycles z u j s).1.address (u j), ?_⟩
  show (cycles z u (j + 1) s).1 = _
  rw [cycles_add]
  show (cycle z (u (0 + j)) (cycles z u j s)).1 = _
  rw [Nat.zero_add]
  rfl

/-- The two cycles after the program counter is written. -/
theorem stall {C : Nat → Core} (hC : Seq C) (h : (C 0).state = .pcStall1) :
    ((C 1).terminate = true → (C 3).r15 = 8) ∧ ((C 2).terminate = true ↔ (C 3).r15 = 7) ∧ (C 1).ctl.writeWen = false := by
  obtain ⟨r0, h0⟩ := hC 0
  obtain ⟨r1, h1⟩ := hC 1
  obtain ⟨r2, h2⟩ := hC 2
  have i1 : Idle (C 1) := by rw [h0]; exact idle_next _ _ (Or.inl h)
  have s1 : (C 1).state = .pcStall2 := by rw [h0]; show stateNxt (C 0).state _ _ = _; rw [h]; rfl
  have i2 : Idle (C 2) := by rw [h1]; exact idle_next _ _ (Or.inr s1)
  have nxt : ∀ c : Core, Idle c → c.addressNxt = addr c.r15 + 4 := by
    intro c hc
    unfold Core.addressNxt
    rw [hc.addressSel]
    show c.pc + 4 = _
    rw [pc_eq]
  have rn : ∀ (c : Core) r, Idle c → (c.next r).r15 = c.r15 + 1 := by
    intro c r hc
    show (if c.ctl.pcWen then slice c.pcNxt 2 24 else c.r15) = _
    rw [hc.pcWen, if_pos rfl]
    unfold Core.pcNxt
    rw [hc.pcSel]
    show slice (c.pc + 4) 2 24 = _
    rw [pc_eq, slice_addr_add4]
  have e2 : (C 2).r15 = (C 1).r15 + 1 := by rw [h1]; exact rn _ _ i1
  have e3 : (C 3).r15 = (C 1).r15 + 2 := by rw [h2, rn _ _ i2, e2, add11]
  have a2 : (C 2).address = addr (C 1).r15 + 4 := by rw [h1, ← nxt _ i1]; rfl
  refine ⟨fun ht => ?_, ?_, i1.store⟩
  · rw [terminate_iff, nxt _ i1] at ht
    rw [e3, addr_add4_inj _ ht.2]
    rfl
  · rw [terminate_iff, nxt _ i2, a2, e2, e3]
    constructor
    · intro ht
      have := addr_add4_inj _ ht.2
      have : (C 1).r15 = 5 := by
        rw [show (C 1).r15 = (C 1).r15 + 1 - 1 from (BitVec.add_sub_cancel _ 1).symm, this]; rfl
      rw [this]; rfl
    · intro ht
      have : (C 1).r15 = 5 := by
        rw [show (C 1).r15 = (C 1).r15 + 2 - 2 from (BitVec.add_sub_cancel _ 2).symm, ht]; rfl
      rw [this]
      decide

/-- What an instruction other than one at `0x10` or `0x14` does: for `k` cycles `terminate` is not set, and if the instruction writes to the program
counter this is done in the last of them. -/
def Silent (C : Nat → Core) (n : Nat) (jump : Bool) : Prop :=
  ∃ k, (∀ j < k, (C j).terminate = false) ∧ (if jump then n = k + 2 ∧ 0 < k ∧ (C (k - 1)).state = .pcStall1 else n = k)

section
variable {z : Sizes} {s : State} {C : Nat → Core} {m : Mem} (hC : Seq C) (hR : R z s (C 0) m) (hp : s.pc.toNat < z.code) {x : BitVec 32}
  (hw : s.word (addr s.pc) = x) (h4 : s.pc ≠ 4) (h5 : s.pc ≠ 5)
include hC hR hp hw h4

theorem first_off : (C 0).terminate = false := by
  have hpipe := hR.pipe hp
  exact off_of_address hpipe.address (add2_ne _ h4)

theorem dp_silent {op : TinyGarble.Spec.Arm.Op} {set : Bool} {rd rn : BitVec 4} {o : TinyGarble.Spec.Arm.Operand} (hi : IsInstr x (.dp op set rd rn o)) :
    Silent C (Instr.dp op set rd rn o).cycles (Instr.dp op set rd rn o).jumps := by
  have hpipe := hR.pipe hp
  rw [hw] at hpipe
  have hf := first_off hC hR hp hw h4
  have hx := hi.1
  have hcc : opcodeCompare x = op.compare := by rw [hi.2.1, compare_eq]
  have hrd := hi.2.2.2.1
  refine ⟨1, fun j hj => ?_, ?_⟩
  · rw [show j = 0 by omega]; exact hf
  cases hj : (Instr.dp op set rd rn o).jumps with
  | true =>
    have hj' : (!op.compare && decide (rd = 15)) = true := hj
    rw [Bool.and_eq_true, decide_eq_true_eq] at hj'
    rw [if_pos rfl]
    refine ⟨?_, by omega, ?_⟩
    · show (if (Instr.dp op set rd rn o).jumps = true then 3 else 1) = 3
      rw [if_pos hj]
    · show (C 0).state = _
      rw [hpipe.state, dp_state hx, if_pos ⟨by rw [hcc]; simpa using hj'.1, by rw [← hrd]; exact hj'.2⟩]
  | false =>
    rw [if_neg (by decide)]
    show (if (Instr.dp op set rd rn o).jumps = true then 3 else 1) = 1
    rw [hj]; rfl

include h5

theorem mul_silent {acc set : Bool} {rd rn rs rm : BitVec 4} (hi : IsInstr x (.mul acc set rd rn rs rm)) :
    Silent C 4 false := by
  have hpipe := hR.pipe hp
  rw [hw] at hpipe
  have hf := first_off hC hR hp hw h4
  have hc := hpipe.ctl
  have hx := hi.1
  have hn : validNxt x {} = { mulEnable := true, savedWen := true, pcWen := false, mulAccum := acc } := by
    rw [validNxt_mult hx, multNxt_eq, hi.2.1]
  have hst : (C 0).state = .multProc1 := by
    rw [hpipe.state]
    unfold stateNxt
    rw [hx]; rfl
  have pw0 : (C 0).ctl.pcWen = false := by rw [hc]; show (validNxt x {}).pcWen = _; rw [hn]
  obtain ⟨r0, h0⟩ := hC 0
  obtain ⟨r1, h1⟩ := hC 1
  obtain ⟨r2, h2⟩ := hC 2
  have n0 : nx (C 0) = { preWen := true, pcWen := false, mulEnable := (C 0).ctl.mulEnable, mulAccum := (C 0).ctl.mulAccum } := by unfold nx; rw [hst]; rfl
  have st1 : (C 1).state = .multProc2 := by rw [h0]; show stateNxt (C 0).state _ _ = _; rw [hst]; rfl
  have r1' : (C 1).r15 = s.pc + 2 := by rw [h0, next_r15 _ pw0]; exact hR.r15
  have pw1 : (C 1).ctl.pcWen = false := by rw [h0]; show (nx (C 0)).pcWen = _; rw [n0]
  have as1 : (C 1).ctl.address = 0 := by rw [h0]; show (nx (C 0)).address = _; rw [n0]
  have n1 : nx (C 1) = { pcWen := false, address := 3, mulEnable := (C 1).ctl.mulEnable, mulAccum := (C 1).ctl.mulAccum } := by unfold nx; rw [st1]; rfl
  have r2' : (C 2).r15 = s.pc + 2 := by rw [h1, next_r15 _ pw1]; exact r1'
  have as2 : (C 2).ctl.address = 3 := by rw [h1]; show (nx (C 1)).address = _; rw [n1]
  have nx2 : (C 2).addressNxt = addr (s.pc + 2) := by
    unfold Core.addressNxt
    rw [as2]
    show (C 2).pc = _
    rw [pc_eq, r2']
  refine ⟨4, fun j hj => ?_, rfl⟩
  have hj : j = 0 ∨ j = 1 ∨ j = 2 ∨ j = 3 := by omega
  rcases hj with rfl | rfl | rfl | rfl
  · exact hf
  · have hn : (C 1).addressNxt = addr (s.pc + 2) + 4 := by
      unfold Core.addressNxt
      rw [as1]
      show (C 1).pc + 4 = _
      rw [pc_eq, r1']
    rw [← Bool.not_eq_true, terminate_iff, hn]
    exact fun h => add2_ne 6 h4 (addr_add4_inj _ h.2)
  · exact off_of_next nx2 (add2_ne 7 h5)
  · refine off_of_address (p := s.pc + 2) ?_ (add2_ne 6 h4)
    rw [h2]; exact nx2

theorem trans_silent {load byte up pre wb : Bool} {rd rn : BitVec 4} {o : TinyGarble.Spec.Arm.Offset} (hi : IsInstr x (.transfer load byte up pre wb rd rn o)) :
    Silent C (Instr.transfer load byte up pre wb rd rn o).cycles (Instr.transfer load byte up pre wb rd rn o).jumps := by
  have hf := first_off hC hR hp hw h4
  obtain ⟨hx, rfl, rfl, rfl, rfl, rfl, rfl, rfl, ho⟩ := hi
  obtain ⟨r0, h0⟩ := hC 0
  obtain ⟨r1, h1⟩ := hC 1
  obtain ⟨d_state, d_saved, d_pre, d_flags, d_r15, d_cond, d_rw, d_fw, d_pw, d_ww, d_as⟩ := trans_first hR hp hw hx r0
  rw [← h0] at d_state d_saved d_pre d_flags d_r15 d_cond d_rw d_fw d_pw d_ww d_as
  have nx1 : (C 1).addressNxt = addr (s.pc + 2) := by
    unfold Core.addressNxt
    rw [d_as]
    show (C 1).pc = _
    rw [pc_eq, d_r15, hR.r15]
  have d_in : (C 1).instruction = x := by unfold Core.instruction; rw [d_state]; exact d_saved
  have n1 : nx (C 1) = wait2 x (slice (C 1).address 0 2) := by
    unfold nx
    rw [d_state, d_in, memWait2_eq hx]
  refine ⟨3, fun j hj => ?_, ?_⟩
  · have hj : j = 0 ∨ j = 1 ∨ j = 2 := by omega
    rcases hj with rfl | rfl | rfl
    · exact hf
    · exact off_of_next nx1 (add2_ne 7 h5)
    · refine off_of_address (p := s.pc + 2) ?_ (add2_ne 6 h4)
      rw [h1]; exact nx1
  · show if (x.getLsbD 20 && decide (slice x 12 4 = 15)) = true then
      (if (x.getLsbD 20 && decide (slice x 12 4 = 15)) = true then 5 else 3) = 3 + 2 ∧ 0 < 3 ∧ (C 2).state = .pcStall1 else
      (if (x.getLsbD 20 && decide (slice x 12 4 = 15)) = true then 5 else 3) = 3
    by_cases h15 : (x.getLsbD 20 && decide (slice x 12 4 = 15)) = true
    · rw [if_pos h15, if_pos h15]
      refine ⟨rfl, by omega, ?_⟩
      rw [Bool.and_eq_true, decide_eq_true_eq] at h15
      rw [h1]
      show stateNxt (C 1).state (C 1).instruction (nx (C 1)) = _
      rw [d_state, n1, wait2, if_pos h15.1, h15.2]
      rfl
    · rw [if_neg h15, if_neg h15]

omit hC hR hw hp in
theorem multi_silent {n : Nat} {y : BitVec 32} {r : BitVec 4} (hC : Seq C) (hM : Multi z s x y r (C 0)) (hy : (regsOf y).length = n)
    (ha : words (fun a => align a ≠ 0x18) (C 0).address n = true) (hlt : ∀ k ∈ regsOf y, r.toNat < k.toNat) :
    (∀ j < n + 2, (C j).terminate = false) ∧
    (x.getLsbD 20 = true → (15 : BitVec 4) ∈ r :: regsOf y → (C (n + 1)).state = .pcStall1) := by
  induction n generalizing C y r with
  | zero =>
    have hn : regsOf y = [] := List.length_eq_zero_iff.1 hy
    have nx0 : (C 0).addressNxt = addr (s.pc + 2) := by
      unfold Core.addressNxt
      rw [hM.address, if_pos hy]
      show (C 0).pc = _
      rw [pc_eq, hM.r15]
    obtain ⟨r0, h0⟩ := hC 0
    refine ⟨fun j hj => ?_, fun hL h15 => ?_⟩
    · have hj : j = 0 ∨ j = 1 := by omega
      rcases hj with rfl | rfl
      · exact off_of_next nx0 (add2_ne 7 h5)
      · refine off_of_address (p := s.pc + 2) ?_ (add2_ne 6 h4)
        rw [h0]; exact nx0
    · rw [hn, List.mem_singleton] at h15
      have hst := hM.state
      rw [if_pos hy] at hst
      have hnx : A23.nx (C 0) = { bsData := 1, wsel := 15, address := 1, pcSel := 1 } := by
        unfold A23.nx
        rw [hst, hM.instruction, hM.d2, exec4_eq _ _ _ _ _ hM.noS', hM.load', if_pos ⟨hL, h15.symm⟩, hL, ← h15]; rfl
      rw [h0]
      show stateNxt (C 0).state (C 0).instruction (A23.nx (C 0)) = _
      rw [hst, hnx]; rfl
  | succ n ih =>
    have hn : regsOf y ≠ [] := by intro h; rw [h] at hy; cases hy
    have hcons := regsOf_cons y hn
    rw [words, Bool.and_eq_true, decide_eq_true_eq] at ha
    have h0 := hC 0
    obtain ⟨r0, h0⟩ := h0
    have hN := (hM.next hn r0).1
    rw [← h0] at hN
    have had : (C 1).address = (C 0).address + 4 := by rw [h0]; exact hM.address_next hn
    have := ih (C := fun j => C (1 + j)) (hC.drop 1) hN (by rw [hcons] at hy; exact Nat.succ.inj hy) (by
      show words _ (C 1).address n = true
      rw [had]; exact ha.2) (fun k hk => (regsOf_rest y k hk).1)
    refine ⟨fun j hj => ?_, fun hL h15 => ?_⟩
    · rcases j with _ | j
      · rw [← Bool.not_eq_true, terminate_iff]
        intro h
        apply ha.1
        have h6 := h.1
        rw [slice_iff, show (6 : BitVec 30).toNat = 6 from rfl] at h6
        have := (C 0).address.isLt
        unfold align
        rw [show (C 0).address.toNat / 4 = 6 by omega]
        rfl
      · rw [show j + 1 = 1 + j by omega]
        exact this.1 j (by omega)
    · rw [show n + 1 + 1 = 1 + (n + 1) by omega]
      apply this.2 hL
      rw [hcons, List.mem_cons] at h15
      refine h15.resolve_left fun h => ?_
      have h1 := hlt (mtransReg y) (by rw [hcons]; exact List.mem_cons_self)
      have h2 := (mtransReg y).isLt
      rw [← h, show (15 : BitVec 4).toNat = 15 from rfl] at h1
      omega

include hC hR hp hw in
theorem mtrans_silent {load up pre wb : Bool} {rn : BitVec 4} {list : BitVec 16} (hi : IsInstr x (.multi load up pre wb rn list)) (hl0 : list ≠ 0)
    (ha : (Instr.multi load up pre wb rn list).apart s) :
    Silent C (Instr.multi load up pre wb rn list).cycles (Instr.multi load up pre wb rn list).jumps := by
  have hf := first_off hC hR hp hw h4
  have hpipe := hR.pipe hp
  rw [hw] at hpipe
  have hc := hpipe.ctl
  have hRg := hR.toRegs
  obtain ⟨hx, rfl, rfl, rfl, rfl, rfl, rfl, hS⟩ := hi
  have hne : regsOf x ≠ [] := fun h => hl0 ((regsOf_nil x).1 h)
  have hcons := regsOf_cons x hne
  have hl : (regsOf x).length = (regsOf (mtransInstruction x)).length + 1 := by
    conv_lhs => rw [hcons]
    rfl
  have hn := mtrans_nxt hx
  have hrn : (C 0).rn = s.base (slice x 16 4) := by
    rw [rn_eq hRg, hc]
    show s.base (if itype x = .branch then 15 else slice x 16 4) = _
    rw [hx]; rfl
  have hoff : (C 0).shifted.1 = BitVec.ofNat 32 (4 * (regsOf x).length) := by
    unfold Core.shifted
    have h1 : (C 0).shiftAmount = 0 := by
      unfold Core.shiftAmount
      rw [show (C 0).ctl.bsAmount = 0 by rw [hc]; show (validNxt x {}).bsAmount = _; rw [hn]]; rfl
    rw [h1, barrelShift_zero, ← imm32_mtrans hx]
    unfold Core.shiftIn
    rw [show (C 0).ctl.bsData = 0 by rw [hc]; show (validNxt x {}).bsData = _; rw [hn]]
    show (C 0).ctl.imm32 = _
    rw [hc]; rfl
  have hal : (C 0).alu.1 = move (x.getLsbD 23) (s.base (slice x 16 4)) (BitVec.ofNat 32 (4 * (regsOf x).length)) := by
    rw [← hrn, ← hoff]
    apply alu_move
    · rw [hc]; show (validNxt x {}).aluSwap = _; rw [hn]
    · rw [hc]; show (validNxt x {}).aluNot = _; rw [hn]
    · rw [hc]; show (validNxt x {}).aluCin = _; rw [hn]
    · rw [hc]; show (validNxt x {}).aluOut = _; rw [hn]
  have hadr : (C 0).addressNxt = start (x.getLsbD 23) (x.getLsbD 24) (s.base (slice x 16 4)) (regsOf x).length := by
    unfold Core.addressNxt
    rw [show (C 0).ctl.address = if x.getLsbD 23 then (if x.getLsbD 24 then 7 else 4) else (if x.getLsbD 24 then 1 else 6) by
        rw [hc]; show (validNxt x {}).address = _; rw [hn],
      show (C 0).ctl.pcWen = false by rw [hc]; show (validNxt x {}).pcWen = _; rw [hn], hrn, hal]
    cases x.getLsbD 23 <;> cases x.getLsbD 24 <;> rfl
  have hcyc : (Instr.multi (x.getLsbD 20) (x.getLsbD 23) (x.getLsbD 24) (x.getLsbD 21) (slice x 16 4) (slice x 0 16)).cycles =
      1 + ((regsOf (mtransInstruction x)).length + 2 + if x.getLsbD 20 && (slice x 0 16).getLsbD 15 then 2 else 0) := by
    show (if (regsOf x).length = 1 then 3 else (regsOf x).length + 2) + (if x.getLsbD 20 && (slice x 0 16).getLsbD 15 then 2 else 0) = _
    have : (if (regsOf x).length = 1 then 3 else (regsOf x).length + 2) = (regsOf x).length + 2 := by
      split <;> omega
    omega
  have h15 : (15 : BitVec 4) ∈ mtransReg x :: regsOf (mtransInstruction x) ↔ (slice x 0 16).getLsbD 15 = true := by
    rw [← hcons, mem_regsOf, getLsbD_slice]; rfl
  obtain ⟨r0, h0⟩ := hC 0
  have hM := (multi_first hR hp hw hx hS hne r0).1
  rw [← h0] at hM
  have had : (C 1).address = start (x.getLsbD 23) (x.getLsbD 24) (s.base (slice x 16 4)) (regsOf x).length := by rw [h0]; exact hadr
  have ha : words (fun a => align a ≠ 0x18) (start (x.getLsbD 23) (x.getLsbD 24) (s.base (slice x 16 4)) (regsOf x).length) ((regsOf x).length - 1) = true := ha
  obtain ⟨q1, q2⟩ := multi_silent h4 h5 (C := fun j => C (1 + j)) (hC.drop 1) hM rfl (by
    show words _ (C 1).address _ = true
    rw [had]
    rw [hl, Nat.add_sub_cancel] at ha
    rw [hl]
    exact ha) (fun k hk => (regsOf_rest x k hk).1)
  refine ⟨(regsOf (mtransInstruction x)).length + 3, fun j hj => ?_, ?_⟩
  · rcases j with _ | j
    · exact hf
    · rw [show j + 1 = 1 + j by omega]
      exact q1 j (by omega)
  · rw [hcyc]
    show if (x.getLsbD 20 && (slice x 0 16).getLsbD 15) = true then _ ∧ _ ∧ _ else _
    by_cases hj : (x.getLsbD 20 && (slice x 0 16).getLsbD 15) = true
    · rw [if_pos hj, if_pos hj]
      rw [Bool.and_eq_true] at hj
      refine ⟨by omega, by omega, ?_⟩
      rw [show (regsOf (mtransInstruction x)).length + 3 - 1 = 1 + ((regsOf (mtransInstruction x)).length + 1) by omega]
      exact q2 hj.1 (h15.2 hj.2)
    · rw [if_neg hj, if_neg hj]
      omega

end

theorem storeAll_pc (t : State) (a : BitVec 32) (l : List (BitVec 32)) : (t.storeAll a l).pc = t.pc := by
  induction l generalizing t a with
  | nil => rfl
  | cons r l ih => rw [State.storeAll, ih]; rfl

theorem loadAll_pc (t : State) (a : BitVec 32) (l : List (BitVec 4)) (h : (15 : BitVec 4) ∉ l) : (t.loadAll a l).pc = t.pc := by
  induction l generalizing t a with
  | nil => rfl
  | cons r l ih =>
    rw [List.mem_cons, not_or] at h
    rw [State.loadAll, ih _ _ h.2, write_pc _ _ (Ne.symm h.1)]

/-- An instruction that does not write to the program counter is followed by the next one. -/
theorem effect_pc {l : Layout} {s s' : State} {cond : BitVec 4} {i : Instr} (he : effect l s cond i = some s') (hb : i.isBranch = false) (hj : i.jumps = false) :
    s'.pc = s.pc + 1 := by
  unfold effect at he
  split at he
  swap
  · cases i with
    | dp op set rd rn o =>
      have he : (if (Instr.dp op set rd rn o).jumps then (o.eval s rn).map fun (b, sc) => s.write 15 (op.eval (s.base rn) b sc s.flags).1
        else some s.next) = some s' := he
      rw [hj, if_neg (by decide)] at he
      rw [← Option.some.inj he]; rfl
    | _ => rw [← Option.some.inj he]; rfl
  have hw : ∀ r v, r ≠ 15 → (s.next.write r v).pc = s.pc + 1 := fun r v h => by rw [write_pc _ _ h]; rfl
  cases i with
  | dp op set rd rn o =>
    rw [exec_dp] at he
    obtain ⟨⟨b, sc⟩, -, he⟩ := Option.map_eq_some_iff.1 he
    dsimp only at he
    have hj : (!op.compare && decide (rd = 15)) = false := hj
    split at he
    · rw [← he]; rfl
    · rename_i hc
      rw [Bool.not_eq_true] at hc
      rw [hc, Bool.not_false, Bool.true_and, decide_eq_false_iff_not] at hj
      rw [if_neg hj] at he
      rw [← he]
      exact hw _ _ hj
  | mul acc set rd rn rs rm =>
    unfold exec TinyGarble.Spec.Arm.exec at he
    dsimp only at he
    split at he
    · cases he
    · rename_i h
      rw [← Option.some.inj he]
      exact hw _ _ fun h1 => h (Or.inl h1)
  | transfer load byte up pre wb rd rn o =>
    obtain ⟨d, -, he⟩ := Option.bind_eq_some_iff.1 he
    dsimp only at he
    generalize (if pre = true then move up (s.base rn) d else s.base rn) = a at he
    have hj : (load && decide (rd = 15)) = false := hj
    split at he
    · cases he
    · rename_i h
      have h1 : (if pre = false ∨ wb = true then s.next.write rn (move up (s.base rn) d) else s.next).pc = s.pc + 1 := by
        split
        · rename_i h2
          exact hw _ _ fun h3 => h (Or.inr ⟨h2, Or.inl h3⟩)
        · rfl
      split at he
      · rename_i hl
        rw [hl, Bool.true_and, decide_eq_false_iff_not] at hj
        split at he
        · rw [← Option.some.inj he, write_pc _ _ hj]
          exact h1
        · cases he
      · split at he
        · rw [← Option.some.inj he]
          split <;> exact h1
        · cases he
  | multi load up pre wb rn list =>
    unfold exec TinyGarble.Spec.Arm.exec at he
    dsimp only at he
    have hj : (load && list.getLsbD 15) = false := hj
    split at he
    · cases he
    · rename_i h
      have h1 : (if wb = true then s.next.write rn (move up (s.reg rn) (BitVec.ofNat 32 (4 * (registers list).length))) else s.next).pc = s.pc + 1 := by
        split
        · exact hw _ _ fun h3 => h (Or.inl h3)
        · rfl
      split at he
      · rename_i hl
        rw [hl, Bool.true_and] at hj
        split at he
        · rw [← Option.some.inj he, loadAll_pc]
          · exact h1
          · intro hm
            obtain ⟨k, hk, hk1⟩ := List.mem_map.1 hm
            rw [List.mem_filter, List.mem_range] at hk
            have : k = 15 := by
              have := congrArg BitVec.toNat hk1
              rw [BitVec.toNat_ofNat, show (15 : BitVec 4).toNat = 15 from rfl] at this
              omega
            rw [this, hj] at hk
            exact absurd hk.2 (by decide)
        · cases he
      · split at he
        · rw [← Option.some.inj he, storeAll_pc]
          exact h1
        · cases he
  | branch link off => cases hb

/-- `terminate` during an instruction. -/
theorem instr_stop {z : Sizes} (hz : z.code ≤ 2 ^ 22) {s s' : State} {c : Core} {m : Mem} (hR : R z s c m) {cond : BitVec 4} {i : Instr}
    (hf : s.fetch (lay z) = some (cond, i)) (he : step (lay z) s = some s') (hs : Supported (lay z) s cond i) (u : Nat → BitVec 32)
    (ho : TinyGarble.Spec.Arm.Ordinary s i) (hp' : s'.pc.toNat < z.code) (h6 : s'.pc ≠ 6) (h7 : s'.pc ≠ 7) :
    (s'.pc ≠ 5 → ∀ j < i.cycles, (cycles z u j (c, m)).1.terminate = false) ∧
    (s'.pc = 5 → (∀ j < i.cycles - 1, (cycles z u j (c, m)).1.terminate = false) ∧ 0 < i.cycles ∧
      (cycles z u (i.cycles - 1) (c, m)).1.terminate = true ∧ (cycles z u (i.cycles - 1) (c, m)).1.writeEnable = false) := by
  have hR' := instr_step hz hR hf he hs u
  have hC : Seq fun j => (cycles z u j (c, m)).1 := cycles_seq z u (c, m)
  obtain ⟨⟨h5, -, -⟩, h4, hap⟩ := ho
  rw [step, hf] at he
  have he : effect (lay z) s cond i = some s' := he
  have hsil : Silent (fun j => (cycles z u j (c, m)).1) i.cycles (i.jumps || i.isBranch) ∧
      ((i.jumps || i.isBranch) = false → s'.pc = s.pc + 1 ∧ s.pc ≠ 4) := by
    constructor
    swap
    · intro h
      rw [Bool.or_eq_false_iff] at h
      refine ⟨effect_pc he h.2 h.1, fun h1 => ?_⟩
      have := h4 h1
      rw [h.2] at this
      cases this
    unfold State.fetch at hf
    dsimp only at hf
    split at hf
    swap
    · cases hf
    rename_i hp
    have hp : s.pc.toNat < z.code := hp
    obtain ⟨j, hj, hf⟩ := Option.map_eq_some_iff.1 hf
    have hi := isInstr hj
    obtain ⟨rfl, rfl⟩ : TinyGarble.Spec.Mips.bits _ 28 4 = cond ∧ j = i := by
      rw [Prod.mk.injEq] at hf; exact hf
    rw [bits_eq] at he hs
    have n4 : j.isBranch = false → s.pc ≠ 4 := fun h h1 => by rw [h4 h1] at h; cases h
    cases j with
    | dp op set rd rn o =>
      rw [show (Instr.dp op set rd rn o).isBranch = false from rfl, Bool.or_false]
      exact dp_silent hC hR hp rfl (n4 rfl) hi
    | mul acc set rd rn rs rm => exact mul_silent hC hR hp rfl (n4 rfl) h5 hi
    | transfer load byte up pre wb rd rn o =>
      rw [show (Instr.transfer load byte up pre wb rd rn o).isBranch = false from rfl, Bool.or_false]
      exact trans_silent hC hR hp rfl (n4 rfl) h5 hi
    | multi load up pre wb rn list =>
      rw [show (Instr.multi load up pre wb rn list).isBranch = false from rfl, Bool.or_false]
      exact mtrans_silent hC hR hp rfl (n4 rfl) h5 hi hs.2.2 hap
    | branch link off =>
      have hJ := branch_jump hz hR hp rfl hi he
      refine ⟨1, fun j hj => ?_, ?_⟩
      · rw [show j = 0 by omega]
        exact off_of_next (c := c) (hJ.address hp') h7
      · exact ⟨rfl, by omega, hJ.state⟩
  obtain ⟨⟨k, hk, hn⟩, hno⟩ := hsil
  have hr := hR'.r15
  cases hjb : i.jumps || i.isBranch with
  | false =>
    rw [hjb, if_neg (by decide)] at hn
    obtain ⟨e1, e2⟩ := hno hjb
    refine ⟨fun _ j hj => hk j (by omega), fun h => absurd ?_ e2⟩
    rw [← BitVec.add_sub_cancel s.pc 1, ← e1, h]
    rfl
  | true =>
    rw [hjb, if_pos rfl] at hn
    obtain ⟨n1, n2, n3⟩ := hn
    obtain ⟨t1, t2, t3⟩ := stall (hC.drop (k - 1)) n3
    rw [show k - 1 + 3 = i.cycles by omega, hr] at t1 t2
    rw [show k - 1 + 1 = k by omega] at t1 t3
    rw [show k - 1 + 2 = k + 1 by omega] at t2
    have hkf : (cycles z u k (c, m)).1.terminate = false := by
      rw [← Bool.not_eq_true]
      intro h
      apply h6
      rw [← BitVec.add_sub_cancel s'.pc 2, t1 h]
      rfl
    have hlow : ∀ j < k + 1, (cycles z u j (c, m)).1.terminate = false := by
      intro j hj
      by_cases h : j = k
      · rw [h]; exact hkf
      · exact hk j (by omega)
    refine ⟨fun h j hj => ?_, fun h => ⟨fun j hj => hlow j (by omega), by omega, ?_, ?_⟩⟩
    · by_cases hj1 : j = k + 1
      · rw [hj1, ← Bool.not_eq_true, t2]
        intro h1
        apply h
        rw [← BitVec.add_sub_cancel s'.pc 2, h1]
        rfl
      · exact hlow j (by omega)
    · rw [show i.cycles - 1 = k + 1 by omega, t2, h]
      rfl
    · rw [show i.cycles - 1 = k + 1 by omega]
      obtain ⟨r, hr1⟩ := hC k
      rw [show (cycles z u (k + 1) (c, m)).1 = (cycles z u k (c, m)).1.next r from hr1]
      exact next_we _ t3

section
variable (z : Sizes) (undef : Nat → BitVec 32) (p : BitVec (z.code * 32)) (g : BitVec (z.g * 32)) (e : BitVec (z.e * 32))

theorem trace_fetch {l : Layout} {s0 s' : State} {t : Nat} (h : trace l s0 (t + 1) = some s') :
    ∃ s c i, trace l s0 t = some s ∧ s.fetch l = some (c, i) ∧ step l s = some s' ∧ cost l s0 (t + 1) = cost l s0 t + i.cycles := by
  obtain ⟨s, h1, h2⟩ := Option.bind_eq_some_iff.1 h
  cases hf : s.fetch l with
  | none => rw [step, hf] at h2; cases h2
  | some x =>
    refine ⟨s, x.1, x.2, h1, hf, h2, ?_⟩
    rw [cost, h1]
    show _ + ((s.fetch l).map _).getD 0 = _
    rw [hf]; rfl

theorem fetch_lt {l : Layout} {s : State} {x : BitVec 4 × Instr} (h : s.fetch l = some x) : s.pc.toNat < l.code := by
  unfold State.fetch at h
  dsimp only at h
  split at h
  · assumption
  · cases h

/-- Before instruction `t` is executed `terminate` has not been set. -/
theorem run_quiet (hz : z.code ≤ 2 ^ 22) (t : Nat) (s : State)
    (ht : trace (lay z) (State.init (entry 8 p) (entry 8 g) (entry 8 e)) t = some s)
    (hs : ∀ k < t, ∀ s' c i, trace (lay z) (State.init (entry 8 p) (entry 8 g) (entry 8 e)) k = some s' → s'.fetch (lay z) = some (c, i) →
      Supported (lay z) s' c i ∧ TinyGarble.Spec.Arm.Ordinary s' i)
    (hp : s.pc.toNat < z.code) (h5 : s.pc ≠ 5) (h6 : s.pc ≠ 6) (h7 : s.pc ≠ 7) :
    ∀ T < 2 + cost (lay z) (State.init (entry 8 p) (entry 8 g) (entry 8 e)) t, (run z undef p g e T).1.terminate = false := by
  induction t generalizing s with
  | zero =>
    intro T hT
    have hT : T < 2 := hT
    have : T = 0 ∨ T = 1 := by omega
    rcases this with rfl | rfl
    · exact off_of_address (p := 0) rfl (by decide)
    · exact off_of_address (p := 1) (show Core.reset.addressNxt = addr 1 by decide) (by decide)
  | succ t ih =>
    intro T hT
    obtain ⟨s1, c, i, h1, hf, h2, hc⟩ := trace_fetch ht
    obtain ⟨hsup, hord⟩ := hs t (by omega) s1 c i h1 hf
    have hlow := ih s1 h1 (fun k hk => hs k (by omega)) (fetch_lt hf) hord.1.1 hord.1.2.1 hord.1.2.2
    have hR := run_refines z undef p g e hz t s1 h1 fun k hk s' c i a b => (hs k (by omega) s' c i a b).1
    rw [hc] at hT
    generalize cost (lay z) (State.init (entry 8 p) (entry 8 g) (entry 8 e)) t = A at *
    by_cases hTA : T < 2 + A
    · exact hlow T hTA
    · rw [show T = 2 + A + (T - (2 + A)) by omega, run_add]
      exact (instr_stop hz hR hf h2 hsup _ hord hp h6 h7).1 h5 _ (by omega)

/-- `terminate` is set first in the last cycle before the instruction at `0x14`. -/
theorem run_stop (hz : z.code ≤ 2 ^ 22) (t : Nat) (s : State)
    (ht : trace (lay z) (State.init (entry 8 p) (entry 8 g) (entry 8 e)) t = some s)
    (hs : ∀ k < t, ∀ s' c i, trace (lay z) (State.init (entry 8 p) (entry 8 g) (entry 8 e)) k = some s' → s'.fetch (lay z) = some (c, i) →
      Supported (lay z) s' c i ∧ TinyGarble.Spec.Arm.Ordinary s' i)
    (hp : 5 < z.code) (h5 : s.pc = 5) {N : Nat} (hN : N = 1 + cost (lay z) (State.init (entry 8 p) (entry 8 g) (entry 8 e)) t) :
    (∀ T < N, (run z undef p g e T).1.terminate = false) ∧ (run z undef p g e N).1.terminate = true ∧ s.mem = absMem (run z undef p g e N).2 := by
  cases t with
  | zero =>
    rw [← Option.some.inj ht] at h5
    exact absurd (show (0 : BitVec 24) = 5 from h5) (by decide)
  | succ t =>
    obtain ⟨s1, c, i, h1, hf, h2, hc⟩ := trace_fetch ht
    obtain ⟨hsup, hord⟩ := hs t (by omega) s1 c i h1 hf
    have hlow := run_quiet z undef p g e hz t s1 h1 (fun k hk => hs k (by omega)) (fetch_lt hf) hord.1.1 hord.1.2.1 hord.1.2.2
    have hR := run_refines z undef p g e hz t s1 h1 fun k hk s' c i a b => (hs k (by omega) s' c i a b).1
    have hR2 := run_refines z undef p g e hz (t + 1) s ht fun k hk s' c i a b => (hs k hk s' c i a b).1
    rw [hc] at hN hR2
    generalize cost (lay z) (State.init (entry 8 p) (entry 8 g) (entry 8 e)) t = A at *
    obtain ⟨q1, q2, q3, q4⟩ := (instr_stop hz hR hf h2 hsup (fun k => undef (k + (2 + A))) hord (by rw [h5]; exact hp) (by rw [h5]; decide)
      (by rw [h5]; decide)).2 h5
    have hN' : N = 2 + A + (i.cycles - 1) := by omega
    rw [← Prod.mk.eta (p := run z undef p g e (2 + A)), ] at q3 q4
    refine ⟨fun T hT => ?_, ?_, ?_⟩
    · by_cases hTA : T < 2 + A
      · exact hlow T hTA
      · rw [show T = 2 + A + (T - (2 + A)) by omega, run_add]
        exact q1 _ (by omega)
    · rw [hN', run_add]
      exact q3
    · have q4 : (run z undef p g e N).1.writeEnable = false := by
        rw [hN', run_add]
        exact q4
      have hm := hR2.mem
      rw [show 2 + (A + i.cycles) = N + 1 by omega] at hm
      rw [hm]
      congr 1
      show (cycle z (undef N) (run z undef p g e N)).2 = _
      rw [← Prod.mk.eta (p := run z undef p g e N), cycle_quiet _ _ _ _ q4]

end

end TinyGarble.Proof.Hdl.A23
