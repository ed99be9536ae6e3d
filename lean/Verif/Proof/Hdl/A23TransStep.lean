import Verif.Proof.Hdl.A23Trans

/-! # The ARM processor: the steps of loads and stores -/

namespace TinyGarble.Proof.Hdl.A23

open TinyGarble TinyGarble.Hdl TinyGarble.Hdl.A23
open TinyGarble.Spec.Arm (Layout State Instr Offset Shift align addr bit holds move)
open TinyGarble.Spec.Arm.Circuit (exec Supported)
open TinyGarble.Spec.Mips (fetch put)

/-- The control registers have the values of some control signals. -/
structure Has (k : Ctl) (n : Nxt) : Prop where
  bsData : k.bsData = n.bsData
  bsAmount : k.bsAmount = n.bsAmount
  bsFunc : k.bsFunc = n.bsFunc
  aluSwap : k.aluSwap = n.aluSwap
  aluNot : k.aluNot = n.aluNot
  aluCin : k.aluCin = n.aluCin
  aluCout : k.aluCout = n.aluCout
  aluOut : k.aluOut = n.aluOut
  mulEnable : k.mulEnable = n.mulEnable
  address : k.address = n.address
  pcSel : k.pcSel = n.pcSel
  regWrite : k.regWrite = n.regWrite
  writeWen : k.writeWen = n.writeWen
  pcWen : k.pcWen = n.pcWen
  regWen : k.regWen = decodeReg n.wsel
  flagsWen : k.flagsWen = n.flagsWen
  byteSel : k.byteSel = n.byteSel

theorem next_has (c : Core) (r : BitVec 32) : Has (c.next r).ctl (nx c) :=
  ⟨rfl, rfl, rfl, rfl, rfl, rfl, rfl, rfl, rfl, rfl, rfl, rfl, rfl, rfl, rfl, rfl, rfl⟩

/-- The control signals of a load or store when the data is there. -/
def wait2 (x : BitVec 32) (low : BitVec 2) : Nxt :=
  if x.getLsbD 20 then
    { bsData := 1
      bsAmount := 3
      bsFunc := if low ≠ 0 then 3 else 0
      aluOut := if x.getLsbD 22 then 3 else 0
      pcSel := if slice x 12 4 = 15 then 1 else 0
      address := if slice x 12 4 = 15 then 1 else 0
      wsel := slice x 12 4 }
  else {}

theorem memWait2_eq {x : BitVec 32} (hx : itype x = .trans) (me ma : Bool) (low : BitVec 2) (d : BitVec 4) :
    controlNxt .memWait2 x me ma low d = wait2 x low := by
  unfold controlNxt wait2
  have hv : valid .memWait2 = false := rfl
  simp only [hx, hv, reduceCtorEq, if_false, true_and, Bool.false_eq_true]
  cases x.getLsbD 20 with
  | false => rfl
  | true =>
    by_cases h1 : low = 0#2 <;> by_cases h2 : slice x 12 4 = 15#4 <;> cases x.getLsbD 22 <;> simp [h1, h2]
/-- The state before the last cycles of a load or store: `s1` has the registers, the flags and the memory; `a` is the address. -/
structure Mid (z : Sizes) (s s1 : State) (x : BitVec 32) (a : BitVec 32) (v : BitVec 32) (c : Core) (m : Mem) : Prop where
  mem : s1.mem = absMem m
  we : c.writeEnable = false
  regs : ∀ k, k ≠ 15 → c.regs k = s1.reg k
  flags : absF c.flags = s.flags
  r15 : c.r15 = s.pc + 2
  condition : c.ctl.condition = slice x 28 4
  readData : holds (slice x 28 4) s.flags = true → x.getLsbD 20 = true → c.readData = v
  align : c.readAlign = slice a 0 2 ++ 0#3
  pre : s.pc.toNat + 1 < z.code → c.preFetch = s.word (addr (s.pc + 1))
  address : c.address = addr (s.pc + 2)
  ctl : Has c.ctl (wait2 x (slice a 0 2))
  state : c.state = stateNxt .memWait2 x (wait2 x (slice a 0 2))

/-- The state after the address of a load or store has been written. -/
theorem trans_first {z : Sizes} {s : State} {c : Core} {m : Mem} (hR : R z s c m) (hp : s.pc.toNat < z.code) {x : BitVec 32}
    (hw : s.word (addr s.pc) = x) (hx : itype x = .trans) (r : BitVec 32) :
    (c.next r).state = .memWait2 ∧ (c.next r).saved = x ∧ (s.pc.toNat + 1 < z.code → (c.next r).preFetch = s.word (addr (s.pc + 1))) ∧
    (c.next r).flags = c.flags ∧ (c.next r).r15 = c.r15 ∧ (c.next r).ctl.condition = slice x 28 4 ∧ (c.next r).ctl.regWen = 0 ∧
    (c.next r).ctl.flagsWen = false ∧ (c.next r).ctl.pcWen = false ∧ (c.next r).ctl.writeWen = false ∧ (c.next r).ctl.address = 3 := by
  have hpipe := hR.pipe hp
  rw [hw] at hpipe
  have hc := hpipe.ctl
  have hn := trans_nxt hx
  have hst : c.state = .memWait1 := by
    rw [hpipe.state]
    unfold stateNxt
    rw [hx, hn]; rfl
  have hin : c.instruction = x := by
    unfold Core.instruction
    rw [hst]; exact hpipe.saved (Or.inl hx)
  have n0 : nx c = { preWen := true, address := 3, pcWen := false } := by unfold nx; rw [hst]; rfl
  refine ⟨?_, ?_, ?_, ?_, ?_, ?_, ?_, ?_, ?_, ?_, ?_⟩
  · show stateNxt c.state _ _ = _; rw [hst]; rfl
  · rw [next_saved r (by rw [hin, hx]; decide) (by rw [n0])]; exact hpipe.saved (Or.inl hx)
  · intro h
    show (if (nx c).preWen then c.readData else c.preFetch) = _
    rw [n0]; exact hR.data h
  · exact next_flags r (by rw [hc]; show (validNxt x {}).flagsWen = _; rw [hn])
  · exact next_r15 r (by rw [hc]; show (validNxt x {}).pcWen = _; rw [hn])
  · rw [next_condition r (by rw [hst]; rfl), hc]; rfl
  · show decodeReg (nx c).wsel = _; rw [n0]; rfl
  · show (nx c).flagsWen = _; rw [n0]
  · show (nx c).pcWen = _; rw [n0]
  · show (nx c).writeWen = _; rw [n0]
  · show (nx c).address = _; rw [n0]

theorem trans_mid {z : Sizes} {s s1 : State} {c : Core} {m : Mem} (hR : R z s c m) (hp : s.pc.toNat < z.code) {x : BitVec 32}
    (hw : s.word (addr s.pc) = x) (hx : itype x = .trans) (u : Nat → BitVec 32) (a v : BitVec 32)
    (ha : c.addressNxt = a)
    (hregs : ∀ k : BitVec 4, k ≠ 15 → (if c.execute && c.ctl.regWen.getLsbD k.toNat then c.regWriteNxt else c.regs k) = s1.reg k)
    (hmem : s1.mem = absMem (m.next z a (c.execute && c.ctl.writeWen) c.byteEnableNxt
      (if c.ctl.byteSel = 0 then c.rd else slice c.rd 0 8 ++ slice c.rd 0 8 ++ slice c.rd 0 8 ++ slice c.rd 0 8)))
    (hv : holds (slice x 28 4) s.flags = true → x.getLsbD 20 = true → m.read z a (u 1) = v) :
    Mid z s s1 x a v (cycles z u 2 (c, m)).1 (cycles z u 2 (c, m)).2 := by
  show Mid z s s1 x a v (cycle z (u 1) (cycle z (u 0) (c, m))).1 (cycle z (u 1) (cycle z (u 0) (c, m))).2
  rw [cycle_quiet z _ c m hR.we]
  generalize m.read z c.address (u 0) = r1
  obtain ⟨d_state, d_saved, d_pre, d_flags, d_r15, d_cond, d_rw, d_fw, d_pw, d_ww, d_as⟩ := trans_first hR hp hw hx r1
  have d_ad : (c.next r1).address = a := ha
  have d_regs : ∀ k : BitVec 4, k ≠ 15 → (c.next r1).regs k = s1.reg k := hregs
  have d_mem : s1.mem = absMem (m.next z (c.next r1).address (c.next r1).writeEnable (c.next r1).byteEnable (c.next r1).writeData) := by
    rw [d_ad]; exact hmem
  generalize hd : c.next r1 = d at *
  have d_in : d.instruction = x := by unfold Core.instruction; rw [d_state]; exact d_saved
  have n1 : nx d = wait2 x (slice a 0 2) := by
    unfold nx
    rw [d_state, d_in, d_ad, memWait2_eq hx]
  refine ⟨d_mem, next_we _ d_ww, ?_, ?_, ?_, ?_, ?_, ?_, ?_, ?_, ?_, ?_⟩
  · intro k hk
    show (d.next _).regs k = _
    rw [next_regs _ d_rw]; exact d_regs k hk
  · show absF (d.next _).flags = _
    rw [next_flags _ d_fw, d_flags]; exact hR.flags
  · show (d.next _).r15 = _
    rw [next_r15 _ d_pw, d_r15]; exact hR.r15
  · show (d.next _).ctl.condition = _
    rw [next_condition _ (by rw [d_state]; rfl), d_cond]
  · intro h1 h2
    show m.read z d.address (u 1) = _
    rw [d_ad]; exact hv h1 h2
  · show slice d.address 0 2 ++ 0#3 = _
    rw [d_ad]
  · intro h
    have hpn : (nx d).preWen = false := by
      rw [n1, wait2]
      split <;> rfl
    show (d.next _).preFetch = _
    rw [next_preFetch _ hpn]; exact d_pre h
  · show d.addressNxt = _
    unfold Core.addressNxt
    rw [d_as]
    show d.pc = _
    rw [pc_eq, d_r15, hR.r15]
  · rw [← n1]; exact next_has d _
  · show stateNxt d.state d.instruction (nx d) = _
    rw [d_state, d_in, n1]

section
variable {z : Sizes} {s s1 : State} {x a v : BitVec 32} {c : Core} {m : Mem} (h : Mid z s s1 x a v c m)
include h

theorem Mid.execute : c.execute = holds (slice x 28 4) s.flags := by
  unfold Core.execute
  rw [h.condition, conditional_eq, h.flags]

theorem Mid.value (hv : v = s.word a) (hh : holds (slice x 28 4) s.flags = true) (hl : x.getLsbD 20 = true) :
    c.alu.1 = if x.getLsbD 22 then (s.mem a).zeroExtend 32 else (s.word a).rotateRight (8 * (a.toNat % 4)) := by
  have hn : wait2 x (slice a 0 2) = { bsData := 1, bsAmount := 3, bsFunc := if slice a 0 2 ≠ 0 then 3 else 0, aluOut := if x.getLsbD 22 then 3 else 0, pcSel := if slice x 12 4 = 15 then 1 else 0, address := if slice x 12 4 = 15 then 1 else 0, wsel := slice x 12 4 } := by
    rw [wait2, if_pos hl]
  have hc := h.ctl
  rw [hn] at hc
  have hsh := load_shift hc.bsData hc.bsAmount hc.bsFunc h.align ((h.readData hh hl).trans hv)
  unfold Core.alu
  rw [hc.aluSwap, hc.aluNot, hc.aluCin, hc.aluCout, hc.aluOut, hsh]
  cases x.getLsbD 22 with
  | false => rfl
  | true =>
    show 0#24 ++ slice ((s.word a).rotateRight (8 * (a.toNat % 4))) 0 8 = (s.mem a).zeroExtend 32
    rw [rotate_byte _ _ (Nat.mod_lt _ (by decide)), word_byte]
    exact TinyGarble.Proof.Hdl.Mips.zero_append (k := 24) (s.mem a)

theorem Mid.last (hz : z.code ≤ 2 ^ 22) (hp : s.pc.toNat < z.code) {s' : State} (h1 : x.getLsbD 20 = true → slice x 12 4 ≠ 15)
    (hpc : s'.pc = s.pc + 1) (hfl : s'.flags = s.flags) (hmem : s'.mem = s1.mem)
    (hreg : ∀ k : BitVec 4, k ≠ 15 → s'.reg k = if holds (slice x 28 4) s.flags = true ∧ x.getLsbD 20 = true ∧ k = slice x 12 4 then c.alu.1 else s1.reg k)
    (hcode : s.pc.toNat + 1 < z.code → s'.word (addr (s.pc + 1)) = s.word (addr (s.pc + 1))) (u : BitVec 32) :
    R z s' (cycle z u (c, m)).1 (cycle z u (c, m)).2 := by
  have hc := h.ctl
  have hn : (wait2 x (slice a 0 2)).writeWen = false ∧ (wait2 x (slice a 0 2)).pcWen = true ∧ (wait2 x (slice a 0 2)).pcSel = 0 ∧
      (wait2 x (slice a 0 2)).address = 0 ∧ (wait2 x (slice a 0 2)).wsel = (if x.getLsbD 20 then slice x 12 4 else 15) ∧
      (wait2 x (slice a 0 2)).flagsWen = false ∧ (wait2 x (slice a 0 2)).mulEnable = false ∧ (wait2 x (slice a 0 2)).regWrite = 0 := by
    unfold wait2
    cases hl : x.getLsbD 20 with
    | false => exact ⟨rfl, rfl, rfl, rfl, rfl, rfl, rfl, rfl⟩
    | true =>
      have := h1 hl
      refine ⟨rfl, rfl, ?_, ?_, rfl, rfl, rfl, rfl⟩
      · show (if slice x 12 4 = 15 then 1 else 0) = 0
        rw [if_neg this]
      · show (if slice x 12 4 = 15 then 1 else 0) = 0
        rw [if_neg this]
  obtain ⟨n1, n2, n3, n4, n5, n6, n7, n8⟩ := hn
  have hst : c.state = .preFetchExec := by
    rw [h.state]
    unfold stateNxt
    dsimp only
    rw [n2, n3]; rfl
  apply boundary hz
  refine ⟨hmem.trans h.mem, h.we, by rw [hst]; rfl, hc.writeWen.trans n1, hc.pcSel.trans n3, hc.pcWen.trans n2, hc.address.trans n4, ?_, ?_, ?_, ?_⟩
  · rw [h.r15, hpc, add11]
  · intro k hk
    have hwr : c.regWriteNxt = c.alu.1 := by
      unfold Core.regWriteNxt
      rw [hc.regWrite.trans n8]; rfl
    rw [hreg k hk, h.execute, hc.regWen, n5, decodeReg_bit, hwr]
    by_cases h3 : holds (slice x 28 4) s.flags = true ∧ x.getLsbD 20 = true ∧ k = slice x 12 4
    · rw [if_pos h3, if_pos]
      rw [h3.1, h3.2.1, if_pos rfl, ← h3.2.2]
      simpa using hk
    · rw [if_neg h3, if_neg, h.regs k hk]
      intro h4
      rw [Bool.and_eq_true, decide_eq_true_eq] at h4
      apply h3
      refine ⟨h4.1, ?_⟩
      cases hl : x.getLsbD 20 with
      | false => rw [hl, if_neg (by decide)] at h4; exact absurd h4.2.1 hk
      | true => rw [hl, if_pos rfl] at h4; exact ⟨rfl, h4.2.1⟩
  · rw [hc.flagsWen, n6, Bool.and_false, hfl]; exact h.flags
  · intro h2
    rw [hpc, toNat_add1 _ (by omega)] at h2
    rw [hpc, hcode h2, add11]
    refine ⟨?_, h.address, fun _ => hc.mulEnable.trans n7⟩
    unfold Core.instruction
    rw [hst]
    exact h.pre h2

theorem Mid.lastJump (hz : z.code ≤ 2 ^ 22) {s' : State} (hl : x.getLsbD 20 = true) (h1 : slice x 12 4 = 15)
    (hpc : s'.pc = slice c.alu.1 2 24) (hfl : s'.flags = s.flags) (hmem : s'.mem = s1.mem) (hreg : ∀ k : BitVec 4, k ≠ 15 → s'.reg k = s1.reg k)
    (u : Nat → BitVec 32) : R z s' (cycles z u 3 (c, m)).1 (cycles z u 3 (c, m)).2 := by
  have hn : wait2 x (slice a 0 2) = { bsData := 1, bsAmount := 3, bsFunc := if slice a 0 2 ≠ 0 then 3 else 0, aluOut := if x.getLsbD 22 then 3 else 0, pcSel := 1, address := 1, wsel := 15 } := by
    rw [wait2, if_pos hl, h1]; rfl
  have hc := h.ctl
  have hst := h.state
  rw [hn] at hc hst
  apply jump hz
  refine ⟨hmem.trans h.mem, h.we, hst, hc.writeWen, hc.pcWen, ?_, ?_, ?_, ?_⟩
  · rw [hpc]; unfold Core.pcNxt; rw [hc.pcSel]; rfl
  · intro _
    rw [hpc]; unfold Core.addressNxt
    rw [hc.address]
    dsimp only
    rw [if_pos ⟨hc.pcWen, hc.pcSel⟩, append_addr]
    rfl
  · intro k hk
    rw [hc.regWen, decodeReg_bit, if_neg (by rw [Bool.and_eq_true, decide_eq_true_eq]; exact fun h => h.2.2 h.2.1), h.regs k hk, hreg k hk]
  · rw [hc.flagsWen, Bool.and_false, hfl]; exact h.flags

end

end TinyGarble.Proof.Hdl.A23
