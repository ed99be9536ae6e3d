import Verif.Proof.Hdl.A23Mem

/-! # The ARM processor: the pipeline -/

namespace TinyGarble.Proof.Hdl.A23

open TinyGarble TinyGarble.Hdl TinyGarble.Hdl.A23
open TinyGarble.Spec.Arm (Layout State align addr bit)

theorem addr_toNat (p : BitVec 24) : (addr p).toNat = 4 * p.toNat := by
  have := p.isLt
  rw [addr, BitVec.toNat_ofNat]
  omega

theorem append_addr (p : BitVec 24) : (0#6 ++ p ++ 0#2 : BitVec 32) = addr p := by
  apply BitVec.eq_of_toNat_eq
  have := p.isLt
  rw [addr_toNat, BitVec.toNat_append, BitVec.toNat_append, ← Nat.shiftLeft_add_eq_or_of_lt (show (0#2).toNat < 2 ^ 2 by decide),
    ← Nat.shiftLeft_add_eq_or_of_lt p.isLt]
  simp [Nat.shiftLeft_eq]
  omega

theorem pc_eq (c : Core) : c.pc = addr c.r15 := append_addr c.r15

theorem slice_addr (p : BitVec 24) : slice (addr p) 2 24 = p := by
  rw [slice_iff, addr_toNat]
  have := p.isLt
  omega

theorem toNat_4 : (4 : BitVec 32).toNat = 4 := rfl
theorem toNat_1_24 : (1 : BitVec 24).toNat = 1 := rfl
theorem toNat_2_24 : (2 : BitVec 24).toNat = 2 := rfl

theorem slice_addr_add4 (p : BitVec 24) : slice (addr p + 4) 2 24 = p + 1 := by
  rw [slice_iff, BitVec.toNat_add, BitVec.toNat_add, addr_toNat, toNat_4, toNat_1_24]
  have := p.isLt
  omega

theorem slice_addr_sub4 (p : BitVec 24) : slice (addr p - 4) 2 24 = p - 1 := by
  rw [slice_iff, BitVec.toNat_sub, BitVec.toNat_sub, addr_toNat, toNat_4, toNat_1_24]
  have := p.isLt
  omega

theorem addr_add4 (p : BitVec 24) (h : p.toNat + 1 < 2 ^ 24) : addr p + 4 = addr (p + 1) := by
  apply BitVec.eq_of_toNat_eq
  rw [BitVec.toNat_add, addr_toNat, addr_toNat, BitVec.toNat_add, toNat_4, toNat_1_24]
  omega

theorem toNat_add1 (p : BitVec 24) (h : p.toNat + 1 < 2 ^ 24) : (p + 1).toNat = p.toNat + 1 := by
  rw [BitVec.toNat_add, toNat_1_24, Nat.mod_eq_of_lt h]

theorem add11 (p : BitVec 24) : p + 1 + 1 = p + 2 := by rw [BitVec.add_assoc]; rfl
theorem add21 (p : BitVec 24) : p + 2 + 1 = p + 3 := by rw [BitVec.add_assoc]; rfl
theorem add2sub1 (p : BitVec 24) : p + 2 - 1 = p + 1 := by
  apply BitVec.eq_of_toNat_eq
  rw [BitVec.toNat_sub, BitVec.toNat_add, BitVec.toNat_add, toNat_1_24, toNat_2_24]
  omega

theorem readable_addr (z : Sizes) (hz : z.code ≤ 2 ^ 22) (p : BitVec 24) (h : p.toNat < z.code) : (lay z).readable (addr p) = true := by
  have h1 : (addr p).toNat / 2 ^ 24 = 0 := by rw [addr_toNat]; omega
  rw [readable_iff, h1, addr_toNat]
  exact ⟨by omega, by show _ < 4 * z.code; omega⟩

/-- The control registers after an instruction has been decoded. -/
def ctlOf (x : BitVec 32) : Ctl :=
  let n := validNxt x {}
  { imm32 := imm32 x
    immShift := slice x 7 5
    condition := slice x 28 4
    rmSel := slice x 0 4
    rdsSel := rdsSel .execute x
    rnSel := if itype x = .branch then 15 else slice x 16 4
    bsAmount := n.bsAmount
    bsData := n.bsData
    bsFunc := n.bsFunc
    aluSwap := n.aluSwap
    aluNot := n.aluNot
    aluCin := n.aluCin
    aluCout := n.aluCout
    aluOut := n.aluOut
    useCarry := n.useCarry
    mulEnable := n.mulEnable
    mulAccum := n.mulAccum
    address := n.address
    pcSel := n.pcSel
    byteSel := n.byteSel
    statusSel := n.statusSel
    regWrite := n.regWrite
    writeWen := n.writeWen
    pcWen := n.pcWen
    regWen := decodeReg n.wsel
    flagsWen := n.flagsWen }

theorem controlNxt_valid {s : Control} (h : valid s = true) (i : BitVec 32) (me ma : Bool) (low : BitVec 2) (d : BitVec 4) :
    controlNxt s i me ma low d = validNxt i {} := by
  cases s <;> first | rfl | exact absurd h (by decide)

theorem rdsSel_valid {s : Control} (h : valid s = true) (i : BitVec 32) : rdsSel s i = rdsSel .execute i := by
  cases s <;> first | rfl | exact absurd h (by decide) | (unfold rdsSel rdsUseRs; rfl)

theorem ctlNext_valid (c : Core) (h : valid c.state = true) : c.ctlNext = ctlOf c.instruction := by
  unfold Core.ctlNext ctlOf
  dsimp only
  rw [controlNxt_valid h, rdsSel_valid h, if_pos h]

theorem stateNxt_valid {s : Control} (h : valid s = true) (i : BitVec 32) (n : Nxt) : stateNxt s i n = stateNxt .execute i n := by
  cases s <;> first | rfl | exact absurd h (by decide)

/-- The state of the pipeline in the first cycle of instruction `x` at address `pc`. -/
structure Pipe (x : BitVec 32) (pc : BitVec 24) (c : Core) : Prop where
  ctl : c.ctl = ctlOf x
  state : c.state = stateNxt .execute x (validNxt x {})
  saved : (itype x = .trans ∨ itype x = .mult) → c.saved = x
  savedM : itype x = .mtrans → c.saved = mtransInstruction x
  d1 : c.mtransD1 = mtransReg x
  address : c.address = addr (pc + 2)
  count : itype x = .mult → c.count = 0

/-- The circuit in the first cycle of the next instruction of state `s`. -/
structure R (z : Sizes) (s : State) (c : Core) (m : Mem) : Prop where
  mem : s.mem = absMem m
  regs : ∀ k, k ≠ 15 → c.regs k = s.reg k
  flags : absF c.flags = s.flags
  r15 : c.r15 = s.pc + 2
  we : c.writeEnable = false
  pipe : s.pc.toNat < z.code → Pipe (s.word (addr s.pc)) s.pc c
  data : s.pc.toNat + 1 < z.code → c.readData = s.word (addr (s.pc + 1))

/-- The circuit in the last cycle before the next instruction of state `s`. -/
structure Pre (z : Sizes) (s : State) (c : Core) (m : Mem) : Prop where
  mem : s.mem = absMem m
  we : c.writeEnable = false
  state : valid c.state = true
  store : c.ctl.writeWen = false
  pcSel : c.ctl.pcSel = 0
  pcWen : c.ctl.pcWen = true
  addressSel : c.ctl.address = 0
  r15 : c.r15 = s.pc + 1
  regs : ∀ k : BitVec 4, k ≠ 15 → (if c.execute && c.ctl.regWen.getLsbD k.toNat then c.regWriteNxt else c.regs k) = s.reg k
  flags : absF (if c.execute && c.ctl.flagsWen then c.flagsNxt else c.flags) = s.flags
  code : s.pc.toNat < z.code → c.instruction = s.word (addr s.pc) ∧ c.address = addr (s.pc + 1) ∧
    (itype (s.word (addr s.pc)) = .mult → c.ctl.mulEnable = false)

theorem savedWen_of (x : BitVec 32) (h : itype x = .trans ∨ itype x = .mult) : (validNxt x {}).savedWen = true := by
  rcases h with h | h
  · rw [validNxt_trans h, transNxt_eq]
  · rw [validNxt_mult h, multNxt_eq]

theorem boundary {z : Sizes} (hz : z.code ≤ 2 ^ 22) {s : State} {c : Core} {m : Mem} (h : Pre z s c m) (u : BitVec 32) :
    R z s (cycle z u (c, m)).1 (cycle z u (c, m)).2 := by
  have hm : (cycle z u (c, m)).2 = m := by
    show m.next z c.address c.writeEnable c.byteEnable c.writeData = m
    rw [h.we]; rfl
  have hpc : c.pcNxt = addr c.r15 + 4 := by unfold Core.pcNxt; rw [h.pcSel]; show c.pc + 4 = _; rw [pc_eq]
  have had : c.addressNxt = addr c.r15 + 4 := by unfold Core.addressNxt; rw [h.addressSel]; show c.pc + 4 = _; rw [pc_eq]
  refine ⟨?_, h.regs, h.flags, ?_, ?_, ?_, ?_⟩
  · rw [hm]; exact h.mem
  · show (if c.ctl.pcWen then slice c.pcNxt 2 24 else c.r15) = _
    rw [h.pcWen, if_pos rfl, hpc, slice_addr_add4, h.r15, add11]
  · show (c.execute && c.ctl.writeWen) = false
    rw [h.store, Bool.and_false]
  · intro hp
    obtain ⟨h1, h2, h3⟩ := h.code hp
    refine ⟨?_, ?_, ?_, ?_, ?_, ?_, ?_⟩
    · show c.ctlNext = _
      rw [ctlNext_valid c h.state, h1]
    · show stateNxt c.state c.instruction (controlNxt ..) = _
      rw [controlNxt_valid h.state, stateNxt_valid h.state, h1]
    · intro hi
      show (if itype c.instruction = .mtrans then mtransInstruction c.instruction else if (controlNxt ..).savedWen then c.instruction else c.saved) = _
      rw [controlNxt_valid h.state, h1, savedWen_of _ hi, if_neg (by rcases hi with hi | hi <;> rw [hi] <;> decide), if_pos rfl]
    · intro hi
      show (if itype c.instruction = .mtrans then mtransInstruction c.instruction else if (controlNxt ..).savedWen then c.instruction else c.saved) = _
      rw [h1, if_pos hi]
    · show mtransReg c.instruction = _
      rw [h1]
    · show c.addressNxt = _
      rw [had, h.r15, ← add11, addr_add4]
      rw [toNat_add1] <;> omega
    · intro hi
      show c.mulNext.2 = 0
      unfold Core.mulNext
      rw [h3 hi]; rfl
  · intro hp
    show m.read z c.address u = _
    obtain ⟨h1, h2, h3⟩ := h.code (by omega)
    rw [h2]
    exact read_word z m s _ u h.mem (readable_addr z hz _ (by rw [toNat_add1] <;> omega))

/-- A cycle that changes nothing but the program counter. -/
structure Idle (c : Core) : Prop where
  store : c.ctl.writeWen = false
  pcSel : c.ctl.pcSel = 0
  pcWen : c.ctl.pcWen = true
  addressSel : c.ctl.address = 0
  regWen : c.ctl.regWen = 0
  flagsWen : c.ctl.flagsWen = false
  mul : c.ctl.mulEnable = false

theorem idle_next (c : Core) (r : BitVec 32) (h : c.state = .pcStall1 ∨ c.state = .pcStall2) : Idle (c.next r) := by
  have hn : ∀ i me ma low d, controlNxt c.state i me ma low d = {} := by
    intro i me ma low d
    rcases h with h | h <;> rw [h] <;> rfl
  refine ⟨?_, ?_, ?_, ?_, ?_, ?_, ?_⟩
  · show (controlNxt ..).writeWen = _; rw [hn]
  · show (controlNxt ..).pcSel = _; rw [hn]
  · show (controlNxt ..).pcWen = _; rw [hn]
  · show (controlNxt ..).address = _; rw [hn]
  · show decodeReg (controlNxt ..).wsel = _; rw [hn]; rfl
  · show (controlNxt ..).flagsWen = _; rw [hn]
  · show (controlNxt ..).mulEnable = _; rw [hn]

/-- The circuit in the cycle in which the program counter of state `s` is written. -/
structure Jump (z : Sizes) (s : State) (c : Core) (m : Mem) : Prop where
  mem : s.mem = absMem m
  we : c.writeEnable = false
  state : c.state = .pcStall1
  store : c.ctl.writeWen = false
  pcWen : c.ctl.pcWen = true
  pc : slice c.pcNxt 2 24 = s.pc
  address : s.pc.toNat < z.code → c.addressNxt = addr s.pc
  regs : ∀ k : BitVec 4, k ≠ 15 → (if c.execute && c.ctl.regWen.getLsbD k.toNat then c.regWriteNxt else c.regs k) = s.reg k
  flags : absF (if c.execute && c.ctl.flagsWen then c.flagsNxt else c.flags) = s.flags

/-- Several cycles. -/
def cycles (z : Sizes) (u : Nat → BitVec 32) : Nat → Core × Mem → Core × Mem
  | 0, s => s
  | t + 1, s => cycles z (fun k => u (k + 1)) t (cycle z (u 0) s)

theorem cycles_add (z : Sizes) (u : Nat → BitVec 32) (a b : Nat) (s : Core × Mem) :
    cycles z u (a + b) s = cycles z (fun k => u (k + a)) b (cycles z u a s) := by
  induction a generalizing u s with
  | zero => rw [Nat.zero_add]; rfl
  | succ a ih =>
    rw [show a + 1 + b = (a + b) + 1 by omega, cycles, ih, cycles]
    congr 1

theorem jump {z : Sizes} (hz : z.code ≤ 2 ^ 22) {s : State} {c : Core} {m : Mem} (h : Jump z s c m) (u : Nat → BitVec 32) :
    R z s (cycles z u 3 (c, m)).1 (cycles z u 3 (c, m)).2 := by
  show R z s (cycle z (u 2) (cycle z (u 1) (cycle z (u 0) (c, m)))).1 (cycle z (u 2) (cycle z (u 1) (cycle z (u 0) (c, m)))).2
  have hm1 : cycle z (u 0) (c, m) = (c.next (m.read z c.address (u 0)), m) := by
    show (_, m.next z c.address c.writeEnable c.byteEnable c.writeData) = _
    rw [h.we]; rfl
  rw [hm1]
  obtain ⟨r, hr⟩ : ∃ r, r = m.read z c.address (u 0) := ⟨_, rfl⟩
  rw [← hr]
  obtain ⟨d, hd⟩ : ∃ d, d = c.next r := ⟨_, rfl⟩
  rw [← hd]
  have id : Idle d := hd ▸ idle_next c r (Or.inl h.state)
  have d_we : d.writeEnable = false := by
    rw [hd]; show (c.execute && c.ctl.writeWen) = false
    rw [h.store, Bool.and_false]
  have d_state : d.state = .pcStall2 := by rw [hd]; show stateNxt c.state _ _ = _; rw [h.state]; rfl
  have d_r15 : d.r15 = s.pc := by
    rw [hd]; show (if c.ctl.pcWen then slice c.pcNxt 2 24 else c.r15) = _
    rw [h.pcWen, if_pos rfl, h.pc]
  have d_regs : ∀ k : BitVec 4, k ≠ 15 → d.regs k = s.reg k := by rw [hd]; exact h.regs
  have d_flags : absF d.flags = s.flags := by rw [hd]; exact h.flags
  have d_addr : s.pc.toNat < z.code → d.address = addr s.pc := by rw [hd]; exact h.address
  have hm2 : cycle z (u 1) (d, m) = (d.next (m.read z d.address (u 1)), m) := by
    show (_, m.next z d.address d.writeEnable d.byteEnable d.writeData) = _
    rw [d_we]; rfl
  rw [hm2]
  obtain ⟨r2, hr2⟩ : ∃ r, r = m.read z d.address (u 1) := ⟨_, rfl⟩
  rw [← hr2]
  obtain ⟨e, he⟩ : ∃ e, e = d.next r2 := ⟨_, rfl⟩
  rw [← he]
  have ie : Idle e := he ▸ idle_next d r2 (Or.inr d_state)
  have e_state : e.state = .execute := by rw [he]; show stateNxt d.state _ _ = _; rw [d_state]; rfl
  have d_pc : d.pcNxt = addr d.r15 + 4 := by unfold Core.pcNxt; rw [id.pcSel]; show d.pc + 4 = _; rw [pc_eq]
  have d_ad : d.addressNxt = addr d.r15 + 4 := by unfold Core.addressNxt; rw [id.addressSel]; show d.pc + 4 = _; rw [pc_eq]
  apply boundary hz
  refine ⟨h.mem, ?_, by rw [e_state]; rfl, ie.store, ie.pcSel, ie.pcWen, ie.addressSel, ?_, ?_, ?_, ?_⟩
  · rw [he]; show (d.execute && d.ctl.writeWen) = false
    rw [id.store, Bool.and_false]
  · rw [he]; show (if d.ctl.pcWen then slice d.pcNxt 2 24 else d.r15) = _
    rw [id.pcWen, if_pos rfl, d_pc, slice_addr_add4, d_r15]
  · intro k hk
    rw [ie.regWen, if_neg (by simp)]
    rw [he]; show (if d.execute && d.ctl.regWen.getLsbD k.toNat then _ else d.regs k) = _
    rw [id.regWen, if_neg (by simp)]
    exact d_regs k hk
  · rw [ie.flagsWen, Bool.and_false, if_neg (by simp)]
    rw [he]; show absF (if d.execute && d.ctl.flagsWen then _ else d.flags) = _
    rw [id.flagsWen, Bool.and_false, if_neg (by simp)]
    exact d_flags
  · intro hp
    refine ⟨?_, ?_, fun _ => ie.mul⟩
    · have : e.instruction = e.readData := by unfold Core.instruction; rw [e_state]
      rw [this, he]
      show r2 = _
      rw [hr2, d_addr hp]
      exact read_word z m s _ _ h.mem (readable_addr z hz _ hp)
    · rw [he]; show d.addressNxt = _
      rw [d_ad, d_r15, addr_add4 _ (by omega)]

end TinyGarble.Proof.Hdl.A23
