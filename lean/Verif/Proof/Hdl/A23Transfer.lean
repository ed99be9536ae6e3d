import Verif.Proof.Hdl.A23TransStep

/-! # The ARM processor: loads and stores do what the manual says -/

namespace TinyGarble.Proof.Hdl.A23

open TinyGarble TinyGarble.Hdl TinyGarble.Hdl.A23
open TinyGarble.Spec.Arm (Layout State Instr Offset Shift align addr bit holds move)
open TinyGarble.Spec.Arm.Circuit (exec Supported)
open TinyGarble.Spec.Mips (fetch put)

theorem write_mem (s : State) (r : BitVec 4) (v : BitVec 32) : (s.write r v).mem = s.mem := by
  unfold State.write; split <;> rfl

theorem write_flags (s : State) (r : BitVec 4) (v : BitVec 32) : (s.write r v).flags = s.flags := by
  unfold State.write; split <;> rfl

theorem write_pc (s : State) {r : BitVec 4} (v : BitVec 32) (h : r ≠ 15) : (s.write r v).pc = s.pc := by
  unfold State.write; rw [if_neg h]

theorem write_reg (s : State) (r : BitVec 4) (v : BitVec 32) (k : BitVec 4) (hk : k ≠ 15) : (s.write r v).reg k = if k = r then v else s.reg k := by
  unfold State.write
  split
  · rename_i h; rw [if_neg (by rw [h]; exact hk)]
  · rfl

theorem slice_rep (d : BitVec 8) : slice (d ++ d ++ d ++ d : BitVec 32) 0 8 = d := by
  apply eq_of_bits
  intro i hi
  rw [getLsbD_slice, decide_eq_true hi, Bool.true_and, Nat.zero_add]
  refine (BitVec.getLsbD_append (x := d ++ d ++ d) (y := d)).trans ?_
  rw [if_pos hi]

theorem byteEnable_byte {c : Core} (h : c.ctl.byteSel = 1) : c.byteEnableNxt = byteSel c.addressNxt := by
  unfold Core.byteEnableNxt byteSel
  rw [h]
  rfl

theorem trans_step {z : Sizes} (hz : z.code ≤ 2 ^ 22) {s s' : State} {c : Core} {m : Mem} (hR : R z s c m) (hp : s.pc.toNat < z.code) {x : BitVec 32}
    (hw : s.word (addr s.pc) = x) {load byte up pre wb : Bool} {rd rn : BitVec 4} {o : Offset}
    (hi : IsInstr x (.transfer load byte up pre wb rd rn o))
    (he : effect (lay z) s (slice x 28 4) (.transfer load byte up pre wb rd rn o) = some s')
    (hs : Supported (lay z) s (slice x 28 4) (.transfer load byte up pre wb rd rn o)) (u : Nat → BitVec 32) :
    R z s' (cycles z u (Instr.transfer load byte up pre wb rd rn o).cycles (c, m)).1
      (cycles z u (Instr.transfer load byte up pre wb rd rn o).cycles (c, m)).2 := by
  have hpipe := hR.pipe hp
  rw [hw] at hpipe
  have hc := hpipe.ctl
  have hRg := hR.toRegs
  obtain ⟨hx, rfl, rfl, rfl, rfl, rfl, rfl, rfl, ho⟩ := hi
  have hn := trans_nxt hx
  have hX : c.execute = holds (slice x 28 4) s.flags := by rw [execute_eq hRg, hc]; rfl
  have hrn : c.rn = s.base (slice x 16 4) := by
    rw [rn_eq hRg, hc]
    show s.base (if itype x = .branch then 15 else slice x 16 4) = _
    rw [hx]; rfl
  have hal : c.alu.1 = move (x.getLsbD 23) (s.base (slice x 16 4)) c.shifted.1 := by
    rw [← hrn]
    apply alu_move
    · rw [hc]; show (validNxt x {}).aluSwap = _; rw [hn]
    · rw [hc]; show (validNxt x {}).aluNot = _; rw [hn]
    · rw [hc]; show (validNxt x {}).aluCin = _; rw [hn]
    · rw [hc]; show (validNxt x {}).aluOut = _; rw [hn]
  have hadr : c.addressNxt = if x.getLsbD 24 then c.alu.1 else c.rn := by
    unfold Core.addressNxt
    rw [show c.ctl.address = if x.getLsbD 24 then 1 else 4 by rw [hc]; show (validNxt x {}).address = _; rw [hn],
      show c.ctl.pcWen = false by rw [hc]; show (validNxt x {}).pcWen = _; rw [hn]]
    cases x.getLsbD 24 <;> rfl
  have hrw : ∀ k : BitVec 4, c.ctl.regWen.getLsbD k.toNat = decide (k = (if !x.getLsbD 24 || x.getLsbD 21 then slice x 16 4 else 15) ∧ k ≠ 15) := by
    intro k
    rw [hc]
    show (decodeReg (validNxt x {}).wsel).getLsbD k.toNat = _
    rw [hn, decodeReg_bit]
  have hwr : c.regWriteNxt = c.alu.1 := by
    unfold Core.regWriteNxt
    rw [show c.ctl.regWrite = 0 by rw [hc]; show (validNxt x {}).regWrite = _; rw [hn]]
    rfl
  have hww : c.ctl.writeWen = !x.getLsbD 20 := by rw [hc]; show (validNxt x {}).writeWen = _; rw [hn]
  have hbs : c.ctl.byteSel = if !x.getLsbD 20 && x.getLsbD 22 then 1 else 0 := by rw [hc]; show (validNxt x {}).byteSel = _; rw [hn]
  have hcyc : (Instr.transfer (x.getLsbD 20) (x.getLsbD 22) (x.getLsbD 23) (x.getLsbD 24) (x.getLsbD 21) (slice x 12 4) (slice x 16 4) o).cycles =
      if x.getLsbD 20 && decide (slice x 12 4 = 15) then 5 else 3 := rfl
  rw [hcyc]
  by_cases hho : holds (slice x 28 4) s.flags = true
  · -- the condition holds
    rw [effect, if_pos hho] at he
    have he : (o.eval s).bind _ = some s' := he
    obtain ⟨d, hd, he⟩ := Option.bind_eq_some_iff.1 he
    obtain ⟨hsup, hnext⟩ := hs.1 hho
    have hoff : c.shifted.1 = d := trans_offset hx hRg hc ho hd (by cases o <;> exact hsup)
    rw [hoff] at hal
    dsimp only at he
    split at he
    · cases he
    rename_i hbad
    rw [hrn, hal] at hadr
    generalize hmv : move (x.getLsbD 23) (s.base (slice x 16 4)) d = mv at he hal hadr
    generalize hadd : (if x.getLsbD 24 = true then mv else s.base (slice x 16 4)) = a at he hadr
    have hrn15 : (x.getLsbD 24 = false ∨ x.getLsbD 21 = true) → slice x 16 4 ≠ 15 := fun h h1 => hbad (Or.inr ⟨h, Or.inl h1⟩)
    have hwb : (!x.getLsbD 24 || x.getLsbD 21) = true ↔ (x.getLsbD 24 = false ∨ x.getLsbD 21 = true) := by
      rw [Bool.or_eq_true, Bool.not_eq_true']
    generalize hs1 : (if x.getLsbD 24 = false ∨ x.getLsbD 21 = true then s.next.write (slice x 16 4) mv else s.next) = s1 at he
    have s1_pc : s1.pc = s.pc + 1 := by
      rw [← hs1]; split
      · rename_i h; rw [write_pc _ _ (hrn15 h)]; rfl
      · rfl
    have s1_mem : s1.mem = s.mem := by
      rw [← hs1]; split
      · rw [write_mem]; rfl
      · rfl
    have s1_flags : s1.flags = s.flags := by
      rw [← hs1]; split
      · rw [write_flags]; rfl
      · rfl
    have hregs : ∀ k : BitVec 4, k ≠ 15 → (if c.execute && c.ctl.regWen.getLsbD k.toNat then c.regWriteNxt else c.regs k) = s1.reg k := by
      intro k hk
      rw [hrw, hX, hho, hwr, hal, ← hs1, Bool.true_and]
      by_cases h : x.getLsbD 24 = false ∨ x.getLsbD 21 = true
      · rw [if_pos h, write_reg _ _ _ _ hk, if_pos (hwb.2 h)]
        by_cases h1 : k = slice x 16 4
        · rw [if_pos h1, if_pos (by rw [decide_eq_true_eq]; exact ⟨h1, hk⟩)]
        · rw [if_neg h1, if_neg (by rw [decide_eq_true_eq]; exact fun h => h1 h.1)]
          exact hR.regs k hk
      · rw [if_neg h, if_neg (show ¬ (!x.getLsbD 24 || x.getLsbD 21) = true from fun h1 => h (hwb.1 h1)),
          if_neg (by rw [decide_eq_true_eq]; exact fun h => h.2 h.1)]
        exact hR.regs k hk
    cases hl : x.getLsbD 20 with
    | true =>
      rw [hl, if_pos rfl] at he
      split at he
      · rename_i hread
        have he := (Option.some.inj he).symm
        have hmid := trans_mid (s1 := s1) hR hp hw hx u a (s.word a) hadr hregs
          (by rw [hww, hl, Bool.not_true, Bool.and_false, next_disabled, s1_mem]; exact hR.mem)
          (fun _ _ => read_word z m s a (u 1) hR.mem hread)
        have hval := hmid.value rfl hho hl
        rw [← hval] at he
        rw [Bool.true_and]
        by_cases h15 : slice x 12 4 = 15
        · rw [if_pos (by rw [decide_eq_true_eq]; exact h15), show 5 = 2 + 3 from rfl, cycles_add]
          have he2 : s' = { s1 with pc := slice (cycles z u 2 (c, m)).1.alu.1 2 24 } := by
            rw [he, State.write, if_pos h15, bits_eq]
          exact hmid.lastJump hz hl h15 (by rw [he2]) (by rw [he2]; exact s1_flags) (by rw [he2]) (fun k hk => by rw [he2]) _
        · rw [if_neg (by rw [decide_eq_true_eq]; exact h15), show 3 = 2 + 1 from rfl, cycles_add]
          refine hmid.last hz hp (fun _ => h15) ?_ ?_ ?_ ?_ ?_ _
          · rw [he, write_pc _ _ h15]; exact s1_pc
          · rw [he, write_flags]; exact s1_flags
          · rw [he, write_mem]
          · intro k hk
            rw [he, write_reg _ _ _ _ hk]
            by_cases h1 : k = slice x 12 4
            · rw [if_pos h1, if_pos ⟨hho, hl, h1⟩]
            · rw [if_neg h1, if_neg (fun h => h1 h.2.2)]
          · intro _
            apply word_congr
            rw [he, write_mem]; exact s1_mem
      · cases he
    | false =>
      rw [hl, if_neg (by decide)] at he
      split at he
      · rename_i hwrite
        have he := (Option.some.inj he).symm
        have hne : align a ≠ addr (s.pc + 1) := by
          have := hnext hl d hd
          rw [hmv, hadd] at this
          exact this
        have hrds : c.ctl.rdsSel = slice x 12 4 := by
          rw [hc]; show rdsSel .execute x = _
          unfold rdsSel rdsUseRs
          rw [hx]; rfl
        have hps : c.ctl.pcSel = 0 := by
          rw [hc]; show (validNxt x {}).pcSel = _; rw [hn]
          show (if (!x.getLsbD 24 || x.getLsbD 21) = true ∧ slice x 16 4 = 15 then 1 else 0) = 0
          rw [if_neg (fun h => hrn15 (hwb.1 h.1) h.2)]
        have hrd : c.rd = s.stored (slice x 12 4) := by
          unfold Core.rd State.stored
          rw [hrds]
          split
          · rw [word15_eq hRg]
            congr 1
            unfold Core.pcNxt
            rw [hps]
            show slice (c.pc + 4) 2 24 = _
            rw [pc_eq, slice_addr_add4, hR.r15, add21]
          · rename_i h; exact hR.regs _ h
        rw [hl] at hww hbs
        rw [Bool.false_and, if_neg (by decide), show 3 = 2 + 1 from rfl, cycles_add]
        cases hb : x.getLsbD 22 with
        | false =>
          rw [hb] at he hbs
          rw [if_neg (by decide)] at he
          have hmid := trans_mid (s1 := s1.putWord a (s.stored (slice x 12 4))) hR hp hw hx u a 0 hadr hregs
            (by
              rw [hww, hX, hho, hbs, hrd]
              have hbe : c.byteEnableNxt = 0b1111 := by unfold Core.byteEnableNxt; rw [hbs]; rfl
              rw [hbe]
              show put s1.mem (align a) _ 4 = absMem (m.next z a true 0b1111 (s.stored (slice x 12 4)))
              rw [write_word z m a _ hwrite, s1_mem, hR.mem])
            (fun _ h => by rw [hl] at h; cases h)
          refine hmid.last hz hp (fun h => by rw [hl] at h; cases h) ?_ ?_ ?_ ?_ ?_ _
          · rw [he]; exact s1_pc
          · rw [he]; exact s1_flags
          · rw [he]
          · intro k hk
            rw [if_neg (by rw [hl]; exact fun h => absurd h.2.1 (by decide)), he]
          · intro _
            apply word_put_word s s' a _ (s.stored (slice x 12 4)).toNat
            · rw [he]; show put s1.mem _ _ 4 = _; rw [s1_mem]
            · rw [align_addr]; exact hne
        | true =>
          rw [hb, if_pos rfl] at he
          rw [hb] at hbs
          have hmid := trans_mid (s1 := s') hR hp hw hx u a 0 hadr (by rw [he]; exact hregs)
            (by
              rw [hww, hX, hho, hbs, hrd, byteEnable_byte hbs, hadr]
              rw [if_neg (by decide)]
              show s'.mem = absMem (m.next z a true (byteSel a) _)
              rw [write_byte z m a _ (s.stored (slice x 12 4)).toNat _ hwrite, he, hR.mem]
              rw [slice_rep]
              have := ofNat_byte (s.stored (slice x 12 4)) 0
              rwa [Nat.pow_zero, Nat.div_one] at this)
            (fun _ h => by rw [hl] at h; cases h)
          refine hmid.last hz hp (fun h => by rw [hl] at h; cases h) ?_ ?_ ?_ ?_ ?_ _
          · rw [he]; exact s1_pc
          · rw [he]; exact s1_flags
          · rfl
          · intro k hk
            rw [if_neg (by rw [hl]; exact fun h => absurd h.2.1 (by decide))]
          · intro _
            apply word_put_byte s s' a _ (s.stored (slice x 12 4)).toNat
            · rw [he]
            · rw [align_addr]; exact hne
      · cases he
  · -- the condition does not hold
    have hf : holds (slice x 28 4) s.flags = false := by simpa using hho
    rw [effect, if_neg hho] at he
    have he := (Option.some.inj he).symm
    have hj : (x.getLsbD 20 && decide (slice x 12 4 = 15)) = false := hs.2.1 hf
    rw [hj, if_neg (by decide), show 3 = 2 + 1 from rfl, cycles_add]
    have hmid := trans_mid (s1 := s) hR hp hw hx u c.addressNxt 0 rfl
      (by rw [hX, hf]; exact hR.regs)
      (by rw [hX, hf, Bool.false_and, next_disabled]; exact hR.mem)
      (fun h _ => by rw [hf] at h; cases h)
    refine hmid.last hz hp (fun hl h => ?_) ?_ ?_ ?_ ?_ ?_ _
    · rw [hl, h] at hj; exact absurd hj (by decide)
    · rw [he]; rfl
    · rw [he]; rfl
    · rw [he]; rfl
    · intro k hk
      rw [if_neg (by rw [hf]; exact fun h => absurd h.1 (by decide)), he]; rfl
    · intro _
      apply word_congr
      rw [he]; rfl

end TinyGarble.Proof.Hdl.A23
