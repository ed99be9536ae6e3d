import Verif.Proof.Hdl.A23Mul

/-! # The ARM processor: loads and stores -/

namespace TinyGarble.Proof.Hdl.A23

open TinyGarble TinyGarble.Hdl TinyGarble.Hdl.A23
open TinyGarble.Spec.Arm (Layout State Instr Offset Shift align addr bit holds move)
open TinyGarble.Spec.Arm.Circuit (exec Supported)
open TinyGarble.Spec.Mips (fetch put)

theorem alu_move {c : Core} {up : Bool} (h1 : c.ctl.aluSwap = false) (h2 : c.ctl.aluNot = !up) (h3 : c.ctl.aluCin = if up then 0 else 1)
    (h4 : c.ctl.aluOut = 1) : c.alu.1 = move up c.rn c.shifted.1 := by
  unfold Core.alu
  rw [h1, h2, h3, h4, alu_value]
  cases up with
  | true =>
    show BitVec.ofNat 32 (c.rn.toNat + c.shifted.1.toNat + 0) = c.rn + c.shifted.1
    apply BitVec.eq_of_toNat_eq
    rw [BitVec.toNat_ofNat, BitVec.toNat_add, Nat.add_zero]
  | false =>
    show (TinyGarble.Spec.Arm.sum c.rn (~~~c.shifted.1) true).1 = c.rn - c.shifted.1
    rw [← diff_eq]
    show c.rn - c.shifted.1 - BitVec.ofNat 32 0 = _
    exact BitVec.sub_zero _

section
variable {x : BitVec 32} (hx : itype x = .trans)
include hx

theorem trans_nxt : validNxt x {} = {
      savedWen := true
      pcWen := false
      aluOut := 1
      aluCin := if x.getLsbD 23 then 0 else 1
      aluNot := !x.getLsbD 23
      writeWen := !x.getLsbD 20
      byteSel := if !x.getLsbD 20 && x.getLsbD 22 then 1 else 0
      wsel := if !x.getLsbD 24 || x.getLsbD 21 then slice x 16 4 else 15
      pcSel := if (!x.getLsbD 24 || x.getLsbD 21) = true ∧ slice x 16 4 = 15 then 1 else 0
      address := if x.getLsbD 24 then 1 else 4
      bsData := if x.getLsbD 25 then 2 else 0
      bsFunc := if x.getLsbD 25 = true ∧ slice x 7 5 ≠ 0 then slice x 5 2 else 0
      bsAmount := if x.getLsbD 25 = true ∧ slice x 7 5 ≠ 0 then 2 else 0 } := by
  rw [validNxt_trans hx, transNxt_eq]

theorem imm32_trans : imm32 x = (slice x 0 12).zeroExtend 32 := by
  unfold imm32
  rw [hx]
  exact TinyGarble.Proof.Hdl.Mips.zero_append (k := 20) (slice x 0 12)

theorem trans_offset {s : State} {c : Core} {o : Offset} {d : BitVec 32} (h : Regs s c) (hc : c.ctl = ctlOf x) (ho : IsOffset x o)
    (he : o.eval s = some d) (hs : match o with | .imm _ => True | .reg _ k n => n = 0 → k = .lsl) : c.shifted.1 = d := by
  have hn := trans_nxt hx
  have hda : c.ctl.bsData = if x.getLsbD 25 then 2 else 0 := by rw [hc]; show (validNxt x {}).bsData = _; rw [hn]
  have ham : c.ctl.bsAmount = if x.getLsbD 25 = true ∧ slice x 7 5 ≠ 0 then 2 else 0 := by rw [hc]; show (validNxt x {}).bsAmount = _; rw [hn]
  have hfn : c.ctl.bsFunc = if x.getLsbD 25 = true ∧ slice x 7 5 ≠ 0 then slice x 5 2 else 0 := by rw [hc]; show (validNxt x {}).bsFunc = _; rw [hn]
  unfold Core.shifted
  cases o with
  | imm v =>
    obtain ⟨h1, h2⟩ := ho
    have he : v.zeroExtend 32 = d := Option.some.inj he
    have h3 : c.shiftAmount = 0 := by
      unfold Core.shiftAmount
      rw [ham, h1]; rfl
    rw [h3, barrelShift_zero, ← he, h2, ← imm32_trans hx]
    unfold Core.shiftIn
    rw [hda, h1]
    show c.ctl.imm32 = _
    rw [hc]; rfl
  | reg rm k n =>
    obtain ⟨h1, h2, h3, h4, h5⟩ := ho
    have he : (if rm = 15 then none else some (k.const (s.reg rm) n s.flags.c).1) = some d := he
    split at he
    · cases he
    rename_i hrm
    have he := Option.some.inj he
    have hin : c.shiftIn = s.reg rm := by
      unfold Core.shiftIn
      rw [hda, h1]
      show c.rm = _
      rw [rm_eq h, hc]
      show s.second (slice x 0 4) = _
      rw [← h3, State.second, if_neg hrm]
    have hs : n = 0 → k = .lsl := hs
    by_cases hz : n = 0
    · have h6 : c.shiftAmount = 0 := by
        unfold Core.shiftAmount
        rw [ham, if_neg (by rw [← h5]; exact fun h => h.2 hz)]; rfl
      rw [h6, barrelShift_zero, hin, ← he, hz, hs hz]; rfl
    · have h6 : c.shiftAmount = 0#3 ++ n := by
        unfold Core.shiftAmount
        rw [ham, if_pos ⟨h1, by rw [← h5]; exact hz⟩, hc, h5]; rfl
      have h7 : c.ctl.bsFunc = code k := by rw [hfn, if_pos ⟨h1, by rw [← h5]; exact hz⟩, h4]
      rw [h6, hin, h7, (shift_const k (s.reg rm) n s.flags.c _ hs).1, he]

end

/-- A byte of a word. -/
theorem word_byte (s : State) (a : BitVec 32) : slice (s.word a) (8 * (a.toNat % 4)) 8 = s.mem a := by
  have ha := align_toNat a
  have hl := a.isLt
  have add1 : ∀ b : BitVec 32, b.toNat + 1 < 2 ^ 32 → (b + 1).toNat = b.toNat + 1 := by
    intro b hb
    rw [BitVec.toNat_add, show (1 : BitVec 32).toNat = 1 from rfl, Nat.mod_eq_of_lt hb]
  have h1 := add1 (align a) (by omega)
  have h2 := add1 (align a + 1) (by omega)
  have h3 := add1 (align a + 1 + 1) (by omega)
  apply BitVec.eq_of_toNat_eq
  rw [toNat_slice, State.word, BitVec.toNat_ofNat]
  simp only [fetch]
  have b0 := (s.mem (align a)).isLt
  have b1 := (s.mem (align a + 1)).isLt
  have b2 := (s.mem (align a + 1 + 1)).isLt
  have b3 := (s.mem (align a + 1 + 1 + 1)).isLt
  have h4 : a.toNat % 4 = 0 ∨ a.toNat % 4 = 1 ∨ a.toNat % 4 = 2 ∨ a.toNat % 4 = 3 := by omega
  rcases h4 with h4 | h4 | h4 | h4
  · rw [show s.mem a = s.mem (align a) by congr 1; apply BitVec.eq_of_toNat_eq; omega, h4]; omega
  · rw [show s.mem a = s.mem (align a + 1) by congr 1; apply BitVec.eq_of_toNat_eq; omega, h4]; omega
  · rw [show s.mem a = s.mem (align a + 1 + 1) by congr 1; apply BitVec.eq_of_toNat_eq; omega, h4]; omega
  · rw [show s.mem a = s.mem (align a + 1 + 1 + 1) by congr 1; apply BitVec.eq_of_toNat_eq; omega, h4]; omega

theorem rotate_byte (w : BitVec 32) (j : Nat) (hj : j < 4) : slice (w.rotateRight (8 * j)) 0 8 = slice w (8 * j) 8 := by
  apply eq_of_bits
  intro i hi
  rw [getLsbD_slice, getLsbD_slice, BitVec.getLsbD_rotateRight, Nat.mod_eq_of_lt (by omega), decide_eq_true (show 0 + i < 32 - 8 * j by omega), cond_true, Nat.zero_add]

theorem fetch_congr (f g : BitVec 32 → BitVec 8) (a : BitVec 32) (h : ∀ b : BitVec 32, b.toNat / 4 = a.toNat / 4 → f b = g b) :
    BitVec.ofNat 32 (fetch f (align a) 4) = BitVec.ofNat 32 (fetch g (align a) 4) := by
  have ha := align_toNat a
  have hl := a.isLt
  have add1 : ∀ b : BitVec 32, b.toNat + 1 < 2 ^ 32 → (b + 1).toNat = b.toNat + 1 := by
    intro b hb
    rw [BitVec.toNat_add, show (1 : BitVec 32).toNat = 1 from rfl, Nat.mod_eq_of_lt hb]
  have h1 := add1 (align a) (by omega)
  have h2 := add1 (align a + 1) (by omega)
  have h3 := add1 (align a + 1 + 1) (by omega)
  simp only [fetch]
  rw [h (align a) (by omega), h (align a + 1) (by omega), h (align a + 1 + 1) (by omega), h (align a + 1 + 1 + 1) (by omega)]

/-- Storing a word does not change other words. -/
theorem word_put_word (s s' : State) (a b : BitVec 32) (v : Nat) (h : s'.mem = put s.mem (align a) v 4) (hn : align a ≠ align b) :
    s'.word b = s.word b := by
  unfold State.word
  rw [h]
  apply fetch_congr
  intro k hk
  rw [put_word, if_neg]
  intro h1
  apply hn
  apply BitVec.eq_of_toNat_eq
  rw [align_toNat, align_toNat]
  omega

theorem word_put_byte (s s' : State) (a b : BitVec 32) (v : Nat) (h : s'.mem = put s.mem a v 1) (hn : align a ≠ align b) :
    s'.word b = s.word b := by
  unfold State.word
  rw [h]
  apply fetch_congr
  intro k hk
  show (if k = a then _ else s.mem k) = _
  rw [if_neg]
  rintro rfl
  apply hn
  apply BitVec.eq_of_toNat_eq
  rw [align_toNat, align_toNat]
  omega

theorem align_addr (p : BitVec 24) : align (addr p) = addr p := by
  apply BitVec.eq_of_toNat_eq
  rw [align_toNat, addr_toNat]
  omega

/-- The shifter when a word has been loaded. -/
theorem load_shift {c : Core} {a : BitVec 32} {x : BitVec 32} (h1 : c.ctl.bsData = 1) (h2 : c.ctl.bsAmount = 3)
    (h3 : c.ctl.bsFunc = if slice a 0 2 ≠ 0 then 3 else 0) (h4 : c.readAlign = slice a 0 2 ++ 0#3) (h5 : c.readData = x) :
    c.shifted.1 = x.rotateRight (8 * (a.toNat % 4)) := by
  have hlow : (slice a 0 2).toNat = a.toNat % 4 := by rw [toNat_slice]; omega
  have ham : c.shiftAmount = 0#3 ++ (slice a 0 2 ++ 0#3) := by
    unfold Core.shiftAmount
    rw [h2, h4]; rfl
  have hin : c.shiftIn = x := by
    unfold Core.shiftIn
    rw [h1]; exact h5
  have hn : (0#3 ++ (slice a 0 2 ++ 0#3) : BitVec 8).toNat = 8 * (a.toNat % 4) := by
    rw [← hlow]
    generalize slice a 0 2 = l
    revert l; decide
  unfold Core.shifted
  rw [ham, hin, h3]
  by_cases hz : slice a 0 2 = 0
  · rw [barrelShift_low _ _ _ _ (by rw [hn, ← hlow, hz]; rfl), ← hlow, hz]
    show x = x.rotateRight 0
    apply eq_of_bits
    intro i hi
    rw [BitVec.getLsbD_rotateRight]
    simp [hi]
  · have h0 : a.toNat % 4 ≠ 0 := by
      intro h; apply hz
      apply BitVec.eq_of_toNat_eq; rw [hlow, h]; rfl
    rw [if_pos hz, show (3 : BitVec 2) = code .ror from rfl, barrelShift_pos .ror x _ _ (by rw [hn]; omega), hn, Nat.mod_eq_of_lt (by omega)]
    rfl

end TinyGarble.Proof.Hdl.A23
