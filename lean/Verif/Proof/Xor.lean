import Verif.Model.Gate

/-! XOR algebra on blocks. -/

namespace TinyGarble

theorem xor_cancel_left (a b : Block) : a ^^^ (a ^^^ b) = b := by
  rw [← BitVec.xor_assoc, BitVec.xor_self, BitVec.zero_xor]

theorem xor_left_comm' (a b c : Block) : a ^^^ (b ^^^ c) = b ^^^ (a ^^^ c) := by
  rw [← BitVec.xor_assoc, BitVec.xor_comm a b, BitVec.xor_assoc]

/-- normalise XOR expressions -/
macro "bxor" : tactic => `(tactic| simp only [xorBlock, zeroBlock, BitVec.xor_assoc, BitVec.xor_comm, xor_left_comm', BitVec.xor_self, xor_cancel_left, BitVec.xor_zero, BitVec.zero_xor])

theorem getLSB_xor (a b : Block) : getLSB (a ^^^ b) = (getLSB a != getLSB b) := by
  simp [getLSB]

/-- `b · R`. -/
def scale (b : Bool) (R : Block) : Block := if b then R else 0#128

@[simp] theorem scale_true (R : Block) : scale true R = R := rfl
@[simp] theorem scale_false (R : Block) : scale false R = 0#128 := rfl

theorem scale_xor (a b : Bool) (R : Block) : scale (a ^^ b) R = scale a R ^^^ scale b R := by
  cases a <;> cases b <;> simp

theorem xor_right_cancel {a b c : Block} (h : a ^^^ c = b ^^^ c) : a = b := by
  have := congrArg (· ^^^ c) h
  simpa [BitVec.xor_assoc] using this

theorem cmpBlock_self (a : Block) : cmpBlock a a = true := by simp [cmpBlock]

theorem cmpBlock_comm (a b : Block) : cmpBlock a b = cmpBlock b a := by
  rw [Bool.eq_iff_iff]; simp only [cmpBlock, beq_iff_eq]; exact eq_comm

theorem cmpBlock_iff (a b : Block) :
    cmpBlock a b = true ↔ (a ^^^ b).extractLsb' 0 64 = 0#64 := by
  simp only [cmpBlock, beq_iff_eq]
  rw [show (a ^^^ b).extractLsb' 0 64 = a.extractLsb' 0 64 ^^^ b.extractLsb' 0 64 from by
    ext i hi; simp]
  exact BitVec.xor_eq_zero_iff.symm

theorem cmpBlock_congr {a b c d : Block} (h : a ^^^ b = c ^^^ d) : cmpBlock a b = cmpBlock c d := by
  rw [Bool.eq_iff_iff, cmpBlock_iff, cmpBlock_iff, h]

/-- Blocks at odd distance are never confused. -/
theorem cmpBlock_odd {a R : Block} (hR : getLSB R = true) : cmpBlock a (a ^^^ R) = false := by
  rw [← Bool.not_eq_true, cmpBlock_iff, xor_cancel_left]
  intro h
  have := congrArg (fun v => v.getLsbD 0) h
  simp [getLSB] at this hR
  simp_all

end TinyGarble
