import Verif.Proof.Hdl.A23ProgMerge

set_option linter.unusedSimpArgs false

/-! # What the program merge-sort computes -/

namespace TinyGarble.Proof.Hdl.A23.Sym.Merge

open TinyGarble.Spec.Arm
open TinyGarble.Hdl.A23.Programs (mergeSortCode)
open Sum (imm_one)
open Dijkstra (holds_lt holds_ge cell)

theorem first_word (s : State) (b : Nat) (hb : b < 0x04000000) : (applyAll s first).word (BitVec.ofNat 32 b) = s.word (BitVec.ofNat 32 b) := by
  unfold first
  micro
  have : ∀ c, 0x04000000 ≤ c → c < 0x05000000 → (align (BitVec.ofNat 32 c) = align (BitVec.ofNat 32 b)) = False := fun c h1 h2 => by
    rw [cell _ _ (by omega) (by omega)]; exact eq_false (by omega)
  simp only [this _ (show 0x04000000 ≤ 0x040000fc by omega) (by omega), if_false]

theorem xbody_word (s : State) (n : Nat) (b : BitVec 32) : (applyAll s (xbody n)).word b =
    if align (outAt n) = align b then s.word (at' (0x01000000 + 4 * n)) ^^^ s.word (at' (0x02000000 + 4 * n)) else s.word b := by
  unfold xbody
  micro
  rw [BitVec.xor_comm]

theorem mid_word (s : State) (b : Nat) (h1 : b < 0x04000000) (h2 : b / 4 ≠ 0x38c / 4) : (applyAll s mid).word (BitVec.ofNat 32 b) =
    if align iAt = align (BitVec.ofNat 32 b) then 16 else s.word (BitVec.ofNat 32 b) := by
  unfold mid
  micro
  have : ∀ c, 0x04000000 ≤ c → c < 0x05000000 → (align (BitVec.ofNat 32 c) = align (BitVec.ofNat 32 b)) = False := fun c h1 h2 => by
    rw [cell _ _ (by omega) (by omega)]; exact eq_false (by omega)
  have hm : (align (BitVec.ofNat 32 0x38c) = align (BitVec.ofNat 32 b)) = False := by
    rw [cell _ _ (by omega) (by omega)]; exact eq_false (fun h => h2 h.symm)
  simp only [this _ (show 0x04000000 ≤ 0x040000e8 by omega) (by omega), this _ (show 0x04000000 ≤ 0x040000ec by omega) (by omega),
    this _ (show 0x04000000 ≤ 0x040000f0 by omega) (by omega), this _ (show 0x04000000 ≤ 0x040000f4 by omega) (by omega),
    this _ (show 0x04000000 ≤ 0x040000f8 by omega) (by omega), this _ (show 0x04000000 ≤ 0x040000fc by omega) (by omega), hm, if_false]

theorem cbody_word (s : State) (n : Nat) (b : BitVec 32) : (applyAll s (cbody n)).word b =
    if align iAt = align b then at' (15 - n) else if align (tmpAt (15 - n)) = align b then s.word (outAt (15 - n)) else s.word b := by
  unfold cbody
  micro

theorem cend_word (s : State) (b : BitVec 32) : (applyAll s cend).word b = if align jAt = align b then 15 else s.word b := by
  unfold cend
  micro

theorem dbody_word (s : State) (n : Nat) (b : BitVec 32) : (applyAll s (dbody n)).word b =
    if align jAt = align b then at' (16 + n) else if align (tmpAt (31 - n)) = align b then s.word (outAt (16 + n)) else s.word b := by
  unfold dbody
  micro

theorem dend_word (s : State) (b : BitVec 32) : (applyAll s dend).word b = if align kAt = align b then 0 else s.word b := by
  unfold dend
  micro

theorem kstart_word (s : State) (k : Nat) (b : BitVec 32) : (applyAll s (kstart k)).word b = s.word b := by
  unfold kstart
  micro

theorem kstart_reg (s : State) (k : Nat) : (applyAll s (kstart k)).reg 12 = s.word iAt := by
  unfold kstart
  micro

theorem kleft_word (s : State) (i : Nat) (b : BitVec 32) : (applyAll s (kleft i)).word b = s.word b := by
  unfold kleft
  micro

theorem kleft_regs (s : State) (i : Nat) : (applyAll s (kleft i)).reg 12 = s.reg 12 ∧ (applyAll s (kleft i)).reg 8 = s.word (tmpAt i)
    ∧ (applyAll s (kleft i)).reg 0 = s.word jAt := by
  unfold kleft
  refine ⟨?_, ?_, ?_⟩ <;> micro

theorem kright_word (s : State) (i : Nat) (b : BitVec 32) : (applyAll s (kright i)).word b = s.word b := by
  unfold kright
  micro

theorem kright_regs (s : State) (i : Nat) : (applyAll s (kright i)).reg 12 = s.reg 12 ∧ (applyAll s (kright i)).reg 8 = s.reg 8
    ∧ (applyAll s (kright i)).reg 0 = s.reg 0 ∧ (applyAll s (kright i)).reg 7 = s.word (tmpAt i) := by
  unfold kright
  refine ⟨?_, ?_, ?_, ?_⟩ <;> micro

theorem kbody_word (s : State) (k : Nat) (b : BitVec 32) : (applyAll s (kbody k)).word b =
    if align kAt = align b then at' (k + 1)
    else if (s.reg 8).toInt < (s.reg 7).toInt then
      if align (outAt k) = align b then s.reg 8 else if align iAt = align b then s.reg 12 + 1 else s.word b
    else if align (outAt k) = align b then s.reg 7 else if align jAt = align b then s.reg 0 - 1 else s.word b := by
  unfold kbody
  micro
  simp only [imm_zero, imm_one, ite_self, sum_add, diff_sub, holds_lt, holds_ge]
  generalize s.reg 8 = x
  generalize s.reg 7 = y
  by_cases h : x.toInt < y.toInt
  · have h' : ¬ y.toInt ≤ x.toInt := by omega
    simp (config := { decide := true }) only [h, h', if_true, if_false, decide_true, decide_false, Bool.false_eq_true, and_true, and_false]
  · have h' : y.toInt ≤ x.toInt := by omega
    simp (config := { decide := true }) only [h, h', if_true, if_false, decide_true, decide_false, Bool.false_eq_true, and_true, and_false]

theorem last_word (s : State) (b : BitVec 32) : (applyAll s last).word b = s.word b := by
  unfold last
  micro

end TinyGarble.Proof.Hdl.A23.Sym.Merge
