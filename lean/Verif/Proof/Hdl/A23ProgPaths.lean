import Verif.Proof.Hdl.A23ProgDijkstra

set_option linter.unusedSimpArgs false

/-! # What the program dijkstra computes -/

namespace TinyGarble.Proof.Hdl.A23.Sym.Dijkstra

open TinyGarble.Spec.Arm
open TinyGarble.Hdl.A23.Programs (dijkstraCode)
open Sum (imm_one)
open Bubble (holds_gt)

/-! ## Conditions after a comparison -/

theorem holds_eq (x y : BitVec 32) : holds 0 (diff x y true).2 = decide (x = y) := by
  show decide ((diff x y true).1 = 0) = _
  rw [diff_sub, decide_eq_decide]
  constructor
  · intro h; have := BitVec.sub_add_cancel x y; rw [h] at this; simpa using this.symm
  · rintro rfl; exact BitVec.sub_self _

theorem holds_ne (x y : BitVec 32) : holds 1 (diff x y true).2 = !decide (x = y) := congrArg (!·) (holds_eq x y)

theorem holds_le (x y : BitVec 32) : holds 13 (diff x y true).2 = decide (x.toInt ≤ y.toInt) := by
  have h : holds 13 (diff x y true).2 = !holds 12 (diff x y true).2 := by
    generalize (diff x y true).2 = f
    show (f.z || f.n != f.v) = !(!f.z && f.n == f.v)
    cases f.z <;> cases f.n <;> cases f.v <;> rfl
  rw [h, holds_gt, Bool.eq_iff_iff]
  simp

theorem holds_lt (x y : BitVec 32) : holds 11 (diff x y true).2 = decide (x.toInt < y.toInt) := by
  have h : holds 11 (diff x y true).2 = (holds 13 (diff x y true).2 && !holds 0 (diff x y true).2) := by
    have hz := holds_eq x y
    by_cases hxy : x = y
    · subst hxy
      rw [hz, decide_eq_true rfl, Bool.not_true, Bool.and_false]
      have : (diff x x true).2 = ⟨false, true, true, false⟩ := by
        unfold diff
        simp only [Bool.not_true, Bool.toNat_false, BitVec.sub_self, Nat.add_zero, Nat.le_refl, decide_true]
        rw [Int.sub_self]
        rfl
      rw [this]; rfl
    · rw [hz, decide_eq_false hxy, Bool.not_false, Bool.and_true]
      have : (diff x y true).2.z = false := by
        have : holds 0 (diff x y true).2 = false := by rw [hz, decide_eq_false hxy]
        exact this
      show ((diff x y true).2.n != (diff x y true).2.v) = ((diff x y true).2.z || (diff x y true).2.n != (diff x y true).2.v)
      rw [this, Bool.false_or]
  rw [h, holds_le, holds_eq, Bool.eq_iff_iff]
  simp only [Bool.and_eq_true, decide_eq_true_eq, Bool.not_eq_true', decide_eq_false_iff_not]
  rw [← BitVec.toInt_inj]
  omega

theorem holds_ge (x y : BitVec 32) : holds 10 (diff x y true).2 = decide (y.toInt ≤ x.toInt) := by
  have h : holds 10 (diff x y true).2 = !holds 11 (diff x y true).2 := by
    generalize (diff x y true).2 = f
    show (f.n == f.v) = !(f.n != f.v)
    cases f.n <;> cases f.v <;> rfl
  rw [h, holds_lt, Bool.eq_iff_iff]
  simp

theorem holds_cc_one (p : BitVec 32) : holds 3 (diff 1 p true).2 = !decide (p.toNat ≤ 1) := rfl

/-! ## Words -/

theorem cell (a b : Nat) (ha : a < 2 ^ 32) (hb : b < 2 ^ 32) : (align (BitVec.ofNat 32 a) = align (BitVec.ofNat 32 b)) = (a / 4 = b / 4) :=
  propext (align_iff a b ha hb)

/-- What the memory holds: the graph, the distances and the marks. -/
structure Holds (G d p : Nat → BitVec 32) (s : State) : Prop where
  graph : ∀ i < 64, s.word (graphAt i) = G i
  dist : ∀ v < 8, s.word (distAt v) = d v
  mark : ∀ v < 8, s.word (markAt v) = p v

/-- Search for the nearest vertex among the first ones: the distance and the vertex. -/
def pick (d p : Nat → BitVec 32) (u0 : BitVec 32) : Nat → BitVec 32 × BitVec 32
  | 0 => (0x7fff, u0)
  | v + 1 => if p v = 0 ∧ (d v).toInt ≤ (pick d p u0 v).1.toInt then (d v, at' v) else pick d p u0 v

/-- Update of distance `v` by way of `u`. -/
def relax1 (G p : Nat → BitVec 32) (u v : Nat) (d : Nat → BitVec 32) : Nat → BitVec 32 :=
  fun x => if x = v ∧ p v = 0 ∧ d u ≠ 0x7fff ∧ G (8 * u + v) ≠ 0 ∧ (d u + G (8 * u + v)).toInt < (d v).toInt then d u + G (8 * u + v) else d x

def relaxAll (G p : Nat → BitVec 32) (u : Nat) (d : Nat → BitVec 32) : Nat → Nat → BitVec 32
  | 0 => d
  | v + 1 => relax1 G p u v (relaxAll G p u d v)

theorem mbody_word (s : State) (v : Nat) (b : BitVec 32) : (applyAll s (mbody v)).word b = s.word b := by
  unfold mbody
  micro

theorem mbody_reg12 (s : State) (v : Nat) : (applyAll s (mbody v)).reg 12 = s.reg 12 := by
  unfold mbody
  micro

theorem mbody_regs (s : State) (v : Nat) : ((applyAll s (mbody v)).reg 1, (applyAll s (mbody v)).reg 14) =
    if s.word (markAt v) = 0 ∧ (s.word (distAt v)).toInt ≤ (s.reg 1).toInt then (s.word (distAt v), at' v) else (s.reg 1, s.reg 14) := by
  unfold mbody
  micro
  simp only [imm_zero, imm_one, ite_self, holds_le]
  generalize s.word (distAt v) = x
  generalize s.word (markAt v) = m
  generalize s.reg 1 = y
  by_cases h1 : x.toInt ≤ y.toInt
  · by_cases h2 : m = 0
    · simp (config := { decide := true }) only [h1, h2, holds_eq, holds_ne, if_true, if_false, decide_true, decide_false, Bool.false_eq_true, Bool.not_true, Bool.not_false, not_true, not_false_iff, ne_eq, and_true, and_false, true_and, false_and]
    · simp (config := { decide := true }) only [h1, h2, holds_eq, holds_ne, if_true, if_false, decide_true, decide_false, Bool.false_eq_true, Bool.not_true, Bool.not_false, not_true, not_false_iff, ne_eq, and_true, and_false, true_and, false_and]
  · have h3 : x ≠ y := fun h => h1 (by rw [h])
    simp (config := { decide := true }) only [h1, h3, holds_eq, holds_ne, if_true, if_false, decide_true, decide_false, Bool.false_eq_true, Bool.not_true, Bool.not_false, not_true, not_false_iff, ne_eq, and_true, and_false, true_and, false_and]

theorem ibody_word (s : State) (u v : Nat) (b : BitVec 32) : (applyAll s (ibody u v)).word b =
    if align (distAt v) = align b ∧ s.word (markAt v) = 0 ∧ s.word (distAt u) ≠ 0x7fff ∧ s.word (graphAt (8 * u + v)) ≠ 0 ∧
      (s.word (distAt u) + s.word (graphAt (8 * u + v))).toInt < (s.word (distAt v)).toInt
    then s.word (distAt u) + s.word (graphAt (8 * u + v)) else s.word b := by
  unfold ibody
  micro
  simp only [imm_zero, imm_one, ite_self, sum_add, diff_sub, holds_eq, holds_ne, holds_ge, holds_lt, holds_cc_one]
  generalize s.word (distAt v) = x
  generalize s.word (markAt v) = m
  generalize s.word (graphAt (8 * u + v)) = w
  generalize s.word (distAt u) = y
  generalize y + w = a
  by_cases h1 : a.toInt < x.toInt
  swap
  · have : x.toInt ≤ a.toInt := by omega
    simp (config := { decide := true }) only [h1, this, if_true, if_false, decide_true, decide_false, Bool.false_eq_true, Bool.not_true, Bool.not_false, not_true, not_false_iff, ne_eq, and_true, and_false, true_and, false_and]
  have h1' : ¬ x.toInt ≤ a.toInt := by omega
  by_cases h2 : w = 0
  · simp (config := { decide := true }) only [h1, h1', h2, if_true, if_false, decide_true, decide_false, Bool.false_eq_true, Bool.not_true, Bool.not_false, not_true, not_false_iff, ne_eq, and_true, and_false, true_and, false_and]
  by_cases h3 : y = 0x7fff
  · simp (config := { decide := true }) only [h1, h1', h2, h3, if_true, if_false, decide_true, decide_false, Bool.false_eq_true, Bool.not_true, Bool.not_false, not_true, not_false_iff, ne_eq, and_true, and_false, true_and, false_and]
  by_cases h4 : m = 0
  · simp (config := { decide := true }) only [h1, h1', h2, h3, h4, if_true, if_false, decide_true, decide_false, Bool.false_eq_true, Bool.not_true, Bool.not_false, not_true, not_false_iff, ne_eq, and_true, and_false, true_and, false_and]
  by_cases h5 : m.toNat ≤ 1
  · have : m = 1 := by
      apply BitVec.eq_of_toNat_eq
      have : m.toNat ≠ 0 := fun h => h4 (BitVec.eq_of_toNat_eq h)
      show m.toNat = 1
      omega
    simp (config := { decide := true }) only [h1, h1', h2, h3, h5, this, if_true, if_false, decide_true, decide_false, Bool.false_eq_true, Bool.not_true, Bool.not_false, not_true, not_false_iff, ne_eq, and_true, and_false, true_and, false_and]
  · simp (config := { decide := true }) only [h1, h1', h2, h3, h4, h5, if_true, if_false, decide_true, decide_false, Bool.false_eq_true, Bool.not_true, Bool.not_false, not_true, not_false_iff, ne_eq, and_true, and_false, true_and, false_and]

theorem ibody_reg12 (s : State) (u v : Nat) : (applyAll s (ibody u v)).reg 12 = s.reg 12 := by
  unfold ibody
  micro

theorem ostart_word (s : State) (b : BitVec 32) : (applyAll s ostart).word b = s.word b := by
  unfold ostart
  micro

theorem ostart_regs (s : State) : (applyAll s ostart).reg 12 = s.reg 12 ∧ (applyAll s ostart).reg 1 = 0x7fff ∧ (applyAll s ostart).reg 14 = s.reg 14 := by
  unfold ostart
  refine ⟨?_, ?_, ?_⟩ <;> micro

theorem ustart_word (s : State) (u : Nat) (b : BitVec 32) : (applyAll s (ustart u)).word b = if align (markAt u) = align b then 1 else s.word b := by
  unfold ustart
  micro

theorem ustart_reg12 (s : State) (u : Nat) : (applyAll s (ustart u)).reg 12 = s.reg 12 := by
  unfold ustart
  micro

theorem iend_word (s : State) (t : Nat) (b : BitVec 32) : (applyAll s (iend t)).word b = s.word b := by
  unfold iend
  micro

theorem last_word (s : State) (b : BitVec 32) : (applyAll s last).word b = s.word b := by
  unfold last
  micro

theorem mid_word (s : State) (b : BitVec 32) : (applyAll s mid).word b = s.word b := by
  unfold mid
  micro

theorem mid2_word (s : State) (b : BitVec 32) : (applyAll s mid2).word b = if align (distAt 0) = align b then 0 else s.word b := by
  unfold mid2
  micro

theorem dbody_word (s : State) (v : Nat) (b : BitVec 32) : (applyAll s (dbody v)).word b =
    if align (markAt v) = align b then 0 else if align (distAt v) = align b then 0x7fff else s.word b := by
  unfold dbody
  micro

theorem rstart_word (s : State) (i : Nat) (b : BitVec 32) : (applyAll s (rstart i)).word b = s.word b := by
  unfold rstart
  micro

theorem rend_word (s : State) (i : Nat) (b : BitVec 32) : (applyAll s (rend i)).word b = s.word b := by
  unfold rend
  micro

theorem xbody_word (s : State) (i j : Nat) (b : BitVec 32) : (applyAll s (xbody i j)).word b =
    if align (graphAt (8 * i + j)) = align b then
      s.word (BitVec.ofNat 32 (0x01000000 + 4 * (8 * i + j))) ^^^ s.word (BitVec.ofNat 32 (0x02000000 + 4 * (8 * i + j))) else s.word b := by
  unfold xbody
  micro
  rw [BitVec.xor_comm]

theorem first_word (s : State) (b : Nat) (hb : b < 0x04000000) : (applyAll s first).word (BitVec.ofNat 32 b) = s.word (BitVec.ofNat 32 b) := by
  unfold first
  micro
  have : ∀ c, 0x04000000 ≤ c → c < 0x05000000 → (align (BitVec.ofNat 32 c) = align (BitVec.ofNat 32 b)) = False := fun c h1 h2 => by
    rw [cell _ _ (by omega) (by omega)]; exact eq_false (by omega)
  simp only [this _ (show 0x04000000 ≤ 0x040000e0 by omega) (by omega), this _ (show 0x04000000 ≤ 0x040000e4 by omega) (by omega),
    this _ (show 0x04000000 ≤ 0x040000e8 by omega) (by omega), this _ (show 0x04000000 ≤ 0x040000ec by omega) (by omega),
    this _ (show 0x04000000 ≤ 0x040000f0 by omega) (by omega), this _ (show 0x04000000 ≤ 0x040000f4 by omega) (by omega),
    this _ (show 0x04000000 ≤ 0x040000f8 by omega) (by omega), this _ (show 0x04000000 ≤ 0x040000fc by omega) (by omega), if_false]

end TinyGarble.Proof.Hdl.A23.Sym.Dijkstra
