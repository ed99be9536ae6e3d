import Verif.Proof.Hdl.A23Transfer

/-! # The ARM processor: lists of registers -/

namespace TinyGarble.Proof.Hdl.A23

open TinyGarble TinyGarble.Hdl TinyGarble.Hdl.A23
open TinyGarble.Spec.Arm (registers)

/-- The registers in the list of an instruction. -/
def regsOf (y : BitVec 32) : List (BitVec 4) := registers (slice y 0 16)

theorem regsOf_eq (y : BitVec 32) : regsOf y = ((List.range 16).filter fun k => y.getLsbD k).map (BitVec.ofNat 4) := by
  unfold regsOf registers
  congr 1
  apply List.filter_congr
  intro k hk
  rw [getLsbD_slice, decide_eq_true (List.mem_range.1 hk), Bool.true_and, Nat.zero_add]

theorem mem_regsOf (y : BitVec 32) (k : BitVec 4) : k ∈ regsOf y ↔ y.getLsbD k.toNat = true := by
  rw [regsOf_eq, List.mem_map]
  constructor
  · rintro ⟨j, hj, rfl⟩
    rw [List.mem_filter, List.mem_range] at hj
    rw [BitVec.toNat_ofNat, Nat.mod_eq_of_lt hj.1]; exact hj.2
  · intro h
    exact ⟨k.toNat, List.mem_filter.2 ⟨List.mem_range.2 k.isLt, h⟩, by rw [BitVec.ofNat_toNat, BitVec.setWidth_eq]⟩

theorem filter_first (p : Nat → Bool) (n m : Nat) (hm : m < n) (h : p m = true) (hl : ∀ k < m, p k = false) :
    (List.range n).filter p = m :: (List.range n).filter fun k => p k && decide (m < k) := by
  have hr : List.range n = List.range m ++ m :: (List.range (n - m - 1)).map (fun i => m + 1 + i) := by
    obtain ⟨d, rfl⟩ : ∃ d, n = m + (1 + d) := ⟨n - m - 1, by omega⟩
    rw [List.range_add, List.range_add]
    congr 1
    rw [List.map_append, List.map_map]
    simp only [List.range_one, List.map_cons, List.map_nil, List.cons_append, List.nil_append, Nat.add_zero]
    rw [show m + (1 + d) - m - 1 = d by omega]
    congr 1
    apply List.map_congr_left
    intro i _
    show m + (1 + i) = m + 1 + i
    omega
  rw [hr, List.filter_append, List.filter_append, List.filter_cons, if_pos h, List.filter_cons, if_neg (by simp)]
  have h1 : (List.range m).filter p = [] := by
    rw [List.filter_eq_nil_iff]
    intro k hk
    rw [hl k (List.mem_range.1 hk)]; decide
  have h2 : ((List.range m).filter fun k => p k && decide (m < k)) = [] := by
    rw [List.filter_eq_nil_iff]
    intro k hk
    rw [hl k (List.mem_range.1 hk)]; simp
  rw [h1, h2, List.nil_append, List.nil_append]
  congr 1
  apply List.filter_congr
  intro k hk
  obtain ⟨i, -, rfl⟩ := List.mem_map.1 hk
  rw [decide_eq_true (by omega), Bool.and_true]

theorem mtransReg_spec (y : BitVec 32) (h : ∃ k < 16, y.getLsbD k = true) :
    y.getLsbD (mtransReg y).toNat = true ∧ ∀ k < (mtransReg y).toNat, y.getLsbD k = false := by
  generalize hp : (fun k => y.getLsbD k) = p at *
  have hy : ∀ k, y.getLsbD k = p k := fun k => congrFun hp k
  have key : ∃ m < 16, p m = true ∧ ∀ k < m, p k = false := by
    have hex : ∃ k, p k = true := by obtain ⟨k, -, h⟩ := h; exact ⟨k, by rw [← hy]; exact h⟩
    obtain ⟨k, hk, hpk⟩ := h
    rw [hy] at hpk
    refine ⟨Nat.find hex, Nat.lt_of_le_of_lt (Nat.find_min' hex hpk) hk, Nat.find_spec hex, ?_⟩
    intro j hj
    simpa using Nat.find_min hex hj
  obtain ⟨m, hm, h1, h2⟩ := key
  have hr : (mtransReg y).toNat = m := by
    unfold mtransReg
    simp only [hy]
    have hc : m = 0 ∨ m = 1 ∨ m = 2 ∨ m = 3 ∨ m = 4 ∨ m = 5 ∨ m = 6 ∨ m = 7 ∨ m = 8 ∨ m = 9 ∨ m = 10 ∨ m = 11 ∨ m = 12 ∨ m = 13 ∨ m = 14 ∨ m = 15 := by omega
    rcases hc with rfl | rfl | rfl | rfl | rfl | rfl | rfl | rfl | rfl | rfl | rfl | rfl | rfl | rfl | rfl | rfl <;>
      simp [h1, h2]
  rw [hr]
  exact ⟨by rw [hy]; exact h1, fun k hk => by rw [hy]; exact h2 k hk⟩

theorem getLsbD_mtrans (y : BitVec 32) (k : Nat) (hk : k < 32) : (mtransInstruction y).getLsbD k =
    if k < 16 then y.getLsbD k && decide ((mtransReg y).toNat < k) else y.getLsbD k := by
  rw [mtransInstruction, getLsbD_ofBits, decide_eq_true hk, Bool.true_and]

theorem regsOf_ne (y : BitVec 32) (h : regsOf y ≠ []) : ∃ k < 16, y.getLsbD k = true := by
  obtain ⟨k, hk⟩ := List.exists_mem_of_ne_nil _ h
  exact ⟨k.toNat, k.isLt, (mem_regsOf y k).1 hk⟩

theorem regsOf_cons (y : BitVec 32) (h : regsOf y ≠ []) : regsOf y = mtransReg y :: regsOf (mtransInstruction y) := by
  obtain ⟨h1, h2⟩ := mtransReg_spec y (regsOf_ne y h)
  rw [regsOf_eq, filter_first _ 16 (mtransReg y).toNat (mtransReg y).isLt h1 h2, List.map_cons, BitVec.ofNat_toNat, BitVec.setWidth_eq, regsOf_eq]
  congr 2
  apply List.filter_congr
  intro k hk
  have hk := List.mem_range.1 hk
  rw [getLsbD_mtrans y k (by omega), if_pos hk]

theorem regsOf_rest (y : BitVec 32) (k : BitVec 4) (h : k ∈ regsOf (mtransInstruction y)) : (mtransReg y).toNat < k.toNat ∧ k ∈ regsOf y := by
  rw [mem_regsOf, getLsbD_mtrans y _ (by have := k.isLt; omega), if_pos k.isLt, Bool.and_eq_true, decide_eq_true_eq] at h
  exact ⟨h.2, (mem_regsOf y k).2 h.1⟩

theorem regsOf_nil (y : BitVec 32) : regsOf y = [] ↔ slice y 0 16 = 0 := by
  constructor
  · intro h
    apply eq_of_bits
    intro i hi
    rw [getLsbD_slice, decide_eq_true hi, Bool.true_and, Nat.zero_add, show BitVec.getLsbD (0 : BitVec 16) i = false from BitVec.getLsbD_zero]
    have := mem_regsOf y (BitVec.ofNat 4 i)
    rw [h, BitVec.toNat_ofNat, Nat.mod_eq_of_lt hi] at this
    cases hb : y.getLsbD i with
    | false => rfl
    | true => exact absurd (this.2 hb) (by simp)
  · intro h
    unfold regsOf
    rw [h]; rfl

theorem length_regsOf (y : BitVec 32) : (regsOf y).length = (List.range 16).countP fun k => y.getLsbD k := by
  rw [regsOf_eq, List.length_map, List.countP_eq_length_filter]

theorem length_le (y : BitVec 32) : (regsOf y).length ≤ 16 := by
  rw [length_regsOf]
  exact List.countP_le_length

theorem num_fold (y : BitVec 32) (l : List Nat) (s : BitVec 5) :
    l.foldl (fun s k => s + (0#4 ++ BitVec.ofBool (y.getLsbD (15 - k)))) s = s + BitVec.ofNat 5 (l.countP fun k => y.getLsbD (15 - k)) := by
  induction l generalizing s with
  | nil => simp
  | cons k l ih =>
    rw [List.foldl_cons, ih, List.countP_cons, BitVec.add_assoc, BitVec.ofNat_add, BitVec.add_comm (BitVec.ofNat 5 _)]
    congr 2
    cases y.getLsbD (15 - k) <;> rfl

theorem mtransNum_eq (y : BitVec 32) : mtransNum y = BitVec.ofNat 5 (regsOf y).length := by
  unfold mtransNum
  rw [num_fold, length_regsOf, show (0 : BitVec 5) + _ = _ from BitVec.zero_add _]
  congr 1
  show List.countP _ [0, 1, 2, 3, 4, 5, 6, 7, 8, 9, 10, 11, 12, 13, 14, 15] = List.countP _ [0, 1, 2, 3, 4, 5, 6, 7, 8, 9, 10, 11, 12, 13, 14, 15]
  simp only [List.countP_cons, List.countP_nil, Nat.reduceSub]
  omega

theorem mtransNum_iff (y : BitVec 32) (n : Nat) (hn : n < 32) : mtransNum y = BitVec.ofNat 5 n ↔ (regsOf y).length = n := by
  have := length_le y
  rw [mtransNum_eq, ← BitVec.toNat_inj, BitVec.toNat_ofNat, BitVec.toNat_ofNat, Nat.mod_eq_of_lt (show _ < 2 ^ 5 by omega),
    Nat.mod_eq_of_lt (show n < 2 ^ 5 by omega)]

theorem itype_mtrans_iff (x : BitVec 32) : itype x = .mtrans ↔ slice x 25 3 = 4 := by
  constructor
  · intro h
    unfold itype at h
    by_cases h4 : slice x 25 3 = 4
    · exact h4
    · repeat (split at h; · cases h)
      cases h
  · intro h
    rw [slice_iff] at h
    rw [itype_other h (by decide) (by decide)]; rfl

theorem itype_rest {y : BitVec 32} (h : itype y = .mtrans) : itype (mtransInstruction y) = .mtrans := by
  rw [itype_mtrans_iff] at h ⊢
  rw [← h]
  apply eq_of_bits
  intro i hi
  rw [getLsbD_slice, getLsbD_slice, getLsbD_mtrans y _ (by omega), if_neg (by omega)]

end TinyGarble.Proof.Hdl.A23
