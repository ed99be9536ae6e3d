import Verif.Proof.Hdl.A23Decode

/-! # The ARM processor: memory -/

namespace TinyGarble.Proof.Hdl.A23

open TinyGarble TinyGarble.Hdl TinyGarble.Hdl.A23
open TinyGarble.Spec.Arm (Layout State align addr)
open TinyGarble.Spec.Mips (fetch put)

/-- The layout of the memories. -/
def lay (z : Sizes) : Layout := ⟨z.code, z.g, z.e, z.out, z.stack⟩

/-- Memory `k`. -/
def sel (m : Mem) (k : Nat) : Nat → BitVec 8 :=
  match k with
  | 0 => m.p
  | 1 => m.g
  | 2 => m.e
  | 3 => m.out
  | 4 => m.stack
  | _ => fun _ => 0

/-- The size of memory `k`. -/
def size (z : Sizes) (k : Nat) : Nat :=
  match k with
  | 0 => z.code
  | 1 => z.g
  | 2 => z.e
  | 3 => z.out
  | 4 => z.stack
  | _ => 0

/-- The memories together. -/
def absMem (m : Mem) (a : BitVec 32) : BitVec 8 := sel m (a.toNat / 2 ^ 24) (a.toNat % 2 ^ 24)

theorem cases5 {k : Nat} (h : k < 5) : k = 0 ∨ k = 1 ∨ k = 2 ∨ k = 3 ∨ k = 4 := by omega

theorem readable_iff (z : Sizes) (a : BitVec 32) : (lay z).readable a = true ↔ a.toNat / 2 ^ 24 < 5 ∧ a.toNat % 2 ^ 24 < 4 * size z (a.toNat / 2 ^ 24) := by
  unfold Layout.readable
  generalize a.toNat / 2 ^ 24 = k
  generalize a.toNat % 2 ^ 24 = i
  by_cases h : k < 5
  · rcases cases5 h with rfl | rfl | rfl | rfl | rfl <;> exact decide_eq_true_iff.trans ⟨fun h => ⟨by omega, h⟩, fun h => h.2⟩
  · match k, h with
    | k + 5, h => simp

theorem writable_iff (z : Sizes) (a : BitVec 32) : (lay z).writable a = true ↔
    (a.toNat / 2 ^ 24 = 0 ∨ a.toNat / 2 ^ 24 = 3 ∨ a.toNat / 2 ^ 24 = 4) ∧ a.toNat % 2 ^ 24 < 4 * size z (a.toNat / 2 ^ 24) := by
  unfold Layout.writable
  rw [Bool.and_eq_true, Bool.and_eq_true, readable_iff, bne_iff_ne, bne_iff_ne]
  omega

theorem region (a : BitVec 32) : (slice a 24 8).toNat = a.toNat / 2 ^ 24 := by
  have := a.isLt
  rw [toNat_slice]
  omega

theorem offset (a : BitVec 32) : (slice a 2 22).toNat * 4 = a.toNat % 2 ^ 24 / 4 * 4 := by
  rw [toNat_slice]
  omega

theorem read_eq (z : Sizes) (m : Mem) (a u : BitVec 32) (h : a.toNat / 2 ^ 24 < 5) :
    m.read z a u = readBytes (size z (a.toNat / 2 ^ 24)) (sel m (a.toNat / 2 ^ 24)) (a.toNat % 2 ^ 24 / 4 * 4) u := by
  unfold Mem.read
  rw [offset, region]
  rcases cases5 h with h | h | h | h | h <;> rw [h] <;> rfl

theorem bytes_eq (b3 b2 b1 b0 : BitVec 8) :
    (b3 ++ b2 ++ b1 ++ b0 : BitVec 32) = BitVec.ofNat 32 (b0.toNat + 2 ^ 8 * (b1.toNat + 2 ^ 8 * (b2.toNat + 2 ^ 8 * b3.toNat))) := by
  apply BitVec.eq_of_toNat_eq
  have h0 := b0.isLt
  have h1 := b1.isLt
  have h2 := b2.isLt
  have h3 := b3.isLt
  rw [BitVec.toNat_ofNat, BitVec.toNat_append, BitVec.toNat_append, BitVec.toNat_append]
  rw [← Nat.shiftLeft_add_eq_or_of_lt h0, ← Nat.shiftLeft_add_eq_or_of_lt h1, ← Nat.shiftLeft_add_eq_or_of_lt h2]
  simp only [Nat.shiftLeft_eq]
  omega

theorem align_toNat (a : BitVec 32) : (align a).toNat = a.toNat / 4 * 4 := by
  have := a.isLt
  rw [align, BitVec.toNat_ofNat]
  omega

theorem absMem_align (m : Mem) (a b : BitVec 32) (j : Nat) (hj : j < 4) (h : b.toNat = a.toNat / 4 * 4 + j) :
    absMem m b = sel m (a.toNat / 2 ^ 24) (a.toNat % 2 ^ 24 / 4 * 4 + j) := by
  unfold absMem
  rw [h, show (a.toNat / 4 * 4 + j) / 2 ^ 24 = a.toNat / 2 ^ 24 by omega, show (a.toNat / 4 * 4 + j) % 2 ^ 24 = a.toNat % 2 ^ 24 / 4 * 4 + j by omega]

theorem read_word (z : Sizes) (m : Mem) (s : State) (a u : BitVec 32) (hm : s.mem = absMem m) (h : (lay z).readable a = true) :
    m.read z a u = s.word a := by
  rw [readable_iff] at h
  rw [read_eq z m a u h.1, readBytes, if_pos (by omega), State.word, hm]
  have ha := align_toNat a
  have hl := a.isLt
  have add1 : ∀ b : BitVec 32, b.toNat + 1 < 2 ^ 32 → (b + 1).toNat = b.toNat + 1 := by
    intro b hb
    rw [BitVec.toNat_add, show (1 : BitVec 32).toNat = 1 from rfl, Nat.mod_eq_of_lt hb]
  have h1 := add1 (align a) (by omega)
  have h2 := add1 (align a + 1) (by omega)
  have h3 := add1 (align a + 1 + 1) (by omega)
  simp only [fetch]
  rw [absMem_align m a _ 0 (by omega) (by omega), absMem_align m a _ 1 (by omega) (by omega), absMem_align m a _ 2 (by omega) (by omega),
    absMem_align m a _ 3 (by omega) (by omega), bytes_eq, Nat.mul_zero, Nat.add_zero]
  rfl

theorem sel_next (z : Sizes) (m : Mem) (a : BitVec 32) (be : BitVec 4) (d : BitVec 32) (k : Nat)
    (h : a.toNat / 2 ^ 24 = 0 ∨ a.toNat / 2 ^ 24 = 3 ∨ a.toNat / 2 ^ 24 = 4) :
    sel (m.next z a true be d) k =
      if k = a.toNat / 2 ^ 24 then writeBytes (size z k) (sel m k) (a.toNat % 2 ^ 24 / 4 * 4) be d else sel m k := by
  unfold Mem.next
  rw [offset, region]
  rcases h with h | h | h <;> rw [h] <;> by_cases hk : k < 5
  · rcases cases5 hk with rfl | rfl | rfl | rfl | rfl <;> rfl
  · match k, hk with
    | k + 5, _ => rfl
  · rcases cases5 hk with rfl | rfl | rfl | rfl | rfl <;> rfl
  · match k, hk with
    | k + 5, _ => rw [if_neg (show ¬ k + 5 = _ by omega)]; rfl
  · rcases cases5 hk with rfl | rfl | rfl | rfl | rfl <;> rfl
  · match k, hk with
    | k + 5, _ => rw [if_neg (show ¬ k + 5 = _ by omega)]; rfl

theorem next_disabled (z : Sizes) (m : Mem) (a : BitVec 32) (be : BitVec 4) (d : BitVec 32) : m.next z a false be d = m := rfl

theorem ofNat_byte (d : BitVec 32) (j : Nat) : BitVec.ofNat 8 (d.toNat / 2 ^ j) = slice d j 8 := by
  apply BitVec.eq_of_toNat_eq
  rw [BitVec.toNat_ofNat, toNat_slice]

theorem put_word (mem : BitVec 32 → BitVec 8) (a : BitVec 32) (v : Nat) (b : BitVec 32) :
    put mem (align a) v 4 b = if b.toNat / 4 = a.toNat / 4 then BitVec.ofNat 8 (v / 2 ^ (8 * (b.toNat % 4))) else mem b := by
  have ha := align_toNat a
  have h1 : (align a).toNat % 4 = 0 := by omega
  have h2 : (align a).toNat / 4 = a.toNat / 4 := by omega
  have h := TinyGarble.Proof.Hdl.Mips.put_aligned (L := 30) 4 mem (align a) v (Nat.le_of_eq (by rw [h1])) b
  rw [h]
  by_cases hb : b.toNat / 4 = a.toNat / 4
  · rw [if_pos hb, if_pos ⟨hb.trans h2.symm, by rw [h1]; exact Nat.zero_le _, by rw [h1]; exact Nat.mod_lt _ (by omega)⟩, h1, Nat.sub_zero]
  · rw [if_neg hb, if_neg (fun h => hb (h.1.trans h2))]

theorem write_word (z : Sizes) (m : Mem) (a d : BitVec 32) (h : (lay z).writable a = true) :
    absMem (m.next z a true 0b1111 d) = put (absMem m) (align a) d.toNat 4 := by
  rw [writable_iff] at h
  funext b
  have hb := b.isLt
  have ha := align_toNat a
  rw [put_word]
  rw [absMem, sel_next z m a _ d _ h.1]
  by_cases hk : b.toNat / 2 ^ 24 = a.toNat / 2 ^ 24
  · rw [if_pos hk, writeBytes]
    show (if b.toNat % 2 ^ 24 < 4 * size z (b.toNat / 2 ^ 24) then
      (if b.toNat % 2 ^ 24 = a.toNat % 2 ^ 24 / 4 * 4 + 3 then slice d 24 8
       else if b.toNat % 2 ^ 24 = a.toNat % 2 ^ 24 / 4 * 4 + 2 then slice d 16 8
       else if b.toNat % 2 ^ 24 = a.toNat % 2 ^ 24 / 4 * 4 + 1 then slice d 8 8
       else if b.toNat % 2 ^ 24 = a.toNat % 2 ^ 24 / 4 * 4 then slice d 0 8 else sel m (b.toNat / 2 ^ 24) (b.toNat % 2 ^ 24))
      else sel m (b.toNat / 2 ^ 24) (b.toNat % 2 ^ 24)) = _
    by_cases h4 : b.toNat / 4 = a.toNat / 4
    · rw [if_pos (by rw [hk]; omega), if_pos h4]
      have h5 : b.toNat % 4 = 0 ∨ b.toNat % 4 = 1 ∨ b.toNat % 4 = 2 ∨ b.toNat % 4 = 3 := by omega
      rcases h5 with h5 | h5 | h5 | h5
      · rw [if_neg (by omega), if_neg (by omega), if_neg (by omega), if_pos (by omega), h5]; exact (ofNat_byte d 0).symm
      · rw [if_neg (by omega), if_neg (by omega), if_pos (by omega), h5]; exact (ofNat_byte d 8).symm
      · rw [if_neg (by omega), if_pos (by omega), h5]; exact (ofNat_byte d 16).symm
      · rw [if_pos (by omega), h5]; exact (ofNat_byte d 24).symm
    · rw [if_neg (by omega : ¬ b.toNat % 2 ^ 24 = a.toNat % 2 ^ 24 / 4 * 4 + 3), if_neg (by omega : ¬ b.toNat % 2 ^ 24 = a.toNat % 2 ^ 24 / 4 * 4 + 2), if_neg (by omega : ¬ b.toNat % 2 ^ 24 = a.toNat % 2 ^ 24 / 4 * 4 + 1), if_neg (by omega : ¬ b.toNat % 2 ^ 24 = a.toNat % 2 ^ 24 / 4 * 4), if_neg h4]
      split <;> rfl
  · rw [if_neg hk, if_neg (by omega)]
    rfl

/-- The enable signals of a byte. -/
def byteSel (a : BitVec 32) : BitVec 4 :=
  match (slice a 0 2).toNat with
  | 0 => 0b0001
  | 1 => 0b0010
  | 2 => 0b0100
  | _ => 0b1000

theorem write_byte (z : Sizes) (m : Mem) (a d : BitVec 32) (v : Nat) (hv : BitVec.ofNat 8 v = slice d 0 8) (h : (lay z).writable a = true) :
    absMem (m.next z a true (byteSel a) d) = put (absMem m) a v 1 := by
  rw [writable_iff] at h
  funext b
  have hb := b.isLt
  have hal := a.isLt
  show _ = if b = a then BitVec.ofNat 8 v else absMem m b
  rw [hv, absMem, sel_next z m a _ d _ h.1]
  have hs : (slice a 0 2).toNat = a.toNat % 4 := by rw [toNat_slice]; omega
  have hba : b = a ↔ b.toNat = a.toNat := BitVec.toNat_inj.symm
  by_cases hk : b.toNat / 2 ^ 24 = a.toNat / 2 ^ 24
  · rw [if_pos hk, writeBytes]
    have h5 : a.toNat % 4 = 0 ∨ a.toNat % 4 = 1 ∨ a.toNat % 4 = 2 ∨ a.toNat % 4 = 3 := by omega
    have hm : (match (byteSel a).toNat with
      | 15 => if b.toNat % 2 ^ 24 = a.toNat % 2 ^ 24 / 4 * 4 + 3 then slice d 24 8
       else if b.toNat % 2 ^ 24 = a.toNat % 2 ^ 24 / 4 * 4 + 2 then slice d 16 8
       else if b.toNat % 2 ^ 24 = a.toNat % 2 ^ 24 / 4 * 4 + 1 then slice d 8 8
       else if b.toNat % 2 ^ 24 = a.toNat % 2 ^ 24 / 4 * 4 then slice d 0 8 else sel m (b.toNat / 2 ^ 24) (b.toNat % 2 ^ 24)
      | 1 => if b.toNat % 2 ^ 24 = a.toNat % 2 ^ 24 / 4 * 4 then slice d 0 8 else sel m (b.toNat / 2 ^ 24) (b.toNat % 2 ^ 24)
      | 2 => if b.toNat % 2 ^ 24 = a.toNat % 2 ^ 24 / 4 * 4 + 1 then slice d 0 8 else sel m (b.toNat / 2 ^ 24) (b.toNat % 2 ^ 24)
      | 4 => if b.toNat % 2 ^ 24 = a.toNat % 2 ^ 24 / 4 * 4 + 2 then slice d 0 8 else sel m (b.toNat / 2 ^ 24) (b.toNat % 2 ^ 24)
      | 8 => if b.toNat % 2 ^ 24 = a.toNat % 2 ^ 24 / 4 * 4 + 3 then slice d 0 8 else sel m (b.toNat / 2 ^ 24) (b.toNat % 2 ^ 24)
      | _ => sel m (b.toNat / 2 ^ 24) (b.toNat % 2 ^ 24)) =
      if b.toNat % 2 ^ 24 = a.toNat % 2 ^ 24 then slice d 0 8 else sel m (b.toNat / 2 ^ 24) (b.toNat % 2 ^ 24) := by
      unfold byteSel
      rw [hs]
      rcases h5 with h5 | h5 | h5 | h5 <;> rw [h5]
      · show (if b.toNat % 2 ^ 24 = a.toNat % 2 ^ 24 / 4 * 4 then _ else _) = _
        rw [show a.toNat % 2 ^ 24 / 4 * 4 = a.toNat % 2 ^ 24 by omega]
      · show (if b.toNat % 2 ^ 24 = a.toNat % 2 ^ 24 / 4 * 4 + 1 then _ else _) = _
        rw [show a.toNat % 2 ^ 24 / 4 * 4 + 1 = a.toNat % 2 ^ 24 by omega]
      · show (if b.toNat % 2 ^ 24 = a.toNat % 2 ^ 24 / 4 * 4 + 2 then _ else _) = _
        rw [show a.toNat % 2 ^ 24 / 4 * 4 + 2 = a.toNat % 2 ^ 24 by omega]
      · show (if b.toNat % 2 ^ 24 = a.toNat % 2 ^ 24 / 4 * 4 + 3 then _ else _) = _
        rw [show a.toNat % 2 ^ 24 / 4 * 4 + 3 = a.toNat % 2 ^ 24 by omega]
    refine Eq.trans (congrArg (fun v => if b.toNat % 2 ^ 24 < 4 * size z (b.toNat / 2 ^ 24) then v else sel m (b.toNat / 2 ^ 24) (b.toNat % 2 ^ 24)) hm) ?_
    show (if b.toNat % 2 ^ 24 < 4 * size z (b.toNat / 2 ^ 24) then
      (if b.toNat % 2 ^ 24 = a.toNat % 2 ^ 24 then slice d 0 8 else sel m (b.toNat / 2 ^ 24) (b.toNat % 2 ^ 24)) else _) = _
    by_cases e : b.toNat = a.toNat
    · rw [if_pos (hba.2 e), if_pos (by rw [hk]; omega), if_pos (by omega)]
    · rw [if_neg (fun h => e (hba.1 h)), if_neg (by omega : ¬ b.toNat % 2 ^ 24 = a.toNat % 2 ^ 24)]
      split <;> rfl
  · rw [if_neg hk, if_neg (fun h => by rw [h] at hk; exact hk rfl)]
    rfl

end TinyGarble.Proof.Hdl.A23
