import Verif.Proof.Hdl.A23SymMem

/-! # The effects of micro-operations on registers, flags and memory -/

namespace TinyGarble.Proof.Hdl.A23.Sym

open TinyGarble.Spec.Arm
open TinyGarble.Spec.Mips (put fetch)

variable (s : State)

theorem applyAll_nil : applyAll s [] = s := id rfl

theorem applyAll_cons (m : Micro) (ms : List Micro) : applyAll s (m :: ms) = applyAll (m.apply s) ms := id rfl

theorem holds_always (f : Flags) : holds 14 f = true := id rfl

theorem word_of_mem {s s' : State} (h : s'.mem = s.mem) (b : BitVec 32) : s'.word b = s.word b := word_congr h b

theorem word_putWord (a b v : BitVec 32) : (s.putWord a v).word b = if align a = align b then v else s.word b := by
  split
  · rename_i h
    rw [← word_align, ← h, word_align, word_putWord_same]
  · rename_i h
    exact word_put_word s _ _ _ v.toNat rfl h

theorem align_iff (a b : Nat) (ha : a < 2 ^ 32) (hb : b < 2 ^ 32) : align (BitVec.ofNat 32 a) = align (BitVec.ofNat 32 b) ↔ a / 4 = b / 4 := by
  constructor
  · intro h
    have := congrArg BitVec.toNat h
    rw [align_toNat, align_toNat, BitVec.toNat_ofNat, BitVec.toNat_ofNat, Nat.mod_eq_of_lt ha, Nat.mod_eq_of_lt hb] at this
    omega
  · intro h
    apply BitVec.eq_of_toNat_eq
    rw [align_toNat, align_toNat, BitVec.toNat_ofNat, BitVec.toNat_ofNat, Nat.mod_eq_of_lt ha, Nat.mod_eq_of_lt hb, h]

theorem align_ne (a b : Nat) (ha : a < 2 ^ 32) (hb : b < 2 ^ 32) (h : a / 4 ≠ b / 4) : align (BitVec.ofNat 32 a) ≠ align (BitVec.ofNat 32 b) :=
  fun he => h ((align_iff a b ha hb).1 he)

section const
variable (rd : BitVec 4) (v : BitVec 32)
theorem const_reg (k : BitVec 4) : ((Micro.const rd v).apply s).reg k = if k = rd then v else s.reg k := id rfl
theorem const_flags : ((Micro.const rd v).apply s).flags = s.flags := id rfl
theorem const_mem : ((Micro.const rd v).apply s).mem = s.mem := id rfl
theorem const_word (b : BitVec 32) : ((Micro.const rd v).apply s).word b = s.word b := id rfl
end const

section flags
variable (f : Flags)
theorem flags_reg : ((Micro.flags f).apply s).reg = s.reg := id rfl
theorem flags_flags : ((Micro.flags f).apply s).flags = f := id rfl
theorem flags_mem : ((Micro.flags f).apply s).mem = s.mem := id rfl
theorem flags_word (b : BitVec 32) : ((Micro.flags f).apply s).word b = s.word b := id rfl
end flags

section dp
variable (g : BitVec 4) (op : Op) (set : Bool) (rd : BitVec 4) (a : Src) (o : Opd)

/-- The result and the flags of data processing. -/
def dpResult : BitVec 32 × Flags := op.eval (a.val s) (o.eval (Src.val s) s.flags.c).1 (o.eval (Src.val s) s.flags.c).2 s.flags

theorem dp_apply : (Micro.dp g op set rd a o).apply s = if holds g s.flags then
    (if op.compare then { s with flags := (dpResult s op a o).2 }
      else { setReg s rd (dpResult s op a o).1 with flags := if set then Circuit.flags op (dpResult s op a o).2 else s.flags }) else s := rfl

theorem dp_reg (k : BitVec 4) : ((Micro.dp g op set rd a o).apply s).reg k =
    if k = rd ∧ op.compare = false ∧ holds g s.flags = true then (dpResult s op a o).1 else s.reg k := by
  rw [dp_apply]
  by_cases h1 : holds g s.flags = true
  · rw [if_pos h1]
    by_cases h2 : op.compare = true
    · rw [if_pos h2, if_neg (by rw [h2]; simp)]
    · rw [if_neg h2]
      show (if k = rd then _ else _) = _
      by_cases h3 : k = rd
      · rw [if_pos h3, if_pos ⟨h3, by simpa using h2, h1⟩]
      · rw [if_neg h3, if_neg fun h => h3 h.1]
  · rw [if_neg h1, if_neg fun h => h1 h.2.2]

theorem dp_flags' : ((Micro.dp g op set rd a o).apply s).flags =
    if holds g s.flags = true then (if op.compare then (dpResult s op a o).2 else if set then Circuit.flags op (dpResult s op a o).2 else s.flags) else s.flags := by
  rw [dp_apply]
  split
  · split <;> rfl
  · rfl

theorem dp_mem : ((Micro.dp g op set rd a o).apply s).mem = s.mem := by
  rw [dp_apply]
  split
  · split <;> rfl
  · rfl

theorem dp_word (b : BitVec 32) : ((Micro.dp g op set rd a o).apply s).word b = s.word b := word_of_mem (dp_mem ..) b
end dp

section mul
variable (g : BitVec 4) (set : Bool) (rd : BitVec 4) (a b : Src)

theorem mul_reg (k : BitVec 4) : ((Micro.mul g set rd a b).apply s).reg k = if k = rd ∧ holds g s.flags = true then a.val s * b.val s else s.reg k := by
  show State.reg (if holds g s.flags = true then _ else s) k = _
  by_cases h1 : holds g s.flags = true
  · rw [if_pos h1]
    show (if k = rd then _ else _) = _
    by_cases h3 : k = rd
    · rw [if_pos h3, if_pos ⟨h3, h1⟩]
    · rw [if_neg h3, if_neg fun h => h3 h.1]
  · rw [if_neg h1, if_neg fun h => h1 h.2]

theorem mul_flags : ((Micro.mul g set rd a b).apply s).flags =
    if holds g s.flags = true then (if set then .result (a.val s * b.val s) s.flags.c s.flags.v else s.flags) else s.flags := by
  show State.flags (if holds g s.flags = true then _ else s) = _
  split <;> rfl

theorem mul_mem : ((Micro.mul g set rd a b).apply s).mem = s.mem := by
  show State.mem (if holds g s.flags = true then _ else s) = _
  split <;> rfl

theorem mul_word (c : BitVec 32) : ((Micro.mul g set rd a b).apply s).word c = s.word c := word_of_mem (mul_mem ..) c
end mul

section load
variable (g : BitVec 4) (byte : Bool) (rd : BitVec 4) (a : BitVec 32)

theorem load_reg (k : BitVec 4) : ((Micro.load g byte rd a).apply s).reg k =
    if k = rd ∧ holds g s.flags = true then (if byte then (s.mem a).zeroExtend 32 else s.word a) else s.reg k := by
  show State.reg (if holds g s.flags = true then _ else s) k = _
  by_cases h1 : holds g s.flags = true
  · rw [if_pos h1]
    show (if k = rd then _ else _) = _
    by_cases h3 : k = rd
    · rw [if_pos h3, if_pos (show k = rd ∧ holds g s.flags = true from ⟨h3, h1⟩)]
    · rw [if_neg h3, if_neg (show ¬ (k = rd ∧ holds g s.flags = true) from fun h => h3 h.1)]
  · rw [if_neg h1, if_neg (show ¬ (k = rd ∧ holds g s.flags = true) from fun h => h1 h.2)]

theorem load_flags : ((Micro.load g byte rd a).apply s).flags = s.flags := by
  show State.flags (if holds g s.flags = true then _ else s) = _
  split <;> rfl

theorem load_mem : ((Micro.load g byte rd a).apply s).mem = s.mem := by
  show State.mem (if holds g s.flags = true then _ else s) = _
  split <;> rfl

theorem load_word (b : BitVec 32) : ((Micro.load g byte rd a).apply s).word b = s.word b := word_of_mem (load_mem ..) b
end load

section store
variable (g : BitVec 4) (byte : Bool) (a : BitVec 32) (x : Src)

theorem store_reg : ((Micro.store g byte a x).apply s).reg = s.reg := by
  show State.reg (if holds g s.flags = true then (if byte then _ else _) else s) = _
  split
  · split <;> rfl
  · rfl

theorem store_flags : ((Micro.store g byte a x).apply s).flags = s.flags := by
  show State.flags (if holds g s.flags = true then (if byte then _ else _) else s) = _
  split
  · split <;> rfl
  · rfl

theorem store_word (b : BitVec 32) : ((Micro.store g false a x).apply s).word b =
    if align a = align b ∧ holds g s.flags = true then x.val s else s.word b := by
  show State.word (if holds g s.flags = true then s.putWord a (x.val s) else s) b = _
  by_cases h1 : holds g s.flags = true
  · rw [if_pos h1, word_putWord]
    by_cases h2 : align a = align b
    · rw [if_pos h2, if_pos ⟨h2, h1⟩]
    · rw [if_neg h2, if_neg fun h => h2 h.1]
  · rw [if_neg h1, if_neg fun h => h1 h.2]

theorem store_mem (b : BitVec 32) : ((Micro.store g true a x).apply s).mem b =
    if b = a ∧ holds g s.flags = true then BitVec.ofNat 8 (x.val s).toNat else s.mem b := by
  show State.mem (if holds g s.flags = true then { s with mem := put s.mem a (x.val s).toNat 1 } else s) b = _
  by_cases h1 : holds g s.flags = true
  · rw [if_pos h1]
    show (if b = a then _ else _) = _
    by_cases h2 : b = a
    · rw [if_pos h2, if_pos ⟨h2, h1⟩]
    · rw [if_neg h2, if_neg fun h => h2 h.1]
  · rw [if_neg h1, if_neg fun h => h1 h.2]
end store

theorem val_c (v : BitVec 32) : (Src.c v).val s = v := id rfl
theorem val_r (k : BitVec 4) : (Src.r k).val s = s.reg k := id rfl

/-- A multi-word number. -/
def num (w : Nat → BitVec 32) : Nat → Nat
  | 0 => 0
  | n + 1 => num w n + (w n).toNat * 2 ^ (32 * n)

theorem num_part {n : Nat} (x : BitVec n) (k : Nat) : num (TinyGarble.Spec.Hdl.part 32 x) k = x.toNat % 2 ^ (32 * k) := by
  induction k with
  | zero => rw [Nat.mul_zero, pow_zero, Nat.mod_one]; rfl
  | succ k ih =>
    rw [num, ih, TinyGarble.Spec.Hdl.part, BitVec.toNat_ofNat, show 32 * (k + 1) = 32 * k + 32 by omega, pow_add, Nat.mod_mul]
    rw [Nat.mul_comm (2 ^ (32 * k)) (x.toNat / 2 ^ (32 * k) % 2 ^ 32)]

theorem num_congr {v w : Nat → BitVec 32} {n : Nat} (h : ∀ i < n, v i = w i) : num v n = num w n := by
  induction n with
  | zero => rfl
  | succ n ih => rw [num, num, ih fun i hi => h i (by omega), h n (by omega)]

theorem num_lt (w : Nat → BitVec 32) (n : Nat) : num w n < 2 ^ (32 * n) := by
  induction n with
  | zero => exact Nat.one_pos
  | succ n ih =>
    rw [num, show 32 * (n + 1) = 32 * n + 32 by omega, pow_add]
    have := (w n).isLt
    generalize 2 ^ (32 * n) = y at *
    calc num w n + (w n).toNat * y < y + (w n).toNat * y := by omega
      _ = ((w n).toNat + 1) * y := by rw [Nat.add_mul, Nat.one_mul, Nat.add_comm]
      _ ≤ 2 ^ 32 * y := Nat.mul_le_mul_right _ this
      _ = y * 2 ^ 32 := Nat.mul_comm ..

end TinyGarble.Proof.Hdl.A23.Sym

/-- Registers, flags and words after micro-operations. -/
macro "micro" : tactic => `(tactic| simp (config := { decide := true }) only [
  TinyGarble.Proof.Hdl.A23.Sym.applyAll_nil, TinyGarble.Proof.Hdl.A23.Sym.applyAll_cons,
  TinyGarble.Proof.Hdl.A23.Sym.const_reg, TinyGarble.Proof.Hdl.A23.Sym.const_flags, TinyGarble.Proof.Hdl.A23.Sym.const_mem, TinyGarble.Proof.Hdl.A23.Sym.const_word,
  TinyGarble.Proof.Hdl.A23.Sym.flags_reg, TinyGarble.Proof.Hdl.A23.Sym.flags_flags, TinyGarble.Proof.Hdl.A23.Sym.flags_mem, TinyGarble.Proof.Hdl.A23.Sym.flags_word,
  TinyGarble.Proof.Hdl.A23.Sym.dp_reg, TinyGarble.Proof.Hdl.A23.Sym.dp_flags', TinyGarble.Proof.Hdl.A23.Sym.dp_mem, TinyGarble.Proof.Hdl.A23.Sym.dp_word,
  TinyGarble.Proof.Hdl.A23.Sym.mul_reg, TinyGarble.Proof.Hdl.A23.Sym.mul_flags, TinyGarble.Proof.Hdl.A23.Sym.mul_mem, TinyGarble.Proof.Hdl.A23.Sym.mul_word,
  TinyGarble.Proof.Hdl.A23.Sym.load_reg, TinyGarble.Proof.Hdl.A23.Sym.load_flags, TinyGarble.Proof.Hdl.A23.Sym.load_mem, TinyGarble.Proof.Hdl.A23.Sym.load_word,
  TinyGarble.Proof.Hdl.A23.Sym.store_reg, TinyGarble.Proof.Hdl.A23.Sym.store_flags, TinyGarble.Proof.Hdl.A23.Sym.store_mem, TinyGarble.Proof.Hdl.A23.Sym.store_word,
  TinyGarble.Proof.Hdl.A23.Sym.holds_always, TinyGarble.Proof.Hdl.A23.Sym.val_c, TinyGarble.Proof.Hdl.A23.Sym.val_r, TinyGarble.Proof.Hdl.A23.Sym.dpResult,
  TinyGarble.Proof.Hdl.A23.Sym.Opd.eval, TinyGarble.Spec.Arm.Op.compare, TinyGarble.Spec.Arm.Op.eval, TinyGarble.Spec.Arm.Shift.const,
  TinyGarble.Spec.Arm.Circuit.flags, TinyGarble.Spec.Arm.Circuit.withCarry,
  and_true, true_and, and_false, false_and, if_true, if_false, ite_true, ite_false, reduceIte, Bool.false_eq_true])
