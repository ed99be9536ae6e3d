import Verif.Spec.ArmCircuit
import Verif.Proof.Hdl.A23Manual
import Verif.Proof.Hdl.A23Trans

/-!
# Symbolic execution of programs

`Abs.exec` executes an instruction knowing only some registers, flags and words of the memory. The result are micro-operations, in which the
known values and all addresses are constants. `Abs.run_sound`: the machine does what the micro-operations do.
-/

namespace TinyGarble.Proof.Hdl.A23.Sym

open TinyGarble.Spec.Arm
open TinyGarble.Spec.Mips (bits put)

/-- A constant or a register. -/
inductive Src
  | c (v : BitVec 32)
  | r (k : BitVec 4)
  deriving DecidableEq

def Src.val (s : State) : Src → BitVec 32
  | .c v => v
  | .r k => s.reg k

/-- The second operand of data processing. -/
inductive Opd
  | imm (rot : BitVec 4) (x : BitVec 8)
  | reg (x : Src) (k : Shift) (n : BitVec 5)
  | regReg (x : Src) (k : Shift) (n : Src)
  deriving DecidableEq

def Opd.eval (val : Src → BitVec 32) (c : Bool) : Opd → BitVec 32 × Bool
  | .imm rot x => ((x.zeroExtend 32).rotateRight (2 * rot.toNat), if rot = 0 then c else bit ((x.zeroExtend 32).rotateRight (2 * rot.toNat)) 31)
  | .reg x k n => k.const (val x) n c
  | .regReg x k n => k.register (val x) ((val n).toNat % 2 ^ 8) c

/-- Micro-operations. Those with a condition `g` do nothing if it does not hold. -/
inductive Micro
  | const (rd : BitVec 4) (v : BitVec 32)
  | flags (f : Flags)
  | dp (g : BitVec 4) (op : Op) (set : Bool) (rd : BitVec 4) (a : Src) (o : Opd)
  | mul (g : BitVec 4) (set : Bool) (rd : BitVec 4) (a b : Src)
  | load (g : BitVec 4) (byte : Bool) (rd : BitVec 4) (a : BitVec 32)
  | store (g : BitVec 4) (byte : Bool) (a : BitVec 32) (x : Src)
  deriving DecidableEq

/-- Writing one of the registers 0 to 14. -/
def setReg (s : State) (rd : BitVec 4) (v : BitVec 32) : State := { s with reg := fun k => if k = rd then v else s.reg k }

def Micro.apply (s : State) : Micro → State
  | .const rd v => setReg s rd v
  | .flags f => { s with flags := f }
  | .dp g op set rd a o =>
    if holds g s.flags then
      let b := o.eval (Src.val s) s.flags.c
      let r := op.eval (a.val s) b.1 b.2 s.flags
      if op.compare then { s with flags := r.2 }
      else { setReg s rd r.1 with flags := if set then Circuit.flags op r.2 else s.flags }
    else s
  | .mul g set rd a b =>
    if holds g s.flags then
      { setReg s rd (a.val s * b.val s) with flags := if set then .result (a.val s * b.val s) s.flags.c s.flags.v else s.flags }
    else s
  | .load g byte rd a =>
    if holds g s.flags then setReg s rd (if byte then (s.mem a).zeroExtend 32 else s.word a) else s
  | .store g byte a x =>
    if holds g s.flags then (if byte then { s with mem := put s.mem a (x.val s).toNat 1 } else s.putWord a (x.val s)) else s

/-- A sequence of micro-operations. -/
def applyAll (s : State) (ms : List Micro) : State := ms.foldl Micro.apply s

/-- What is known about the state: some registers, possibly the flags, and words of the memory; those that are not in the list are known if they
are part of the program. -/
structure Abs where
  pc : BitVec 24
  regs : List (Option (BitVec 32))
  flags : Option Flags
  mem : List (BitVec 32 × Option (BitVec 32))
  deriving DecidableEq

def find (a : BitVec 32) : List (BitVec 32 × Option (BitVec 32)) → Option (Option (BitVec 32))
  | [] => none
  | (b, t) :: l => if b = a then some t else find a l

section
variable (prog : List (BitVec 32))

/-- The word of the program at an address. -/
def origin (a : BitVec 32) : Option (BitVec 32) := prog[a.toNat / 4]?

def Abs.word (τ : Abs) (a : BitVec 32) : Option (BitVec 32) :=
  match find a τ.mem with
  | some t => t
  | none => origin prog a

def Abs.reg (τ : Abs) (r : BitVec 4) : Option (BitVec 32) := (τ.regs[r.toNat]?).getD none

def Abs.setReg (τ : Abs) (r : BitVec 4) (v : Option (BitVec 32)) : Abs := { τ with regs := τ.regs.set r.toNat v }

def Abs.setWord (τ : Abs) (a : BitVec 32) (v : Option (BitVec 32)) : Abs :=
  if v = none ∧ origin prog a = none then { τ with mem := τ.mem.filter fun x => x.1 ≠ a }
  else { τ with mem := (a, v) :: τ.mem.filter fun x => x.1 ≠ a }

/-- What is known after a micro-operation. -/
def Abs.apply (τ : Abs) : Micro → Abs
  | .const rd v => τ.setReg rd (some v)
  | .flags f => { τ with flags := some f }
  | .dp _ op set rd _ _ =>
    if op.compare then { τ with flags := none }
    else { τ.setReg rd none with flags := if set then none else τ.flags }
  | .mul _ set rd _ _ => { τ.setReg rd none with flags := if set then none else τ.flags }
  | .load _ _ rd _ => τ.setReg rd none
  | .store g byte a x =>
    τ.setWord prog (align a) (if g = 14 ∧ byte = false then (match x with | .c v => some v | .r _ => none) else none)

/-- The state agrees with what is known. -/
structure Desc (τ : Abs) (s : State) : Prop where
  pc : s.pc = τ.pc
  reg : ∀ r v, r ≠ 15 → τ.reg r = some v → s.reg r = v
  flags : ∀ f, τ.flags = some f → s.flags = f
  word : ∀ a w, a.toNat % 4 = 0 → τ.word prog a = some w → s.word a = w

end

/-! ## Memory -/

theorem align_of_mod {a : BitVec 32} (h : a.toNat % 4 = 0) : align a = a := by
  apply BitVec.eq_of_toNat_eq
  rw [align_toNat]
  omega

theorem word_align (s : State) (a : BitVec 32) : s.word (align a) = s.word a := by
  unfold State.word
  rw [align_of_mod (a := align a) (by rw [align_toNat]; omega)]

theorem align_eq {a b : BitVec 32} (h : a.toNat % 4 = 0) (he : a ≠ align b) : align b ≠ align a := by
  rw [align_of_mod h]
  exact Ne.symm he

theorem word_putWord_same (s : State) (a v : BitVec 32) : (s.putWord a v).word a = v := by
  unfold State.word State.putWord
  have hal := align_toNat a
  have hlt := a.isLt
  generalize align a = b at *
  have hb : ∀ i j : Nat, i < 4 → j < 4 → i ≠ j → (b + BitVec.ofNat 32 i) ≠ b + BitVec.ofNat 32 j := by
    intro i j hi hj hij h
    have := congrArg BitVec.toNat h
    rw [BitVec.toNat_add, BitVec.toNat_add, BitVec.toNat_ofNat, BitVec.toNat_ofNat] at this
    omega
  have h0 : b = b + BitVec.ofNat 32 0 := (BitVec.add_zero b).symm
  have h1 : b + 1 = b + BitVec.ofNat 32 1 := rfl
  have h2 : b + 1 + 1 = b + BitVec.ofNat 32 2 := by rw [BitVec.add_assoc]; rfl
  have h3 : b + 1 + 1 + 1 = b + BitVec.ofNat 32 3 := by rw [BitVec.add_assoc, BitVec.add_assoc]; rfl
  have n01 : b ≠ b + 1 := by rw [h1]; conv => lhs; rw [h0]
                             exact hb 0 1 (by omega) (by omega) (by omega)
  have n02 : b ≠ b + 1 + 1 := by rw [h2]; conv => lhs; rw [h0]
                                 exact hb 0 2 (by omega) (by omega) (by omega)
  have n03 : b ≠ b + 1 + 1 + 1 := by rw [h3]; conv => lhs; rw [h0]
                                     exact hb 0 3 (by omega) (by omega) (by omega)
  have n12 : b + 1 ≠ b + 1 + 1 := by rw [h2, h1]; exact hb 1 2 (by omega) (by omega) (by omega)
  have n13 : b + 1 ≠ b + 1 + 1 + 1 := by rw [h3, h1]; exact hb 1 3 (by omega) (by omega) (by omega)
  have n23 : b + 1 + 1 ≠ b + 1 + 1 + 1 := by rw [h3, h2]; exact hb 2 3 (by omega) (by omega) (by omega)
  unfold TinyGarble.Spec.Mips.fetch TinyGarble.Spec.Mips.fetch TinyGarble.Spec.Mips.fetch TinyGarble.Spec.Mips.fetch TinyGarble.Spec.Mips.fetch
  simp only [put, n01, n02, n03, n12, n13, n23, if_true, if_false]
  apply BitVec.eq_of_toNat_eq
  have := v.isLt
  simp only [BitVec.toNat_ofNat]
  omega

/-! ## Knowledge is sound -/

section
variable {prog : List (BitVec 32)} {τ : Abs} {s : State}

theorem find_filter (a b : BitVec 32) (l : List (BitVec 32 × Option (BitVec 32))) :
    find b (l.filter fun x => x.1 ≠ a) = if b = a then none else find b l := by
  induction l with
  | nil => split <;> rfl
  | cons x l ih =>
    obtain ⟨c, t⟩ := x
    rw [List.filter_cons]
    by_cases hc : c = a
    · rw [if_neg (by simpa using hc), ih]
      by_cases hb : b = a
      · rw [if_pos hb, if_pos hb]
      · rw [if_neg hb, if_neg hb, find, if_neg (by rw [hc]; exact Ne.symm hb)]
    · rw [if_pos (by simpa using hc), find, ih, find]
      by_cases hb : b = a
      · rw [if_pos hb, if_neg (by rw [hb]; exact hc), if_pos hb]
      · rw [if_neg hb, if_neg hb]

theorem word_setWord (a b : BitVec 32) (v : Option (BitVec 32)) : (τ.setWord prog a v).word prog b = if b = a then v else τ.word prog b := by
  unfold Abs.setWord
  split
  · rename_i h
    unfold Abs.word
    show (match find b (τ.mem.filter _) with | some t => t | none => _) = _
    rw [find_filter]
    by_cases hb : b = a
    · rw [if_pos hb, if_pos hb]
      show origin prog b = v
      rw [hb, h.2, h.1]
    · rw [if_neg hb, if_neg hb]
  · unfold Abs.word
    show (match find b ((a, v) :: τ.mem.filter _) with | some t => t | none => _) = _
    rw [find, find_filter]
    by_cases hb : b = a
    · rw [if_pos hb.symm, if_pos hb]
    · rw [if_neg (Ne.symm hb), if_neg hb, if_neg hb]

theorem reg_setReg (r k : BitVec 4) (v : Option (BitVec 32)) (w : BitVec 32) (h : (τ.setReg r v).reg k = some w) :
    (k = r ∧ v = some w) ∨ (k ≠ r ∧ τ.reg k = some w) := by
  unfold Abs.setReg Abs.reg at h
  dsimp only at h
  rw [List.getElem?_set] at h
  by_cases hk : k = r
  · left
    refine ⟨hk, ?_⟩
    rw [if_pos (by rw [hk])] at h
    split at h
    · exact h
    · cases h
  · right
    refine ⟨hk, ?_⟩
    rw [if_neg (fun h => hk (BitVec.eq_of_toNat_eq h.symm))] at h
    exact h

/-- Registers and flags are forgotten, or known to be the new ones. -/
theorem Desc.write {v : Option (BitVec 32)} {w : BitVec 32} {rd : BitVec 4} (h : Desc prog τ s) (hv : ∀ x, v = some x → w = x) :
    Desc prog (τ.setReg rd v) (setReg s rd w) := by
  refine ⟨h.pc, fun r x hr hx => ?_, h.flags, h.word⟩
  rcases reg_setReg _ _ _ _ hx with ⟨h1, h2⟩ | ⟨h1, h2⟩
  · show (if r = rd then w else _) = _
    rw [if_pos h1]; exact hv x h2
  · show (if r = rd then w else _) = _
    rw [if_neg h1]; exact h.reg r x hr h2

theorem Desc.setFlags {f : Option Flags} {w : Flags} (h : Desc prog τ s) (hf : ∀ x, f = some x → w = x) :
    Desc prog { τ with flags := f } { s with flags := w } := ⟨h.pc, h.reg, hf, h.word⟩

theorem Desc.forget {rd : BitVec 4} (h : Desc prog τ s) : Desc prog (τ.setReg rd none) s := by
  refine ⟨h.pc, fun r x hr hx => ?_, h.flags, h.word⟩
  rcases reg_setReg _ _ _ _ hx with ⟨h1, h2⟩ | ⟨h1, h2⟩
  · cases h2
  · exact h.reg r x hr h2

theorem Desc.putWord {a w : BitVec 32} {v : Option (BitVec 32)} (h : Desc prog τ s) (hv : ∀ x, v = some x → w = x) :
    Desc prog (τ.setWord prog (align a) v) (s.putWord a w) := by
  have e : (τ.setWord prog (align a) v).pc = τ.pc ∧ (τ.setWord prog (align a) v).regs = τ.regs ∧ (τ.setWord prog (align a) v).flags = τ.flags := by
    unfold Abs.setWord; split <;> exact ⟨rfl, rfl, rfl⟩
  refine ⟨e.1.symm ▸ h.pc, fun r x hr hx => ?_, fun f hf => ?_, fun b x hb hx => ?_⟩
  · unfold Abs.reg at hx; rw [e.2.1] at hx; exact h.reg r x hr hx
  · rw [e.2.2] at hf; exact h.flags f hf
  · rw [word_setWord] at hx
    split at hx
    · rename_i hba
      rw [hba, word_align, word_putWord_same]
      exact hv x hx
    · rename_i hba
      rw [word_put_word s _ a b w.toNat rfl (align_eq hb hba)]
      exact h.word b x hb hx

theorem Desc.putByte {a : BitVec 32} {w : Nat} (h : Desc prog τ s) :
    Desc prog (τ.setWord prog (align a) none) { s with mem := put s.mem a w 1 } := by
  have e : (τ.setWord prog (align a) none).pc = τ.pc ∧ (τ.setWord prog (align a) none).regs = τ.regs ∧ (τ.setWord prog (align a) none).flags = τ.flags := by
    unfold Abs.setWord; split <;> exact ⟨rfl, rfl, rfl⟩
  refine ⟨e.1.symm ▸ h.pc, fun r x hr hx => ?_, fun f hf => ?_, fun b x hb hx => ?_⟩
  · unfold Abs.reg at hx; rw [e.2.1] at hx; exact h.reg r x hr hx
  · rw [e.2.2] at hf; exact h.flags f hf
  · rw [word_setWord] at hx
    split at hx
    · cases hx
    · rename_i hba
      rw [word_put_byte s _ a b w rfl (align_eq hb hba)]
      exact h.word b x hb hx

theorem Desc.forgetWord {a : BitVec 32} (h : Desc prog τ s) : Desc prog (τ.setWord prog a none) s := by
  have e : (τ.setWord prog a none).pc = τ.pc ∧ (τ.setWord prog a none).regs = τ.regs ∧ (τ.setWord prog a none).flags = τ.flags := by
    unfold Abs.setWord; split <;> exact ⟨rfl, rfl, rfl⟩
  refine ⟨e.1.symm ▸ h.pc, fun r x hr hx => ?_, fun f hf => ?_, fun b x hb hx => ?_⟩
  · unfold Abs.reg at hx; rw [e.2.1] at hx; exact h.reg r x hr hx
  · rw [e.2.2] at hf; exact h.flags f hf
  · rw [word_setWord] at hx
    split at hx
    · cases hx
    · exact h.word b x hb hx

theorem holds_al (f : Flags) : holds 14 f = true := rfl

theorem Desc.apply (h : Desc prog τ s) (m : Micro) : Desc prog (τ.apply prog m) (m.apply s) := by
  cases m with
  | const rd v => exact h.write fun x hx => Option.some.inj hx
  | flags f => exact h.setFlags fun x hx => Option.some.inj hx
  | dp g op set rd a o =>
    unfold Abs.apply Micro.apply
    dsimp only
    generalize op.eval (a.val s) _ _ s.flags = r
    by_cases hc : op.compare = true
    · rw [if_pos hc, if_pos hc]
      split
      · exact h.setFlags fun x hx => by cases hx
      · exact ⟨h.pc, h.reg, fun f hf => (by cases hf), h.word⟩
    · rw [if_neg hc, if_neg hc]
      by_cases hg : holds g s.flags = true
      · rw [if_pos hg]
        have h1 := (h.write (rd := rd) (v := none) (w := r.1) fun x hx => by cases hx)
        refine ⟨h1.pc, h1.reg, fun f hf => ?_, h1.word⟩
        dsimp only at hf ⊢
        split at hf
        · cases hf
        · rename_i hs
          rw [if_neg hs]; exact h.flags f hf
      · rw [if_neg hg]
        have h1 := h.forget (rd := rd)
        refine ⟨h1.pc, h1.reg, fun f hf => ?_, h1.word⟩
        dsimp only at hf
        split at hf
        · cases hf
        · exact h.flags f hf
  | mul g set rd a b =>
    unfold Abs.apply Micro.apply
    dsimp only
    by_cases hg : holds g s.flags = true
    · rw [if_pos hg]
      have h1 := (h.write (rd := rd) (v := none) (w := a.val s * b.val s) fun x hx => by cases hx)
      refine ⟨h1.pc, h1.reg, fun f hf => ?_, h1.word⟩
      dsimp only at hf ⊢
      split at hf
      · cases hf
      · rename_i hs
        rw [if_neg hs]; exact h.flags f hf
    · rw [if_neg hg]
      have h1 := h.forget (rd := rd)
      refine ⟨h1.pc, h1.reg, fun f hf => ?_, h1.word⟩
      dsimp only at hf
      split at hf
      · cases hf
      · exact h.flags f hf
  | load g byte rd a =>
    unfold Abs.apply Micro.apply
    dsimp only
    split
    · exact h.write fun x hx => by cases hx
    · exact h.forget
  | store g byte a x =>
    unfold Abs.apply Micro.apply
    dsimp only
    by_cases hg : g = 14 ∧ byte = false
    · rw [if_pos hg, hg.1, if_pos (holds_al _), hg.2, if_neg (by decide)]
      refine h.putWord fun y hy => ?_
      cases x with
      | c v => exact Option.some.inj hy
      | r k => cases hy
    · rw [if_neg hg]
      split
      · split
        · exact h.putByte
        · exact h.putWord fun y hy => by cases hy
      · exact h.forgetWord

/-- What is known after a sequence of micro-operations. -/
def Abs.applyAll (prog : List (BitVec 32)) (τ : Abs) (ms : List Micro) : Abs := ms.foldl (Abs.apply prog) τ

theorem Desc.applyAll (h : Desc prog τ s) (ms : List Micro) : Desc prog (τ.applyAll prog ms) (applyAll s ms) := by
  induction ms generalizing τ s with
  | nil => exact h
  | cons m ms ih => exact ih (h.apply m)

theorem Desc.at {q : BitVec 24} (h : Desc prog τ s) : Desc prog { τ with pc := q } { s with pc := q } := ⟨rfl, h.reg, h.flags, h.word⟩

end

theorem apply_pc (s : State) (q : BitVec 24) (m : Micro) : m.apply { s with pc := q } = { m.apply s with pc := q } := by
  have hv : ∀ x : Src, x.val { s with pc := q } = x.val s := fun x => by cases x <;> rfl
  have hv' : Src.val { s with pc := q } = Src.val s := funext hv
  cases m with
  | const => rfl
  | flags => rfl
  | dp g op set rd a o =>
    unfold Micro.apply
    dsimp only
    rw [hv', ]
    split
    · split <;> rfl
    · rfl
  | mul g set rd a b =>
    unfold Micro.apply
    dsimp only
    rw [hv']
    split <;> rfl
  | load g byte rd a =>
    unfold Micro.apply
    dsimp only
    split <;> rfl
  | store g byte a x =>
    unfold Micro.apply
    dsimp only
    rw [hv']
    split
    · split <;> rfl
    · rfl

theorem applyAll_pc (s : State) (q : BitVec 24) (ms : List Micro) : applyAll { s with pc := q } ms = { applyAll s ms with pc := q } := by
  induction ms generalizing s with
  | nil => rfl
  | cons m ms ih =>
    show applyAll (m.apply { s with pc := q }) ms = _
    rw [apply_pc, ih]
    rfl

end TinyGarble.Proof.Hdl.A23.Sym
