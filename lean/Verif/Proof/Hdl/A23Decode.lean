import Mathlib.Tactic.IntervalCases
import Verif.Proof.Hdl.A23Alu

/-! # The ARM processor: decoding -/

namespace TinyGarble.Proof.Hdl.A23

open TinyGarble TinyGarble.Hdl TinyGarble.Hdl.A23
open TinyGarble.Spec.Arm (Instr Op Shift Operand Offset bit isMul decode decodeDp)

theorem slice_iff {n : Nat} (x : BitVec n) (i w : Nat) (c : BitVec w) : slice x i w = c ↔ x.toNat / 2 ^ i % 2 ^ w = c.toNat := by
  rw [← BitVec.toNat_inj, toNat_slice]

theorem bit_iff (x : BitVec 32) (i : Nat) (b : Bool) : bit x i = b ↔ x.toNat / 2 ^ i % 2 = b.toNat := by
  have h := Nat.mod_two_eq_zero_or_one (x.toNat / 2 ^ i)
  rw [bit]
  cases b <;> simp <;> omega

theorem itype_mult {x : BitVec 32} (h : isMul x = true) : itype x = .mult := by
  rw [isMul, decide_eq_true_eq, bits_eq, bits_eq] at h
  have h1 := (slice_iff ..).1 h.1
  simp at h1
  rw [itype, if_neg, if_pos (show slice x 22 6 = 0 ∧ slice x 4 4 = 9#4 from h)]
  rintro ⟨h2, -⟩
  have h2 := (slice_iff ..).1 h2
  simp at h2
  omega

theorem itype_not_mult {x : BitVec 32} (h : isMul x = false) : itype x ≠ .mult := by
  intro h1
  rw [isMul, decide_eq_false_iff_not, bits_eq, bits_eq] at h
  rw [itype, if_neg (show ¬ (slice x 22 6 = 0 ∧ slice x 4 4 = 9#4) from h)] at h1
  split at h1
  · cases h1
  split at h1
  · cases h1
  split at h1
  · cases h1
  split at h1
  · cases h1
  split at h1
  · cases h1
  split at h1
  · cases h1
  split at h1
  · cases h1
  split at h1 <;> cases h1

theorem itype_regop {x : BitVec 32} (h : x.toNat / 2 ^ 26 % 4 = 0) (h9 : x.toNat / 2 ^ 4 % 16 = 9 → 2 ^ 25 ≤ x.toNat % 2 ^ 28) : itype x = .regop := by
  have h1 : ¬ (slice x 23 5 = 0b00010#5 ∧ slice x 20 2 = 0 ∧ slice x 4 4 = 0b1001#4) := by
    rintro ⟨a, -, b⟩
    have a := (slice_iff ..).1 a
    have b := (slice_iff ..).1 b
    simp at a b
    have := h9 b
    omega
  have h2 : ¬ (slice x 22 6 = 0 ∧ slice x 4 4 = 0b1001#4) := by
    rintro ⟨a, b⟩
    have a := (slice_iff ..).1 a
    have b := (slice_iff ..).1 b
    simp at a b
    have := h9 b
    omega
  rw [itype, if_neg h1, if_neg h2, if_pos ((slice_iff ..).2 (by simpa using h))]

theorem itype_other {x : BitVec 32} {k : Nat} (h : x.toNat / 2 ^ 25 % 8 = k) (h1 : 2 ≤ k) (h2 : k < 6) :
    itype x = if k < 4 then .trans else if k = 4 then .mtrans else .branch := by
  have n1 : ¬ (slice x 23 5 = 0b00010#5 ∧ slice x 20 2 = 0 ∧ slice x 4 4 = 0b1001#4) := by
    rintro ⟨a, -, b⟩
    have a := (slice_iff ..).1 a
    simp at a
    omega
  have n2 : ¬ (slice x 22 6 = 0 ∧ slice x 4 4 = 0b1001#4) := by
    rintro ⟨a, b⟩
    have a := (slice_iff ..).1 a
    simp at a
    omega
  have n3 : ¬ slice x 26 2 = 0 := by
    intro a
    have a := (slice_iff ..).1 a
    simp at a
    omega
  rw [itype, if_neg n1, if_neg n2, if_neg n3]
  by_cases hk : k < 4
  · rw [if_pos hk, if_pos]
    rw [slice_iff]; simp; omega
  · rw [if_neg hk, if_neg (by rw [slice_iff]; simp; omega)]
    by_cases hk : k = 4
    · rw [if_pos hk, if_pos]
      rw [slice_iff]; simp; omega
    · rw [if_neg hk, if_neg (by rw [slice_iff]; simp; omega), if_pos]
      rw [slice_iff]; simp; omega

/-- The fields of the operand of data processing. -/
def IsOperand (x : BitVec 32) : Operand → Prop
  | .imm rot v => x.getLsbD 25 = true ∧ rot = slice x 8 4 ∧ v = slice x 0 8
  | .reg rm k n => x.getLsbD 25 = false ∧ x.getLsbD 4 = false ∧ rm = slice x 0 4 ∧ slice x 5 2 = code k ∧ n = slice x 7 5
  | .regReg rm k rs => x.getLsbD 25 = false ∧ x.getLsbD 4 = true ∧ rm = slice x 0 4 ∧ slice x 5 2 = code k ∧ rs = slice x 8 4

/-- The fields of the offset of a load or store. -/
def IsOffset (x : BitVec 32) : Offset → Prop
  | .imm v => x.getLsbD 25 = false ∧ v = slice x 0 12
  | .reg rm k n => x.getLsbD 25 = true ∧ x.getLsbD 4 = false ∧ rm = slice x 0 4 ∧ slice x 5 2 = code k ∧ n = slice x 7 5

/-- The fields of an instruction. -/
def IsInstr (x : BitVec 32) : Instr → Prop
  | .dp op s rd rn o => itype x = .regop ∧ op = Op.ofCode (opcode x) ∧ s = x.getLsbD 20 ∧ rd = slice x 12 4 ∧ rn = slice x 16 4 ∧ IsOperand x o ∧
    (op.compare = true → s = true ∧ rd ≠ 15)
  | .mul acc s rd rn rs rm => itype x = .mult ∧ acc = x.getLsbD 21 ∧ s = x.getLsbD 20 ∧ rd = slice x 16 4 ∧ rn = slice x 12 4 ∧ rs = slice x 8 4 ∧
    rm = slice x 0 4
  | .transfer load byte up pre wb rd rn o => itype x = .trans ∧ load = x.getLsbD 20 ∧ byte = x.getLsbD 22 ∧ up = x.getLsbD 23 ∧
    pre = x.getLsbD 24 ∧ wb = x.getLsbD 21 ∧ rd = slice x 12 4 ∧ rn = slice x 16 4 ∧ IsOffset x o
  | .multi load up pre wb rn list => itype x = .mtrans ∧ load = x.getLsbD 20 ∧ up = x.getLsbD 23 ∧
    pre = x.getLsbD 24 ∧ wb = x.getLsbD 21 ∧ rn = slice x 16 4 ∧ list = slice x 0 16 ∧ x.getLsbD 22 = false
  | .branch link off => itype x = .branch ∧ link = x.getLsbD 24 ∧ off = slice x 0 24

theorem code_ofCode (x : BitVec 32) : slice x 5 2 = code (Shift.ofCode (slice x 5 2).toNat) := (ofCode_code _).symm

theorem isDp {x : BitVec 32} {o : Operand} {i : Instr} (h : decodeDp x o = some i) (ht : itype x = .regop) (ho : IsOperand x o) : IsInstr x i := by
  rw [decodeDp] at h
  simp only [bits_eq, bit_eq] at h
  split at h
  · cases h
  · rename_i hc
    cases h
    refine ⟨ht, rfl, rfl, rfl, rfl, ho, fun h => ⟨?_, ?_⟩⟩
    · cases h1 : x.getLsbD 20
      · exact absurd ⟨h, Or.inl h1⟩ hc
      · rfl
    · intro h1; exact hc ⟨h, Or.inr h1⟩

theorem isInstr {x : BitVec 32} {i : Instr} (h : decode x = some i) : IsInstr x i := by
  rw [decode] at h
  have hk : (TinyGarble.Spec.Mips.bits x 25 3).toNat = x.toNat / 2 ^ 25 % 8 := by rw [bits_eq, toNat_slice]; rfl
  have b25 : x.getLsbD 25 = decide (x.toNat / 2 ^ 25 % 2 = 1) := by rw [← bit_eq]; rfl
  have b4 : bit x 4 = x.getLsbD 4 := bit_eq ..
  split at h
  · rename_i h0; rw [hk] at h0
    split at h
    · rename_i hm
      cases h
      exact ⟨itype_mult hm, bit_eq .., bit_eq .., bits_eq .., bits_eq .., bits_eq .., bits_eq ..⟩
    · rename_i hm
      have f : x.getLsbD 25 = false := by rw [b25, decide_eq_false_iff_not]; omega
      split at h
      · rename_i h4
        refine isDp h (itype_regop (by omega) ?_) ⟨f, by rw [← b4]; exact h4, bits_eq .., ?_, bits_eq ..⟩
        · have := (bit_iff ..).1 h4
          simp at this
          omega
        · simp only [bits_eq]; exact code_ofCode x
      · rename_i h4
        split at h
        · rename_i h7
          refine isDp h (itype_regop (by omega) ?_) ⟨f, by rw [← b4]; simpa using h4, bits_eq .., ?_, bits_eq ..⟩
          · have := (bit_iff ..).1 h7
            simp at this
            omega
          · simp only [bits_eq]; exact code_ofCode x
        · cases h
  · rename_i h0; rw [hk] at h0
    have f : x.getLsbD 25 = true := by rw [b25, decide_eq_true_eq]; omega
    exact isDp h (itype_regop (by omega) (by omega)) ⟨f, bits_eq .., bits_eq ..⟩
  · rename_i h0; rw [hk] at h0
    have f : x.getLsbD 25 = false := by rw [b25, decide_eq_false_iff_not]; omega
    cases h
    exact ⟨itype_other h0 (by omega) (by omega), bit_eq .., bit_eq .., bit_eq .., bit_eq .., bit_eq .., bits_eq .., bits_eq .., f, bits_eq ..⟩
  · rename_i h0; rw [hk] at h0
    have f : x.getLsbD 25 = true := by rw [b25, decide_eq_true_eq]; omega
    split at h
    · cases h
    · rename_i h4
      cases h
      refine ⟨itype_other h0 (by omega) (by omega), bit_eq .., bit_eq .., bit_eq .., bit_eq .., bit_eq .., bits_eq .., bits_eq .., f,
        by rw [← b4]; simpa using h4, bits_eq .., ?_, bits_eq ..⟩
      simp only [bits_eq]; exact code_ofCode x
  · rename_i h0; rw [hk] at h0
    split at h
    · cases h
    · rename_i h2
      cases h
      exact ⟨itype_other h0 (by omega) (by omega), bit_eq .., bit_eq .., bit_eq .., bit_eq .., bits_eq .., bits_eq ..,
        by rw [← bit_eq]; simpa using h2⟩
  · rename_i h0; rw [hk] at h0
    cases h
    exact ⟨itype_other h0 (by omega) (by omega), bit_eq .., bits_eq ..⟩
  · cases h

/-- The selectors of the ALU for an operation: swap, complement, carry in, carry out and output. -/
def aluTable (n : Nat) : Bool × Bool × Nat × Bool × Nat :=
  match n with
  | 0 | 8 => (false, false, 0, true, 8)
  | 1 | 9 => (false, false, 0, true, 6)
  | 2 | 10 => (false, true, 1, false, 1)
  | 3 => (true, true, 1, false, 1)
  | 4 | 11 => (false, false, 0, false, 1)
  | 5 => (false, false, 2, false, 1)
  | 6 => (false, true, 2, false, 1)
  | 7 => (true, true, 2, false, 1)
  | 12 => (false, false, 0, true, 7)
  | 13 => (false, false, 0, true, 0)
  | 14 => (false, true, 0, true, 8)
  | _ => (false, true, 0, true, 0)

/-- Whether the shifter sees the carry. -/
def carryTable (x : BitVec 32) (n : Nat) : Bool :=
  match n with
  | 0 | 8 | 2 | 10 | 3 => false
  | 4 | 11 | 5 => shiftExtend x
  | _ => true

/-- The selector of the flags. -/
def statusTable (n : Nat) : Nat :=
  match n with
  | 0 | 1 | 8 | 9 | 12 | 13 | 14 | 15 => 5
  | _ => 0

theorem opcode_lt (x : BitVec 32) : opcode x < 16 := (slice x 21 4).isLt

theorem regopNxt_eq (x : BitVec 32) :
    regopNxt x {} = {
      wsel := if opcodeCompare x then 15 else slice x 12 4
      pcSel := if opcodeCompare x = false ∧ slice x 12 4 = 15 then 1 else 0
      address := if opcodeCompare x = false ∧ slice x 12 4 = 15 then 1 else 0
      bsFunc := if x.getLsbD 25 then 0 else slice x 5 2
      bsData := if x.getLsbD 25 then 0 else 2
      bsAmount := if x.getLsbD 25 then 0 else if x.getLsbD 4 then 1 else 2
      statusSel := statusTable (opcode x)
      aluSwap := (aluTable (opcode x)).1
      aluNot := (aluTable (opcode x)).2.1
      aluCin := (aluTable (opcode x)).2.2.1
      aluCout := (aluTable (opcode x)).2.2.2.1
      aluOut := (aluTable (opcode x)).2.2.2.2
      useCarry := carryTable x (opcode x) } := by
  unfold regopNxt
  have h := opcode_lt x
  generalize opcodeCompare x = c
  generalize opcode x = n at *
  by_cases h1 : slice x 12 4 = 15#4 <;> cases h2 : x.getLsbD 25 <;> cases h3 : x.getLsbD 4 <;> cases c <;> interval_cases n <;>
    simp [h1, statusTable, aluTable, carryTable]

theorem transNxt_eq (x : BitVec 32) :
    transNxt x {} = {
      savedWen := true
      pcWen := false
      aluOut := 1
      aluCin := if x.getLsbD 23 then 0 else 1
      aluNot := !x.getLsbD 23
      writeWen := !x.getLsbD 20
      byteSel := if !x.getLsbD 20 && x.getLsbD 22 then 1 else 0
      wsel := if !x.getLsbD 24 || x.getLsbD 21 then slice x 16 4 else 15
      pcSel := if (!x.getLsbD 24 || x.getLsbD 21) = true ∧ slice x 16 4 = 15 then 1 else 0
      address := if x.getLsbD 24 then 1 else 4
      bsData := if x.getLsbD 25 then 2 else 0
      bsFunc := if x.getLsbD 25 = true ∧ slice x 7 5 ≠ 0 then slice x 5 2 else 0
      bsAmount := if x.getLsbD 25 = true ∧ slice x 7 5 ≠ 0 then 2 else 0 } := by
  unfold transNxt
  by_cases h1 : slice x 16 4 = 15#4 <;> by_cases h2 : slice x 7 5 = 0#5 <;> cases x.getLsbD 20 <;> cases x.getLsbD 21 <;> cases x.getLsbD 22 <;>
    cases x.getLsbD 23 <;> cases x.getLsbD 24 <;> cases x.getLsbD 25 <;> simp [h1, h2]

theorem mtransNxt_eq (x : BitVec 32) :
    mtransNxt x {} = {
      savedWen := true
      pcWen := false
      aluOut := 1
      aluCin := if x.getLsbD 23 then 0 else 1
      aluNot := !x.getLsbD 23
      writeWen := !x.getLsbD 20
      wsel := if x.getLsbD 21 then slice x 16 4 else 15
      address := if x.getLsbD 23 then (if x.getLsbD 24 then 7 else 4) else (if x.getLsbD 24 then 1 else 6) } := by
  unfold mtransNxt
  cases x.getLsbD 20 <;> cases x.getLsbD 21 <;> cases x.getLsbD 23 <;> cases x.getLsbD 24 <;> rfl

theorem multNxt_eq (x : BitVec 32) :
    multNxt x {} = { mulEnable := true, savedWen := true, pcWen := false, mulAccum := x.getLsbD 21 } := by
  unfold multNxt
  cases x.getLsbD 21 <;> rfl

theorem branchNxt_eq (x : BitVec 32) :
    branchNxt x {} = { pcSel := 3, address := 8, aluOut := 1, wsel := if x.getLsbD 24 then 14 else 15, regWrite := if x.getLsbD 24 then 1 else 0 } := by
  unfold branchNxt
  cases x.getLsbD 24 <;> rfl

theorem validNxt_trans {x : BitVec 32} (h : itype x = .trans) : validNxt x {} = transNxt x {} := by
  unfold validNxt; rw [h]; rfl

theorem validNxt_mtrans {x : BitVec 32} (h : itype x = .mtrans) : validNxt x {} = mtransNxt x {} := by
  unfold validNxt; rw [h]; rfl

theorem validNxt_mult {x : BitVec 32} (h : itype x = .mult) : validNxt x {} = multNxt x {} := by
  unfold validNxt; rw [h]; rfl

theorem validNxt_branch {x : BitVec 32} (h : itype x = .branch) : validNxt x {} = branchNxt x {} := by
  unfold validNxt; rw [h]; rfl

theorem validNxt_regop {x : BitVec 32} (h : itype x = .regop) : validNxt x {} =
    { regopNxt x {} with flagsWen := x.getLsbD 20, statusSel := if x.getLsbD 20 = true ∧ slice x 12 4 = 15 then 1 else statusTable (opcode x) } := by
  unfold validNxt
  rw [h]
  simp only [if_true, reduceCtorEq, if_false, true_and]
  rw [regopNxt_eq]
  cases x.getLsbD 20 with
  | false => simp
  | true =>
    by_cases h1 : slice x 12 4 = 15#4 <;> simp [h1]

end TinyGarble.Proof.Hdl.A23
