import Verif.Model.Hdl.Mips
import Verif.Spec.Mips
import Verif.Proof.Hdl.Lib

/-!
# The MIPS processor executes MIPS instructions
-/

namespace TinyGarble.Proof.Hdl.Mips

open TinyGarble.Hdl TinyGarble.Hdl.Mips TinyGarble.Proof.Hdl
open TinyGarble.Spec.Mips (State Instr Op Shift Cond Size bits Fits)

/-! ## Parts -/

theorem field_eq (x : BitVec 32) (i w : Nat) : field x i w = bits x i w := by
  apply BitVec.eq_of_toNat_eq
  rw [field, bits, BitVec.extractLsb'_toNat, BitVec.toNat_ofNat, Nat.shiftRight_eq_div_pow]

theorem alu_zero (a b : BitVec 32) : alu a b 0 = 0 := rfl

theorem alu_add (a b : BitVec 32) : alu a b 1 = a + b := by
  show (ADD a b false).1 = a + b
  rw [ADD_fst]; simp

theorem ADD_sub (a b : BitVec 32) : (ADD a (~~~b) true).1 = a - b := by
  rw [ADD_eq]
  show a + (~~~b).setWidth 32 + _ = _
  rw [BitVec.setWidth_eq]
  exact sub_not a b

theorem alu_sub (a b : BitVec 32) : alu a b 2 = a - b := ADD_sub a b

theorem append_ofBool (c : Bool) : 0#31 ++ BitVec.ofBool c = if c then 1#32 else 0#32 := by
  cases c <;> decide

theorem alu_sltu (a b : BitVec 32) : alu a b 3 = if a.toNat < b.toNat then 1 else 0 := by
  show 0#31 ++ BitVec.ofBool (!(ADD a (~~~b) true).2) = _
  rw [append_ofBool]
  have h : (ADD a (~~~b) true).2 = decide (b.toNat ≤ a.toNat) := by
    rw [ADD_eq]
    show BitVec.carry 32 a ((~~~b).setWidth 32) true = _
    rw [BitVec.setWidth_eq, carry_not]
  rw [h]
  by_cases hc : a.toNat < b.toNat
  · rw [if_pos hc, if_pos (by simpa using hc)]; rfl
  · rw [if_neg hc, if_neg (by simpa using hc)]; rfl

theorem getLsbD_31 (a : BitVec 32) : a.getLsbD 31 = decide (2 ^ 31 ≤ a.toNat) := by
  have := a.isLt
  rw [BitVec.getLsbD, Nat.testBit_eq_decide_div_mod_eq]
  congr 1
  rw [eq_iff_iff]
  omega

theorem toInt_32 (a : BitVec 32) : a.toInt = if a.toNat < 2 ^ 31 then (a.toNat : Int) else (a.toNat : Int) - 2 ^ 32 := by
  rw [BitVec.toInt_eq_toNat_cond]
  have := a.isLt
  split <;> split <;> omega

theorem alu_slt (a b : BitVec 32) : alu a b 4 = if a.toInt < b.toInt then 1 else 0 := by
  show 0#31 ++ BitVec.ofBool ((a.getLsbD 31 && !b.getLsbD 31) || ((ADD a (~~~b) true).1.getLsbD 31 && (!a.getLsbD 31 ^^ b.getLsbD 31))) = _
  rw [append_ofBool, ADD_sub, getLsbD_31, getLsbD_31, getLsbD_31, BitVec.toNat_sub, toInt_32, toInt_32]
  have ha := a.isLt; have hb := b.isLt
  generalize a.toNat = x at *
  generalize b.toNat = y at *
  have e : 2 ^ 31 ≤ x ∧ 2 ^ 31 ≤ y ∨ ¬2 ^ 31 ≤ x ∧ ¬2 ^ 31 ≤ y → decide (2 ^ 31 ≤ (2 ^ 32 - y + x) % 2 ^ 32) = decide (x < y) := by
    intro h
    congr 1; rw [eq_iff_iff]; omega
  by_cases h1 : 2 ^ 31 ≤ x <;> by_cases h2 : 2 ^ 31 ≤ y
  · rw [e (Or.inl ⟨h1, h2⟩), decide_eq_true h1, decide_eq_true h2]
    by_cases h3 : x < y
    · rw [if_pos (by simpa using h3), if_pos (by omega)]; rfl
    · rw [if_neg (by simpa using h3), if_neg (by omega)]; rfl
  · rw [decide_eq_true h1, decide_eq_false h2, if_pos (by simp), if_pos (by omega)]; rfl
  · rw [decide_eq_false h1, decide_eq_true h2, if_neg (by simp), if_neg (by omega)]; rfl
  · rw [e (Or.inr ⟨h1, h2⟩), decide_eq_false h1, decide_eq_false h2]
    by_cases h3 : x < y
    · rw [if_pos (by simpa using h3), if_pos (by omega)]; rfl
    · rw [if_neg (by simpa using h3), if_neg (by omega)]; rfl

/-! ## The abstract state -/

/-- The state of the machine in the registers of the circuit. -/
def abs (L : Nat) (st : Regs) : State (L + 2) where
  pc := st.pc ++ 0#2
  reg r := st.registers r.toNat
  mem a := (st.memory (a.toNat / 4)).extractLsb' (8 * (a.toNat % 4)) 8

theorem toNat_pc (p : BitVec 30) : (p ++ 0#2).toNat = p.toNat * 4 := by
  rw [BitVec.toNat_append, Nat.shiftLeft_eq]; simp

theorem pc_next (p : BitVec 30) : (p + 1) ++ 0#2 = (p ++ 0#2) + 4#32 := by
  apply BitVec.eq_of_toNat_eq
  have h : (p ++ 0#2 + 4#32).toNat = ((p ++ 0#2).toNat + 4) % 2 ^ 32 := BitVec.toNat_add _ _
  have h1 : (p + 1).toNat = (p.toNat + 1) % 2 ^ 30 := BitVec.toNat_add _ _
  rw [h, toNat_pc, toNat_pc, h1]
  have := p.isLt
  omega

theorem state_ext {A : Nat} {s t : State A} (h1 : s.pc = t.pc) (h2 : s.reg = t.reg) (h3 : s.mem = t.mem) : s = t := by
  cases s; cases t; simp_all

variable {L : Nat} {st : Regs} {x : BitVec 32} {ctl : Ctl}

theorem dataIn_read {w : BitVec 32} {a : BitVec 2} {d : BitVec 32} {src : Nat} (h5 : src ≠ 5) (h9 : src ≠ 9) (h13 : src ≠ 13) : dataIn w a d src = w := by
  unfold dataIn
  split <;> first | contradiction | rfl

theorem memory_read (h5 : ctl.mem ≠ 5) (h9 : ctl.mem ≠ 9) (h13 : ctl.mem ≠ 13) : (execute L x ctl st).memory = st.memory := by
  funext k
  simp only [execute, dataIn_read h5 h9 h13]
  split
  · rename_i h; rw [h]
  · rfl

/-- The registers of the processor after an instruction. -/
theorem registers_eq (v : BitVec 32) (hv : ctl.rd ≠ 0 → (execute L x ctl st).registers ctl.rd.toNat = v) :
    (fun r : BitVec 5 => (execute L x ctl st).registers r.toNat) = ((abs L st).set ctl.rd v).reg := by
  funext r
  simp only [State.set, abs]
  by_cases h : r = ctl.rd ∧ ctl.rd ≠ 0
  · rw [if_pos h, h.1, hv h.2]
  · rw [if_neg h]
    simp only [execute]
    rw [if_neg]
    rintro ⟨h1, h2⟩
    exact h ⟨BitVec.eq_of_toNat_eq h1, h2⟩

/-- An instruction that only writes a register. -/
theorem write_class (v : BitVec 32) (h5 : ctl.mem ≠ 5) (h9 : ctl.mem ≠ 9) (h13 : ctl.mem ≠ 13) (hpc : ctl.pc = 0)
    (hv : ctl.rd ≠ 0 → (execute L x ctl st).registers ctl.rd.toNat = v) : abs L (execute L x ctl st) = ((abs L st).set ctl.rd v).next := by
  refine state_ext ?_ ?_ ?_
  · refine Eq.trans ?_ (pc_next st.pc)
    show (execute L x ctl st).pc ++ 0#2 = _
    simp only [execute, hpc]
    rfl
  · exact registers_eq v hv
  · simp only [abs, memory_read h5 h9 h13, State.set, State.next]

/-- An instruction that changes the address of the next one. -/
theorem jump_class (v p : BitVec 32) (h5 : ctl.mem ≠ 5) (h9 : ctl.mem ≠ 9) (h13 : ctl.mem ≠ 13) (hp : (execute L x ctl st).pc ++ 0#2 = p)
    (hv : ctl.rd ≠ 0 → (execute L x ctl st).registers ctl.rd.toNat = v) : abs L (execute L x ctl st) = { (abs L st).set ctl.rd v with pc := p } := by
  refine state_ext hp ?_ ?_
  · exact registers_eq v hv
  · simp only [abs, memory_read h5 h9 h13, State.set]

theorem set_zero {A : Nat} (s : State A) (v : BitVec 32) : s.set 0 v = s := by
  simp [State.set]

theorem set_zero_pc {A : Nat} (s : State A) (v p : BitVec 32) : { s.set 0 v with pc := p } = { s with pc := p } := by
  rw [set_zero]

/-! ## Memory -/

theorem byte_toNat (w : BitVec 32) (k : Nat) : (w.extractLsb' (8 * k) 8).toNat = w.toNat / 2 ^ (8 * k) % 2 ^ 8 := by
  rw [BitVec.extractLsb'_toNat, Nat.shiftRight_eq_div_pow]

theorem byte_toNat' {n : Nat} (w : BitVec n) (k : Nat) : (w.extractLsb' (8 * k) 8).toNat = w.toNat / 2 ^ (8 * k) % 2 ^ 8 := by
  rw [BitVec.extractLsb'_toNat, Nat.shiftRight_eq_div_pow]

theorem toNat_succ (a : BitVec (L + 2)) (h : a.toNat % 4 < 3) : (a + 1).toNat = a.toNat + 1 := by
  have h1 : 2 ^ (L + 2) = 4 * 2 ^ L := by rw [Nat.pow_add]; omega
  have h2 := a.isLt
  have h3 : (1 : BitVec (L + 2)).toNat = 1 := by
    rw [show (1 : BitVec (L + 2)) = 1#(L + 2) from rfl, BitVec.toNat_ofNat, Nat.mod_eq_of_lt (by have := Nat.two_pow_pos L; omega)]
  rw [BitVec.toNat_add, h3, Nat.mod_eq_of_lt (by omega)]

theorem fetch_aligned (n : Nat) (a : BitVec (L + 2)) (h : a.toNat % 4 + n ≤ 4) :
    TinyGarble.Spec.Mips.fetch (abs L st).mem a n = (st.memory (a.toNat / 4)).toNat / 2 ^ (8 * (a.toNat % 4)) % 2 ^ (8 * n) := by
  induction n generalizing a with
  | zero => simp [TinyGarble.Spec.Mips.fetch, Nat.mod_one]
  | succ n ih =>
    rw [TinyGarble.Spec.Mips.fetch]
    show ((st.memory (a.toNat / 4)).extractLsb' (8 * (a.toNat % 4)) 8).toNat + _ = _
    rw [byte_toNat]
    by_cases hn : n = 0
    · subst hn
      rw [TinyGarble.Spec.Mips.fetch]; simp
    · have h1 : a.toNat % 4 < 3 := by omega
      have h2 := toNat_succ a h1
      rw [ih (a + 1) (by rw [h2]; omega), h2, show (a.toNat + 1) / 4 = a.toNat / 4 by omega,
        show (a.toNat + 1) % 4 = a.toNat % 4 + 1 by omega]
      generalize (st.memory (a.toNat / 4)).toNat = w
      generalize a.toNat % 4 = k
      rw [show 8 * (k + 1) = 8 * k + 8 by omega, show 8 * (n + 1) = 8 + 8 * n by omega, Nat.pow_add 2 (8 * k), ← Nat.div_div_eq_div_mul,
        Nat.pow_add 2 8, Nat.mod_mul]

theorem put_aligned (n : Nat) (mem : BitVec (L + 2) → BitVec 8) (a : BitVec (L + 2)) (v : Nat) (h : a.toNat % 4 + n ≤ 4) (b : BitVec (L + 2)) :
    TinyGarble.Spec.Mips.put mem a v n b = if b.toNat / 4 = a.toNat / 4 ∧ a.toNat % 4 ≤ b.toNat % 4 ∧ b.toNat % 4 < a.toNat % 4 + n then
      BitVec.ofNat 8 (v / 2 ^ (8 * (b.toNat % 4 - a.toNat % 4))) else mem b := by
  induction n generalizing mem a v with
  | zero => rw [TinyGarble.Spec.Mips.put, if_neg (by omega)]
  | succ n ih =>
    rw [TinyGarble.Spec.Mips.put]
    by_cases hn : n = 0
    · subst hn
      rw [TinyGarble.Spec.Mips.put]
      by_cases e : b = a
      · subst e; rw [if_pos rfl, if_pos (by omega)]; simp
      · rw [if_neg e, if_neg]
        rintro ⟨h1, h2, h3⟩
        exact e (BitVec.eq_of_toNat_eq (by omega))
    · have h1 : a.toNat % 4 < 3 := by omega
      have h2 := toNat_succ a h1
      rw [ih _ (a + 1) _ (by rw [h2]; omega), h2, show (a.toNat + 1) / 4 = a.toNat / 4 by omega,
        show (a.toNat + 1) % 4 = a.toNat % 4 + 1 by omega]
      by_cases e : b = a
      · subst e
        rw [if_neg (by omega), if_pos rfl, if_pos (by omega)]; simp
      · have hne : b.toNat ≠ a.toNat := fun h => e (BitVec.eq_of_toNat_eq h)
        by_cases hc : b.toNat / 4 = a.toNat / 4 ∧ a.toNat % 4 + 1 ≤ b.toNat % 4 ∧ b.toNat % 4 < a.toNat % 4 + 1 + n
        · rw [if_pos hc, if_pos (by omega), Nat.div_div_eq_div_mul, ← Nat.pow_add]
          congr 3
          omega
        · rw [if_neg hc, if_neg e, if_neg (by omega)]

/-- Byte `k` of a word after an assignment to bytes. -/
theorem setBits_byte {n : Nat} (w : BitVec 32) (j : Nat) (d : BitVec (8 * n)) (k : Nat) (hk : k < 4) :
    (setBits w (8 * j) d).extractLsb' (8 * k) 8 = if j ≤ k ∧ k < j + n then d.extractLsb' (8 * (k - j)) 8 else w.extractLsb' (8 * k) 8 := by
  apply eq_of_bits
  intro i hi
  rw [BitVec.getLsbD_extractLsb', setBits, getLsbD_ofBits]
  have h32 : 8 * k + i < 32 := by omega
  simp only [hi, h32, decide_true, Bool.true_and]
  by_cases h : j ≤ k ∧ k < j + n
  · rw [if_pos (by omega), if_pos h, BitVec.getLsbD_extractLsb']
    simp only [hi, decide_true, Bool.true_and]
    congr 1; omega
  · rw [if_neg (by omega), if_neg h, BitVec.getLsbD_extractLsb']
    simp [hi]

/-! ## Instructions by class -/

theorem dest_eq (h : ctl.rd ≠ 0) : (execute L x ctl st).registers ctl.rd.toNat =
    let imm := field x 0 16
    let aBus := aOut imm (st.registers ctl.rs.toNat) ctl.a
    let bBus := bOut imm (st.registers ctl.rt.toNat) ctl.b
    let cBus := alu aBus bBus ctl.alu ||| shifter bBus (aBus.extractLsb' 0 5) ctl.shift ||| 0
    regDest imm cBus (dataOut (st.memory (cBus.extractLsb' 2 L).toNat) (cBus.extractLsb' 0 2) ctl.mem) (st.pc + 1) ctl.c := by
  show (if ctl.rd.toNat = ctl.rd.toNat ∧ ctl.rd ≠ 0 then _ else _) = _
  rw [if_pos ⟨rfl, h⟩]

theorem or_zero (v : BitVec 32) : v ||| 0 ||| 0 = v := by simp

theorem alu_case {f b : Nat} {rs rt rd : BitVec 5} {v : BitVec 32}
    (hv : alu (st.registers rs.toNat) (bOut (bits x 0 16) (st.registers rt.toNat) b) f = v) :
    abs L (execute L x { rs := rs, rt := rt, rd := rd, b := b, alu := f } st) = ((abs L st).set rd v).next := by
  refine write_class v (by simp) (by simp) (by simp) rfl fun h => ?_
  rw [dest_eq h]
  show alu _ _ f ||| 0 ||| 0 = v
  rw [or_zero, ← hv, field_eq]
  rfl

theorem shift_case {f a : Nat} {rs rt rd : BitVec 5} {v : BitVec 32}
    (hv : shifter (st.registers rt.toNat) ((aOut (bits x 0 16) (st.registers rs.toNat) a).extractLsb' 0 5) f = v) :
    abs L (execute L x { rs := rs, rt := rt, rd := rd, a := a, shift := f } st) = ((abs L st).set rd v).next := by
  refine write_class v (by simp) (by simp) (by simp) rfl fun h => ?_
  rw [dest_eq h]
  show 0 ||| shifter _ _ f ||| 0 = v
  rw [← hv, field_eq]
  show 0#32 ||| shifter _ _ f ||| 0#32 = _
  rw [BitVec.zero_or, BitVec.or_zero]
  rfl

theorem shamt_eq (x r : BitVec 32) : ((aOut (bits x 0 16) r 1).extractLsb' 0 5) = bits x 6 5 := by
  apply BitVec.eq_of_toNat_eq
  show ((0#27 ++ (bits x 0 16).extractLsb' 6 5).extractLsb' 0 5).toNat = _
  rw [BitVec.extractLsb'_toNat, BitVec.toNat_append, BitVec.extractLsb'_toNat, bits, bits, BitVec.toNat_ofNat, BitVec.toNat_ofNat,
    Nat.shiftRight_eq_div_pow, Nat.shiftRight_eq_div_pow]
  simp
  omega

theorem shiftv_amount (v : BitVec 32) : (v.extractLsb' 0 5).toNat = v.toNat % 32 := by
  rw [BitVec.extractLsb'_toNat]; simp

theorem lui_case {rs rt rd : BitVec 5} :
    abs L (execute L x { rs := rs, rt := rt, rd := rd, c := 5 } st) = ((abs L st).set rd (BitVec.ofNat 32 ((bits x 0 16).toNat * 2 ^ 16))).next := by
  refine write_class _ (by simp) (by simp) (by simp) rfl fun h => ?_
  rw [dest_eq h]
  show (field x 0 16 ++ 0#16 : BitVec 32) = _
  apply BitVec.eq_of_toNat_eq
  rw [field_eq, BitVec.toNat_append, BitVec.toNat_ofNat, Nat.shiftLeft_eq]
  have := (bits x 0 16).isLt
  simp
  omega

/-- The address of an access. -/
theorem addr_parts (c : BitVec 32) : (c.extractLsb' 2 L).toNat = (c.setWidth (L + 2)).toNat / 4 ∧ (c.extractLsb' 0 2).toNat = (c.setWidth (L + 2)).toNat % 4 := by
  have h : 2 ^ (L + 2) = 4 * 2 ^ L := by rw [Nat.pow_add]; omega
  rw [BitVec.extractLsb'_toNat, BitVec.extractLsb'_toNat, BitVec.toNat_setWidth, Nat.shiftRight_eq_div_pow, Nat.shiftRight_eq_div_pow, h]
  constructor
  · rw [Nat.mod_mul_right_div_self]
  · rw [Nat.mod_mul_right_mod]; simp

theorem load_case {m : Nat} {rs rt rd : BitVec 5} {v : BitVec 32} (h5 : m ≠ 5) (h9 : m ≠ 9) (h13 : m ≠ 13)
    (hv : ∀ c, c = st.registers rs.toNat + (bits x 0 16).signExtend 32 →
      dataOut (st.memory ((c.setWidth (L + 2)).toNat / 4)) (c.extractLsb' 0 2) m = v) :
    abs L (execute L x { rs := rs, rt := rt, rd := rd, b := 2, alu := 1, c := 2, mem := m } st) = ((abs L st).set rd v).next := by
  refine write_class v h5 h9 h13 rfl fun h => ?_
  rw [dest_eq h]
  rw [← hv _ rfl, field_eq, ← (addr_parts _).1, ← alu_add]
  show dataOut (st.memory ((alu _ _ 1 ||| 0 ||| 0).extractLsb' 2 L).toNat) ((alu _ _ 1 ||| 0 ||| 0).extractLsb' 0 2) m = _
  rw [or_zero]
  rfl

theorem store_case {m n : Nat} {rs rt : BitVec 5} {c : BitVec 32} (hc : c = st.registers rs.toNat + (bits x 0 16).signExtend 32)
    (hn : c.toNat % 4 + n ≤ 4)
    (hv : ∀ w d, dataIn w (c.extractLsb' 0 2) d m = setBits w (8 * (c.extractLsb' 0 2).toNat) (d.extractLsb' 0 (8 * n))) :
    abs L (execute L x { rs := rs, rt := rt, b := 2, alu := 1, mem := m } st) =
      { (abs L st).next with mem := TinyGarble.Spec.Mips.put (abs L st).mem (c.setWidth (L + 2)) (st.registers rt.toNat).toNat n } := by
  have hcb : alu (st.registers rs.toNat) (bOut (field x 0 16) (st.registers rt.toNat) 2) 1 ||| 0 ||| 0 = c := by
    rw [or_zero, alu_add, field_eq, hc]; rfl
  obtain ⟨h1, h2⟩ := addr_parts (L := L) c
  have hlow : (c.setWidth (L + 2)).toNat % 4 = c.toNat % 4 := by
    rw [← h2, BitVec.extractLsb'_toNat]; simp
  refine state_ext ?_ ?_ ?_
  · refine Eq.trans ?_ (pc_next st.pc)
    rfl
  · funext r
    show (if r.toNat = (0 : BitVec 5).toNat ∧ (0 : BitVec 5) ≠ 0 then _ else st.registers r.toNat) = _
    rw [if_neg (by simp)]; rfl
  · funext b
    show ((execute L x _ st).memory (b.toNat / 4)).extractLsb' (8 * (b.toNat % 4)) 8 = TinyGarble.Spec.Mips.put _ _ _ _ _
    rw [put_aligned n _ _ _ (by rw [hlow]; exact hn)]
    have hm : (execute L x { rs := rs, rt := rt, b := 2, alu := 1, mem := m } st).memory (b.toNat / 4) =
        if b.toNat / 4 = (c.setWidth (L + 2)).toNat / 4 then setBits (st.memory (b.toNat / 4)) (8 * ((c.setWidth (L + 2)).toNat % 4))
          ((st.registers rt.toNat).extractLsb' 0 (8 * n)) else st.memory (b.toNat / 4) := by
      show (if b.toNat / 4 = ((alu (st.registers rs.toNat) (bOut (field x 0 16) (st.registers rt.toNat) 2) 1 ||| 0 ||| 0).extractLsb' 2 L).toNat
        then dataIn (st.memory ((alu (st.registers rs.toNat) (bOut (field x 0 16) (st.registers rt.toNat) 2) 1 ||| 0 ||| 0).extractLsb' 2 L).toNat)
          ((alu (st.registers rs.toNat) (bOut (field x 0 16) (st.registers rt.toNat) 2) 1 ||| 0 ||| 0).extractLsb' 0 2) (st.registers rt.toNat) m
        else st.memory (b.toNat / 4)) = _
      rw [hcb, hv, h1, h2]
      split
      · rename_i h; rw [h]
      · rfl
    rw [hm]
    by_cases hb : b.toNat / 4 = (c.setWidth (L + 2)).toNat / 4
    · rw [if_pos hb, setBits_byte _ _ _ _ (by omega)]
      by_cases hk : (c.setWidth (L + 2)).toNat % 4 ≤ b.toNat % 4 ∧ b.toNat % 4 < (c.setWidth (L + 2)).toNat % 4 + n
      · rw [if_pos hk, if_pos ⟨hb, hk⟩]
        apply BitVec.eq_of_toNat_eq
        rw [byte_toNat' , BitVec.toNat_ofNat, BitVec.extractLsb'_toNat, Nat.shiftRight_eq_div_pow, Nat.pow_zero, Nat.div_one]
        generalize (st.registers rt.toNat).toNat = r
        obtain ⟨k, hkk⟩ : ∃ k, n = b.toNat % 4 - (c.setWidth (L + 2)).toNat % 4 + 1 + k := ⟨_, (Nat.add_sub_of_le (by omega)).symm⟩
        generalize b.toNat % 4 - (c.setWidth (L + 2)).toNat % 4 = j at *
        subst hkk
        rw [show 8 * (j + 1 + k) = 8 * j + (8 + 8 * k) by omega, Nat.pow_add, Nat.mod_mul_right_div_self, Nat.pow_add 2 8, Nat.mod_mul_right_mod]
      · rw [if_neg hk, if_neg (fun h => hk h.2)]; rfl
    · rw [if_neg hb, if_neg (fun h => hb h.1)]; rfl

theorem xor_zero (a b : BitVec 32) : (a ^^^ b == 0) = decide (a = b) := by
  rw [beq_eq_decide]
  congr 1
  rw [eq_iff_iff]
  exact BitVec.xor_eq_zero_iff

theorem holds_eq (a b : BitVec 32) : Cond.eq.holds a b = takeBranch (a ^^^ b) 2 := by
  simp only [Cond.holds, takeBranch, xor_zero]

theorem holds_ne (a b : BitVec 32) : Cond.ne.holds a b = takeBranch (a ^^^ b) 3 := by
  simp only [Cond.holds, takeBranch, xor_zero]; simp

theorem beq_zero (a : BitVec 32) : (a == 0) = decide (a.toNat = 0) := by
  rw [beq_eq_decide]
  congr 1
  rw [eq_iff_iff]
  exact ⟨fun h => by rw [h]; rfl, fun h => BitVec.eq_of_toNat_eq h⟩

theorem holds_zero (a b : BitVec 32) : Cond.lez.holds a b = takeBranch (a ||| 0) 1 ∧ Cond.gtz.holds a b = takeBranch (a ||| 0) 5 ∧
    Cond.ltz.holds a b = takeBranch (a ||| 0) 0 ∧ Cond.gez.holds a b = takeBranch (a ||| 0) 4 := by
  rw [show a ||| 0 = a from BitVec.or_zero]
  simp only [Cond.holds, takeBranch, getLsbD_31, toInt_32, beq_zero]
  have hn := a.isLt
  generalize a.toNat = n at *
  by_cases h : n < 2 ^ 31
  · rw [if_pos h, decide_eq_false (p := 2 ^ 31 ≤ n) (by omega)]
    refine ⟨?_, ?_, ?_, ?_⟩ <;> rw [Bool.eq_iff_iff] <;> simp <;> omega
  · rw [if_neg h, decide_eq_true (p := 2 ^ 31 ≤ n) (by omega)]
    refine ⟨?_, ?_, ?_, ?_⟩ <;> rw [Bool.eq_iff_iff] <;> simp <;> omega

/-- A branch that is not taken. -/
theorem branch_case {f br c : Nat} {rs rt rd : BitVec 5} {link : Bool}
    (ht : takeBranch (alu (st.registers rs.toNat) (st.registers rt.toNat) f) br = false) (hl : if link then rd = 31 ∧ c = 4 else rd = 0) :
    abs L (execute L x { rs := rs, rt := rt, rd := rd, alu := f, branch := br, pc := 2, c := c } st) =
      { (if link then (abs L st).set 31 ((abs L st).pc + 4) else abs L st) with pc := (abs L st).pc + 4 } := by
  have hp : (execute L x { rs := rs, rt := rt, rd := rd, alu := f, branch := br, pc := 2, c := c } st).pc ++ 0#2 = (abs L st).pc + 4 := by
    refine Eq.trans ?_ (pc_next st.pc)
    show (if takeBranch (alu (st.registers rs.toNat) (st.registers rt.toNat) f ||| 0 ||| 0) br then _ else st.pc + 1) ++ 0#2 = _
    rw [or_zero, ht]; rfl
  rw [jump_class ((abs L st).pc + 4) ((abs L st).pc + 4) (by simp) (by simp) (by simp) hp]
  · cases link
    · rw [if_neg (by simp)] at hl
      subst hl
      exact set_zero_pc (abs L st) _ _
    · rw [if_pos rfl] at hl
      rw [hl.1]; rfl
  · intro h
    cases link
    · rw [if_neg (by simp)] at hl
      exact absurd hl h
    · rw [if_pos rfl] at hl
      rw [dest_eq h, hl.2]
      exact pc_next st.pc

theorem jump_case {rs rt rd : BitVec 5} {c : Nat} {link : Bool} (hs : (abs L st).pc.toNat % 2 ^ 28 + 4 < 2 ^ 28)
    (hl : if link then rd = 31 ∧ c = 4 else rd = 0) :
    abs L (execute L x { rs := rs, rt := rt, rd := rd, branch := 6, pc := 1, c := c } st) =
      { (if link then (abs L st).set 31 ((abs L st).pc + 4) else abs L st) with pc := ((abs L st).pc + 4).extractLsb' 28 4 ++ bits x 0 26 ++ 0#2 } := by
  have hp : (execute L x { rs := rs, rt := rt, rd := rd, branch := 6, pc := 1, c := c } st).pc ++ 0#2 =
      ((abs L st).pc + 4).extractLsb' 28 4 ++ bits x 0 26 ++ 0#2 := by
    show st.pc.extractLsb' 26 4 ++ field x 0 26 ++ 0#2 = _
    rw [field_eq]
    congr 2
    apply BitVec.eq_of_toNat_eq
    have hq : (abs L st).pc.toNat = st.pc.toNat * 4 := toNat_pc st.pc
    have h4 : ((abs L st).pc + 4).toNat = ((abs L st).pc.toNat + 4) % 2 ^ 32 := BitVec.toNat_add _ _
    rw [BitVec.extractLsb'_toNat, BitVec.extractLsb'_toNat, Nat.shiftRight_eq_div_pow, Nat.shiftRight_eq_div_pow, h4]
    have := (abs L st).pc.isLt
    omega
  rw [jump_class ((abs L st).pc + 4) _ (by simp) (by simp) (by simp) hp]
  · cases link
    · rw [if_neg (by simp)] at hl
      subst hl
      exact set_zero_pc (abs L st) _ _
    · rw [if_pos rfl] at hl
      rw [hl.1]; rfl
  · intro h
    cases link
    · rw [if_neg (by simp)] at hl
      exact absurd hl h
    · rw [if_pos rfl] at hl
      rw [dest_eq h, hl.2]
      exact pc_next st.pc

theorem jumpReg_case {rs rd : BitVec 5} {c : Nat} (h0 : st.registers 0 = 0) (hs : (st.registers rs.toNat).toNat % 4 = 0)
    (hl : rd = 0 ∨ c = 4) :
    abs L (execute L x { rs := rs, rt := 0, rd := rd, branch := 6, pc := 3, c := c, alu := 5 } st) =
      { (abs L st).set rd ((abs L st).pc + 4) with pc := st.registers rs.toNat } := by
  have hp : (execute L x { rs := rs, rt := 0, rd := rd, branch := 6, pc := 3, c := c, alu := 5 } st).pc ++ 0#2 = st.registers rs.toNat := by
    show (((st.registers rs.toNat) ||| (st.registers 0)) ||| 0 ||| 0).extractLsb' 2 30 ++ 0#2 = _
    rw [or_zero, h0]
    apply BitVec.eq_of_toNat_eq
    rw [toNat_pc, show st.registers rs.toNat ||| 0 = st.registers rs.toNat from BitVec.or_zero, BitVec.extractLsb'_toNat, Nat.shiftRight_eq_div_pow]
    have := (st.registers rs.toNat).isLt
    omega
  rw [jump_class ((abs L st).pc + 4) _ (by simp) (by simp) (by simp) hp]
  intro h
  rw [dest_eq h]
  obtain hl | hl := hl
  · exact absurd hl h
  · simp only [hl]
    exact pc_next st.pc

/-! ## All instructions -/

theorem byte_bits (c : BitVec 32) : (c.extractLsb' 0 2).toNat = c.toNat % 4 := by
  rw [BitVec.extractLsb'_toNat]; simp

theorem low_bit1 (c : BitVec 32) (h : c.toNat % 2 = 0) : (c.extractLsb' 0 2).getLsbD 1 = decide (c.toNat % 4 = 2) := by
  rw [BitVec.getLsbD, byte_bits, Nat.testBit_eq_decide_div_mod_eq]
  congr 1
  rw [eq_iff_iff]
  omega

theorem setWidth_mod (c : BitVec 32) : (c.setWidth (L + 2)).toNat % 4 = c.toNat % 4 := by
  rw [← (addr_parts c).2, byte_bits]

/-- The number that a load reads. -/
theorem fetch_part (c : BitVec 32) (n : Nat) (h : c.toNat % 4 + n ≤ 4) :
    BitVec.ofNat (8 * n) (TinyGarble.Spec.Mips.fetch (abs L st).mem (c.setWidth (L + 2)) n) =
      (st.memory ((c.setWidth (L + 2)).toNat / 4)).extractLsb' (8 * (c.toNat % 4)) (8 * n) := by
  rw [fetch_aligned n _ (by rw [setWidth_mod]; exact h), setWidth_mod]
  apply BitVec.eq_of_toNat_eq
  rw [BitVec.toNat_ofNat, BitVec.extractLsb'_toNat, Nat.shiftRight_eq_div_pow, Nat.mod_mod]

theorem zero_append {k n : Nat} (v : BitVec n) : (0#k ++ v : BitVec (k + n)) = v.setWidth (k + n) := by
  apply BitVec.eq_of_toNat_eq
  rw [BitVec.toNat_append, BitVec.toNat_setWidth, Nat.mod_eq_of_lt (Nat.lt_of_lt_of_le v.isLt (Nat.pow_le_pow_right (by omega) (by omega)))]
  simp

theorem sign_append {k n : Nat} (v : BitVec (n + 1)) :
    ((if v.getLsbD n then BitVec.allOnes k else 0) ++ v : BitVec (k + (n + 1))) = v.signExtend (k + (n + 1)) := by
  apply eq_of_bits
  intro i hi
  rw [BitVec.getLsbD_append, BitVec.getLsbD_signExtend, BitVec.msb_eq_getLsbD_last]
  simp only [hi, decide_true, Bool.true_and, Nat.add_sub_cancel]
  by_cases h : i < n + 1
  · simp [h]
  · simp only [h, if_false]
    cases v.getLsbD n
    · simp
    · simp; omega

theorem getLsbD_part (w : BitVec 32) (i n k : Nat) (h : k < n) : (w.extractLsb' i n).getLsbD k = w.getLsbD (i + k) := by
  rw [BitVec.getLsbD_extractLsb']; simp [h]

theorem setBits_all (w d : BitVec 32) : setBits w 0 (d.extractLsb' 0 32) = d := by
  apply eq_of_bits
  intro i hi
  rw [setBits, getLsbD_ofBits]
  simp [hi]

/-- Signed loads of bytes, of the lowest one of a word. -/
theorem dataOut_byte_signed (w : BitVec 32) (c : BitVec 32) (h : c.toNat % 4 = 0) :
    dataOut w (c.extractLsb' 0 2) 14 = (w.extractLsb' (8 * (c.toNat % 4)) 8).signExtend 32 := by
  rw [← sign_append (k := 24) (n := 7) (w.extractLsb' (8 * (c.toNat % 4)) 8), getLsbD_part _ _ _ _ (by omega)]
  simp only [dataOut, byte_bits, h]

theorem dataOut_byte (w : BitVec 32) (c : BitVec 32) :
    dataOut w (c.extractLsb' 0 2) 12 = (w.extractLsb' (8 * (c.toNat % 4)) 8).zeroExtend 32 := by
  simp only [dataOut, byte_bits]
  exact zero_append (k := 24) _

theorem dataOut_half_signed (w : BitVec 32) (c : BitVec 32) (h : c.toNat % 4 = 0) :
    dataOut w (c.extractLsb' 0 2) 10 = (w.extractLsb' (8 * (c.toNat % 4)) 16).signExtend 32 := by
  rw [← sign_append (k := 16) (n := 15) (w.extractLsb' (8 * (c.toNat % 4)) 16), getLsbD_part _ _ _ _ (by omega)]
  simp only [dataOut, low_bit1 c (by omega), h]
  rfl

theorem dataOut_half (w : BitVec 32) (c : BitVec 32) (h : c.toNat % 2 = 0) :
    dataOut w (c.extractLsb' 0 2) 8 = (w.extractLsb' (8 * (c.toNat % 4)) 16).zeroExtend 32 := by
  rw [show (w.extractLsb' (8 * (c.toNat % 4)) 16).zeroExtend 32 = (0#16 ++ w.extractLsb' (8 * (c.toNat % 4)) 16 : BitVec 32) from (zero_append (k := 16) _).symm]
  simp only [dataOut, low_bit1 c h]
  congr 1
  obtain h4 | h4 : c.toNat % 4 = 0 ∨ c.toNat % 4 = 2 := by omega
  · rw [h4]; rfl
  · rw [h4]; rfl

theorem dataIn_half (c : BitVec 32) (h : c.toNat % 2 = 0) (w d : BitVec 32) :
    dataIn w (c.extractLsb' 0 2) d 9 = setBits w (8 * (c.extractLsb' 0 2).toNat) (d.extractLsb' 0 (8 * 2)) := by
  simp only [dataIn, low_bit1 c h, byte_bits]
  obtain h4 | h4 : c.toNat % 4 = 0 ∨ c.toNat % 4 = 2 := by omega
  · rw [h4]; rfl
  · rw [h4]; rfl

theorem dataIn_word (c : BitVec 32) (h : c.toNat % 4 = 0) (w d : BitVec 32) :
    dataIn w (c.extractLsb' 0 2) d 5 = setBits w (8 * (c.extractLsb' 0 2).toNat) (d.extractLsb' 0 (8 * 4)) := by
  rw [byte_bits, h]
  exact (setBits_all w d).symm

theorem sltiu_operand (y : BitVec 16) (h : y.toNat < 2 ^ 15) : y.signExtend 32 = 0#16 ++ y := by
  have := sign_append (k := 16) (n := 15) y
  rw [← this, if_neg]
  · rfl
  · rw [BitVec.getLsbD, Nat.testBit_lt_two_pow h]; simp

theorem zeroExtend_operand (y : BitVec 16) : y.zeroExtend 32 = 0#16 ++ y := (zero_append (k := 16) y).symm

theorem word_part (w : BitVec 32) (a : BitVec 2) : (w.extractLsb' (8 * 0) (8 * 4)).signExtend 32 = dataOut w a 4 := by
  apply eq_of_bits
  intro i hi
  rw [BitVec.getLsbD_signExtend, show dataOut w a 4 = w from rfl, getLsbD_part _ _ _ _ (by omega)]
  simp [hi]

theorem execute_refines {i : Instr} {s' : State (L + 2)} (h0 : st.registers 0 = 0) (hi : TinyGarble.Spec.Mips.decode x = some i)
    (he : TinyGarble.Spec.Mips.exec (abs L st) i = some s') (hs : TinyGarble.Spec.Mips.Supported (abs L st) i) :
    abs L (execute L x (TinyGarble.Hdl.Mips.control x) st) = s' := by
  have hreg : ∀ r : BitVec 5, (abs L st).reg r = st.registers r.toNat := fun _ => rfl
  have h0' : st.registers (0 : BitVec 5).toNat = 0 := h0
  simp only [TinyGarble.Spec.Mips.decode] at hi
  have hC := TinyGarble.Hdl.Mips.control.eq_1 x
  simp only [field_eq] at hC
  split at hi
  · rename_i h1
    simp only [h1] at hC
    split at hi
    all_goals rename_i h2
    all_goals first | contradiction | skip
    all_goals simp only [h2] at hC
    all_goals rw [hC]
    all_goals obtain rfl := Option.some.inj hi
    · obtain rfl := Option.some.inj he
      exact shift_case (by rw [shamt_eq]; rfl)
    · obtain rfl := Option.some.inj he
      exact shift_case (by rw [shamt_eq]; rfl)
    · obtain rfl := Option.some.inj he
      exact shift_case (by rw [shamt_eq]; rfl)
    · obtain rfl := Option.some.inj he
      exact shift_case (a := 0) (by rw [hreg, hreg, ← shiftv_amount]; rfl)
    · obtain rfl := Option.some.inj he
      exact shift_case (a := 0) (by rw [hreg, hreg, ← shiftv_amount]; rfl)
    · obtain rfl := Option.some.inj he
      exact shift_case (a := 0) (by rw [hreg, hreg, ← shiftv_amount]; rfl)
    · simp only [TinyGarble.Spec.Mips.exec] at he
      split at he
      · rename_i hm
        obtain rfl := Option.some.inj he
        exact jumpReg_case h0 hm (Or.inl rfl)
      · contradiction
    · simp only [TinyGarble.Spec.Mips.exec] at he
      split at he
      · rename_i hm
        obtain rfl := Option.some.inj he
        exact jumpReg_case h0 hm (Or.inr rfl)
      · contradiction
    · simp only [TinyGarble.Spec.Mips.exec, Op.eval] at he
      split at he
      · obtain rfl := Option.some.inj he
        exact alu_case (b := 0) (alu_add _ _)
      · contradiction
    · obtain rfl := Option.some.inj he
      exact alu_case (b := 0) (alu_add _ _)
    · simp only [TinyGarble.Spec.Mips.exec, Op.eval] at he
      split at he
      · obtain rfl := Option.some.inj he
        exact alu_case (b := 0) (alu_sub _ _)
      · contradiction
    · obtain rfl := Option.some.inj he
      exact alu_case (b := 0) (alu_sub _ _)
    · obtain rfl := Option.some.inj he
      exact alu_case (b := 0) (rfl)
    · obtain rfl := Option.some.inj he
      exact alu_case (b := 0) (rfl)
    · obtain rfl := Option.some.inj he
      exact alu_case (b := 0) (rfl)
    · obtain rfl := Option.some.inj he
      exact alu_case (b := 0) (rfl)
    · obtain rfl := Option.some.inj he
      exact alu_case (b := 0) (alu_slt _ _)
    · obtain rfl := Option.some.inj he
      exact alu_case (b := 0) (alu_sltu _ _)
  · rename_i h1
    simp only [h1] at hC
    split at hi
    all_goals rename_i h2
    all_goals first | contradiction | skip
    all_goals simp only [h2] at hC
    all_goals rw [hC]
    all_goals obtain rfl := Option.some.inj hi
    all_goals obtain rfl := Option.some.inj he
    all_goals simp only [TinyGarble.Spec.Mips.Supported] at hs
    all_goals rw [hs]
    · exact branch_case (link := false) (c := 1) (by rw [← hs]; rw [(holds_zero _ _).2.2.1, h0']; rfl) rfl
    · exact branch_case (link := false) (c := 1) (by rw [← hs]; rw [(holds_zero _ _).2.2.2, h0']; rfl) rfl
    · exact branch_case (link := true) (c := 4) (by rw [← hs]; rw [(holds_zero _ _).2.2.1, h0']; rfl) ⟨rfl, rfl⟩
    · exact branch_case (link := true) (c := 4) (by rw [← hs]; rw [(holds_zero _ _).2.2.2, h0']; rfl) ⟨rfl, rfl⟩
  · rename_i h1
    simp only [h1] at hC
    rw [hC]
    obtain rfl := Option.some.inj hi
    obtain rfl := Option.some.inj he
    exact jump_case (link := false) (c := 1) hs rfl
  · rename_i h1
    simp only [h1] at hC
    rw [hC]
    obtain rfl := Option.some.inj hi
    obtain rfl := Option.some.inj he
    exact jump_case (link := true) (c := 4) hs ⟨rfl, rfl⟩
  · rename_i h1
    simp only [h1] at hC
    rw [hC]
    obtain rfl := Option.some.inj hi
    obtain rfl := Option.some.inj he
    simp only [TinyGarble.Spec.Mips.Supported] at hs
    rw [hs]
    exact branch_case (link := false) (c := 1) (by rw [← hs]; exact (holds_eq _ _).symm) rfl
  · rename_i h1
    simp only [h1] at hC
    rw [hC]
    obtain rfl := Option.some.inj hi
    obtain rfl := Option.some.inj he
    simp only [TinyGarble.Spec.Mips.Supported] at hs
    rw [hs]
    exact branch_case (link := false) (c := 1) (by rw [← hs]; exact (holds_ne _ _).symm) rfl
  · rename_i h1
    simp only [h1] at hC
    rw [hC]
    obtain rfl := Option.some.inj hi
    obtain rfl := Option.some.inj he
    simp only [TinyGarble.Spec.Mips.Supported] at hs
    rw [hs]
    exact branch_case (link := false) (c := 1) (by rw [← hs]; rw [(holds_zero _ _).1, h0']; rfl) rfl
  · rename_i h1
    simp only [h1] at hC
    rw [hC]
    obtain rfl := Option.some.inj hi
    obtain rfl := Option.some.inj he
    simp only [TinyGarble.Spec.Mips.Supported] at hs
    rw [hs]
    exact branch_case (link := false) (c := 1) (by rw [← hs]; rw [(holds_zero _ _).2.1, h0']; rfl) rfl
  · rename_i h1
    simp only [h1] at hC
    rw [hC]
    obtain rfl := Option.some.inj hi
    simp only [TinyGarble.Spec.Mips.exec, Op.eval] at he
    split at he
    · obtain rfl := Option.some.inj he
      exact alu_case (b := 2) (alu_add _ _)
    · contradiction
  · rename_i h1
    simp only [h1] at hC
    rw [hC]
    obtain rfl := Option.some.inj hi
    obtain rfl := Option.some.inj he
    exact alu_case (b := 2) (alu_add _ _)
  · rename_i h1
    simp only [h1] at hC
    rw [hC]
    obtain rfl := Option.some.inj hi
    obtain rfl := Option.some.inj he
    exact alu_case (b := 2) (alu_slt _ _)
  · rename_i h1
    simp only [h1] at hC
    rw [hC]
    obtain rfl := Option.some.inj hi
    obtain rfl := Option.some.inj he
    exact alu_case (b := 1) (by rw [show Op.sltu.operand (bits x 0 16) = (bits x 0 16).signExtend 32 from rfl, sltiu_operand _ hs]; exact alu_sltu _ _)
  · rename_i h1
    simp only [h1] at hC
    rw [hC]
    obtain rfl := Option.some.inj hi
    obtain rfl := Option.some.inj he
    exact alu_case (b := 1) (by rw [show Op.and.operand (bits x 0 16) = (bits x 0 16).zeroExtend 32 from rfl, zeroExtend_operand]; rfl)
  · rename_i h1
    simp only [h1] at hC
    rw [hC]
    obtain rfl := Option.some.inj hi
    obtain rfl := Option.some.inj he
    exact alu_case (b := 1) (by rw [show Op.or.operand (bits x 0 16) = (bits x 0 16).zeroExtend 32 from rfl, zeroExtend_operand]; rfl)
  · rename_i h1
    simp only [h1] at hC
    rw [hC]
    obtain rfl := Option.some.inj hi
    obtain rfl := Option.some.inj he
    exact alu_case (b := 1) (by rw [show Op.xor.operand (bits x 0 16) = (bits x 0 16).zeroExtend 32 from rfl, zeroExtend_operand]; rfl)
  · rename_i h1
    simp only [h1] at hC
    rw [hC]
    obtain rfl := Option.some.inj hi
    obtain rfl := Option.some.inj he
    exact lui_case
  · rename_i h1
    simp only [h1] at hC
    rw [hC]
    obtain rfl := Option.some.inj hi
    simp only [TinyGarble.Spec.Mips.exec] at he
    by_cases hm : ((abs L st).reg (bits x 21 5) + (bits x 0 16).signExtend 32).toNat % Size.byte.bytes = 0
    · rw [if_pos hm] at he
      simp only [Size.bytes] at he hm
      obtain rfl := Option.some.inj he
      refine load_case (by decide) (by decide) (by decide) fun c hc => ?_
      rw [hreg, ← hc] at hm ⊢
      have hs' : c.toNat % 4 = 0 := by rw [hc]; exact hs
      rw [fetch_part c 1 (by omega), dataOut_byte_signed _ _ hs']; rfl
    · rw [if_neg hm] at he; contradiction
  · rename_i h1
    simp only [h1] at hC
    rw [hC]
    obtain rfl := Option.some.inj hi
    simp only [TinyGarble.Spec.Mips.exec] at he
    by_cases hm : ((abs L st).reg (bits x 21 5) + (bits x 0 16).signExtend 32).toNat % Size.half.bytes = 0
    · rw [if_pos hm] at he
      simp only [Size.bytes] at he hm
      obtain rfl := Option.some.inj he
      refine load_case (by decide) (by decide) (by decide) fun c hc => ?_
      rw [hreg, ← hc] at hm ⊢
      have hs' : c.toNat % 4 = 0 := by rw [hc]; exact hs
      rw [fetch_part c 2 (by omega), dataOut_half_signed _ _ hs']; rfl
    · rw [if_neg hm] at he; contradiction
  · rename_i h1
    simp only [h1] at hC
    rw [hC]
    obtain rfl := Option.some.inj hi
    simp only [TinyGarble.Spec.Mips.exec] at he
    by_cases hm : ((abs L st).reg (bits x 21 5) + (bits x 0 16).signExtend 32).toNat % Size.word.bytes = 0
    · rw [if_pos hm] at he
      simp only [Size.bytes] at he hm
      obtain rfl := Option.some.inj he
      refine load_case (by decide) (by decide) (by decide) fun c hc => ?_
      rw [hreg, ← hc] at hm ⊢
      rw [fetch_part c 4 (by omega), hm]; exact (word_part _ _).symm
    · rw [if_neg hm] at he; contradiction
  · rename_i h1
    simp only [h1] at hC
    rw [hC]
    obtain rfl := Option.some.inj hi
    simp only [TinyGarble.Spec.Mips.exec] at he
    by_cases hm : ((abs L st).reg (bits x 21 5) + (bits x 0 16).signExtend 32).toNat % Size.byte.bytes = 0
    · rw [if_pos hm] at he
      simp only [Size.bytes] at he hm
      obtain rfl := Option.some.inj he
      refine load_case (by decide) (by decide) (by decide) fun c hc => ?_
      rw [hreg, ← hc] at hm ⊢
      rw [fetch_part c 1 (by omega), dataOut_byte]; rfl
    · rw [if_neg hm] at he; contradiction
  · rename_i h1
    simp only [h1] at hC
    rw [hC]
    obtain rfl := Option.some.inj hi
    simp only [TinyGarble.Spec.Mips.exec] at he
    by_cases hm : ((abs L st).reg (bits x 21 5) + (bits x 0 16).signExtend 32).toNat % Size.half.bytes = 0
    · rw [if_pos hm] at he
      simp only [Size.bytes] at he hm
      obtain rfl := Option.some.inj he
      refine load_case (by decide) (by decide) (by decide) fun c hc => ?_
      rw [hreg, ← hc] at hm ⊢
      rw [fetch_part c 2 (by omega), dataOut_half _ _ hm]; rfl
    · rw [if_neg hm] at he; contradiction
  · rename_i h1
    simp only [h1] at hC
    rw [hC]
    obtain rfl := Option.some.inj hi
    simp only [TinyGarble.Spec.Mips.exec] at he
    by_cases hm : ((abs L st).reg (bits x 21 5) + (bits x 0 16).signExtend 32).toNat % Size.byte.bytes = 0
    · rw [if_pos hm] at he
      simp only [Size.bytes] at he hm
      obtain rfl := Option.some.inj he
      refine store_case rfl ?_ ?_
      · omega
      · intro w d; rfl
    · rw [if_neg hm] at he; contradiction
  · rename_i h1
    simp only [h1] at hC
    rw [hC]
    obtain rfl := Option.some.inj hi
    simp only [TinyGarble.Spec.Mips.exec] at he
    by_cases hm : ((abs L st).reg (bits x 21 5) + (bits x 0 16).signExtend 32).toNat % Size.half.bytes = 0
    · rw [if_pos hm] at he
      simp only [Size.bytes] at he hm
      obtain rfl := Option.some.inj he
      refine store_case rfl ?_ ?_
      · omega
      · exact dataIn_half _ hm
    · rw [if_neg hm] at he; contradiction
  · rename_i h1
    simp only [h1] at hC
    rw [hC]
    obtain rfl := Option.some.inj hi
    simp only [TinyGarble.Spec.Mips.exec] at he
    by_cases hm : ((abs L st).reg (bits x 21 5) + (bits x 0 16).signExtend 32).toNat % Size.word.bytes = 0
    · rw [if_pos hm] at he
      simp only [Size.bytes] at he hm
      obtain rfl := Option.some.inj he
      refine store_case rfl ?_ ?_
      · omega
      · exact dataIn_word _ hm
    · rw [if_neg hm] at he; contradiction
  · contradiction

/-- Register 0 remains 0. -/
theorem execute_zero (h0 : st.registers 0 = 0) : (execute L x ctl st).registers 0 = 0 := by
  show (if 0 = ctl.rd.toNat ∧ ctl.rd ≠ 0 then _ else st.registers 0) = 0
  rw [if_neg, h0]
  rintro ⟨h1, h2⟩
  exact h2 (BitVec.eq_of_toNat_eq h1.symm)

theorem step_eq (prog : Nat → BitVec 32) (h : st.pc.toNat < 2 ^ L) :
    step L prog st = some (execute L (prog st.pc.toNat) (TinyGarble.Hdl.Mips.control (prog st.pc.toNat)) st) := by
  have h1 : (st.pc.extractLsb' 0 (L + 2)).toNat = st.pc.toNat := by
    rw [BitVec.extractLsb'_toNat, Nat.shiftRight_eq_div_pow, Nat.pow_zero, Nat.div_one, Nat.mod_eq_of_lt]
    exact Nat.lt_of_lt_of_le h (Nat.pow_le_pow_right (by omega) (by omega))
  simp only [step, h1]
  rw [if_neg (by omega)]

theorem abs_pc (L : Nat) (st : Regs) : (abs L st).pc.toNat / 4 = st.pc.toNat := by
  show (st.pc ++ 0#2).toNat / 4 = _
  rw [toNat_pc]; omega

theorem run_refines (prog e : Nat → BitVec 32) (t : Nat) (s' : State (L + 2))
    (ht : TinyGarble.Spec.Mips.trace prog (abs L (reset e)) t = some s')
    (hs : ∀ u < t, ∀ s i, TinyGarble.Spec.Mips.trace prog (abs L (reset e)) u = some s →
      TinyGarble.Spec.Mips.decode (prog (s.pc.toNat / 4)) = some i → s.pc.toNat / 4 < 2 ^ L ∧ TinyGarble.Spec.Mips.Supported s i) :
    ∃ st, run L prog e t = some st ∧ abs L st = s' ∧ st.registers 0 = 0 := by
  induction t generalizing s' with
  | zero => exact ⟨reset e, rfl, Option.some.inj ht, rfl⟩
  | succ t ih =>
    rw [TinyGarble.Spec.Mips.trace] at ht
    obtain ⟨s, h1, h2⟩ := Option.bind_eq_some_iff.mp ht
    obtain ⟨i, h3, h4⟩ := Option.bind_eq_some_iff.mp h2
    obtain ⟨st, h5, h6, h7⟩ := ih s h1 fun u hu => hs u (by omega)
    obtain ⟨h8, h9⟩ := hs t (by omega) s i h1 h3
    subst h6
    rw [abs_pc] at h3 h8
    refine ⟨_, ?_, execute_refines h7 h3 h4 h9, execute_zero h7⟩
    rw [run, h5]
    exact step_eq prog h8

/-- A branch that is taken. -/
theorem taken_case {f br c : Nat} {rs rt rd : BitVec 5}
    (ht : takeBranch (alu (st.registers rs.toNat) (st.registers rt.toNat) f) br = true) :
    (abs L (execute L x { rs := rs, rt := rt, rd := rd, alu := f, branch := br, pc := 2, c := c } st)).pc =
      (abs L st).pc + (bits x 0 16).signExtend 32 * 4 := by
  have h1 : (execute L x { rs := rs, rt := rt, rd := rd, alu := f, branch := br, pc := 2, c := c } st).pc = st.pc + (bits x 0 16).signExtend 30 := by
    show (if takeBranch (alu (st.registers rs.toNat) (st.registers rt.toNat) f ||| 0 ||| 0) br then st.pc + (field x 0 16).signExtend 30 else st.pc + 1) = _
    rw [or_zero, ht, if_pos rfl, field_eq]
  show (execute L x _ st).pc ++ 0#2 = (st.pc ++ 0#2) + _
  rw [h1]
  have h2 : (bits x 0 16).signExtend 32 * 4 = (bits x 0 16).signExtend 30 ++ 0#2 := by
    apply BitVec.eq_of_toNat_eq
    rw [toNat_pc, BitVec.toNat_mul, BitVec.toNat_signExtend, BitVec.toNat_signExtend, BitVec.toNat_setWidth, BitVec.toNat_setWidth]
    have := (bits x 0 16).isLt
    have e1 : (bits x 0 16).toNat % 2 ^ (30 + 2) = (bits x 0 16).toNat := Nat.mod_eq_of_lt (by omega)
    have e2 : (bits x 0 16).toNat % 2 ^ 30 = (bits x 0 16).toNat := Nat.mod_eq_of_lt (by omega)
    rw [e1, e2, show (4 : BitVec (30 + 2)).toNat = 4 from rfl]
    split <;> omega
  rw [h2]
  apply BitVec.eq_of_toNat_eq
  have h3 : (st.pc ++ 0#2 + ((bits x 0 16).signExtend 30 ++ 0#2) : BitVec 32).toNat =
    ((st.pc ++ 0#2).toNat + ((bits x 0 16).signExtend 30 ++ 0#2 : BitVec 32).toNat) % 2 ^ 32 := BitVec.toNat_add _ _
  rw [h3, toNat_pc, toNat_pc, toNat_pc, BitVec.toNat_add]
  omega

theorem taken_refines {c : Cond} {link : Bool} {rs rt : BitVec 5} {off : BitVec 16} (h0 : st.registers 0 = 0)
    (hi : TinyGarble.Spec.Mips.decode x = some (.branch c link rs rt off)) (ht : c.holds ((abs L st).reg rs) ((abs L st).reg rt) = true) :
    (abs L (execute L x (TinyGarble.Hdl.Mips.control x) st)).pc = (abs L st).pc + off.signExtend 32 * 4 := by
  have h0' : st.registers (0 : BitVec 5).toNat = 0 := h0
  simp only [TinyGarble.Spec.Mips.decode] at hi
  have hC := TinyGarble.Hdl.Mips.control.eq_1 x
  simp only [field_eq] at hC
  split at hi
  · split at hi <;> simp at hi
  · rename_i h1
    simp only [h1] at hC
    split at hi
    all_goals rename_i h2
    all_goals first | contradiction | skip
    all_goals simp only [h2] at hC
    all_goals rw [hC]
    all_goals injection hi with hi
    all_goals injection hi with e1 e2 e3 e4 e5
    all_goals subst e1 e2 e3 e4 e5
    · exact taken_case (c := 1) (by rw [← ht]; rw [(holds_zero _ _).2.2.1, h0']; rfl)
    · exact taken_case (c := 1) (by rw [← ht]; rw [(holds_zero _ _).2.2.2, h0']; rfl)
    · exact taken_case (by rw [← ht]; rw [(holds_zero _ _).2.2.1, h0']; rfl)
    · exact taken_case (by rw [← ht]; rw [(holds_zero _ _).2.2.2, h0']; rfl)
  all_goals first | (simp at hi; done) | skip
  all_goals rename_i h1
  all_goals simp only [h1] at hC
  all_goals rw [hC]
  all_goals injection hi with hi
  all_goals injection hi with e1 e2 e3 e4 e5
  all_goals subst e1 e2 e3 e4 e5
  · exact taken_case (c := 1) (by rw [← ht]; exact (holds_eq _ _).symm)
  · exact taken_case (c := 1) (by rw [← ht]; exact (holds_ne _ _).symm)
  · exact taken_case (c := 1) (by rw [← ht]; rw [(holds_zero _ _).1, h0']; rfl)
  · exact taken_case (c := 1) (by rw [← ht]; rw [(holds_zero _ _).2.1, h0']; rfl)

end TinyGarble.Proof.Hdl.Mips
