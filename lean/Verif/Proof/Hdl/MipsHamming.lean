import Verif.Proof.Hdl.MipsEarly

/-!
# hamming.s
-/

namespace TinyGarble.Proof.Hdl.Mips

open TinyGarble.Spec.Mips (State Instr Op traceOf exec fetch put)

/-! ## Paths -/

/-- `n` instructions lead from a state to another one, and all states before the last one are as `P` says. -/
def Path {A : Nat} (code : Nat → Option Instr) (P : State A → Prop) (s : State A) (n : Nat) (s' : State A) : Prop :=
  traceOf code s n = some s' ∧ ∀ u < n, ∃ x, traceOf code s u = some x ∧ P x

section
variable {A : Nat} {code : Nat → Option Instr} {P : State A → Prop} {s s' s'' : State A}

theorem traceOf_add (m n : Nat) : traceOf code s (m + n) = (traceOf code s m).bind fun x => traceOf code x n := by
  induction n with
  | zero => simp [traceOf]
  | succ n ih =>
    rw [← Nat.add_assoc, traceOf, ih, Option.bind_assoc]
    rfl

theorem Path.nil : Path code P s 0 s := ⟨rfl, fun u hu => by omega⟩

theorem Path.trans {m n : Nat} (h1 : Path code P s m s') (h2 : Path code P s' n s'') : Path code P s (m + n) s'' := by
  refine ⟨by rw [traceOf_add, h1.1]; exact h2.1, fun u hu => ?_⟩
  by_cases h : u < m
  · exact h1.2 u h
  · obtain ⟨v, rfl⟩ := Nat.exists_eq_add_of_le (Nat.le_of_not_lt h)
    rw [traceOf_add, h1.1]
    exact h2.2 v (by omega)

theorem Path.step {n : Nat} (i : Instr) (hP : P s) (hc : code (s.pc.toNat / 4) = some i) (he : exec s i = some s') (h : Path code P s' n s'') :
    Path code P s (n + 1) s'' := by
  rw [Nat.add_comm]
  refine Path.trans ⟨?_, fun u hu => ⟨s, ?_, hP⟩⟩ h
  · simp [traceOf, hc, he]
  · obtain rfl : u = 0 := by omega
    rfl

/-- `n` instructions lead to a state as `Q` says. -/
def Leads {A : Nat} (code : Nat → Option Instr) (P : State A → Prop) (s : State A) (n : Nat) (Q : State A → Prop) : Prop :=
  ∃ s', Path code P s n s' ∧ Q s'

theorem Leads.nil {Q : State A → Prop} (h : Q s) : Leads code P s 0 Q := ⟨s, Path.nil, h⟩

theorem Leads.step {n : Nat} {Q : State A → Prop} (i : Instr) (hP : P s) (hc : code (s.pc.toNat / 4) = some i) (he : exec s i = some s')
    (h : Leads code P s' n Q) : Leads code P s (n + 1) Q := by
  obtain ⟨x, h1, h2⟩ := h
  exact ⟨x, Path.step i hP hc he h1, h2⟩

theorem Leads.trans {m n : Nat} {Q R : State A → Prop} (h1 : Leads code P s m Q) (h2 : ∀ x, Q x → Leads code P x n R) : Leads code P s (m + n) R := by
  obtain ⟨x, h3, h4⟩ := h1
  obtain ⟨y, h5, h6⟩ := h2 x h4
  exact ⟨y, h3.trans h5, h6⟩

end

/-! ## Memory -/

/-- The memory with words `w`. -/
def memOf (L : Nat) (w : Nat → BitVec 32) : BitVec (L + 2) → BitVec 8 := (abs L ⟨0, fun _ => 0, w⟩).mem

variable {L : Nat} {w : Nat → BitVec 32} {s : State (L + 2)}

theorem setWidth_word {k : Nat} (hk : k < 2 ^ L) (hL : L ≤ 28) : ((BitVec.ofNat 32 (4 * k)).setWidth (L + 2)).toNat = 4 * k := by
  have h1 : 2 ^ L ≤ 2 ^ 28 := Nat.pow_le_pow_right (by omega) hL
  rw [BitVec.toNat_setWidth, BitVec.toNat_ofNat, Nat.mod_eq_of_lt (a := 4 * k) (by omega), Nat.mod_eq_of_lt (by rw [Nat.pow_add]; omega)]

theorem exec_lw {rt base : BitVec 5} {k : Nat} (hL : L ≤ 28) (hm : s.mem = memOf L w) (hb : s.reg base = BitVec.ofNat 32 (4 * k)) (hk : k < 2 ^ L) :
    exec s (.load .word true rt base 0) = some (s.set rt (w k)).next := by
  have h1 : 2 ^ L ≤ 2 ^ 28 := Nat.pow_le_pow_right (by omega) hL
  have h2 : s.reg base + (0 : BitVec 16).signExtend 32 = BitVec.ofNat 32 (4 * k) := by rw [hb]; simp
  have h3 : (BitVec.ofNat 32 (4 * k)).toNat = 4 * k := by rw [BitVec.toNat_ofNat, Nat.mod_eq_of_lt (by omega)]
  have h4 := fetch_part (L := L) (st := ⟨0, fun _ => 0, w⟩) (BitVec.ofNat 32 (4 * k)) 4 (by rw [h3]; omega)
  simp only [exec, h2, h3, TinyGarble.Spec.Mips.Size.bytes, hm]
  rw [if_pos (by omega), memOf, h4, setWidth_word hk hL, h3]
  rw [show 4 * k / 4 = k by omega, show 4 * k % 4 = 0 by omega]
  simp

theorem put_word {k : Nat} (v : BitVec 32) (hk : k < 2 ^ L) (hL : L ≤ 28) :
    put (memOf L w) ((BitVec.ofNat 32 (4 * k)).setWidth (L + 2)) v.toNat 4 = memOf L fun i => if i = k then v else w i := by
  have h1 := setWidth_word hk hL
  funext b
  rw [put_aligned 4 _ _ _ (by rw [h1]; omega), h1, show 4 * k / 4 = k by omega, show 4 * k % 4 = 0 by omega]
  show (if _ then _ else (w (b.toNat / 4)).extractLsb' _ 8) = (if _ then v else w _).extractLsb' _ 8
  by_cases h2 : b.toNat / 4 = k
  · rw [if_pos ⟨h2, by omega, by omega⟩, if_pos h2]
    apply BitVec.eq_of_toNat_eq
    rw [BitVec.toNat_ofNat, byte_toNat, Nat.sub_zero]
  · rw [if_neg (fun h => h2 h.1), if_neg h2]

/-! ## Sums -/

theorem fits_add {a b : Nat} (h : a + b < 2 ^ 31) :
    Op.eval .add (BitVec.ofNat 32 a) (BitVec.ofNat 32 b) = some (BitVec.ofNat 32 (a + b)) := by
  have h1 : ∀ n : Nat, n < 2 ^ 31 → (BitVec.ofNat 32 n).toInt = n := fun n hn => by
    rw [BitVec.toInt_eq_toNat_of_lt (by rw [BitVec.toNat_ofNat]; omega), BitVec.toNat_ofNat, Nat.mod_eq_of_lt (by omega)]
  simp only [Op.eval]
  rw [if_pos, BitVec.ofNat_add]
  rw [h1 a (by omega), h1 b (by omega), TinyGarble.Spec.Mips.Fits]
  omega

theorem exec_addi {rt rs : BitVec 5} {a : Nat} (b : Nat) (imm : BitVec 16) (hb : imm.signExtend 32 = BitVec.ofNat 32 b)
    (hr : s.reg rs = BitVec.ofNat 32 a) (h : a + b < 2 ^ 31) :
    exec s (.imm .add rt rs imm) = some (s.set rt (BitVec.ofNat 32 (a + b))).next := by
  simp only [exec, Op.operand, hr, hb, fits_add h, Option.map_some]

theorem exec_add {rd rs rt : BitVec 5} {a b : Nat} (ha : s.reg rs = BitVec.ofNat 32 a) (hb : s.reg rt = BitVec.ofNat 32 b) (h : a + b < 2 ^ 31) :
    exec s (.reg .add rd rs rt) = some (s.set rd (BitVec.ofNat 32 (a + b))).next := by
  simp only [exec, ha, hb, fits_add h, Option.map_some]

theorem exec_beq_no {rs rt : BitVec 5} {off : BitVec 16} (h : s.reg rs ≠ s.reg rt) : exec s (.branch .eq false rs rt off) = some s.next := by
  simp [exec, TinyGarble.Spec.Mips.Cond.holds, h, State.next]

theorem exec_beq_yes {rs rt : BitVec 5} {off : BitVec 16} (h : s.reg rs = s.reg rt) :
    exec s (.branch .eq false rs rt off) = some { s with pc := s.pc + 4 + off.signExtend 32 * 4 } := by
  simp [exec, TinyGarble.Spec.Mips.Cond.holds, h]

theorem exec_j {target : BitVec 26} : exec s (.jump false target) = some { s with pc := (s.pc + 4).extractLsb' 28 4 ++ target ++ 0#2 } := rfl

theorem ofNat_ne {a b : Nat} (ha : a < 2 ^ 32) (hb : b < 2 ^ 32) (h : a ≠ b) : BitVec.ofNat 32 a ≠ BitVec.ofNat 32 b := by
  intro h1
  have h2 := congrArg BitVec.toNat h1
  rw [BitVec.toNat_ofNat, BitVec.toNat_ofNat, Nat.mod_eq_of_lt ha, Nat.mod_eq_of_lt hb] at h2
  exact h h2

/-! ## The program -/

/-- The instructions, with the offsets of the branches. -/
def hammingCode (o1 o2 : BitVec 16) : List Instr :=
  [.load .word true 9 0 0, .shift .sll 9 9 2, .imm .add 2 0 8, .reg .add 3 2 9, .imm .add 9 9 8, .branch .eq false 2 9 o1,
    .load .word true 4 2 0, .load .word true 5 3 0, .reg .xor 6 4 5, .branch .eq false 6 0 o2, .imm .add 10 10 1, .imm .add 2 2 4,
    .imm .add 3 3 4, .jump false 5, .store .word 10 0 4, .jump false 15]

/-- A state of the program before it has stored anything. -/
def Early (m : BitVec (L + 2) → BitVec 8) (x : State (L + 2)) : Prop := x.pc.toNat < 64 ∧ x.mem = m

/-- The state at `loop`, with `l` words and after `i` of them, of which `c` were counted. -/
structure Head (m : BitVec (L + 2) → BitVec 8) (l i c : Nat) (s : State (L + 2)) : Prop where
  pc : s.pc = 20#32
  r0 : s.reg 0#5 = 0#32
  r2 : s.reg 2#5 = BitVec.ofNat 32 (8 + 4 * i)
  r3 : s.reg 3#5 = BitVec.ofNat 32 (8 + 4 * l + 4 * i)
  r9 : s.reg 9#5 = BitVec.ofNat 32 (8 + 4 * l)
  r10 : s.reg 10#5 = BitVec.ofNat 32 c
  mem : s.mem = m

/-- The words that are compared. -/
def differ (w : Nat → BitVec 32) (l i : Nat) : Nat := if w (2 + i) = w (2 + l + i) then 0 else 1

/-- The number of the first `n` words that differ. -/
def distTo (w : Nat → BitVec 32) (l : Nat) : Nat → Nat
  | 0 => 0
  | n + 1 => distTo w l n + differ w l n

theorem distTo_le (l n : Nat) : distTo w l n ≤ n := by
  induction n with
  | zero => simp [distTo]
  | succ n ih => rw [distTo, differ]; split <;> omega

variable {code : Nat → Option Instr} {o1 o2 : BitVec 16} (hc : ∀ i (h : i < 16), code i = some ((hammingCode o1 o2)[i]'h))
include hc

set_option hygiene false in
/-- One instruction of the program. -/
local macro "instr" i:term "by_exec" e:term : tactic =>
  `(tactic|
    (refine Leads.step _ ⟨by simp [State.next, State.set, hp], by simp [State.next, State.set, hm]⟩
        (Eq.trans (congrArg code (show _ = $i by simp [State.next, State.set, hp])) (hc _ (by decide))) $e ?_))

/-- The first instructions. -/
theorem hamming_init {l : Nat} (hL : L ≤ 28) (hl : 2 * l + 2 ≤ 2 ^ L) (hw : w 0 = BitVec.ofNat 32 l) (hp : s.pc = 0#32) (hr : ∀ r, s.reg r = 0)
    (hm : s.mem = memOf L w) : Leads code (Early (memOf L w)) s 5 (Head (memOf L w) l 0 0) := by
  have h1 : 2 ^ L ≤ 2 ^ 28 := Nat.pow_le_pow_right (by omega) hL
  have h2 : BitVec.ofNat 32 l <<< 2 = BitVec.ofNat 32 (4 * l) := by
    apply BitVec.eq_of_toNat_eq
    simp only [BitVec.toNat_shiftLeft, BitVec.toNat_ofNat, Nat.shiftLeft_eq]
    omega
  instr 0 by_exec exec_lw (k := 0) (rt := 9) hL hm (by rw [hr]; rfl) (by omega)
  instr 1 by_exec rfl
  instr 2 by_exec exec_addi (a := 0) (rt := 2) 8 8 (by decide) (by simp [State.next, State.set, hr]) (by omega)
  instr 3 by_exec exec_add (a := 8) (b := 4 * l) (by simp [State.next, State.set])
    (by simp [State.next, State.set, TinyGarble.Spec.Mips.Shift.eval, hw, h2]) (by omega)
  instr 4 by_exec exec_addi (a := 4 * l) 8 8 (by decide)
    (by simp [State.next, State.set, TinyGarble.Spec.Mips.Shift.eval, hw, h2]) (by omega)
  apply Leads.nil
  constructor
  all_goals simp [State.next, State.set, hp, hr, hm, Nat.add_comm]

/-- The state before the second branch. -/
structure Mid (m : BitVec (L + 2) → BitVec 8) (l i c : Nat) (same : Prop) (s : State (L + 2)) : Prop where
  pc : s.pc = 36#32
  r0 : s.reg 0#5 = 0#32
  r2 : s.reg 2#5 = BitVec.ofNat 32 (8 + 4 * i)
  r3 : s.reg 3#5 = BitVec.ofNat 32 (8 + 4 * l + 4 * i)
  r6 : s.reg 6#5 = 0#32 ↔ same
  r9 : s.reg 9#5 = BitVec.ofNat 32 (8 + 4 * l)
  r10 : s.reg 10#5 = BitVec.ofNat 32 c
  mem : s.mem = m

/-- Comparing two words. -/
theorem hamming_compare {l i c : Nat} (hL : L ≤ 28) (hl : 2 * l + 2 ≤ 2 ^ L) (hi : i < l) (h : Head (memOf L w) l i c s) :
    Leads code (Early (memOf L w)) s 4 (Mid (memOf L w) l i c (w (2 + i) = w (2 + l + i))) := by
  have h1 : 2 ^ L ≤ 2 ^ 28 := Nat.pow_le_pow_right (by omega) hL
  have hp := h.pc
  have hm := h.mem
  instr 5 by_exec exec_beq_no (by show s.reg 2#5 ≠ s.reg 9#5; rw [h.r2, h.r9]; exact ofNat_ne (by omega) (by omega) (by omega))
  instr 6 by_exec exec_lw (k := 2 + i) hL hm (by simp [State.next, h.r2, Nat.mul_add]) (by omega)
  instr 7 by_exec exec_lw (k := 2 + l + i) hL hm (by simp [State.next, State.set, h.r3, Nat.mul_add]) (by omega)
  instr 8 by_exec rfl
  apply Leads.nil
  constructor
  all_goals simp [State.next, State.set, hp, hm, h.r0, h.r2, h.r3, h.r9, h.r10, BitVec.xor_eq_zero_iff]

/-- The end of the loop. -/
theorem hamming_next {l i c : Nat} (hL : L ≤ 28) (hl : 2 * l + 2 ≤ 2 ^ L) (hi : i < l) (hp : s.pc = 44#32) (hm : s.mem = memOf L w)
    (r0 : s.reg 0#5 = 0#32) (r2 : s.reg 2#5 = BitVec.ofNat 32 (8 + 4 * i)) (r3 : s.reg 3#5 = BitVec.ofNat 32 (8 + 4 * l + 4 * i))
    (r9 : s.reg 9#5 = BitVec.ofNat 32 (8 + 4 * l)) (r10 : s.reg 10#5 = BitVec.ofNat 32 c) :
    Leads code (Early (memOf L w)) s 3 (Head (memOf L w) l (i + 1) c) := by
  have h1 : 2 ^ L ≤ 2 ^ 28 := Nat.pow_le_pow_right (by omega) hL
  instr 11 by_exec exec_addi 4 4 (by decide) r2 (by omega)
  instr 12 by_exec exec_addi (a := 8 + 4 * l + 4 * i) 4 4 (by decide) (by simp [State.next, State.set, r3]) (by omega)
  instr 13 by_exec exec_j
  apply Leads.nil
  constructor
  all_goals simp [State.next, State.set, hp, hm, r0, r9, r10, Nat.mul_add, Nat.add_assoc]

/-- Counting. -/
theorem hamming_count {l i c : Nat} (hL : L ≤ 28) (hl : 2 * l + 2 ≤ 2 ^ L) (hi : i < l) (hcl : c ≤ i) (hp : s.pc = 40#32) (hm : s.mem = memOf L w)
    (r0 : s.reg 0#5 = 0#32) (r2 : s.reg 2#5 = BitVec.ofNat 32 (8 + 4 * i)) (r3 : s.reg 3#5 = BitVec.ofNat 32 (8 + 4 * l + 4 * i))
    (r9 : s.reg 9#5 = BitVec.ofNat 32 (8 + 4 * l)) (r10 : s.reg 10#5 = BitVec.ofNat 32 c) :
    Leads code (Early (memOf L w)) s 4 (Head (memOf L w) l (i + 1) (c + 1)) := by
  have h1 : 2 ^ L ≤ 2 ^ 28 := Nat.pow_le_pow_right (by omega) hL
  instr 10 by_exec exec_addi 1 1 (by decide) r10 (by omega)
  apply hamming_next hc hL hl hi
  all_goals simp [State.next, State.set, hp, hm, r0, r2, r3, r9]

omit hc in
/-- One word, with branches that go where they should. -/
theorem hamming_body (hc : ∀ i (h : i < 16), code i = some ((hammingCode 8 1)[i]'h)) {l i c : Nat} (hL : L ≤ 28) (hl : 2 * l + 2 ≤ 2 ^ L) (hi : i < l)
    (hcl : c ≤ i) (h : Head (memOf L w) l i c s) :
    Leads code (Early (memOf L w)) s (8 + differ w l i) (Head (memOf L w) l (i + 1) (c + differ w l i)) := by
  by_cases hd : w (2 + i) = w (2 + l + i)
  · rw [differ, if_pos hd]
    refine Leads.trans (m := 4) (n := 4) (hamming_compare hc hL hl hi h) fun s h => ?_
    have hp := h.pc
    have hm := h.mem
    instr 9 by_exec exec_beq_yes (h.r6.mpr hd |>.trans h.r0.symm)
    apply hamming_next hc hL hl hi
    all_goals simp [hp, hm, h.r0, h.r2, h.r3, h.r9, h.r10]
    try decide
  · rw [differ, if_neg hd]
    refine Leads.trans (m := 4) (n := 5) (hamming_compare hc hL hl hi h) fun s h => ?_
    have hp := h.pc
    have hm := h.mem
    instr 9 by_exec exec_beq_no (fun h0 => hd (h.r6.mp (h0.trans h.r0)))
    apply hamming_count hc hL hl hi hcl
    all_goals simp [State.next, hp, hm, h.r0, h.r2, h.r3, h.r9, h.r10]

omit hc in
/-- The loop, with branches that go where they should. -/
theorem hamming_loop (hc : ∀ i (h : i < 16), code i = some ((hammingCode 8 1)[i]'h)) {l : Nat} (n : Nat) (hL : L ≤ 28) (hl : 2 * l + 2 ≤ 2 ^ L) (hn : n ≤ l)
    (h : Head (memOf L w) l 0 0 s) : Leads code (Early (memOf L w)) s (8 * n + distTo w l n) (Head (memOf L w) l n (distTo w l n)) := by
  induction n with
  | zero => exact Leads.nil h
  | succ n ih =>
    rw [distTo, show 8 * (n + 1) + (distTo w l n + differ w l n) = (8 * n + distTo w l n) + (8 + differ w l n) by omega]
    exact (ih (by omega)).trans fun x hx => hamming_body hc hL hl (by omega) (distTo_le l n) hx

/-- The state after the store. -/
structure Done (m : BitVec (L + 2) → BitVec 8) (s : State (L + 2)) : Prop where
  pc : s.pc = 60#32
  mem : s.mem = m

omit hc in
/-- The whole program, with branches that go where they should. -/
theorem hamming_done (hc : ∀ i (h : i < 16), code i = some ((hammingCode 8 1)[i]'h)) {l : Nat} (hL : L ≤ 28) (hl : 2 * l + 2 ≤ 2 ^ L)
    (hw : w 0 = BitVec.ofNat 32 l) (hp : s.pc = 0#32) (hr : ∀ r, s.reg r = 0) (hm : s.mem = memOf L w) :
    Leads code (Early (memOf L w)) s (7 + 8 * l + distTo w l l)
      (Done (memOf L fun k => if k = 1 then BitVec.ofNat 32 (distTo w l l) else w k)) := by
  have h1 : 2 ^ L ≤ 2 ^ 28 := Nat.pow_le_pow_right (by omega) hL
  rw [show 7 + 8 * l + distTo w l l = (5 + (8 * l + distTo w l l)) + 2 by omega]
  refine ((hamming_init hc hL hl hw hp hr hm).trans fun x hx => hamming_loop hc l hL hl (Nat.le_refl l) hx).trans fun s h => ?_
  have hp := h.pc
  have hm := h.mem
  instr 5 by_exec exec_beq_yes (h.r2.trans h.r9.symm)
  refine Leads.step (.store .word 10 0 4) ⟨by simp [hp], by simp [hm]⟩ (Eq.trans (congrArg code (show _ = 14 by simp [hp])) (hc _ (by decide)))
    (show _ = some _ from if_pos (by simp [h.r0, TinyGarble.Spec.Mips.Size.bytes])) ?_
  apply Leads.nil
  constructor
  · simp [State.next, hp]
  · rw [← put_word (k := 1) (BitVec.ofNat 32 (distTo w l l)) (by omega) hL]
    show put s.mem ((s.reg 0#5 + (4#16).signExtend 32).setWidth (L + 2)) (s.reg 10#5).toNat 4 = _
    rw [hm, h.r0, h.r10]
    rfl

/-- The program stays at its end. -/
theorem hamming_stay {m : BitVec (L + 2) → BitVec 8} (h : Done m s) (t : Nat) : traceOf code s t = some s := by
  induction t with
  | zero => rfl
  | succ t ih =>
    rw [traceOf, ih, Option.bind_some, h.pc, show (60#32).toNat / 4 = 15 from rfl, hc 15 (by decide)]
    show exec s (.jump false 15) = some s
    rw [exec_j]
    refine congrArg some (state_ext ?_ rfl rfl)
    rw [h.pc]
    show BitVec.extractLsb' 28 4 (60#32 + 4) ++ 15#26 ++ 0#2 = 60#32
    decide

/-! ## Branches that go one instruction too early -/

omit hc in
theorem hamming_body_early (hc : ∀ i (h : i < 16), code i = some ((hammingCode 7 0)[i]'h)) {l i : Nat} (hL : L ≤ 28) (hl : 2 * l + 2 ≤ 2 ^ L)
    (hi : i < l) (h : Head (memOf L w) l i i s) : Leads code (Early (memOf L w)) s 9 (Head (memOf L w) l (i + 1) (i + 1)) := by
  refine Leads.trans (m := 4) (n := 5) (hamming_compare hc hL hl hi h) fun s h => ?_
  have hp := h.pc
  have hm := h.mem
  by_cases hd : s.reg 6#5 = s.reg 0#5
  · instr 9 by_exec exec_beq_yes hd
    apply hamming_count hc hL hl hi (Nat.le_refl i)
    all_goals simp [hp, hm, h.r0, h.r2, h.r3, h.r9, h.r10]
  · instr 9 by_exec exec_beq_no hd
    apply hamming_count hc hL hl hi (Nat.le_refl i)
    all_goals simp [State.next, hp, hm, h.r0, h.r2, h.r3, h.r9, h.r10]

omit hc in
theorem hamming_end_early (hc : ∀ i (h : i < 16), code i = some ((hammingCode 7 0)[i]'h)) {l c : Nat}
    (h : Head (memOf L w) l l c s) : Leads code (Early (memOf L w)) s 2 (Head (memOf L w) l l c) := by
  have hp := h.pc
  have hm := h.mem
  instr 5 by_exec exec_beq_yes (h.r2.trans h.r9.symm)
  instr 13 by_exec exec_j
  apply Leads.nil
  constructor
  all_goals simp [hp, hm, h.r0, h.r2, h.r3, h.r9, h.r10]
  try decide

omit hc in
/-- The program never stores anything, with branches that go one instruction too early. -/
theorem hamming_never (hc : ∀ i (h : i < 16), code i = some ((hammingCode 7 0)[i]'h)) {l : Nat} (hL : L ≤ 28) (hl : 2 * l + 2 ≤ 2 ^ L)
    (hw : w 0 = BitVec.ofNat 32 l) (hp : s.pc = 0#32) (hr : ∀ r, s.reg r = 0) (hm : s.mem = memOf L w) (t : Nat) :
    ∃ x, traceOf code s t = some x ∧ Early (memOf L w) x := by
  have h1 : ∀ n, n ≤ l → Leads code (Early (memOf L w)) s (5 + 9 * n) (Head (memOf L w) l n n) := by
    intro n hn
    induction n with
    | zero => exact hamming_init hc hL hl hw hp hr hm
    | succ n ih =>
      rw [show 5 + 9 * (n + 1) = (5 + 9 * n) + 9 by omega]
      exact (ih (by omega)).trans fun x hx => hamming_body_early hc hL hl (by omega) hx
  have h2 : ∀ n, Leads code (Early (memOf L w)) s (5 + 9 * l + 2 * n) (Head (memOf L w) l l l) := by
    intro n
    induction n with
    | zero => exact h1 l (Nat.le_refl l)
    | succ n ih =>
      rw [show 5 + 9 * l + 2 * (n + 1) = (5 + 9 * l + 2 * n) + 2 by omega]
      exact ih.trans fun x hx => hamming_end_early hc hx
  obtain ⟨_, h3, _⟩ := h2 (t + 1)
  exact h3.2 t (by omega)

end TinyGarble.Proof.Hdl.Mips
