import Verif.Proof.Hdl.A23SymApply

/-!
# Symbolic execution: tracking values

`Track.run` follows values through micro-operations: values that depend on a byte, and the registers of the initial state. It is used for functions that
compute with single bits, and whose effect does not depend on the registers that they save and restore. A value that depends on a byte is a number with 256
parts of 32 bits each, one for each byte.
-/

namespace TinyGarble.Proof.Hdl.A23.Sym

open TinyGarble.Spec.Arm
open TinyGarble.Spec.Mips (put)

theorem put_other {mem : BitVec 32 → BitVec 8} {a b : BitVec 32} (v : Nat) (h : align b ≠ align a) : put mem (align a) v 4 b = mem b := by
  have hal := align_toNat a
  have hbl := align_toNat b
  have hlt := a.isLt
  have hb : ∀ i < 4, b ≠ align a + BitVec.ofNat 32 i := by
    intro i hi he
    apply h
    apply BitVec.eq_of_toNat_eq
    have := congrArg BitVec.toNat he
    rw [BitVec.toNat_add, BitVec.toNat_ofNat] at this
    omega
  have h0 := hb 0 (by omega)
  have h1 := hb 1 (by omega)
  have h2 := hb 2 (by omega)
  have h3 := hb 3 (by omega)
  generalize align a = c at *
  have e0 : c + BitVec.ofNat 32 0 = c := BitVec.add_zero c
  have e1 : c + BitVec.ofNat 32 1 = c + 1 := rfl
  have e2 : c + BitVec.ofNat 32 2 = c + 1 + 1 := by rw [BitVec.add_assoc]; rfl
  have e3 : c + BitVec.ofNat 32 3 = c + 1 + 1 + 1 := by rw [BitVec.add_assoc, BitVec.add_assoc]; rfl
  rw [e0] at h0
  rw [e1] at h1
  rw [e2] at h2
  rw [e3] at h3
  simp only [put, h0, h1, h2, h3, if_false]

/-- A byte of the memory after storing a word elsewhere. -/
theorem store_byte (s : State) (a b : BitVec 32) (x : Src) (h : align b ≠ align a) : ((Micro.store 14 false a x).apply s).mem b = s.mem b := by
  have e : (Micro.store 14 false a x).apply s = s.putWord a (x.val s) := rfl
  rw [e]
  exact put_other _ h

namespace Track

/-! ## Numbers with many parts -/

/-- Part `i`. -/
def lane (x i : Nat) : BitVec 32 := BitVec.ofNat 32 (x / 2 ^ (32 * i))

/-- The number with the parts `f 0`, …, `f (n - 1)`. -/
def pack (f : Nat → BitVec 32) : Nat → Nat
  | 0 => 0
  | n + 1 => pack f n + 2 ^ (32 * n) * (f n).toNat

/-- The number whose parts are all 1. -/
def ones : Nat := pack (fun _ => 1#32) 256

/-- All parts are equal. -/
def rep (v : BitVec 32) : Nat := v.toNat * ones

theorem pack_lt (f : Nat → BitVec 32) (n : Nat) : pack f n < 2 ^ (32 * n) := by
  induction n with
  | zero => exact Nat.one_pos
  | succ n ih =>
    rw [pack, show 32 * (n + 1) = 32 * n + 32 by omega, pow_add]
    have := (f n).isLt
    generalize 2 ^ (32 * n) = y at *
    calc pack f n + y * (f n).toNat < y + y * (f n).toNat := by omega
      _ = y * ((f n).toNat + 1) := by rw [Nat.mul_add, Nat.mul_one, Nat.add_comm]
      _ ≤ y * 2 ^ 32 := Nat.mul_le_mul_left _ this

theorem lane_pack (f : Nat → BitVec 32) {n i : Nat} (hi : i < n) : lane (pack f n) i = f i := by
  induction n with
  | zero => omega
  | succ n ih =>
    have hlt := pack_lt f n
    rw [pack, lane]
    by_cases h : i = n
    · rw [h, Nat.add_mul_div_left _ _ (Nat.two_pow_pos _), Nat.div_eq_of_lt hlt, Nat.zero_add, BitVec.ofNat_toNat, BitVec.setWidth_eq]
    · rw [← ih (by omega), lane]
      obtain ⟨d, hd⟩ : ∃ d, n = i + 1 + d := ⟨n - (i + 1), by omega⟩
      have : 2 ^ (32 * n) * (f n).toNat = 2 ^ (32 * i) * (2 ^ 32 * (2 ^ (32 * d) * (f n).toNat)) := by
        rw [hd, show 32 * (i + 1 + d) = 32 * i + 32 + 32 * d by omega, pow_add, pow_add, Nat.mul_assoc, Nat.mul_assoc]
      rw [this, Nat.add_mul_div_left _ _ (Nat.two_pow_pos _)]
      apply BitVec.eq_of_toNat_eq
      rw [BitVec.toNat_ofNat, BitVec.toNat_ofNat, Nat.add_mul_mod_self_left]

theorem rep_pack (v : BitVec 32) (n : Nat) : v.toNat * pack (fun _ => 1#32) n = pack (fun _ => v) n := by
  induction n with
  | zero => rfl
  | succ n ih => rw [pack, pack, ← ih, Nat.mul_add, show (1#32).toNat = 1 from rfl, Nat.mul_one, Nat.mul_comm v.toNat (2 ^ (32 * n))]

theorem lane_rep (v : BitVec 32) {i : Nat} (hi : i < 256) : lane (rep v) i = v := by
  rw [rep, ones, rep_pack, lane_pack _ hi]

theorem lane_bit (x i j : Nat) (hj : j < 32) : (lane x i).getLsbD j = x.testBit (32 * i + j) := by
  rw [lane, BitVec.getLsbD_ofNat, Nat.testBit_div_two_pow, decide_eq_true hj, Bool.true_and, Nat.add_comm]

theorem lane_ext {a b : BitVec 32} (h : ∀ j < 32, a.getLsbD j = b.getLsbD j) : a = b := BitVec.eq_of_getLsbD_eq h

theorem lane_and (x y i : Nat) : lane (x &&& y) i = lane x i &&& lane y i :=
  lane_ext fun j hj => by rw [BitVec.getLsbD_and, lane_bit _ _ _ hj, lane_bit _ _ _ hj, lane_bit _ _ _ hj, Nat.testBit_and]

theorem lane_or (x y i : Nat) : lane (x ||| y) i = lane x i ||| lane y i :=
  lane_ext fun j hj => by rw [BitVec.getLsbD_or, lane_bit _ _ _ hj, lane_bit _ _ _ hj, lane_bit _ _ _ hj, Nat.testBit_or]

theorem lane_xor (x y i : Nat) : lane (x ^^^ y) i = lane x i ^^^ lane y i :=
  lane_ext fun j hj => by rw [BitVec.getLsbD_xor, lane_bit _ _ _ hj, lane_bit _ _ _ hj, lane_bit _ _ _ hj, Nat.testBit_xor]

theorem lane_bic (x y i : Nat) : lane (x ^^^ (x &&& y)) i = lane x i &&& ~~~ lane y i :=
  lane_ext fun j hj => by
    rw [BitVec.getLsbD_and, BitVec.getLsbD_not, lane_bit _ _ _ hj, lane_bit _ _ _ hj, lane_bit _ _ _ hj, Nat.testBit_xor, Nat.testBit_and, decide_eq_true hj]
    cases Nat.testBit x (32 * i + j) <;> cases Nat.testBit y (32 * i + j) <;> rfl

/-- Shifting the parts. -/
def shl (x : Nat) (n : BitVec 5) : Nat := (x <<< n.toNat) &&& rep (BitVec.allOnes 32 <<< n.toNat)
def shr (x : Nat) (n : BitVec 5) : Nat := (x >>> n.toNat) &&& rep (BitVec.allOnes 32 >>> n.toNat)

theorem lane_shl (x : Nat) (n : BitVec 5) {i : Nat} (hi : i < 256) : lane (shl x n) i = lane x i <<< n.toNat :=
  lane_ext fun j hj => by
    rw [shl, lane_and, lane_rep _ hi, BitVec.getLsbD_and, BitVec.getLsbD_shiftLeft, BitVec.getLsbD_shiftLeft, lane_bit _ _ _ hj, Nat.testBit_shiftLeft,
      decide_eq_true hj]
    by_cases h : j < n.toNat
    · simp [h]
    · rw [decide_eq_false h, BitVec.getLsbD_allOnes, decide_eq_true (show j - n.toNat < 32 by omega), lane_bit _ _ _ (by omega : j - n.toNat < 32),
        decide_eq_true (show 32 * i + j ≥ n.toNat by omega), show 32 * i + j - n.toNat = 32 * i + (j - n.toNat) by omega]
      simp

theorem lane_shr (x : Nat) (n : BitVec 5) {i : Nat} (hi : i < 256) : lane (shr x n) i = lane x i >>> n.toNat :=
  lane_ext fun j hj => by
    rw [shr, lane_and, lane_rep _ hi, BitVec.getLsbD_and, BitVec.getLsbD_ushiftRight, BitVec.getLsbD_ushiftRight, lane_bit _ _ _ hj, Nat.testBit_shiftRight,
      BitVec.getLsbD_allOnes]
    by_cases h : n.toNat + j < 32
    · rw [lane_bit _ _ _ h, decide_eq_true h, Bool.and_true, show n.toNat + (32 * i + j) = 32 * i + (n.toNat + j) by omega]
    · rw [decide_eq_false h, Bool.and_false, BitVec.getLsbD_of_ge _ _ (by omega)]

/-! ## Values -/

/-- A value that depends on a byte, a register of the initial state, or an unknown value. -/
inductive V
  | val (x : Nat)
  | reg (k : BitVec 4)
  | any
  deriving DecidableEq

/-- The values of the byte `i`. -/
def V.Of (i : Nat) (s0 : State) : V → BitVec 32 → Prop
  | .val v, x => x = lane v i
  | .reg k, x => x = s0.reg k
  | .any, _ => True

/-- The registers, and the words that were stored. -/
structure T where
  regs : List V
  mem : List (BitVec 32 × V)

def T.reg (t : T) (k : BitVec 4) : V := (t.regs[k.toNat]?).getD .any

def T.set (t : T) (k : BitVec 4) (v : V) : T := { t with regs := t.regs.set k.toNat v }

def look (a : BitVec 32) : List (BitVec 32 × V) → V
  | [] => .any
  | (b, t) :: l => if b = a then t else look a l

def T.src (t : T) : Src → V
  | .c v => .val (rep v)
  | .r k => t.reg k

/-- Bitwise operations on all parts. -/
def bitwise : Op → Option (Nat → Nat → Nat)
  | .and => some fun x y => x &&& y
  | .eor => some fun x y => x ^^^ y
  | .orr => some fun x y => x ||| y
  | .bic => some fun x y => x ^^^ (x &&& y)
  | .mov => some fun _ y => y
  | _ => none

def T.opd (t : T) : Opd → Option Nat
  | .imm rot x => some (rep ((x.zeroExtend 32).rotateRight (2 * rot.toNat)))
  | .reg x k n =>
    match t.src x with
    | .val v => if k = .lsl then some (if n = 0 then v else shl v n) else if k = .lsr ∧ n ≠ 0 then some (shr v n) else none
    | _ => none
  | .regReg .. => none

def T.step (t : T) : Micro → Option T
  | .const rd v => some (t.set rd (.val (rep v)))
  | .dp g op set rd a o =>
    if g = 14 ∧ set = false then
      match bitwise op with
      | some f => some (t.set rd (match t.src a, t.opd o with
        | .val x, some y => .val (f x y)
        | _, _ => .any))
      | none => none
    else none
  | .load g byte rd a => if g = 14 ∧ byte = false ∧ a.toNat % 4 = 0 then some (t.set rd (look a t.mem)) else none
  | .store g byte a x =>
    if g = 14 ∧ byte = false ∧ a.toNat % 4 = 0 then some { t with mem := (a, t.src x) :: t.mem.filter fun y => y.1 ≠ a } else none
  | _ => none

def T.run (t : T) : List Micro → Option T
  | [] => some t
  | m :: ms => match t.step m with
    | some t' => t'.run ms
    | none => none

structure Agree (i : Nat) (s0 : State) (t : T) (s : State) : Prop where
  reg : ∀ k, (t.reg k).Of i s0 (s.reg k)
  flags : s.flags = s0.flags
  word : ∀ a, (look a t.mem).Of i s0 (s.word a)
  aligned : ∀ x ∈ t.mem, x.1.toNat % 4 = 0
  other : ∀ b, (∀ x ∈ t.mem, x.1 ≠ align b) → s.mem b = s0.mem b

theorem bitwise_eval {op : Op} {f : Nat → Nat → Nat} (h : bitwise op = some f) (i x y : Nat) (c : Bool) (fl : Flags) :
    (op.eval (lane x i) (lane y i) c fl).1 = lane (f x y) i := by
  cases op <;> cases h
  · exact (lane_and ..).symm
  · exact (lane_xor ..).symm
  · exact (lane_or ..).symm
  · exact rfl
  · exact (lane_bic ..).symm

theorem bitwise_compare {op : Op} {f : Nat → Nat → Nat} (h : bitwise op = some f) : op.compare = false := by
  cases op <;> first | rfl | cases h

theorem look_filter (a b : BitVec 32) (l : List (BitVec 32 × V)) : b ≠ a → look b (l.filter fun x => x.1 ≠ a) = look b l := by
  intro hb
  induction l with
  | nil => rfl
  | cons x l ih =>
    obtain ⟨c, t⟩ := x
    rw [List.filter_cons]
    by_cases hc : c = a
    · rw [if_neg (by simpa using hc), ih, look, if_neg (by rw [hc]; exact Ne.symm hb)]
    · rw [if_pos (by simpa using hc), look, ih, look]

theorem look_none {a : BitVec 32} {l : List (BitVec 32 × V)} (h : ∀ x ∈ l, x.1 ≠ a) : look a l = .any := by
  induction l with
  | nil => rfl
  | cons x l ih =>
    obtain ⟨b, t⟩ := x
    rw [look, if_neg (h _ (List.mem_cons_self ..))]
    exact ih fun y hy => h y (List.mem_cons_of_mem _ hy)

section
variable {i : Nat} (hi : i < 256) {s0 s : State} {t : T} (h : Agree i s0 t s)
include hi h

theorem Agree.src (x : Src) : (t.src x).Of i s0 (x.val s) := by
  cases x with
  | c v => exact (lane_rep v hi).symm
  | r k => exact h.reg k

theorem Agree.opd {o : Opd} {y : Nat} (ho : t.opd o = some y) (c : Bool) : (o.eval (Src.val s) c).1 = lane y i := by
  cases o with
  | imm rot x => rw [← Option.some.inj ho, lane_rep _ hi]; rfl
  | reg x k n =>
    unfold T.opd at ho
    dsimp only at ho
    have hx := Agree.src hi h x
    split at ho
    swap
    · cases ho
    rename_i v hv
    rw [hv] at hx
    have hx : x.val s = lane v i := hx
    show (k.const (x.val s) n c).1 = _
    rw [hx]
    unfold Shift.const
    split at ho
    · rename_i hk
      rw [← Option.some.inj ho, hk]
      by_cases hn : n = 0
      · rw [if_pos hn, if_pos hn]
      · rw [if_neg hn, if_neg hn, lane_shl _ _ hi]; rfl
    · split at ho
      · rename_i hk
        rw [← Option.some.inj ho, hk.1, if_neg hk.2, lane_shr _ _ hi]; rfl
      · cases ho
  | regReg x k n => cases ho

omit hi in
theorem Agree.set (k : BitVec 4) {v : V} {x : BitVec 32} {s' : State} (hv : v.Of i s0 x) (hr : s'.reg = fun j => if j = k then x else s.reg j)
    (hf : s'.flags = s.flags) (hm : s'.mem = s.mem) : Agree i s0 (t.set k v) s' := by
  refine ⟨fun j => ?_, hf.trans h.flags, fun a => ?_, h.aligned, fun b hb => by rw [hm]; exact h.other b hb⟩
  · rw [hr]
    show V.Of i s0 ((t.regs.set k.toNat v)[j.toNat]?.getD .any) (if j = k then x else s.reg j)
    rw [List.getElem?_set]
    by_cases hj : j = k
    · rw [if_pos hj, if_pos (by rw [hj])]
      split
      · exact hv
      · trivial
    · rw [if_neg hj, if_neg fun h => hj (BitVec.eq_of_toNat_eq h.symm)]
      exact h.reg j
  · rw [word_congr hm]
    exact h.word a

theorem Agree.step {m : Micro} {t' : T} (hs : t.step m = some t') : Agree i s0 t' (m.apply s) := by
  cases m with
  | const rd v =>
    cases hs
    exact h.set rd (x := v) (lane_rep v hi).symm rfl rfl rfl
  | flags f => cases hs
  | mul => cases hs
  | dp g op set rd a o =>
    unfold T.step at hs
    dsimp only at hs
    split at hs
    swap
    · cases hs
    rename_i hc
    obtain ⟨rfl, rfl⟩ := hc
    split at hs
    swap
    · cases hs
    rename_i f hp
    cases hs
    have e : (Micro.dp 14 op false rd a o).apply s = setReg s rd (dpResult s op a o).1 := by
      rw [dp_apply, if_pos (holds_always _), if_neg (by rw [bitwise_compare hp]; decide), if_neg (by decide)]
      rfl
    rw [e]
    refine h.set rd (x := (dpResult s op a o).1) ?_ rfl rfl rfl
    have ha := Agree.src hi h a
    split
    · rename_i x y hx hy
      rw [hx] at ha
      have ha : a.val s = lane x i := ha
      show (dpResult s op a o).1 = _
      rw [dpResult, Agree.opd hi h hy, ha]
      exact bitwise_eval hp ..
    · trivial
  | load g byte rd a =>
    unfold T.step at hs
    dsimp only at hs
    split at hs
    swap
    · cases hs
    rename_i hc
    obtain ⟨rfl, rfl, hp⟩ := hc
    cases hs
    exact h.set rd (x := s.word a) (h.word a) rfl rfl rfl
  | store g byte a x =>
    unfold T.step at hs
    dsimp only at hs
    split at hs
    swap
    · cases hs
    rename_i hc
    obtain ⟨rfl, rfl, hp⟩ := hc
    cases hs
    have e : (Micro.store 14 false a x).apply s = s.putWord a (x.val s) := rfl
    refine ⟨fun k => by rw [store_reg]; exact h.reg k, by rw [store_flags]; exact h.flags, fun b => ?_, fun y hy => ?_, fun b hb => ?_⟩
    · rw [e]
      show V.Of i s0 (look b ((a, t.src x) :: t.mem.filter fun y => y.1 ≠ a)) _
      rw [look]
      by_cases hb : a = b
      · rw [if_pos hb, ← hb, word_putWord_same]
        exact Agree.src hi h x
      · rw [if_neg hb, look_filter _ _ _ (Ne.symm hb)]
        by_cases hal : align a = align b
        · have : look b t.mem = .any := look_none fun y hy he => by
            have := h.aligned y hy
            rw [he] at this
            rw [align_of_mod hp, align_of_mod this] at hal
            exact hb hal
          rw [this]
          trivial
        · rw [word_putWord, if_neg hal]
          exact h.word b
    · rcases List.mem_cons.1 hy with rfl | hy
      · exact hp
      · exact h.aligned y (List.mem_filter.1 hy).1
    · have hba : a ≠ align b := hb _ (List.mem_cons_self ..)
      rw [store_byte s a b x (by rw [align_of_mod hp]; exact Ne.symm hba)]
      refine h.other b fun y hy he => ?_
      by_cases hya : y.1 = a
      · exact hba (hya ▸ he)
      · exact hb y (List.mem_cons_of_mem _ (List.mem_filter.2 ⟨hy, by simpa using hya⟩)) he

end

theorem Agree.run {i : Nat} (hi : i < 256) {s0 s : State} {t t' : T} (h : Agree i s0 t s) {ms : List Micro} (hr : t.run ms = some t') :
    Agree i s0 t' (applyAll s ms) := by
  induction ms generalizing t s with
  | nil => cases hr; exact h
  | cons m ms ih =>
    unfold T.run at hr
    split at hr
    · rename_i t1 h1
      exact ih (Agree.step hi h h1) hr
    · cases hr

/-- At the start of a function, whose argument in register 0 is a byte. -/
def start : T := ⟨.val (pack (BitVec.ofNat 32) 256) :: (List.range 15).map fun k => .reg (BitVec.ofNat 4 (k + 1)), []⟩

theorem agree_start {s : State} {i : Nat} (hi : i < 256) (h : s.reg 0 = BitVec.ofNat 32 i) : Agree i s start s := by
  refine ⟨fun k => ?_, rfl, fun a => trivial, fun x hx => absurd hx (List.not_mem_nil), fun b _ => rfl⟩
  by_cases hk : k = 0
  · rw [hk]
    show s.reg 0 = lane (pack (BitVec.ofNat 32) 256) i
    rw [h, lane_pack _ hi]
  · have : k.toNat ≠ 0 := fun h => hk (BitVec.eq_of_toNat_eq h)
    have hlt := k.isLt
    unfold T.reg start
    obtain ⟨j, hj⟩ := Nat.exists_eq_succ_of_ne_zero this
    have hkj : BitVec.ofNat 4 (j + 1) = k := by
      apply BitVec.eq_of_toNat_eq
      rw [BitVec.toNat_ofNat]
      omega
    dsimp only
    rw [hj, Nat.succ_eq_add_one, List.getElem?_cons_succ, List.getElem?_map, List.getElem?_range (by omega), Option.map_some, Option.getD_some, hkj]
    exact rfl

end Track

end TinyGarble.Proof.Hdl.A23.Sym
