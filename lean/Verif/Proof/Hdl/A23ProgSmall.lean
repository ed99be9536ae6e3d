import Verif.Proof.Hdl.A23ProgSum

/-! # The programs mul, mem-test, compare and temp -/

namespace TinyGarble.Proof.Hdl.A23.Sym

open TinyGarble.Spec.Arm

/-- At the end. -/
def stopped : Abs := ⟨5, [], none, []⟩

theorem imm_zero : (BitVec.zeroExtend 32 (0 : BitVec 8)).rotateRight (2 * BitVec.toNat (0 : BitVec 4)) = 0 := by decide
theorem holds_cc (f : Flags) : holds 3 f = !f.c := rfl

theorem sum_add (x y : BitVec 32) : (sum x y false).1 = x + y := by
  apply BitVec.eq_of_toNat_eq
  rw [BitVec.toNat_add]
  show (BitVec.ofNat 32 (x.toNat + y.toNat + 0)).toNat = _
  rw [BitVec.toNat_ofNat, Nat.add_zero]

theorem diff_sub (x y : BitVec 32) : (diff x y true).1 = x - y := by
  show x - y - 0#32 = _
  exact BitVec.sub_zero _

namespace Mul

open TinyGarble.Hdl.A23.Programs (mul)

def lay : Layout := ⟨17, 1, 1, 1, 0⟩

def all : List Micro :=
  [.const 13 0x04000100, .const 0 0x01000000, .const 1 0x02000000, .const 2 0x03000000, .const 14 0x0c000014, .load 14 false 0 0x01000000#32,
    .load 14 false 3 0x02000000#32, .mul 14 false 3 (.r 0) (.r 3), .store 14 false 0x03000000#32 (.r 3)]

theorem runs : Runs mul lay .init all 31 stopped := .of_check (n := 10) (by decide +kernel)

theorem result (s : State) : (applyAll s all).word 0x03000000#32 = s.word 0x01000000#32 * s.word 0x02000000#32 := by
  unfold all
  micro

end Mul

namespace MemTest

open TinyGarble.Hdl.A23.Programs (memTest)

def lay : Layout := ⟨18, 0, 0, 64, 0⟩

def head (i : Nat) : Abs :=
  ⟨if i = 64 then 15 else 11, [some 0x01000000, some 0x02000000, some 0x03000000, some (BitVec.ofNat 32 i), some 0, some 0, some 0, some 0, some 0, some 0,
    some 0, some 0, some 0, some 0x04000100, some 0x0c000014], none, []⟩

def first : List Micro :=
  [.const 13 0x04000100, .const 0 0x01000000, .const 1 0x02000000, .const 2 0x03000000, .const 14 0x0c000014, .const 3 0]

def body (i : Nat) : List Micro :=
  [.store 14 false (BitVec.ofNat 32 (0x03000000 + 4 * i)) (.c (BitVec.ofNat 32 i)), .const 3 (BitVec.ofNat 32 (i + 1)), .flags (diff (BitVec.ofNat 32 (i + 1)) 64 true).2]

theorem run_first : check memTest lay .init 6 first 16 (head 0) = true := by decide +kernel
theorem run_body : ∀ i < 64, check memTest lay (head i) 4 (body i) 8 (head (i + 1)) = true := by decide +kernel
theorem run_last : check memTest lay (head 64) 1 [] 3 stopped = true := by decide +kernel

theorem runs : Runs memTest lay .init (first ++ (List.range 64).flatMap body ++ []) 531 stopped := by
  have h := (Runs.loop head body (fun _ => 8) 64 fun i hi => .of_check (run_body i hi))
  have := ((Runs.of_check run_first).trans h).trans (.of_check run_last)
  rw [show 16 + ((List.range 64).map fun _ => 8).sum + 3 = 531 by decide] at this
  exact this

theorem result (s : State) (j : Nat) (hj : j < 64) :
    (applyAll s (first ++ (List.range 64).flatMap body ++ [])).word (BitVec.ofNat 32 (0x03000000 + 4 * j)) = BitVec.ofNat 32 j := by
  rw [List.append_nil, applyAll_append]
  refine applyAll_loop (fun i s => ∀ j < i, s.word (BitVec.ofNat 32 (0x03000000 + 4 * j)) = BitVec.ofNat 32 j) body 64 (fun j hj => absurd hj (by omega))
    (fun i hi s h j hj => ?_) j hj
  unfold body
  micro
  by_cases hji : j = i
  · rw [hji, if_pos rfl]
  · rw [if_neg (align_ne _ _ (by omega) (by omega) (by omega)), h j (by omega)]

end MemTest

namespace Compare

open TinyGarble.Hdl.A23.Programs (compare)
open Sum (imm_one holds_cs carry_cmp)

def lay : Layout := ⟨30, 32, 32, 1, 64⟩

def head (i : Nat) : Abs :=
  ⟨if i = 32 then 24 else 15, [some (BitVec.ofNat 32 (0x00fffffc + 4 * i)), some 0x0200007c, some 0x03000000, none, none, some 0, some 0, some 0, some 0, some 0,
    some 0, some 0, none, some 0x040000f8, some (BitVec.ofNat 32 (0x01fffffc + 4 * i))], none, [(0x040000fc, some 0x0c000014), (0x040000f8, some 0)]⟩

def first : List Micro :=
  [.const 13 0x04000100, .const 0 0x01000000, .const 1 0x02000000, .const 2 0x03000000, .const 14 0x0c000014, .const 13 0x040000f8,
    .store 14 false 0x040000f8#32 (.c 0), .store 14 false 0x040000fc#32 (.c 0x0c000014), .const 14 0x01fffffc, .const 0 0x00fffffc, .const 1 0x0200007c, .const 3 1]

def body (i : Nat) : List Micro :=
  [.const 0 (BitVec.ofNat 32 (0x01000000 + 4 * i)), .load 14 false 4 (BitVec.ofNat 32 (0x01000000 + 4 * i)), .const 14 (BitVec.ofNat 32 (0x02000000 + 4 * i)),
    .load 14 false 12 (BitVec.ofNat 32 (0x02000000 + 4 * i)), .dp 14 .mvn false 12 (.c 0) (.reg (.r 12) .lsl 0), .dp 14 .cmp true 0 (.r 3) (.imm 0 1),
    .dp 14 .adc true 12 (.r 4) (.reg (.r 12) .lsl 0), .const 3 0, .dp 2 .mov false 3 (.c 0) (.imm 0 1),
    .flags (diff (BitVec.ofNat 32 (0x02000000 + 4 * i)) 0x0200007c true).2]

def last : List Micro :=
  [.dp 14 .rsb true 3 (.r 3) (.imm 0 1), .dp 3 .mov false 3 (.c 0) (.imm 0 0), .store 14 false 0x03000000#32 (.r 3), .const 13 0x04000100, .const 4 0]

theorem run_first : check compare lay .init 10 first 23 (head 0) = true := by decide +kernel
theorem run_body : ∀ i < 32, check compare lay (head i) 9 (body i) 15 (head (i + 1)) = true := by decide +kernel
theorem run_last : check compare lay (head 32) 4 last 11 stopped = true := by decide +kernel

theorem runs : Runs compare lay .init (first ++ (List.range 32).flatMap body ++ last) 514 stopped := by
  have h := (Runs.loop head body (fun _ => 15) 32 fun i hi => .of_check (run_body i hi))
  have := ((Runs.of_check run_first).trans h).trans (.of_check run_last)
  rw [show 23 + ((List.range 32).map fun _ => 15).sum + 11 = 514 by decide] at this
  exact this

theorem body_word (s : State) (i : Nat) (b : BitVec 32) : (applyAll s (body i)).word b = s.word b := by
  unfold body
  micro

theorem body_carry (s : State) (i : Nat) (c : Bool) (hc : s.reg 3 = BitVec.ofNat 32 c.toNat) : (applyAll s (body i)).reg 3 =
    BitVec.ofNat 32 (decide (2 ^ 32 ≤ (s.word (BitVec.ofNat 32 (0x01000000 + 4 * i))).toNat + (~~~ s.word (BitVec.ofNat 32 (0x02000000 + 4 * i))).toNat + c.toNat)).toNat := by
  unfold body
  micro
  rw [imm_one, carry_cmp c _ hc, holds_cs]
  show (if decide _ = true then _ else _) = _
  split
  · rename_i h; rw [h]; rfl
  · rename_i h; rw [Bool.eq_false_iff.2 h]; rfl

def Inv (g e : Nat → BitVec 32) (i : Nat) (s : State) : Prop :=
  (∀ j < 32, s.word (BitVec.ofNat 32 (0x01000000 + 4 * j)) = g j) ∧ (∀ j < 32, s.word (BitVec.ofNat 32 (0x02000000 + 4 * j)) = e j) ∧
  s.reg 3 = BitVec.ofNat 32 (decide (num e i ≤ num g i)).toNat

theorem compare_step (G E w x y : Nat) (hG : G < w) (hE : E < w) (hy : y < 2 ^ 32) :
    2 ^ 32 ≤ x + (2 ^ 32 - 1 - y) + (decide (E ≤ G)).toNat ↔ E + y * w ≤ G + x * w := by
  have hb : (decide (E ≤ G)).toNat = if E ≤ G then 1 else 0 := by
    by_cases h : E ≤ G
    · rw [if_pos h, decide_eq_true h]; rfl
    · rw [if_neg h, decide_eq_false h]; rfl
  rw [hb]
  rcases Nat.lt_trichotomy x y with h | h | h
  · have : (x + 1) * w ≤ y * w := Nat.mul_le_mul_right _ h
    rw [Nat.add_mul, Nat.one_mul] at this
    split <;> omega
  · subst h
    split <;> omega
  · have : (y + 1) * w ≤ x * w := Nat.mul_le_mul_right _ h
    rw [Nat.add_mul, Nat.one_mul] at this
    split <;> omega

theorem inv_step (g e : Nat → BitVec 32) (i : Nat) (hi : i < 32) (s : State) (h : Inv g e i s) : Inv g e (i + 1) (applyAll s (body i)) := by
  obtain ⟨h1, h2, h3⟩ := h
  refine ⟨fun j hj => by rw [body_word, h1 j hj], fun j hj => by rw [body_word, h2 j hj], ?_⟩
  rw [body_carry s i _ h3, h1 i hi, h2 i hi, BitVec.toNat_not]
  congr 2
  rw [decide_eq_decide, compare_step _ _ _ _ _ (num_lt g i) (num_lt e i) (e i).isLt]
  rfl

theorem inv_first (g e : Nat → BitVec 32) (s : State) (h1 : ∀ j < 32, s.word (BitVec.ofNat 32 (0x01000000 + 4 * j)) = g j)
    (h2 : ∀ j < 32, s.word (BitVec.ofNat 32 (0x02000000 + 4 * j)) = e j) : Inv g e 0 (applyAll s first) := by
  refine ⟨fun j hj => ?_, fun j hj => ?_, ?_⟩
  · unfold first
    micro
    rw [if_neg (align_ne _ _ (by omega) (by omega) (by omega)), if_neg (align_ne _ _ (by omega) (by omega) (by omega)), h1 j hj]
  · unfold first
    micro
    rw [if_neg (align_ne _ _ (by omega) (by omega) (by omega)), if_neg (align_ne _ _ (by omega) (by omega) (by omega)), h2 j hj]
  · unfold first
    micro
    rfl

theorem result (g e : Nat → BitVec 32) (s : State) (h1 : ∀ j < 32, s.word (BitVec.ofNat 32 (0x01000000 + 4 * j)) = g j)
    (h2 : ∀ j < 32, s.word (BitVec.ofNat 32 (0x02000000 + 4 * j)) = e j) :
    (applyAll s (first ++ (List.range 32).flatMap body ++ last)).word 0x03000000#32 = if num g 32 < num e 32 then 1 else 0 := by
  rw [applyAll_append, applyAll_append]
  obtain ⟨h3, h4, h5⟩ := applyAll_loop (Inv g e) body 32 (inv_first g e s h1 h2) (inv_step g e)
  generalize applyAll (applyAll s first) ((List.range 32).flatMap body) = s' at *
  unfold last
  micro
  rw [imm_one, imm_zero, holds_cc, h5]
  by_cases h : num g 32 < num e 32
  · rw [if_pos h, decide_eq_false (Nat.not_le.2 h)]; decide
  · rw [if_neg h, decide_eq_true (Nat.not_lt.1 h)]; decide

end Compare

namespace Temp

open TinyGarble.Hdl.A23.Programs (temp)
open Sum (num_step split_add)

def lay : Layout := ⟨35, 32, 32, 32, 64⟩

def head (i : Nat) : Abs :=
  ⟨if i = 32 then 32 else 13, [some 0x01000000, some 0x02000000, some 0x03000000, none, none, none, none, some 0, some 0, some 0, some 0, some 0, none,
    some 0x040000f0, some (BitVec.ofNat 32 i)], none, [(0x040000fc, some 0x0c000014), (0x040000f8, some 0), (0x040000f4, some 0), (0x040000f0, some 0)]⟩

def first : List Micro :=
  [.const 13 0x04000100, .const 0 0x01000000, .const 1 0x02000000, .const 2 0x03000000, .const 14 0x0c000014, .const 13 0x040000f0,
    .store 14 false 0x040000f0#32 (.c 0), .store 14 false 0x040000f4#32 (.c 0), .store 14 false 0x040000f8#32 (.c 0),
    .store 14 false 0x040000fc#32 (.c 0x0c000014), .const 14 0, .const 3 0]

def body1 (i : Nat) : List Micro :=
  [.load 14 false 12 (BitVec.ofNat 32 (0x01000000 + 4 * i)), .load 14 false 4 (BitVec.ofNat 32 (0x02000000 + 4 * i)), .dp 14 .add false 12 (.r 12) (.reg (.r 4) .lsl 0),
    .dp 14 .add false 3 (.r 12) (.reg (.r 3) .lsl 0), .store 14 false (BitVec.ofNat 32 (0x03000000 + 4 * i)) (.r 3),
    .load 14 false 4 (BitVec.ofNat 32 (0x01000000 + 4 * i)), .dp 14 .mov false 5 (.c 0) (.reg (.r 4) .lsr 31), .dp 14 .mov false 3 (.c 0) (.reg (.r 3) .lsr 31),
    .load 14 false 12 (BitVec.ofNat 32 (0x02000000 + 4 * i)), .dp 14 .mov false 4 (.c 0) (.reg (.r 12) .lsr 31)]

/-- Within iteration `i`. -/
def middle (i : Nat) : Abs := { head i with pc := 23 }

def body2 (i : Nat) : List Micro :=
  [.dp 14 .eor false 6 (.r 5) (.reg (.r 3) .lsl 0), .dp 14 .eor false 12 (.r 3) (.reg (.r 4) .lsl 0), .dp 14 .and false 12 (.r 12) (.reg (.r 6) .lsl 0), .dp 14 .eor false 4 (.r 4) (.reg (.r 5) .lsl 0),
    .dp 14 .eor false 3 (.r 3) (.reg (.r 4) .lsl 0), .dp 14 .eor false 3 (.r 3) (.reg (.r 12) .lsl 0), .const 14 (BitVec.ofNat 32 (i + 1)),
    .flags (diff (BitVec.ofNat 32 (i + 1)) 32 true).2]

def body (i : Nat) : List Micro := body1 i ++ body2 i

def last : List Micro := [.const 13 0x04000100, .const 4 0, .const 5 0, .const 6 0]

theorem run_first : check temp lay .init 8 first 23 (head 0) = true := by decide +kernel
theorem run_body1 : ∀ i < 32, check temp lay (head i) 10 (body1 i) 20 (middle i) = true := by decide +kernel
theorem run_body2 : ∀ i < 32, check temp lay (middle i) 9 (body2 i) 11 (head (i + 1)) = true := by decide +kernel
theorem run_last : check temp lay (head 32) 1 last 8 stopped = true := by decide +kernel

theorem runs : Runs temp lay .init (first ++ (List.range 32).flatMap body ++ last) 1023 stopped := by
  have h := (Runs.loop head body (fun _ => 31) 32 fun i hi => (Runs.of_check (run_body1 i hi)).trans (.of_check (run_body2 i hi)))
  have := ((Runs.of_check run_first).trans h).trans (.of_check run_last)
  rw [show 23 + ((List.range 32).map fun _ => 31).sum + 8 = 1023 by decide] at this
  exact this

/-- The words and registers in the middle of an iteration. -/
theorem body1_word (s : State) (i : Nat) (b : BitVec 32) : (applyAll s (body1 i)).word b =
    if align (BitVec.ofNat 32 (0x03000000 + 4 * i)) = align b then
      s.word (BitVec.ofNat 32 (0x01000000 + 4 * i)) + s.word (BitVec.ofNat 32 (0x02000000 + 4 * i)) + s.reg 3
    else s.word b := by
  unfold body1
  micro
  rw [sum_add, sum_add]

theorem body1_regs (s : State) (i : Nat) (hi : i < 32) :
    (applyAll s (body1 i)).reg 3 = (s.word (BitVec.ofNat 32 (0x01000000 + 4 * i)) + s.word (BitVec.ofNat 32 (0x02000000 + 4 * i)) + s.reg 3) >>> 31 ∧
    (applyAll s (body1 i)).reg 4 = s.word (BitVec.ofNat 32 (0x02000000 + 4 * i)) >>> 31 ∧
    (applyAll s (body1 i)).reg 5 = s.word (BitVec.ofNat 32 (0x01000000 + 4 * i)) >>> 31 := by
  unfold body1
  micro
  rw [sum_add, sum_add, if_neg (align_ne _ _ (by omega) (by omega) (by omega)), if_neg (align_ne _ _ (by omega) (by omega) (by omega))]
  exact ⟨rfl, rfl, rfl⟩

theorem body2_word (s : State) (i : Nat) (b : BitVec 32) : (applyAll s (body2 i)).word b = s.word b := by
  unfold body2
  micro

theorem body2_carry (s : State) (i : Nat) :
    (applyAll s (body2 i)).reg 3 = s.reg 3 ^^^ (s.reg 4 ^^^ s.reg 5) ^^^ ((s.reg 3 ^^^ s.reg 4) &&& (s.reg 5 ^^^ s.reg 3)) := by
  unfold body2
  micro

theorem msb_eq (x : BitVec 32) : x >>> 31 = BitVec.ofNat 32 (decide (2 ^ 31 ≤ x.toNat)).toNat := by
  apply BitVec.eq_of_toNat_eq
  rw [BitVec.toNat_ushiftRight, Nat.shiftRight_eq_div_pow, BitVec.toNat_ofNat]
  have := x.isLt
  by_cases h : 2 ^ 31 ≤ x.toNat
  · rw [decide_eq_true h]; show _ = 1; omega
  · rw [decide_eq_false h]; show _ = 0; omega

/-- The carry from the highest bits. -/
theorem carry_msb (x y : BitVec 32) (c : Bool) :
    ((x + y + BitVec.ofNat 32 c.toNat) >>> 31) ^^^ ((y >>> 31) ^^^ (x >>> 31)) ^^^
      ((((x + y + BitVec.ofNat 32 c.toNat) >>> 31) ^^^ (y >>> 31)) &&& ((x >>> 31) ^^^ ((x + y + BitVec.ofNat 32 c.toNat) >>> 31))) =
    BitVec.ofNat 32 (decide (2 ^ 32 ≤ x.toNat + y.toNat + c.toNat)).toNat := by
  have hc : c.toNat ≤ 1 := Bool.toNat_le c
  have hx := x.isLt
  have hy := y.isLt
  rw [msb_eq, msb_eq, msb_eq, BitVec.toNat_add, BitVec.toNat_add, BitVec.toNat_ofNat]
  have key : decide (2 ^ 32 ≤ x.toNat + y.toNat + c.toNat) =
      ((decide (2 ^ 31 ≤ ((x.toNat + y.toNat) % 2 ^ 32 + c.toNat % 2 ^ 32) % 2 ^ 32) ^^ (decide (2 ^ 31 ≤ y.toNat) ^^ decide (2 ^ 31 ≤ x.toNat))) ^^
        ((decide (2 ^ 31 ≤ ((x.toNat + y.toNat) % 2 ^ 32 + c.toNat % 2 ^ 32) % 2 ^ 32) ^^ decide (2 ^ 31 ≤ y.toNat)) &&
          (decide (2 ^ 31 ≤ x.toNat) ^^ decide (2 ^ 31 ≤ ((x.toNat + y.toNat) % 2 ^ 32 + c.toNat % 2 ^ 32) % 2 ^ 32)))) := by
    by_cases h1 : 2 ^ 31 ≤ x.toNat <;> by_cases h2 : 2 ^ 31 ≤ y.toNat <;>
      by_cases h3 : 2 ^ 31 ≤ ((x.toNat + y.toNat) % 2 ^ 32 + c.toNat % 2 ^ 32) % 2 ^ 32
    all_goals first
      | rw [decide_eq_true h1] | rw [decide_eq_false h1]
    all_goals first
      | rw [decide_eq_true h2] | rw [decide_eq_false h2]
    all_goals first
      | rw [decide_eq_true h3] | rw [decide_eq_false h3]
    all_goals first
      | (rw [decide_eq_true (by omega)]; rfl)
      | (rw [decide_eq_false (by omega)]; rfl)
  rw [key]
  generalize decide (2 ^ 31 ≤ ((x.toNat + y.toNat) % 2 ^ 32 + c.toNat % 2 ^ 32) % 2 ^ 32) = a
  generalize decide (2 ^ 31 ≤ y.toNat) = b
  generalize decide (2 ^ 31 ≤ x.toNat) = d
  cases a <;> cases b <;> cases d <;> decide

def Inv (g e : Nat → BitVec 32) (i : Nat) (s : State) : Prop :=
  (∀ j < 32, s.word (BitVec.ofNat 32 (0x01000000 + 4 * j)) = g j) ∧ (∀ j < 32, s.word (BitVec.ofNat 32 (0x02000000 + 4 * j)) = e j) ∧
  ∃ c : Bool, s.reg 3 = BitVec.ofNat 32 c.toNat ∧
    num (fun j => s.word (BitVec.ofNat 32 (0x03000000 + 4 * j))) i + c.toNat * 2 ^ (32 * i) = num g i + num e i

theorem add_ofNat (x y : BitVec 32) (n : Nat) : x + y + BitVec.ofNat 32 n = BitVec.ofNat 32 (x.toNat + y.toNat + n) := by
  apply BitVec.eq_of_toNat_eq
  rw [BitVec.toNat_add, BitVec.toNat_add, BitVec.toNat_ofNat, BitVec.toNat_ofNat]
  omega

theorem inv_step (g e : Nat → BitVec 32) (i : Nat) (hi : i < 32) (s : State) (h : Inv g e i s) : Inv g e (i + 1) (applyAll s (body i)) := by
  obtain ⟨h1, h2, c, h3, h4⟩ := h
  obtain ⟨r3, r4, r5⟩ := body1_regs s i hi
  have hw := body1_word s i
  rw [body, applyAll_append]
  generalize applyAll s (body1 i) = s1 at *
  rw [h1 i hi, h2 i hi, h3] at r3
  rw [h2 i hi] at r4
  rw [h1 i hi] at r5
  have hcar := body2_carry s1 i
  rw [r3, r4, r5, carry_msb] at hcar
  refine ⟨fun j hj => ?_, fun j hj => ?_, _, hcar, ?_⟩
  · rw [body2_word, hw, if_neg (align_ne _ _ (by omega) (by omega) (by omega)), h1 j hj]
  · rw [body2_word, hw, if_neg (align_ne _ _ (by omega) (by omega) (by omega)), h2 j hj]
  · refine num_step _ g e _ i c _ h4 (fun j hj => ?_) ?_
    · show (applyAll s1 (body2 i)).word _ = _
      rw [body2_word, hw, if_neg (align_ne _ _ (by omega) (by omega) (by omega))]
    · show ((applyAll s1 (body2 i)).word _).toNat + _ = _
      rw [body2_word, hw, if_pos rfl, h1 i (by omega), h2 i (by omega), h3, add_ofNat]
      exact split_add _ _ _

theorem inv_first (g e : Nat → BitVec 32) (s : State) (h1 : ∀ j < 32, s.word (BitVec.ofNat 32 (0x01000000 + 4 * j)) = g j)
    (h2 : ∀ j < 32, s.word (BitVec.ofNat 32 (0x02000000 + 4 * j)) = e j) : Inv g e 0 (applyAll s first) := by
  refine ⟨fun j hj => ?_, fun j hj => ?_, false, ?_, rfl⟩
  · unfold first
    micro
    rw [if_neg (align_ne _ _ (by omega) (by omega) (by omega)), if_neg (align_ne _ _ (by omega) (by omega) (by omega)),
      if_neg (align_ne _ _ (by omega) (by omega) (by omega)), if_neg (align_ne _ _ (by omega) (by omega) (by omega)), h1 j hj]
  · unfold first
    micro
    rw [if_neg (align_ne _ _ (by omega) (by omega) (by omega)), if_neg (align_ne _ _ (by omega) (by omega) (by omega)),
      if_neg (align_ne _ _ (by omega) (by omega) (by omega)), if_neg (align_ne _ _ (by omega) (by omega) (by omega)), h2 j hj]
  · unfold first
    micro

theorem result (g e : Nat → BitVec 32) (s : State) (h1 : ∀ j < 32, s.word (BitVec.ofNat 32 (0x01000000 + 4 * j)) = g j)
    (h2 : ∀ j < 32, s.word (BitVec.ofNat 32 (0x02000000 + 4 * j)) = e j) :
    num (fun j => (applyAll s (first ++ (List.range 32).flatMap body ++ last)).word (BitVec.ofNat 32 (0x03000000 + 4 * j))) 32 =
      (num g 32 + num e 32) % 2 ^ (32 * 32) := by
  rw [applyAll_append, applyAll_append]
  obtain ⟨h3, h4, c, h5, h6⟩ := applyAll_loop (Inv g e) body 32 (inv_first g e s h1 h2) (inv_step g e)
  generalize applyAll (applyAll s first) ((List.range 32).flatMap body) = s' at *
  have hl : ∀ b, (applyAll s' last).word b = s'.word b := by
    intro b
    unfold last
    micro
  rw [num_congr (fun j _ => hl _), ← h6, Nat.add_mul_mod_self_right]
  exact (Nat.mod_eq_of_lt (num_lt _ 32)).symm

end Temp

end TinyGarble.Proof.Hdl.A23.Sym
