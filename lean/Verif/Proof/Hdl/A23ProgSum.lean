import Verif.Proof.Hdl.A23SymApply

/-! # The program sum -/

namespace TinyGarble.Proof.Hdl.A23.Sym.Sum

open TinyGarble.Spec.Arm
open TinyGarble.Hdl.A23.Programs (sum)
open TinyGarble.Spec.Hdl (part)
open TinyGarble.Props.Hdl (armStart)
open TinyGarble.Hdl.A23 (Sizes)

def lay : Layout := ⟨32, 32, 32, 32, 64⟩

/-- Before iteration `i`. -/
def head (i : Nat) : Abs :=
  ⟨if i = 31 then 23 else 13, [some 0x01000000, some 0x02000000, some 0x03000000, some (BitVec.ofNat 32 (4 * i)), none, some 0, some 0, some 0, some 0, some 0,
    some 0, some 0, none, some 0x040000f8, none], none, [(0x040000fc, some 0x0c000014), (0x040000f8, some 0)]⟩

def body (i : Nat) : List Micro :=
  [.load 14 false 14 (BitVec.ofNat 32 (0x01000000 + 4 * i)), .load 14 false 4 (BitVec.ofNat 32 (0x02000000 + 4 * i)), .dp 14 .cmp true 0 (.r 12) (.imm 0 1),
    .dp 14 .adc true 14 (.r 14) (.reg (.r 4) .lsl 0), .const 12 0, .dp 2 .mov false 12 (.c 0) (.imm 0 1),
    .store 14 false (BitVec.ofNat 32 (0x03000000 + 4 * i)) (.r 14), .const 3 (BitVec.ofNat 32 (4 * (i + 1))), .flags (diff (BitVec.ofNat 32 (4 * (i + 1))) 124 true).2]

def first : List Micro :=
  [.const 13 0x04000100, .const 0 0x01000000, .const 1 0x02000000, .const 2 0x03000000, .const 14 0x0c000014, .const 13 0x040000f8,
    .store 14 false 0x040000f8#32 (.c 0), .store 14 false 0x040000fc#32 (.c 0x0c000014), .const 3 0, .const 12 0]

def last : List Micro :=
  [.load 14 false 3 (BitVec.ofNat 32 (0x01000000 + 4 * 31)), .load 14 false 1 (BitVec.ofNat 32 (0x02000000 + 4 * 31)), .dp 14 .cmp true 0 (.r 12) (.imm 0 1),
    .dp 14 .adc false 12 (.r 3) (.reg (.r 1) .lsl 0), .store 14 false (BitVec.ofNat 32 (0x03000000 + 4 * 31)) (.r 12), .const 13 0x04000100, .const 4 0]

/-- At the end. -/
def done : Abs := ⟨5, [], none, []⟩

theorem run_first : check sum lay .init 9 first 24 (head 0) = true := by decide +kernel
theorem run_body : ∀ i < 31, check sum lay (head i) 10 (body i) 18 (head (i + 1)) = true := by decide +kernel
theorem run_last : check sum lay (head 31) 6 last 17 done = true := by decide +kernel

theorem runs : Runs sum lay .init (first ++ (List.range 31).flatMap body ++ last) 599 done := by
  have h := (Runs.loop head body (fun _ => 18) 31 fun i hi => .of_check (run_body i hi))
  have := ((Runs.of_check run_first).trans h).trans (.of_check run_last)
  rw [show 24 + ((List.range 31).map fun _ => 18).sum + 17 = 599 by decide] at this
  exact this

theorem imm_one : (BitVec.zeroExtend 32 (1 : BitVec 8)).rotateRight (2 * BitVec.toNat (0 : BitVec 4)) = 1 := by decide
theorem holds_cs (f : Flags) : holds 2 f = f.c := rfl

/-- The carry as it is kept in a register. -/
theorem carry_cmp (c : Bool) (x : BitVec 32) (h : x = BitVec.ofNat 32 c.toNat) : (diff x 1 true).2.c = c := by
  subst h; cases c <;> decide

/-- One iteration. -/
theorem body_word (s : State) (i : Nat) (b : BitVec 32) (c : Bool) (hc : s.reg 12 = BitVec.ofNat 32 c.toNat) : (applyAll s (body i)).word b =
    if align (BitVec.ofNat 32 (0x03000000 + 4 * i)) = align b then
      BitVec.ofNat 32 ((s.word (BitVec.ofNat 32 (0x01000000 + 4 * i))).toNat + (s.word (BitVec.ofNat 32 (0x02000000 + 4 * i))).toNat + c.toNat)
    else s.word b := by
  unfold body
  micro
  rw [imm_one, carry_cmp c _ hc]
  rfl

theorem body_carry (s : State) (i : Nat) (c : Bool) (hc : s.reg 12 = BitVec.ofNat 32 c.toNat) : (applyAll s (body i)).reg 12 =
    BitVec.ofNat 32 (decide (2 ^ 32 ≤ (s.word (BitVec.ofNat 32 (0x01000000 + 4 * i))).toNat + (s.word (BitVec.ofNat 32 (0x02000000 + 4 * i))).toNat + c.toNat)).toNat := by
  unfold body
  micro
  rw [imm_one, carry_cmp c _ hc, holds_cs]
  show (if decide _ = true then _ else _) = _
  split
  · rename_i h; rw [h]; rfl
  · rename_i h; rw [Bool.eq_false_iff.2 h]; rfl

/-- The invariant: the words so far, with the carry, are the sum. -/
def Inv (g e : Nat → BitVec 32) (i : Nat) (s : State) : Prop :=
  (∀ j < 32, s.word (BitVec.ofNat 32 (0x01000000 + 4 * j)) = g j) ∧ (∀ j < 32, s.word (BitVec.ofNat 32 (0x02000000 + 4 * j)) = e j) ∧
  ∃ c : Bool, s.reg 12 = BitVec.ofNat 32 c.toNat ∧
    num (fun j => s.word (BitVec.ofNat 32 (0x03000000 + 4 * j))) i + c.toNat * 2 ^ (32 * i) = num g i + num e i

theorem split_add (x y : BitVec 32) (c : Bool) :
    (BitVec.ofNat 32 (x.toNat + y.toNat + c.toNat)).toNat + (decide (2 ^ 32 ≤ x.toNat + y.toNat + c.toNat)).toNat * 2 ^ 32 = x.toNat + y.toNat + c.toNat := by
  have hx := x.isLt
  have hy := y.isLt
  have hc : c.toNat ≤ 1 := Bool.toNat_le c
  rw [BitVec.toNat_ofNat]
  by_cases h : 2 ^ 32 ≤ x.toNat + y.toNat + c.toNat
  · rw [decide_eq_true h]; show _ + 1 * _ = _; omega
  · rw [decide_eq_false h]; show _ + 0 * _ = _; omega

/-- The words after one more. -/
theorem num_step (x y z a : Nat → BitVec 32) (i : Nat) (c c' : Bool) (h : num x i + c.toNat * 2 ^ (32 * i) = num y i + num z i)
    (hxa : ∀ j < i, a j = x j) (h2 : (a i).toNat + c'.toNat * 2 ^ 32 = (y i).toNat + (z i).toNat + c.toNat) :
    num a (i + 1) + c'.toNat * 2 ^ (32 * (i + 1)) = num y (i + 1) + num z (i + 1) := by
  rw [num, num, num, num_congr hxa, show 32 * (i + 1) = 32 * i + 32 by omega, pow_add]
  generalize 2 ^ (32 * i) = w at *
  have : (a i).toNat * w + c'.toNat * (w * 2 ^ 32) = (y i).toNat * w + (z i).toNat * w + c.toNat * w := by
    rw [← Nat.add_mul, ← Nat.add_mul, ← h2, Nat.add_mul, Nat.mul_comm w, Nat.mul_assoc]
  omega

theorem inv_step (g e : Nat → BitVec 32) (i : Nat) (hi : i < 31) (s : State) (h : Inv g e i s) : Inv g e (i + 1) (applyAll s (body i)) := by
  obtain ⟨h1, h2, c, h3, h4⟩ := h
  refine ⟨fun j hj => ?_, fun j hj => ?_, _, body_carry s i c h3, ?_⟩
  · rw [body_word s i _ c h3, if_neg (align_ne _ _ (by omega) (by omega) (by omega)), h1 j hj]
  · rw [body_word s i _ c h3, if_neg (align_ne _ _ (by omega) (by omega) (by omega)), h2 j hj]
  · refine num_step _ g e _ i c _ h4 (fun j hj => ?_) ?_
    · show (applyAll s (body i)).word _ = _
      rw [body_word s i _ c h3, if_neg (align_ne _ _ (by omega) (by omega) (by omega))]
    · show ((applyAll s (body i)).word _).toNat + _ = _
      rw [body_word s i _ c h3, if_pos rfl, h1 i (by omega), h2 i (by omega)]
      exact split_add _ _ _

theorem inv_first (g e : Nat → BitVec 32) (s : State) (h1 : ∀ j < 32, s.word (BitVec.ofNat 32 (0x01000000 + 4 * j)) = g j)
    (h2 : ∀ j < 32, s.word (BitVec.ofNat 32 (0x02000000 + 4 * j)) = e j) : Inv g e 0 (applyAll s first) := by
  refine ⟨fun j hj => ?_, fun j hj => ?_, false, ?_, rfl⟩
  · unfold first
    micro
    rw [if_neg (align_ne _ _ (by omega) (by omega) (by omega)), if_neg (align_ne _ _ (by omega) (by omega) (by omega)), h1 j hj]
  · unfold first
    micro
    rw [if_neg (align_ne _ _ (by omega) (by omega) (by omega)), if_neg (align_ne _ _ (by omega) (by omega) (by omega)), h2 j hj]
  · unfold first
    micro

theorem last_word (s : State) (b : BitVec 32) (c : Bool) (hc : s.reg 12 = BitVec.ofNat 32 c.toNat) : (applyAll s last).word b =
    if align (BitVec.ofNat 32 (0x03000000 + 4 * 31)) = align b then
      BitVec.ofNat 32 ((s.word (BitVec.ofNat 32 (0x01000000 + 4 * 31))).toNat + (s.word (BitVec.ofNat 32 (0x02000000 + 4 * 31))).toNat + c.toNat)
    else s.word b := by
  unfold last
  micro
  rw [imm_one, carry_cmp c _ hc]
  rfl

/-- The output is the sum. -/
theorem result (g e : Nat → BitVec 32) (s : State) (h1 : ∀ j < 32, s.word (BitVec.ofNat 32 (0x01000000 + 4 * j)) = g j)
    (h2 : ∀ j < 32, s.word (BitVec.ofNat 32 (0x02000000 + 4 * j)) = e j) :
    num (fun j => (applyAll s (first ++ (List.range 31).flatMap body ++ last)).word (BitVec.ofNat 32 (0x03000000 + 4 * j))) 32 =
      (num g 32 + num e 32) % 2 ^ (32 * 32) := by
  rw [applyAll_append, applyAll_append]
  obtain ⟨h3, h4, c, h5, h6⟩ := applyAll_loop (Inv g e) body 31 (inv_first g e s h1 h2) (inv_step g e)
  generalize applyAll (applyAll s first) ((List.range 31).flatMap body) = s' at *
  have := num_step _ g e (fun j => (applyAll s' last).word (BitVec.ofNat 32 (0x03000000 + 4 * j))) 31 c
    (decide (2 ^ 32 ≤ (g 31).toNat + (e 31).toNat + c.toNat)) h6 (fun j hj => by
      show (applyAll s' last).word _ = _
      rw [last_word s' _ c h5, if_neg (align_ne _ _ (by omega) (by omega) (by omega))])
    (by
      show ((applyAll s' last).word _).toNat + _ = _
      rw [last_word s' _ c h5, if_pos rfl, h3 31 (by omega), h4 31 (by omega)]
      exact split_add _ _ _)
  rw [← this, Nat.add_mul_mod_self_right]
  exact (Nat.mod_eq_of_lt (num_lt _ 32)).symm

end TinyGarble.Proof.Hdl.A23.Sym.Sum
