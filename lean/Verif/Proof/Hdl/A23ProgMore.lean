import Verif.Proof.Hdl.A23ProgSmall
import Verif.Model.A23Cordic

/-! # The programs cordic and matrix-mul -/

namespace TinyGarble.Proof.Hdl.A23.Sym

open TinyGarble.Spec.Arm

namespace Cordic

open TinyGarble.Hdl.A23.Programs (cordic)
open TinyGarble.A23 (cordicTab)

/-- The variables `x`, `y`, `z` of the C program before iteration `k`, without regard to overflow. -/
def cordicLoop (theta : BitVec 32) : Nat → BitVec 32 × BitVec 32 × BitVec 32
  | 0 => (0x26DD3B6A, 0, theta)
  | k + 1 =>
    let (x, y, z) := cordicLoop theta k
    let d := z.sshiftRight 31
    (x - ((y.sshiftRight k ^^^ d) - d), y + ((x.sshiftRight k ^^^ d) - d), z - ((cordicTab.getD k 0 ^^^ d) - d))

/-- Where the C program is defined it is this loop. -/
theorem loop_eq (theta : BitVec 32) (n : Nat) (r : TinyGarble.A23.CState)
    (h : TinyGarble.A23.loop TinyGarble.A23.cordicStep n ⟨TinyGarble.A23.cordic1K, 0, theta⟩ = some r) : (r.x, r.y, r.z) = cordicLoop theta n := by
  induction n generalizing r with
  | zero => cases h; rfl
  | succ n ih =>
    rw [TinyGarble.A23.loop, Option.bind_eq_bind, Option.bind_eq_some_iff] at h
    obtain ⟨r', h1, h2⟩ := h
    rw [cordicLoop, ← ih r' h1]
    have hsub : ∀ x y z : BitVec 32, TinyGarble.A23.subS x y = some z → z = x - y := by
      intro x y z h
      unfold TinyGarble.A23.subS at h
      split at h
      · cases h
      · exact (Option.some.inj h).symm
    have hadd : ∀ x y z : BitVec 32, TinyGarble.A23.addS x y = some z → z = x + y := by
      intro x y z h
      unfold TinyGarble.A23.addS at h
      split at h
      · cases h
      · exact (Option.some.inj h).symm
    unfold TinyGarble.A23.cordicStep at h2
    simp only [Option.bind_eq_bind, Option.bind_eq_some_iff] at h2
    obtain ⟨u, hu, tx, htx, v, hv, ty, hty, a, ha, w, hw, tz, htz, h⟩ := h2
    cases h
    rw [hsub _ _ _ htx, hadd _ _ _ hty, hsub _ _ _ htz, hsub _ _ _ hu, hsub _ _ _ hv, hsub _ _ _ hw, List.getD_eq_getElem?_getD, ha]
    rfl

def lay : Layout := ⟨71, 1, 1, 2, 64⟩

def head (k : Nat) : Abs :=
  ⟨if k = 32 then 32 else 18, [none, none, some 0x03000000, some (BitVec.ofNat 32 k), none, none, some 148, some 0, some 0, some 0, some 0, some 0, none,
    some 0x040000f0, none], none, [(0x040000fc, some 0x0c000014), (0x040000f8, some 0), (0x040000f4, some 0), (0x040000f0, some 0)]⟩

def first : List Micro :=
  [.const 13 0x04000100, .const 0 0x01000000, .const 1 0x02000000, .const 2 0x03000000, .const 14 0x0c000014, .const 13 0x040000f0,
    .store 14 false 0x040000f0#32 (.c 0), .store 14 false 0x040000f4#32 (.c 0), .store 14 false 0x040000f8#32 (.c 0),
    .store 14 false 0x040000fc#32 (.c 0x0c000014), .load 14 false 3 0x01000000#32, .load 14 false 0 0x02000000#32,
    .dp 14 .eor false 0 (.r 0) (.reg (.r 3) .lsl 0), .const 4 0x26dd3b6a, .const 3 0, .const 14 0, .const 6 148]

def body (k : Nat) : List Micro :=
  [.dp 14 .mov false 1 (.c 0) (.reg (.r 0) .asr 31), .dp 14 .eor false 5 (.r 1) (.regReg (.r 14) .asr (.c (BitVec.ofNat 32 k))),
    .dp 14 .sub false 5 (.r 5) (.reg (.r 1) .lsl 0), .dp 14 .eor false 12 (.r 1) (.regReg (.r 4) .asr (.c (BitVec.ofNat 32 k))),
    .dp 14 .sub false 12 (.r 12) (.reg (.r 1) .lsl 0), .dp 14 .add false 14 (.r 14) (.reg (.r 12) .lsl 0), .const 12 (cordicTab.getD k 0),
    .dp 14 .eor false 12 (.c (cordicTab.getD k 0)) (.reg (.r 1) .lsl 0), .dp 14 .sub false 1 (.r 12) (.reg (.r 1) .lsl 0),
    .dp 14 .sub false 0 (.r 0) (.reg (.r 1) .lsl 0), .const 3 (BitVec.ofNat 32 (k + 1)), .dp 14 .sub false 4 (.r 4) (.reg (.r 5) .lsl 0),
    .flags (diff (BitVec.ofNat 32 (k + 1)) 32 true).2]

def last : List Micro :=
  [.store 14 false 0x03000004#32 (.r 4), .store 14 false 0x03000000#32 (.r 14), .const 13 0x04000100, .const 4 0, .const 5 0, .const 6 0]

theorem run_first : check cordic lay .init 13 first 36 (head 0) = true := by decide +kernel
theorem run_body : ∀ k < 32, check cordic lay (head k) 14 (body k) 18 (head (k + 1)) = true := by decide +kernel
theorem run_last : check cordic lay (head 32) 3 last 14 stopped = true := by decide +kernel

theorem runs : Runs cordic lay .init (first ++ (List.range 32).flatMap body ++ last) 626 stopped := by
  have h := (Runs.loop head body (fun _ => 18) 32 fun i hi => .of_check (run_body i hi))
  have := ((Runs.of_check run_first).trans h).trans (.of_check run_last)
  rw [show 36 + ((List.range 32).map fun _ => 18).sum + 14 = 626 by decide] at this
  exact this

theorem asr_register (x : BitVec 32) (k : Nat) (hk : k < 32) (c : Bool) :
    (Shift.asr.register x ((BitVec.ofNat 32 k).toNat % 2 ^ 8) c).1 = x.sshiftRight k := by
  rw [BitVec.toNat_ofNat, show k % 2 ^ 32 % 2 ^ 8 = k by omega]
  unfold Shift.register
  split
  · rename_i h; rw [h]; exact (BitVec.sshiftRight_zero).symm
  · rw [if_pos (by omega)]; rfl

theorem inv_step (theta : BitVec 32) (k : Nat) (hk : k < 32) (s : State)
    (h : (s.reg 4, s.reg 14, s.reg 0) = cordicLoop theta k) :
    ((applyAll s (body k)).reg 4, (applyAll s (body k)).reg 14, (applyAll s (body k)).reg 0) = cordicLoop theta (k + 1) := by
  rw [cordicLoop, ← h]
  dsimp only
  unfold body
  micro
  simp only [asr_register _ k hk, sum_add, diff_sub]
  rw [show (Shift.asr.by (s.reg 0) (BitVec.toNat (31 : BitVec 5))).1 = (s.reg 0).sshiftRight 31 from rfl]
  rw [BitVec.xor_comm ((s.reg 0).sshiftRight 31), BitVec.xor_comm ((s.reg 0).sshiftRight 31)]

theorem result (s : State) :
    (applyAll s (first ++ (List.range 32).flatMap body ++ last)).word 0x03000000#32 = (cordicLoop (s.word 0x01000000#32 ^^^ s.word 0x02000000#32) 32).2.1 ∧
    (applyAll s (first ++ (List.range 32).flatMap body ++ last)).word 0x03000004#32 = (cordicLoop (s.word 0x01000000#32 ^^^ s.word 0x02000000#32) 32).1 := by
  rw [applyAll_append, applyAll_append]
  have h0 : ((applyAll s first).reg 4, (applyAll s first).reg 14, (applyAll s first).reg 0) =
      cordicLoop (s.word 0x01000000#32 ^^^ s.word 0x02000000#32) 0 := by
    rw [cordicLoop]
    unfold first
    micro
    rw [BitVec.xor_comm]
  have := applyAll_loop (fun k s' => (s'.reg 4, s'.reg 14, s'.reg 0) = cordicLoop (s.word 0x01000000#32 ^^^ s.word 0x02000000#32) k) body 32 h0
    (fun k hk s' h => inv_step _ k hk s' h)
  generalize applyAll (applyAll s first) ((List.range 32).flatMap body) = s' at *
  rw [← this]
  unfold last
  micro

end Cordic

namespace MatrixMul

open TinyGarble.Hdl.A23.Programs (matrixMul)

def lay : Layout := ⟨34, 9, 9, 9, 64⟩

def stack : List (BitVec 32 × Option (BitVec 32)) :=
  [(0x040000fc, some 0x0c000014), (0x040000f8, some 0), (0x040000f4, some 0), (0x040000f0, some 0), (0x040000ec, some 0), (0x040000e8, some 0), (0x040000e4, some 0)]

/-- Before entry `n`. -/
def head (n : Nat) : Abs :=
  ⟨if n = 9 then 31 else 14, [some 0x01000000, some 0x02000000, some 0x03000000, some (BitVec.ofNat 32 (12 * (n / 3))), none, some (BitVec.ofNat 32 (0x03000000 + 4 * n)),
    none, none, none, none, some 0, some 0, none, some 0x040000e4, if n = 9 then none else some (BitVec.ofNat 32 (4 * (n % 3)))], none, stack⟩

/-- Before summand `k` of entry `n`. -/
def inner (n k : Nat) : Abs :=
  ⟨if k = 3 then 24 else 18, [some 0x01000000, some 0x02000000, some 0x03000000, some (BitVec.ofNat 32 (12 * (n / 3))), none, some (BitVec.ofNat 32 (0x03000000 + 4 * n)),
    some (BitVec.ofNat 32 (0x01000000 + 12 * (n / 3) + 4 * k)), some (BitVec.ofNat 32 (0x02000000 + 4 * (n % 3))), none, none, some 0, some 0,
    some (BitVec.ofNat 32 (12 * k)), some 0x040000e4, some (BitVec.ofNat 32 (4 * (n % 3)))], none, stack⟩

def first : List Micro :=
  [.const 13 0x04000100, .const 0 0x01000000, .const 1 0x02000000, .const 2 0x03000000, .const 14 0x0c000014, .const 13 0x040000e4,
    .store 14 false 0x040000e4#32 (.c 0), .store 14 false 0x040000e8#32 (.c 0), .store 14 false 0x040000ec#32 (.c 0), .store 14 false 0x040000f0#32 (.c 0),
    .store 14 false 0x040000f4#32 (.c 0), .store 14 false 0x040000f8#32 (.c 0), .store 14 false 0x040000fc#32 (.c 0x0c000014), .const 3 0, .const 5 0x03000000,
    .const 14 0]

def enter (n : Nat) : List Micro :=
  [.const 6 (BitVec.ofNat 32 (0x01000000 + 12 * (n / 3))), .const 12 0, .const 4 0, .const 7 (BitVec.ofNat 32 (0x02000000 + 4 * (n % 3)))]

def summand (n k : Nat) : List Micro :=
  [.const 6 (BitVec.ofNat 32 (0x01000000 + 12 * (n / 3) + 4 * (k + 1))), .load 14 false 8 (BitVec.ofNat 32 (0x01000000 + 4 * (n / 3 * 3 + k))),
    .load 14 false 9 (BitVec.ofNat 32 (0x02000000 + 4 * (3 * k + n % 3))), .mul 14 false 4 (.r 9) (.r 8), .const 12 (BitVec.ofNat 32 (12 * (k + 1))),
    .flags (diff (BitVec.ofNat 32 (12 * (k + 1))) 36 true).2]

def leave (n : Nat) : List Micro :=
  [.const 5 (BitVec.ofNat 32 (0x03000000 + 4 * (n + 1))), .store 14 false (BitVec.ofNat 32 (0x03000000 + 4 * n)) (.r 4), .const 14 (BitVec.ofNat 32 (4 * (n % 3 + 1))),
    .flags (diff (BitVec.ofNat 32 (4 * (n % 3 + 1))) 12 true).2]

def row (n : Nat) : List Micro :=
  if n % 3 = 2 then
    [.const 3 (BitVec.ofNat 32 (12 * (n / 3 + 1))), .flags (diff (BitVec.ofNat 32 (12 * (n / 3 + 1))) 36 true).2] ++
      if n = 8 then [] else [.const 5 (BitVec.ofNat 32 (0x03000000 + 4 * (n + 1))), .const 14 0]
  else []

def last : List Micro :=
  [.const 13 0x04000100, .const 4 0, .const 5 0, .const 6 0, .const 7 0, .const 8 0, .const 9 0]

/-- The number of instructions from the store to the next entry, and their cycles. -/
def count (n : Nat) : Nat := if n = 8 then 7 else if n % 3 = 2 then 9 else 4
def cycles (n : Nat) : Nat := if n = 8 then 13 else if n % 3 = 2 then 15 else 8

theorem run_first : check matrixMul lay .init 9 first 27 (head 0) = true := by decide +kernel
theorem run_enter : ∀ n < 9, check matrixMul lay (head n) 4 (enter n) 4 (inner n 0) = true := by decide +kernel
theorem run_summand : ∀ n < 9, ∀ k < 3, check matrixMul lay (inner n k) 6 (summand n k) 15 (inner n (k + 1)) = true := by decide +kernel
theorem run_leave : ∀ n < 9, check matrixMul lay (inner n 3) (count n) (leave n ++ row n) (cycles n) (head (n + 1)) = true := by decide +kernel
theorem run_last : check matrixMul lay (head 9) 1 last 11 stopped = true := by decide +kernel

def body (n : Nat) : List Micro := enter n ++ (List.range 3).flatMap (summand n) ++ (leave n ++ row n)

theorem runs : Runs matrixMul lay .init (first ++ (List.range 9).flatMap body ++ last) 570 stopped := by
  have h := Runs.loop head body (fun n => 4 + ((List.range 3).map fun _ => 15).sum + cycles n) 9 fun n hn =>
    ((Runs.of_check (run_enter n hn)).trans (Runs.loop (inner n) (summand n) (fun _ => 15) 3 fun k hk => .of_check (run_summand n hn k hk))).trans
      (.of_check (run_leave n hn))
  have := ((Runs.of_check run_first).trans h).trans (.of_check run_last)
  rw [show 27 + ((List.range 9).map fun n => 4 + ((List.range 3).map fun _ => 15).sum + cycles n).sum + 11 = 570 by decide] at this
  exact this

theorem row_word (s : State) (n : Nat) (b : BitVec 32) : (applyAll s (row n)).word b = s.word b := by
  unfold row
  split
  · split
    · simp only [List.append_nil]; micro
    · simp only [List.cons_append, List.nil_append]; micro
  · rfl

theorem body_word (s : State) (n : Nat) (b : BitVec 32) : (applyAll s (body n)).word b =
    if align (BitVec.ofNat 32 (0x03000000 + 4 * n)) = align b then
      s.word (BitVec.ofNat 32 (0x02000000 + 4 * (3 * 2 + n % 3))) * s.word (BitVec.ofNat 32 (0x01000000 + 4 * (n / 3 * 3 + 2)))
    else s.word b := by
  rw [body, applyAll_append, applyAll_append, applyAll_append, row_word]
  have h1 : ∀ b, (applyAll s (enter n)).word b = s.word b := by
    intro b
    unfold enter
    micro
  generalize applyAll s (enter n) = s1 at *
  have h2 : ∀ b, (applyAll s1 ((List.range 3).flatMap (summand n))).word b = s1.word b := by
    intro b
    rw [show (List.range 3).flatMap (summand n) = summand n 0 ++ (summand n 1 ++ summand n 2) from rfl, applyAll_append, applyAll_append]
    unfold summand
    micro
  have h3 : (applyAll s1 ((List.range 3).flatMap (summand n))).reg 4 =
      s1.word (BitVec.ofNat 32 (0x02000000 + 4 * (3 * 2 + n % 3))) * s1.word (BitVec.ofNat 32 (0x01000000 + 4 * (n / 3 * 3 + 2))) := by
    rw [show (List.range 3).flatMap (summand n) = summand n 0 ++ (summand n 1 ++ summand n 2) from rfl, applyAll_append, applyAll_append]
    unfold summand
    micro
  generalize applyAll s1 ((List.range 3).flatMap (summand n)) = s2 at *
  unfold leave
  micro
  rw [h3, h2, h1, h1, h1]

theorem result (g e : Nat → BitVec 32) (s : State) (h1 : ∀ j < 9, s.word (BitVec.ofNat 32 (0x01000000 + 4 * j)) = g j)
    (h2 : ∀ j < 9, s.word (BitVec.ofNat 32 (0x02000000 + 4 * j)) = e j) (n : Nat) (hn : n < 9) :
    (applyAll s (first ++ (List.range 9).flatMap body ++ last)).word (BitVec.ofNat 32 (0x03000000 + 4 * n)) = e (6 + n % 3) * g (n / 3 * 3 + 2) := by
  rw [applyAll_append, applyAll_append]
  have h0 : ∀ b < 0x03000024, (applyAll s first).word (BitVec.ofNat 32 b) = s.word (BitVec.ofNat 32 b) := by
    intro b hb
    unfold first
    micro
    iterate 7 rw [if_neg (align_ne _ _ (by omega) (by omega) (by omega))]
  have := applyAll_loop (fun n s => (∀ j < 9, s.word (BitVec.ofNat 32 (0x01000000 + 4 * j)) = g j) ∧ (∀ j < 9, s.word (BitVec.ofNat 32 (0x02000000 + 4 * j)) = e j) ∧
    ∀ m < n, s.word (BitVec.ofNat 32 (0x03000000 + 4 * m)) = e (6 + m % 3) * g (m / 3 * 3 + 2)) body 9
    ⟨fun j hj => by rw [h0 _ (by omega), h1 j hj], fun j hj => by rw [h0 _ (by omega), h2 j hj], fun m hm => absurd hm (by omega)⟩
    (fun i hi s ⟨a, b, c⟩ => ⟨fun j hj => by rw [body_word, if_neg (align_ne _ _ (by omega) (by omega) (by omega)), a j hj],
      fun j hj => by rw [body_word, if_neg (align_ne _ _ (by omega) (by omega) (by omega)), b j hj], fun m hm => by
        rw [body_word]
        by_cases hmi : m = i
        · rw [hmi, if_pos rfl, a _ (by omega), b _ (by omega)]
        · rw [if_neg (align_ne _ _ (by omega) (by omega) (by omega)), c m (by omega)]⟩)
  obtain ⟨-, -, h⟩ := this
  rw [← h n hn]
  generalize applyAll (applyAll s first) ((List.range 9).flatMap body) = s'
  unfold last
  micro

end MatrixMul

end TinyGarble.Proof.Hdl.A23.Sym
