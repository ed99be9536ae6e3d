import Verif.Proof.Hdl.A23ProgSmall
import Verif.Spec.A23

/-! # The program hamming -/

namespace TinyGarble.Proof.Hdl.A23.Sym.Hamming

open TinyGarble.Spec.Arm
open TinyGarble.Hdl.A23.Programs (hamming)

def lay : Layout := ⟨58, 1, 1, 1, 64⟩

/-- The array `dist` is part of the memory of the program. -/
def stack : List (BitVec 32 × Option (BitVec 32)) :=
  [(196, none), (200, none), (204, none), (208, none), (212, none), (216, none), (220, none), (224, none), (0x040000fc, some 0x0c000014), (0x040000f8, some 0),
    (0x040000f4, some 0), (0x040000f0, some 0), (0x040000ec, some 0), (0x040000e8, some 0)]

/-- The address of a byte of `dist`. -/
abbrev dist (k : Nat) : BitVec 32 := BitVec.ofNat 32 (196 + k)

/-- Before bit `j` of byte `i`. -/
def bhead (i j : Nat) : Abs :=
  ⟨if j = 8 then 26 else 17, [some 0x01000000, some 0x02000000, some 0x03000000, some (BitVec.ofNat 32 i), some 196, some 196, some (BitVec.ofNat 32 (196 + 8 * i)),
    some 1, none, some 0, some 0, some 0, none, some 0x040000e8, some (BitVec.ofNat 32 j)], none, stack⟩

/-- Before level `t`. -/
def lhead (t : Nat) : Abs :=
  ⟨if t = 5 then 44 else 30, [none, none, some 0x03000000, some (BitVec.ofNat 32 4 - BitVec.ofNat 32 t), some 196, some 1, none, none, none, some 0, some 0, some 0, none,
    some 0x040000e8, none], none, stack⟩

/-- Before sum `i` of level `t`. -/
def shead (t i : Nat) : Abs :=
  ⟨33, [some (BitVec.ofNat 32 (196 + 2 * i)), some (BitVec.ofNat 32 i), some 0x03000000, some (BitVec.ofNat 32 4 - BitVec.ofNat 32 t), some 196, some 1, none, none, none,
    some 0, some 0, some 0, none, some 0x040000e8, some (BitVec.ofNat 32 (2 ^ (4 - t)))], none, stack⟩

/-- Before byte `i`, or before the levels. -/
def head (i : Nat) : Abs := if i = 4 then lhead 0 else bhead i 0

def first : List Micro :=
  [.const 13 0x04000100, .const 0 0x01000000, .const 1 0x02000000, .const 2 0x03000000, .const 14 0x0c000014, .const 13 0x040000e8,
    .store 14 false 0x040000e8#32 (.c 0), .store 14 false 0x040000ec#32 (.c 0), .store 14 false 0x040000f0#32 (.c 0), .store 14 false 0x040000f4#32 (.c 0),
    .store 14 false 0x040000f8#32 (.c 0), .store 14 false 0x040000fc#32 (.c 0x0c000014), .const 3 0, .const 5 196, .const 4 196, .const 7 1, .const 6 196, .const 14 0]

def bbody (i j : Nat) : List Micro :=
  [.load 14 true 8 (BitVec.ofNat 32 (0x01000000 + i)), .load 14 true 12 (BitVec.ofNat 32 (0x02000000 + i)), .dp 14 .eor false 12 (.r 12) (.reg (.r 8) .lsl 0),
    .dp 14 .and false 12 (.r 12) (.regReg (.c 1) .lsl (.c (BitVec.ofNat 32 j))), .dp 14 .mov false 12 (.c 0) (.regReg (.r 12) .asr (.c (BitVec.ofNat 32 j))),
    .store 14 true (dist (8 * i + j)) (.r 12), .const 14 (BitVec.ofNat 32 (j + 1)), .flags (diff (BitVec.ofNat 32 (j + 1)) 8 true).2]

def bend (i : Nat) : List Micro :=
  [.const 3 (BitVec.ofNat 32 (i + 1)), .flags (diff (BitVec.ofNat 32 (i + 1)) 4 true).2] ++
    if i = 3 then [.const 5 1] else [.const 6 (BitVec.ofNat 32 (196 + 8 * (i + 1))), .const 14 0]

def lstart (t : Nat) : List Micro := [.const 14 (BitVec.ofNat 32 (2 ^ (4 - t))), .const 0 196, .const 1 0]

def sbody (t i : Nat) : List Micro :=
  [.const 0 (BitVec.ofNat 32 (196 + 2 * (i + 1))), .flags (diff (BitVec.ofNat 32 i) (BitVec.ofNat 32 (2 ^ (4 - t))) true).2, .load 14 true 12 (dist (2 * i)),
    .load 14 true 6 (dist (2 * i + 1)), .dp 14 .add false 12 (.r 12) (.reg (.r 6) .lsl 0), .store 14 true (dist i) (.r 12), .const 1 (BitVec.ofNat 32 (i + 1))]

def lend (t : Nat) : List Micro :=
  [.const 0 (BitVec.ofNat 32 (196 + 2 * (2 ^ (4 - t) + 1))), .flags ⟨false, true, true, false⟩, .const 3 (BitVec.ofNat 32 4 - BitVec.ofNat 32 (t + 1)),
    .flags (diff (BitVec.ofNat 32 (4 - t)) 1 true).2]

def last : List Micro :=
  [.load 14 true 3 196#32, .store 14 false 0x03000000#32 (.r 3), .const 13 0x04000100, .const 4 0, .const 5 0, .const 6 0, .const 7 0, .const 8 0]

/-- At the end. -/
def done : Abs := ⟨5, [], none, stack⟩

theorem run_first : check hamming lay .init 12 first 31 (head 0) = true := by decide +kernel
theorem run_bbody : ∀ i < 4, ∀ j < 8, check hamming lay (bhead i j) 9 (bbody i j) 17 (bhead i (j + 1)) = true := by decide +kernel
theorem run_bend : ∀ i < 4, check hamming lay (bhead i 8) (if i = 3 then 4 else 5) (bend i) (if i = 3 then 6 else 7) (head (i + 1)) = true := by decide +kernel
theorem run_lstart : ∀ t < 5, check hamming lay (lhead t) 3 (lstart t) 5 (shead t 0) = true := by decide +kernel
theorem run_sbody : ∀ t < 5, ∀ i < 2 ^ (4 - t), check hamming lay (shead t i) 9 (sbody t i) 19 (shead t (i + 1)) = true := by decide +kernel
theorem run_lend : ∀ t < 5, check hamming lay (shead t (2 ^ (4 - t))) 5 (lend t) 9 (lhead (t + 1)) = true := by decide +kernel
theorem run_last : check hamming lay (lhead 5) 3 last 16 done = true := by decide +kernel

def byte (i : Nat) : List Micro := (List.range 8).flatMap (bbody i) ++ bend i
def level (t : Nat) : List Micro := lstart t ++ (List.range (2 ^ (4 - t))).flatMap (sbody t) ++ lend t
def all : List Micro := first ++ (List.range 4).flatMap byte ++ (List.range 5).flatMap level ++ last

theorem runs : Runs hamming lay .init all 1277 done := by
  have hb := Runs.loop head byte (fun i => ((List.range 8).map fun _ => 17).sum + if i = 3 then 6 else 7) 4 fun i hi => by
    have := (Runs.loop (bhead i) (bbody i) (fun _ => 17) 8 fun j hj => .of_check (run_bbody i hi j hj)).trans (.of_check (run_bend i hi))
    rwa [show bhead i 0 = head i by rw [head, if_neg (by omega)]] at this
  have hl := Runs.loop lhead level (fun t => 5 + ((List.range (2 ^ (4 - t))).map fun _ => 19).sum + 9) 5 fun t ht =>
    ((Runs.of_check (run_lstart t ht)).trans (Runs.loop (shead t) (sbody t) (fun _ => 19) (2 ^ (4 - t)) fun i hi => .of_check (run_sbody t ht i hi))).trans
      (.of_check (run_lend t ht))
  rw [show head 4 = lhead 0 from rfl] at hb
  have := (((Runs.of_check run_first).trans hb).trans hl).trans (.of_check run_last)
  rw [show 31 + ((List.range 4).map fun i => ((List.range 8).map fun _ => 17).sum + if i = 3 then 6 else 7).sum +
    ((List.range 5).map fun t => 5 + ((List.range (2 ^ (4 - t))).map fun _ => 19).sum + 9).sum + 16 = 1277 by decide +kernel] at this
  exact this

/-- One bit. -/
def bitByte (b : Bool) : BitVec 8 := BitVec.ofNat 8 b.toNat

theorem bit_value : ∀ (x : BitVec 8) (c d : Bool), ∀ j < 8,
    BitVec.ofNat 8 ((Shift.asr.register (x.zeroExtend 32 &&& (Shift.lsl.register 1 ((BitVec.ofNat 32 j).toNat % 2 ^ 8) c).1) ((BitVec.ofNat 32 j).toNat % 2 ^ 8) d).1).toNat =
      bitByte (x.getLsbD j) := by decide +kernel

theorem bbody_mem (s : State) (i j : Nat) (hj : j < 8) (b : BitVec 32) : (applyAll s (bbody i j)).mem b =
    if b = dist (8 * i + j) then bitByte ((s.mem (BitVec.ofNat 32 (0x01000000 + i)) ^^^ s.mem (BitVec.ofNat 32 (0x02000000 + i))).getLsbD j) else s.mem b := by
  unfold bbody
  micro
  rw [← bit_value _ s.flags.c s.flags.c j hj, BitVec.xor_comm]
  simp only [BitVec.zeroExtend_eq_setWidth, BitVec.setWidth_xor]

theorem bend_mem (s : State) (i : Nat) : (applyAll s (bend i)).mem = s.mem := by
  unfold bend
  split <;> simp only [List.cons_append, List.nil_append] <;> micro

theorem lstart_mem (s : State) (t : Nat) : (applyAll s (lstart t)).mem = s.mem := by
  unfold lstart
  micro

theorem lend_mem (s : State) (t : Nat) : (applyAll s (lend t)).mem = s.mem := by
  unfold lend
  micro

theorem sbody_mem (s : State) (t i : Nat) (b : BitVec 32) : (applyAll s (sbody t i)).mem b =
    if b = dist i then s.mem (dist (2 * i)) + s.mem (dist (2 * i + 1)) else s.mem b := by
  unfold sbody
  micro
  rw [sum_add]
  have : BitVec.ofNat 8 ((BitVec.zeroExtend 32 (s.mem (dist (2 * i))) + BitVec.zeroExtend 32 (s.mem (dist (2 * i + 1)))).toNat) =
      s.mem (dist (2 * i)) + s.mem (dist (2 * i + 1)) := by
    apply BitVec.eq_of_toNat_eq
    rw [BitVec.toNat_ofNat, BitVec.toNat_add, BitVec.toNat_add, BitVec.zeroExtend_eq_setWidth, BitVec.zeroExtend_eq_setWidth, BitVec.toNat_setWidth, BitVec.toNat_setWidth]
    omega
  rw [this]

/-- A byte of the memory as a part of its word. -/
theorem mem_of_word (s : State) (n j : Nat) (hn : n < 2 ^ 30) (hj : j < 4) :
    s.mem (BitVec.ofNat 32 (4 * n + j)) = BitVec.ofNat 8 ((s.word (BitVec.ofNat 32 (4 * n))).toNat / 2 ^ (8 * j)) := by
  unfold State.word
  rw [align_of_mod (by rw [BitVec.toNat_ofNat]; omega)]
  have hadd : ∀ j : Nat, BitVec.ofNat 32 (4 * n + j) + 1 = BitVec.ofNat 32 (4 * n + (j + 1)) := by
    intro j
    apply BitVec.eq_of_toNat_eq
    rw [BitVec.toNat_add, BitVec.toNat_ofNat, BitVec.toNat_ofNat, show (1 : BitVec 32).toNat = 1 from rfl]
    omega
  rw [show BitVec.ofNat 32 (4 * n) = BitVec.ofNat 32 (4 * n + 0) from rfl]
  simp only [Spec.Mips.fetch]
  rw [hadd, hadd, hadd]
  have h0 := (s.mem (BitVec.ofNat 32 (4 * n + 0))).isLt
  have h1 := (s.mem (BitVec.ofNat 32 (4 * n + (0 + 1)))).isLt
  have h2 := (s.mem (BitVec.ofNat 32 (4 * n + (0 + 1 + 1)))).isLt
  have h3 := (s.mem (BitVec.ofNat 32 (4 * n + (0 + 1 + 1 + 1)))).isLt
  apply BitVec.eq_of_toNat_eq
  rw [BitVec.toNat_ofNat, BitVec.toNat_ofNat]
  rcases (show j = 0 ∨ j = 1 ∨ j = 2 ∨ j = 3 by omega) with rfl | rfl | rfl | rfl
  · omega
  · show (s.mem (BitVec.ofNat 32 (4 * n + (0 + 1)))).toNat = _
    omega
  · show (s.mem (BitVec.ofNat 32 (4 * n + (0 + 1 + 1)))).toNat = _
    omega
  · show (s.mem (BitVec.ofNat 32 (4 * n + (0 + 1 + 1 + 1)))).toNat = _
    omega

/-- The sum of bytes. -/
def sum8 (f : Nat → BitVec 8) : Nat → BitVec 8
  | 0 => 0
  | n + 1 => sum8 f n + f n

theorem sum8_congr {f g : Nat → BitVec 8} {n : Nat} (h : ∀ k < n, f k = g k) : sum8 f n = sum8 g n := by
  induction n with
  | zero => rfl
  | succ n ih => rw [sum8, sum8, ih fun k hk => h k (by omega), h n (by omega)]

theorem sum8_pairs (f : Nat → BitVec 8) (n : Nat) : sum8 (fun k => f (2 * k) + f (2 * k + 1)) n = sum8 f (2 * n) := by
  induction n with
  | zero => rfl
  | succ n ih =>
    rw [show 2 * (n + 1) = 2 * n + 1 + 1 by omega, sum8, sum8, sum8, ih, BitVec.add_assoc]

theorem dist_ne (i k : Nat) (hi : i < 2 ^ 31) (hk : k < 2 ^ 31) (h : i ≠ k) : dist i ≠ dist k := by
  intro he
  have := congrArg BitVec.toNat he
  rw [BitVec.toNat_ofNat, BitVec.toNat_ofNat] at this
  omega

theorem level_mem (s : State) (t : Nat) (ht : t < 5) :
    ∀ k < 2 ^ (4 - t), (applyAll s (level t)).mem (dist k) = s.mem (dist (2 * k)) + s.mem (dist (2 * k + 1)) := by
  have hw : 2 ^ (4 - t) ≤ 2 ^ 4 := Nat.pow_le_pow_right (by omega) (by omega)
  rw [level, applyAll_append, applyAll_append, lend_mem]
  have := applyAll_loop (fun i s' => (∀ k < i, s'.mem (dist k) = s.mem (dist (2 * k)) + s.mem (dist (2 * k + 1))) ∧ ∀ k < 32, i ≤ k → s'.mem (dist k) = s.mem (dist k))
    (sbody t) (2 ^ (4 - t)) (s := applyAll s (lstart t)) ⟨fun k hk => absurd hk (by omega), fun k hk _ => by rw [lstart_mem]⟩
    (fun i hi s' ⟨h1, h2⟩ => ⟨fun k hk => by
        rw [sbody_mem]
        by_cases h : k = i
        · rw [h, if_pos rfl, h2 _ (by omega) (by omega), h2 _ (by omega) (by omega)]
        · rw [if_neg (dist_ne _ _ (by omega) (by omega) h), h1 k (by omega)],
      fun k hk hik => by
        rw [sbody_mem, if_neg (dist_ne _ _ (by omega) (by omega) (by omega)), h2 k hk (by omega)]⟩)
  exact this.1

theorem levels_sum (s : State) : (applyAll s ((List.range 5).flatMap level)).mem (dist 0) = sum8 (fun k => s.mem (dist k)) 32 := by
  have := applyAll_loop (fun t s' => sum8 (fun k => s'.mem (dist k)) (2 ^ (5 - t)) = sum8 (fun k => s.mem (dist k)) 32) level 5 (s := s) rfl
    (fun t ht s' h => by
      rw [← h, show 5 - (t + 1) = 4 - t by omega, sum8_congr (level_mem s' t ht), sum8_pairs (fun k => s'.mem (dist k))]
      congr 1
      rw [show 5 - t = (4 - t) + 1 by omega, pow_succ, Nat.mul_comm])
  rw [← this]
  show _ = 0 + _
  rw [show (0 : BitVec 8) = 0#8 from rfl, BitVec.zero_add]

theorem byte_mem (s : State) (i : Nat) (hi : i < 4) (b : BitVec 32) (hb : ∀ k < 32, b ≠ dist k) : (applyAll s (byte i)).mem b = s.mem b := by
  rw [byte, applyAll_append, bend_mem]
  exact applyAll_loop (fun _ s' => s'.mem b = s.mem b) (bbody i) 8 (s := s) rfl fun j hj s' h => by
    rw [bbody_mem s' i j hj, if_neg (hb _ (by omega)), h]

/-- The bytes of the inputs are not in the array. -/
theorem input_ne (c i k : Nat) (hc : c = 0x01000000 ∨ c = 0x02000000) (hi : i < 4) (hk : k < 32) : BitVec.ofNat 32 (c + i) ≠ dist k := by
  intro he
  have := congrArg BitVec.toNat he
  rw [BitVec.toNat_ofNat, BitVec.toNat_ofNat] at this
  omega

theorem byte_dist (s : State) (i : Nat) (hi : i < 4) (k : Nat) (hk : k < 32) : (applyAll s (byte i)).mem (dist k) =
    if k / 8 = i then bitByte ((s.mem (BitVec.ofNat 32 (0x01000000 + i)) ^^^ s.mem (BitVec.ofNat 32 (0x02000000 + i))).getLsbD (k % 8)) else s.mem (dist k) := by
  rw [byte, applyAll_append, bend_mem]
  have := applyAll_loop (fun j s' => s'.mem (BitVec.ofNat 32 (0x01000000 + i)) = s.mem (BitVec.ofNat 32 (0x01000000 + i)) ∧
    s'.mem (BitVec.ofNat 32 (0x02000000 + i)) = s.mem (BitVec.ofNat 32 (0x02000000 + i)) ∧ s'.mem (dist k) =
      if k / 8 = i ∧ k % 8 < j then bitByte ((s.mem (BitVec.ofNat 32 (0x01000000 + i)) ^^^ s.mem (BitVec.ofNat 32 (0x02000000 + i))).getLsbD (k % 8)) else s.mem (dist k))
    (bbody i) 8 (s := s) ⟨rfl, rfl, by rw [if_neg (by omega)]⟩ fun j hj s' ⟨h1, h2, h3⟩ => ⟨by
      rw [bbody_mem s' i j hj, if_neg (input_ne _ i _ (.inl rfl) hi (by omega)), h1], by
      rw [bbody_mem s' i j hj, if_neg (input_ne _ i _ (.inr rfl) hi (by omega)), h2], by
      rw [bbody_mem s' i j hj, h1, h2, h3]
      by_cases h : k = 8 * i + j
      · rw [if_pos (by rw [h]), if_pos (by omega), show k % 8 = j by omega]
      · rw [if_neg (dist_ne _ _ (by omega) (by omega) h)]
        by_cases h4 : k / 8 = i ∧ k % 8 < j
        · rw [if_pos h4, if_pos (by omega)]
        · rw [if_neg h4, if_neg (by omega)]⟩
  rw [this.2.2]
  by_cases h : k / 8 = i
  · rw [if_pos h, if_pos ⟨h, by omega⟩]
  · rw [if_neg h, if_neg fun h' => h h'.1]

theorem bytes_dist (s : State) (k : Nat) (hk : k < 32) : (applyAll s ((List.range 4).flatMap byte)).mem (dist k) =
    bitByte ((s.mem (BitVec.ofNat 32 (0x01000000 + k / 8)) ^^^ s.mem (BitVec.ofNat 32 (0x02000000 + k / 8))).getLsbD (k % 8)) := by
  have := applyAll_loop (fun i s' => (∀ j < 4, s'.mem (BitVec.ofNat 32 (0x01000000 + j)) = s.mem (BitVec.ofNat 32 (0x01000000 + j))) ∧
    (∀ j < 4, s'.mem (BitVec.ofNat 32 (0x02000000 + j)) = s.mem (BitVec.ofNat 32 (0x02000000 + j))) ∧
    (k / 8 < i → s'.mem (dist k) = bitByte ((s.mem (BitVec.ofNat 32 (0x01000000 + k / 8)) ^^^ s.mem (BitVec.ofNat 32 (0x02000000 + k / 8))).getLsbD (k % 8))))
    byte 4 (s := s) ⟨fun _ _ => rfl, fun _ _ => rfl, fun h => absurd h (by omega)⟩ fun i hi s' ⟨h1, h2, h3⟩ => ⟨fun j hj => by
      rw [byte_mem s' i hi _ fun k hk => input_ne _ j k (.inl rfl) hj hk, h1 j hj], fun j hj => by
      rw [byte_mem s' i hi _ fun k hk => input_ne _ j k (.inr rfl) hj hk, h2 j hj], fun h => by
      rw [byte_dist s' i hi k hk]
      by_cases h4 : k / 8 = i
      · rw [if_pos h4, h1 i hi, h2 i hi, h4]
      · rw [if_neg h4, h3 (by omega)]⟩
  exact this.2.2 (by omega)

theorem sum8_ones (f : Nat → Bool) (n : Nat) : sum8 (fun k => bitByte (f k)) n = BitVec.ofNat 8 ((List.range n).filter f).length := by
  induction n with
  | zero => rfl
  | succ n ih =>
    rw [sum8, ih, List.range_succ, List.filter_append, List.length_append, bitByte, ← BitVec.ofNat_add]
    congr 2
    cases h : f n <;> simp [h]

/-- The output is the number of ones. -/
theorem result (s : State) : ((applyAll s all).word 0x03000000#32).toNat =
    Spec.ones (s.word 0x01000000#32 ^^^ s.word 0x02000000#32) := by
  rw [all, applyAll_append, applyAll_append, applyAll_append]
  have h1 : (applyAll s first).word 0x01000000#32 = s.word 0x01000000#32 := by
    unfold first
    micro
  have h2 : (applyAll s first).word 0x02000000#32 = s.word 0x02000000#32 := by
    unfold first
    micro
  rw [← h1, ← h2]
  generalize applyAll s first = s1
  have hk := bytes_dist s1
  generalize hs2 : applyAll s1 ((List.range 4).flatMap byte) = s2 at *
  have hl := levels_sum s2
  generalize applyAll s2 ((List.range 5).flatMap level) = s3 at *
  have hlast : (applyAll s3 last).word 0x03000000#32 = (s3.mem 196#32).zeroExtend 32 := by
    unfold last
    micro
  rw [hlast, show s3.mem 196#32 = s3.mem (dist 0) from rfl, hl]
  have hbit : ∀ k < 32, s2.mem (dist k) = bitByte ((s1.word 0x01000000#32 ^^^ s1.word 0x02000000#32).getLsbD k) := by
    intro k hk'
    rw [hk k hk']
    congr 1
    have e1 := mem_of_word s1 0x400000 (k / 8) (by omega) (by omega)
    have e2 := mem_of_word s1 0x800000 (k / 8) (by omega) (by omega)
    rw [show 4 * 0x400000 = 0x01000000 from rfl] at e1
    rw [show 4 * 0x800000 = 0x02000000 from rfl] at e2
    rw [e1, e2, BitVec.getLsbD_xor, BitVec.getLsbD_xor]
    have hb : ∀ w : BitVec 32, (BitVec.ofNat 8 (w.toNat / 2 ^ (8 * (k / 8)))).getLsbD (k % 8) = w.getLsbD k := by
      intro w
      rw [BitVec.getLsbD_ofNat, Nat.testBit_div_two_pow, decide_eq_true (show k % 8 < 8 by omega), Bool.true_and,
        show k % 8 + 8 * (k / 8) = k by omega]
      rfl
    rw [hb, hb]
  rw [sum8_congr hbit, sum8_ones, BitVec.zeroExtend_eq_setWidth, BitVec.toNat_setWidth, BitVec.toNat_ofNat]
  have hle : ((List.range 32).filter (s1.word 0x01000000#32 ^^^ s1.word 0x02000000#32).getLsbD).length ≤ 32 :=
    (List.length_filter_le ..).trans (by rw [List.length_range])
  show _ = ((List.range 32).filter (s1.word 0x01000000#32 ^^^ s1.word 0x02000000#32).getLsbD).length
  omega

end TinyGarble.Proof.Hdl.A23.Sym.Hamming
