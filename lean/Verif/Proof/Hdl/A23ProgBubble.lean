import Verif.Proof.Hdl.A23ProgSmall
import Mathlib.Logic.Equiv.Basic
import Mathlib.Data.List.Nodup

/-! # The program bubble-sort -/

namespace TinyGarble.Proof.Hdl.A23.Sym.Bubble

open TinyGarble.Spec.Arm
open TinyGarble.Spec.Mips (Fits)
open TinyGarble.Hdl.A23.Programs (bubbleSort)

def lay : Layout := ⟨36, 32, 32, 32, 64⟩

/-- The address of a word of the output. -/
abbrev out (j : Nat) : BitVec 32 := BitVec.ofNat 32 (0x03000000 + 4 * j)

def stack : List (BitVec 32 × Option (BitVec 32)) := [(0x040000fc, some 0x0c000014)]

def first : List Micro :=
  [.const 13 0x04000100, .const 0 0x01000000, .const 1 0x02000000, .const 2 0x03000000, .const 14 0x0c000014, .const 13 0x040000fc,
    .store 14 false 0x040000fc#32 (.c 0x0c000014), .const 3 0]

/-- Before word `i` of the input. -/
def xhead (i : Nat) : Abs :=
  ⟨if i = 32 then 19 else 12, [some 0x01000000, some 0x02000000, some 0x03000000, some (BitVec.ofNat 32 i), none, none, none, none, none, none, none, none, none,
    some 0x040000fc, none], none, stack⟩

def xbody (i : Nat) : List Micro :=
  [.load 14 false 14 (BitVec.ofNat 32 (0x01000000 + 4 * i)), .load 14 false 12 (BitVec.ofNat 32 (0x02000000 + 4 * i)),
    .dp 14 .eor false 12 (.r 12) (.reg (.r 14) .lsl 0), .store 14 false (out i) (.r 12), .const 3 (BitVec.ofNat 32 (i + 1)),
    .flags (diff (BitVec.ofNat 32 (i + 1)) 32 true).2]

def mid : List Micro := [.const 1 31]

/-- Before pass `t`. -/
def ohead (t : Nat) : Abs :=
  ⟨if t = 31 then 33 else 20, [none, some (BitVec.ofNat 32 (31 - t)), some 0x03000000, none, none, none, none, none, none, none, none, none, none,
    some 0x040000fc, none], none, stack⟩

def ostart : List Micro := [.const 3 0x03000000, .const 0 0]

/-- Before comparison `j` of pass `t`. -/
def ihead (t j : Nat) : Abs :=
  ⟨22, [some (BitVec.ofNat 32 j), some (BitVec.ofNat 32 (31 - t)), some 0x03000000, some (out j), none, none, none, none, none, none, none, none, none,
    some 0x040000fc, none], none, stack⟩

def ibody (t j : Nat) : List Micro :=
  [.flags (diff (BitVec.ofNat 32 j) (BitVec.ofNat 32 (31 - t)) true).2, .load 14 false 12 (out j), .load 14 false 14 (out (j + 1)),
    .dp 14 .cmp true 0 (.r 12) (.reg (.r 14) .lsl 0), .store 12 false (out j) (.r 14), .store 12 false (out (j + 1)) (.r 12),
    .const 0 (BitVec.ofNat 32 (j + 1)), .const 3 (out (j + 1))]

def iend (t : Nat) : List Micro :=
  [.flags ⟨false, true, true, false⟩, .const 1 (BitVec.ofNat 32 (30 - t)), .flags (diff (BitVec.ofNat 32 (31 - t)) 1 true).2]

def last : List Micro := [.const 13 0x04000100]

theorem run_first : check bubbleSort lay .init 7 first 19 (xhead 0) = true := by decide +kernel
theorem run_xbody : ∀ i < 32, check bubbleSort lay (xhead i) 7 (xbody i) 15 (xhead (i + 1)) = true := by decide +kernel
theorem run_mid : check bubbleSort lay (xhead 32) 1 mid 1 (ohead 0) = true := by decide +kernel
theorem run_ostart : ∀ t < 31, check bubbleSort lay (ohead t) 2 ostart 2 (ihead t 0) = true := by decide +kernel
theorem run_ibody : ∀ t < 31, ∀ j < 31 - t, check bubbleSort lay (ihead t j) 9 (ibody t j) 20 (ihead t (j + 1)) = true := by decide +kernel
theorem run_iend : ∀ t < 31, check bubbleSort lay (ihead t (31 - t)) 4 (iend t) 8 (ohead (t + 1)) = true := by decide +kernel
theorem run_last : check bubbleSort lay (ohead 31) 1 last 5 stopped = true := by decide +kernel

def pass (t : Nat) : List Micro := ostart ++ (List.range (31 - t)).flatMap (ibody t) ++ iend t

def all : List Micro := first ++ (List.range 32).flatMap xbody ++ mid ++ (List.range 31).flatMap pass ++ last

theorem runs : Runs bubbleSort lay .init all 10735 stopped := by
  have hx := Runs.loop xhead xbody (fun _ => 15) 32 fun i hi => .of_check (run_xbody i hi)
  have ho := Runs.loop ohead pass (fun t => 2 + ((List.range (31 - t)).map fun _ => 20).sum + 8) 31 fun t ht =>
    ((Runs.of_check (run_ostart t ht)).trans (Runs.loop (ihead t) (ibody t) (fun _ => 20) (31 - t) fun j hj => .of_check (run_ibody t ht j hj))).trans
      (.of_check (run_iend t ht))
  have := ((((Runs.of_check run_first).trans hx).trans (.of_check run_mid)).trans ho).trans (.of_check run_last)
  rw [show 19 + ((List.range 32).map fun _ => 15).sum + 1 + ((List.range 31).map fun t => 2 + ((List.range (31 - t)).map fun _ => 20).sum + 8).sum + 5 = 10735 by
    decide +kernel] at this
  exact this

theorem gt_aux (a b : Int) (h1 : a < 2 ^ (32 - 1)) (h2 : -2 ^ (32 - 1) ≤ a) (h3 : b < 2 ^ (32 - 1)) (h4 : -2 ^ (32 - 1) ≤ b) :
    (!decide (a = b) && decide ((a - b).bmod (2 ^ 32) < 0) == decide ¬Fits (a - b)) = decide (b < a) := by
  unfold Fits
  rw [Bool.eq_iff_iff]
  simp only [Bool.and_eq_true, Bool.not_eq_true', decide_eq_false_iff_not, beq_iff_eq, decide_eq_decide, decide_eq_true_eq]
  rw [Int.bmod_def]
  split <;> omega

/-- The condition GT after a comparison. -/
theorem holds_gt (x y : BitVec 32) : holds 12 (diff x y true).2 = decide (y.toInt < x.toInt) := by
  have e : holds 12 (diff x y true).2 = (!(decide (x - y = 0)) && (bit (x - y) 31 == decide (¬ Fits (x.toInt - y.toInt)))) := by
    unfold diff
    simp [holds, Flags.result]
  have hz : (x - y = 0) ↔ x.toInt = y.toInt := by
    rw [BitVec.toInt_inj]
    constructor
    · intro h; have := BitVec.sub_add_cancel x y; rw [h] at this; simpa using this.symm
    · rintro rfl; exact BitVec.sub_self _
  have hn : bit (x - y) 31 = decide ((x - y).toInt < 0) := by
    rw [← BitVec.msb_eq_toInt, BitVec.msb_eq_getLsbD_last]
    show decide ((x - y).toNat / 2 ^ 31 % 2 = 1) = (x - y).toNat.testBit 31
    rw [Nat.testBit_eq_decide_div_mod_eq]
  rw [e, hn, decide_eq_decide.2 hz, BitVec.toInt_sub]
  exact gt_aux x.toInt y.toInt x.toInt_lt x.le_toInt y.toInt_lt y.le_toInt

theorem ibody_word (s : State) (t j : Nat) (b : BitVec 32) : (applyAll s (ibody t j)).word b =
    if (s.word (out (j + 1))).toInt < (s.word (out j)).toInt then
      if align (out (j + 1)) = align b then s.word (out j) else if align (out j) = align b then s.word (out (j + 1)) else s.word b
    else s.word b := by
  unfold ibody
  micro
  rw [holds_gt]
  by_cases h : (s.word (out (j + 1))).toInt < (s.word (out j)).toInt
  · simp only [h, decide_true, and_true, if_true]
  · simp only [h, decide_false, Bool.false_eq_true, and_false, if_false]

/-- The words of the output. -/
def view (s : State) (j : Nat) : BitVec 32 := s.word (out j)

theorem align_out (i j : Nat) (hi : i < 32) (hj : j < 32) : align (out i) = align (out j) ↔ i = j := by
  constructor
  · intro h
    by_contra hne
    exact align_ne _ _ (by omega) (by omega) (by omega) h
  · rintro rfl; rfl

theorem ibody_view (s : State) (t j k : Nat) (hj : j + 1 < 32) (hk : k < 32) : view (applyAll s (ibody t j)) k =
    if (view s (j + 1)).toInt < (view s j).toInt then view s (Equiv.swap j (j + 1) k) else view s k := by
  unfold view
  rw [ibody_word]
  simp only [align_out _ _ hj hk, align_out _ _ (show j < 32 by omega) hk]
  split
  · rw [Equiv.swap_apply_def]
    by_cases h1 : k = j
    · subst h1
      rw [if_neg (by omega), if_pos rfl, if_pos rfl]
    · rw [if_neg h1]
      by_cases h2 : k = j + 1
      · rw [if_pos h2.symm, if_pos h2]
      · rw [if_neg (fun h => h2 h.symm), if_neg (fun h => h1 h.symm), if_neg h2]
  · rfl

/-- Rearranged. -/
def Same (a b : Nat → BitVec 32) : Prop := ((List.range 32).map a).Perm ((List.range 32).map b)

theorem same_swap (a b : Nat → BitVec 32) (j : Nat) (hj : j + 1 < 32) (h : ∀ k < 32, b k = a (Equiv.swap j (j + 1) k)) : Same b a := by
  unfold Same
  have e : (List.range 32).map b = ((List.range 32).map (Equiv.swap j (j + 1))).map a := by
    rw [List.map_map]
    exact List.map_congr_left fun k hk => h k (List.mem_range.1 hk)
  rw [e]
  refine List.Perm.map a ((List.perm_ext_iff_of_nodup (List.nodup_range.map (Equiv.swap j (j + 1)).injective) List.nodup_range).2 fun k => ?_)
  rw [List.mem_map, List.mem_range]
  have hlt : ∀ k, k < 32 → Equiv.swap j (j + 1) k < 32 := by
    intro k hk
    rw [Equiv.swap_apply_def]
    split
    · omega
    · split <;> omega
  constructor
  · rintro ⟨i, hi, rfl⟩
    exact hlt i (List.mem_range.1 hi)
  · intro hk
    exact ⟨Equiv.swap j (j + 1) k, List.mem_range.2 (hlt k hk), Equiv.swap_apply_self ..⟩

theorem same_of_eq (a b : Nat → BitVec 32) (h : ∀ k < 32, b k = a k) : Same b a := by
  unfold Same
  rw [List.map_congr_left fun k hk => h k (List.mem_range.1 hk)]

theorem ibody_same (s : State) (t j : Nat) (hj : j + 1 < 32) : Same (view (applyAll s (ibody t j))) (view s) := by
  by_cases h : (view s (j + 1)).toInt < (view s j).toInt
  · exact same_swap _ _ j hj fun k hk => by rw [ibody_view s t j k hj hk, if_pos h]
  · exact same_of_eq _ _ fun k hk => by rw [ibody_view s t j k hj hk, if_neg h]

/-- The words above `n` are sorted, and none below is larger. -/
def Above (n : Nat) (a : Nat → BitVec 32) : Prop := ∀ i k, i < k → n < k → k < 32 → (a i).toInt ≤ (a k).toInt

/-- Word `j` is the largest so far. -/
def Largest (j : Nat) (a : Nat → BitVec 32) : Prop := ∀ i ≤ j, (a i).toInt ≤ (a j).toInt

theorem ibody_sorted (s : State) (t j : Nat) (hj : j + 1 ≤ 31 - t) (ha : Above (31 - t) (view s)) (hl : Largest j (view s)) :
    Above (31 - t) (view (applyAll s (ibody t j))) ∧ Largest (j + 1) (view (applyAll s (ibody t j))) := by
  have hv := fun k hk => ibody_view s t j k (by omega) hk
  by_cases h : (view s (j + 1)).toInt < (view s j).toInt
  · have hv' : ∀ k < 32, view (applyAll s (ibody t j)) k = if k = j then view s (j + 1) else if k = j + 1 then view s j else view s k := by
      intro k hk
      rw [hv k hk, if_pos h, Equiv.swap_apply_def]
      split
      · rfl
      · split <;> rfl
    refine ⟨fun i k hik hnk hk => ?_, fun i hi => ?_⟩
    · rw [hv' i (by omega), hv' k hk, if_neg (show ¬ k = j by omega), if_neg (show ¬ k = j + 1 by omega)]
      split
      · exact ha _ _ (by omega) hnk hk
      · split
        · exact ha _ _ (by omega) hnk hk
        · exact ha _ _ (by omega) hnk hk
    · rw [hv' i (by omega), hv' (j + 1) (by omega), if_neg (show ¬ j + 1 = j by omega), if_pos rfl]
      split
      · omega
      · split
        · omega
        · exact hl i (by omega)
  · have hv' : ∀ k < 32, view (applyAll s (ibody t j)) k = view s k := fun k hk => by rw [hv k hk, if_neg h]
    refine ⟨fun i k hik hnk hk => ?_, fun i hi => ?_⟩
    · rw [hv' i (by omega), hv' k hk]
      exact ha _ _ hik hnk hk
    · rw [hv' i (by omega), hv' (j + 1) (by omega)]
      by_cases hi' : i = j + 1
      · rw [hi']
      · have := hl i (by omega)
        omega

theorem ostart_view (s : State) : view (applyAll s ostart) = view s := by
  funext k
  unfold view ostart
  micro

theorem iend_view (s : State) (t : Nat) : view (applyAll s (iend t)) = view s := by
  funext k
  unfold view iend
  micro

theorem pass_view (s : State) (t : Nat) (ht : t < 31) (ha : Above (31 - t) (view s)) :
    Same (view (applyAll s (pass t))) (view s) ∧ Above (31 - (t + 1)) (view (applyAll s (pass t))) := by
  rw [pass, applyAll_append, applyAll_append, iend_view]
  have := applyAll_loop (fun j s' => Same (view s') (view s) ∧ Above (31 - t) (view s') ∧ Largest j (view s')) (ibody t) (31 - t) (s := applyAll s ostart)
    (by
      rw [ostart_view]
      exact ⟨List.Perm.refl _, ha, fun i hi => by rw [show i = 0 by omega]⟩)
    (fun j hj s' ⟨h1, h2, h3⟩ => ⟨(ibody_same s' t j (by omega)).trans h1, ibody_sorted s' t j (by omega) h2 h3⟩)
  obtain ⟨h1, h2, h3⟩ := this
  refine ⟨h1, fun i k hik hnk hk => ?_⟩
  by_cases h : k = 31 - t
  · rw [h]; exact h3 i (by omega)
  · exact h2 i k hik (by omega) hk

theorem xbody_word (s : State) (i : Nat) (b : BitVec 32) : (applyAll s (xbody i)).word b =
    if align (out i) = align b then s.word (BitVec.ofNat 32 (0x01000000 + 4 * i)) ^^^ s.word (BitVec.ofNat 32 (0x02000000 + 4 * i)) else s.word b := by
  unfold xbody
  micro
  rw [BitVec.xor_comm]

/-- The output is the sorted input. -/
theorem result (g e : Nat → BitVec 32) (s : State) (h1 : ∀ j < 32, s.word (BitVec.ofNat 32 (0x01000000 + 4 * j)) = g j)
    (h2 : ∀ j < 32, s.word (BitVec.ofNat 32 (0x02000000 + 4 * j)) = e j) :
    Same (view (applyAll s all)) (fun j => g j ^^^ e j) ∧ ∀ i j, i < j → j < 32 → (view (applyAll s all) i).toInt ≤ (view (applyAll s all) j).toInt := by
  rw [all, applyAll_append, applyAll_append, applyAll_append, applyAll_append]
  have h0 : ∀ b < 0x03000080, (applyAll s first).word (BitVec.ofNat 32 b) = s.word (BitVec.ofNat 32 b) := by
    intro b hb
    unfold first
    micro
    rw [if_neg (align_ne _ _ (by omega) (by omega) (by omega))]
  have hx := applyAll_loop (fun n s => (∀ j < 32, s.word (BitVec.ofNat 32 (0x01000000 + 4 * j)) = g j) ∧
    (∀ j < 32, s.word (BitVec.ofNat 32 (0x02000000 + 4 * j)) = e j) ∧ ∀ m < n, view s m = g m ^^^ e m) xbody 32
    ⟨fun j hj => by rw [h0 _ (by omega), h1 j hj], fun j hj => by rw [h0 _ (by omega), h2 j hj], fun m hm => absurd hm (by omega)⟩
    (fun i hi s ⟨a, b, c⟩ => ⟨fun j hj => by rw [xbody_word, if_neg (align_ne _ _ (by omega) (by omega) (by omega)), a j hj],
      fun j hj => by rw [xbody_word, if_neg (align_ne _ _ (by omega) (by omega) (by omega)), b j hj], fun m hm => by
        rw [view, xbody_word]
        by_cases hmi : m = i
        · rw [hmi, if_pos rfl, a _ (by omega), b _ (by omega)]
        · rw [if_neg (align_ne _ _ (by omega) (by omega) (by omega))]
          exact c m (by omega)⟩)
  replace hx := hx.2.2
  generalize applyAll (applyAll s first) ((List.range 32).flatMap xbody) = s1 at *
  have hm : view (applyAll s1 mid) = view s1 := by
    funext k
    unfold view mid
    micro
  have ho := applyAll_loop (fun t s' => Same (view s') (view s1) ∧ Above (31 - t) (view s')) pass 31 (s := applyAll s1 mid)
    (by
      rw [hm]
      exact ⟨List.Perm.refl _, fun i k _ h1 h2 => absurd h1 (by omega)⟩)
    (fun t ht s' ⟨a, b⟩ => ⟨(pass_view s' t ht b).1.trans a, (pass_view s' t ht b).2⟩)
  obtain ⟨h3, h4⟩ := ho
  generalize applyAll (applyAll s1 mid) ((List.range 31).flatMap pass) = s2 at *
  have hl : view (applyAll s2 last) = view s2 := by
    funext k
    unfold view last
    micro
  rw [hl]
  exact ⟨h3.trans (same_of_eq _ _ hx), fun i j hij hj => h4 i j hij (by omega) hj⟩

end TinyGarble.Proof.Hdl.A23.Sym.Bubble
