import Verif.Proof.Hdl.MipsHamming
import Verif.Model.Hdl.MipsPrograms
import Verif.Spec.MipsPrograms
import Verif.Props.Hdl.Mips

/-!
# Programs with branches on the MIPS processor (C79, C92)
-/

namespace TinyGarble.Props.Hdl

open TinyGarble.Hdl TinyGarble.Spec.Hdl TinyGarble.Proof.Hdl
open TinyGarble.Spec.Mips (State Instr decode trace traceOf SupportedEarly wordAt hammingDistance hammingResult hammingTime)
open TinyGarble.Hdl.Mips (liteMips hammingManual hammingFromBranch hammingDelaySlots)
open TinyGarble.Proof.Hdl.Mips (abs)

/-- C79, with branches: the circuit does what the manual says if each branch has an offset that is larger by one than the manual says. Missing:
the cases that `SupportedEarly` excludes. -/
theorem C79_branches_partial (L t : Nat) (gInit eInit : BitVec (2 ^ L * 32)) (s' : State (L + 2))
    (ht : traceOf (fun i => (decode (part 32 gInit i)).map Instr.early) (mipsStart L eInit) t = some s')
    (hs : ∀ u < t, ∀ s i, traceOf (fun i => (decode (part 32 gInit i)).map Instr.early) (mipsStart L eInit) u = some s →
      decode (part 32 gInit (s.pc.toNat / 4)) = some i → s.pc.toNat / 4 < 2 ^ L ∧ SupportedEarly s i) :
    ∃ o, liteMips L gInit eInit t = some o ∧ ∀ a, part 8 o a.toNat = s'.mem a := by
  rw [← mipsStart_eq] at ht hs
  obtain ⟨st, h1, h2, -⟩ := TinyGarble.Proof.Hdl.Mips.run_early (part 32 gInit) _ t s' ht hs
  refine ⟨ofEntries (2 ^ L) 32 st.memory, ?_, fun a => ?_⟩
  · rw [liteMips, show (fun i => TinyGarble.Hdl.entry 32 gInit i) = part 32 gInit from entry_eq_part 32 gInit, h1]; rfl
  · subst h2
    have ha : a.toNat / 4 < 2 ^ L := by
      have := a.isLt
      rw [Nat.pow_add] at this
      omega
    rw [← byte_of_part, part_ofEntries _ _ _ _ ha]
    rfl

/-! ## hamming.s -/

theorem distance_eq (w : Nat → BitVec 32) (l n : Nat) :
    ((List.range n).filter fun k => w (2 + k) ≠ w (2 + l + k)).length = TinyGarble.Proof.Hdl.Mips.distTo w l n := by
  induction n with
  | zero => rfl
  | succ n ih =>
    rw [List.range_succ, List.filter_append, List.length_append, ih, TinyGarble.Proof.Hdl.Mips.distTo, TinyGarble.Proof.Hdl.Mips.differ]
    by_cases h : w (2 + n) = w (2 + l + n) <;> simp [h]

theorem wordAt_memOf {L k : Nat} (w : Nat → BitVec 32) (hk : k < 2 ^ L) : wordAt (TinyGarble.Proof.Hdl.Mips.memOf L w) k = w k := by
  have h1 : (BitVec.ofNat (L + 2) (4 * k)).toNat = 4 * k := by rw [BitVec.toNat_ofNat, Nat.mod_eq_of_lt (by rw [Nat.pow_add]; omega)]
  rw [wordAt, TinyGarble.Proof.Hdl.Mips.memOf, TinyGarble.Proof.Hdl.Mips.fetch_aligned 4 _ (by rw [h1]; omega), h1,
    show 4 * k / 4 = k by omega, show 4 * k % 4 = 0 by omega]
  apply BitVec.eq_of_toNat_eq
  rw [BitVec.toNat_ofNat]
  have := (w k).isLt
  simp only [Nat.mul_zero, Nat.pow_zero, Nat.div_one, Nat.mod_mod]
  exact Nat.mod_eq_of_lt this

theorem mipsStart_mem (L : Nat) (eInit : BitVec (2 ^ L * 32)) : (mipsStart L eInit).mem = TinyGarble.Proof.Hdl.Mips.memOf L (part 32 eInit) := by
  funext a
  exact (byte_of_part eInit a.toNat).symm

/-- The program `code` stores the distance. -/
theorem hamming_trace {L : Nat} (code : Nat → Option Instr) (eInit : BitVec (2 ^ L * 32)) (hL : L ≤ 28) (hl : 2 * (part 32 eInit 0).toNat + 2 ≤ 2 ^ L)
    (hc : ∀ i (h : i < 16), code i = some ((TinyGarble.Proof.Hdl.Mips.hammingCode 8 1)[i]'h)) (t : Nat) :
    ∃ s, traceOf code (mipsStart L eInit) t = some s ∧ s.pc.toNat < 64 ∧ s.mem = TinyGarble.Proof.Hdl.Mips.memOf L
      (if t < hammingTime (part 32 eInit) then part 32 eInit else hammingResult (part 32 eInit)) := by
  obtain ⟨s, h1, h2⟩ := TinyGarble.Proof.Hdl.Mips.hamming_done hc (s := mipsStart L eInit) (w := part 32 eInit) hL hl (by simp) rfl (fun _ => rfl)
    (mipsStart_mem L eInit)
  have hd : hammingDistance (part 32 eInit) = _ := distance_eq (part 32 eInit) (part 32 eInit 0).toNat (part 32 eInit 0).toNat
  rw [hammingTime, hd]
  by_cases ht : t < 7 + 8 * (part 32 eInit 0).toNat + TinyGarble.Proof.Hdl.Mips.distTo (part 32 eInit) (part 32 eInit 0).toNat (part 32 eInit 0).toNat
  · obtain ⟨x, h3, h4, h5⟩ := h1.2 t ht
    exact ⟨x, h3, h4, by rw [if_pos ht]; exact h5⟩
  · obtain ⟨v, rfl⟩ := Nat.exists_eq_add_of_le (Nat.le_of_not_lt ht)
    refine ⟨s, ?_, by rw [h2.pc]; decide, ?_⟩
    · rw [TinyGarble.Proof.Hdl.Mips.traceOf_add, h1.1]
      exact TinyGarble.Proof.Hdl.Mips.hamming_stay hc h2 v
    · rw [if_neg ht, h2.mem]
      congr 1
      funext k
      rw [hammingResult, hd]

/-- A word with a variable lower half. -/
theorem decode_beq (hi lo : BitVec 16) (rs rt : BitVec 5) (h1 : hi.toNat / 2 ^ 10 = 4) (h2 : rs = BitVec.ofNat 5 (hi.toNat / 2 ^ 5))
    (h3 : rt = BitVec.ofNat 5 hi.toNat) : decode (hi ++ lo) = some (.branch .eq false rs rt lo) := by
  have h : (hi ++ lo).toNat = hi.toNat * 2 ^ 16 + lo.toNat := by
    rw [BitVec.toNat_append, Nat.shiftLeft_eq, ← Nat.shiftLeft_eq, ← Nat.shiftLeft_add_eq_or_of_lt lo.isLt, Nat.shiftLeft_eq]
  have hlo := lo.isLt
  have hhi := hi.isLt
  have e1 : (TinyGarble.Spec.Mips.bits (hi ++ lo) 26 6).toNat = 4 := by
    rw [TinyGarble.Spec.Mips.bits, BitVec.toNat_ofNat, h]; omega
  simp only [decode, e1]
  congr 2
  · rw [h2, TinyGarble.Spec.Mips.bits, h]
    congr 1; omega
  · rw [h3, TinyGarble.Spec.Mips.bits, h]
    congr 1; omega
  · apply BitVec.eq_of_toNat_eq
    rw [TinyGarble.Spec.Mips.bits, BitVec.toNat_ofNat, h]; omega

theorem hamming_decode (o1 o2 : BitVec 16) (i : Nat) (h : i < 16) :
    decode ((TinyGarble.Hdl.Mips.hamming o1 o2)[i]'h) = some ((TinyGarble.Proof.Hdl.Mips.hammingCode o1 o2)[i]'h) := by
  match i, h with
  | 5, _ => exact decode_beq 0x1049 o1 2 9 (by decide) (by decide) (by decide)
  | 9, _ => exact decode_beq 0x10C0 o2 6 0 (by decide) (by decide) (by decide)
  | 0, _ => exact (show decode ((TinyGarble.Hdl.Mips.hamming 0 0)[0]'(by decide)) = some ((TinyGarble.Proof.Hdl.Mips.hammingCode 0 0)[0]'(by decide)) by decide +kernel)
  | 1, _ => exact (show decode ((TinyGarble.Hdl.Mips.hamming 0 0)[1]'(by decide)) = some ((TinyGarble.Proof.Hdl.Mips.hammingCode 0 0)[1]'(by decide)) by decide +kernel)
  | 2, _ => exact (show decode ((TinyGarble.Hdl.Mips.hamming 0 0)[2]'(by decide)) = some ((TinyGarble.Proof.Hdl.Mips.hammingCode 0 0)[2]'(by decide)) by decide +kernel)
  | 3, _ => exact (show decode ((TinyGarble.Hdl.Mips.hamming 0 0)[3]'(by decide)) = some ((TinyGarble.Proof.Hdl.Mips.hammingCode 0 0)[3]'(by decide)) by decide +kernel)
  | 4, _ => exact (show decode ((TinyGarble.Hdl.Mips.hamming 0 0)[4]'(by decide)) = some ((TinyGarble.Proof.Hdl.Mips.hammingCode 0 0)[4]'(by decide)) by decide +kernel)
  | 6, _ => exact (show decode ((TinyGarble.Hdl.Mips.hamming 0 0)[6]'(by decide)) = some ((TinyGarble.Proof.Hdl.Mips.hammingCode 0 0)[6]'(by decide)) by decide +kernel)
  | 7, _ => exact (show decode ((TinyGarble.Hdl.Mips.hamming 0 0)[7]'(by decide)) = some ((TinyGarble.Proof.Hdl.Mips.hammingCode 0 0)[7]'(by decide)) by decide +kernel)
  | 8, _ => exact (show decode ((TinyGarble.Hdl.Mips.hamming 0 0)[8]'(by decide)) = some ((TinyGarble.Proof.Hdl.Mips.hammingCode 0 0)[8]'(by decide)) by decide +kernel)
  | 10, _ => exact (show decode ((TinyGarble.Hdl.Mips.hamming 0 0)[10]'(by decide)) = some ((TinyGarble.Proof.Hdl.Mips.hammingCode 0 0)[10]'(by decide)) by decide +kernel)
  | 11, _ => exact (show decode ((TinyGarble.Hdl.Mips.hamming 0 0)[11]'(by decide)) = some ((TinyGarble.Proof.Hdl.Mips.hammingCode 0 0)[11]'(by decide)) by decide +kernel)
  | 12, _ => exact (show decode ((TinyGarble.Hdl.Mips.hamming 0 0)[12]'(by decide)) = some ((TinyGarble.Proof.Hdl.Mips.hammingCode 0 0)[12]'(by decide)) by decide +kernel)
  | 13, _ => exact (show decode ((TinyGarble.Hdl.Mips.hamming 0 0)[13]'(by decide)) = some ((TinyGarble.Proof.Hdl.Mips.hammingCode 0 0)[13]'(by decide)) by decide +kernel)
  | 14, _ => exact (show decode ((TinyGarble.Hdl.Mips.hamming 0 0)[14]'(by decide)) = some ((TinyGarble.Proof.Hdl.Mips.hammingCode 0 0)[14]'(by decide)) by decide +kernel)
  | 15, _ => exact (show decode ((TinyGarble.Hdl.Mips.hamming 0 0)[15]'(by decide)) = some ((TinyGarble.Proof.Hdl.Mips.hammingCode 0 0)[15]'(by decide)) by decide +kernel)
  | n + 16, h => omega

theorem hamming_early (o1 o2 : BitVec 16) (i : Nat) (h : i < 16) :
    ((TinyGarble.Proof.Hdl.Mips.hammingCode o1 o2)[i]'h).early = (TinyGarble.Proof.Hdl.Mips.hammingCode (o1 - 1) (o2 - 1))[i]'h := by
  match i, h with
  | 0, _ | 1, _ | 2, _ | 3, _ | 4, _ | 5, _ | 6, _ | 7, _ | 8, _ | 9, _ | 10, _ | 11, _ | 12, _ | 13, _ | 14, _ | 15, _ => rfl
  | n + 16, h => omega

theorem hamming_supported {A : Nat} (s : State A) (hs : s.pc.toNat < 64) (o1 o2 : BitVec 16) (h1 : o1 ≠ 0x8000#16) (h2 : o2 ≠ 0x8000#16) (i : Nat) (h : i < 16) :
    SupportedEarly s ((TinyGarble.Proof.Hdl.Mips.hammingCode o1 o2)[i]'h) := by
  match i, h with
  | 5, _ => exact h1
  | 9, _ => exact h2
  | 13, _ | 15, _ => show s.pc.toNat % 2 ^ 28 + 4 < 2 ^ 28; omega
  | 0, _ | 1, _ | 2, _ | 3, _ | 4, _ | 6, _ | 7, _ | 8, _ | 10, _ | 11, _ | 12, _ | 14, _ => trivial
  | n + 16, h => omega

/-- C92, on the machine of the manual: at every time, the memory has the words that it had at first, and from the time `hammingTime` on the
distance in word 1. -/
theorem C92_manual (L : Nat) (prog : Nat → BitVec 32) (eInit : BitVec (2 ^ L * 32)) (hL : L ≤ 28) (hl : 2 * (part 32 eInit 0).toNat + 2 ≤ 2 ^ L)
    (hp : ∀ i (h : i < 16), prog i = hammingManual[i]'h) (t : Nat) :
    ∃ s, trace prog (mipsStart L eInit) t = some s ∧ ∀ k < 2 ^ L, wordAt s.mem k =
      (if t < hammingTime (part 32 eInit) then part 32 eInit else hammingResult (part 32 eInit)) k := by
  obtain ⟨s, h1, -, h2⟩ := hamming_trace (fun i => decode (prog i)) eInit hL hl (fun i h => by rw [hp i h]; exact hamming_decode 8 1 i h) t
  refine ⟨s, by rw [TinyGarble.Proof.Hdl.Mips.trace_eq, h1], fun k hk => ?_⟩
  rw [h2, wordAt_memOf _ hk]

/-- What the circuit does with the words of the program. -/
theorem hamming_circuit {L : Nat} (gInit eInit : BitVec (2 ^ L * 32)) (h4 : 4 ≤ L) (o1 o2 : BitVec 16) (ho1 : o1 ≠ 0x8000#16) (ho2 : o2 ≠ 0x8000#16)
    (hg : ∀ i (h : i < 16), part 32 gInit i = (TinyGarble.Hdl.Mips.hamming o1 o2)[i]'h) (m : Nat → Nat → BitVec 32)
    (hm : ∀ t, ∃ s, traceOf (fun i => (decode (part 32 gInit i)).map Instr.early) (mipsStart L eInit) t = some s ∧ s.pc.toNat < 64 ∧
      s.mem = TinyGarble.Proof.Hdl.Mips.memOf L (m t)) (t : Nat) :
    ∃ o, liteMips L gInit eInit t = some o ∧ ∀ k < 2 ^ L, part 32 o k = m t k := by
  have h16 : 2 ^ 4 ≤ 2 ^ L := Nat.pow_le_pow_right (by omega) h4
  obtain ⟨s, h1, h2, h3⟩ := hm t
  obtain ⟨o, h5, h6⟩ := C79_branches_partial L t gInit eInit s h1 (by
    intro u hu x i h7 h8
    obtain ⟨y, h9, h10, -⟩ := hm u
    obtain rfl : y = x := Option.some.inj (h9.symm.trans h7)
    have h11 : y.pc.toNat / 4 < 16 := by omega
    refine ⟨by omega, ?_⟩
    rw [hg _ h11, hamming_decode] at h8
    obtain rfl := Option.some.inj h8
    exact hamming_supported y h10 o1 o2 ho1 ho2 _ h11)
  refine ⟨o, h5, fun k hk => ?_⟩
  have h7 : ∀ a : BitVec (L + 2), part 8 o a.toNat = (m t (a.toNat / 4)).extractLsb' (8 * (a.toNat % 4)) 8 := fun a => by
    rw [h6, h3]; rfl
  apply eq_of_bits
  intro i hi
  have e : (BitVec.ofNat (L + 2) (4 * k + i / 8)).toNat = 4 * k + i / 8 := by rw [BitVec.toNat_ofNat, Nat.mod_eq_of_lt (by rw [Nat.pow_add]; omega)]
  have h8 := h7 (BitVec.ofNat (L + 2) (4 * k + i / 8))
  rw [e, ← byte_of_part, show (4 * k + i / 8) / 4 = k by omega, show (4 * k + i / 8) % 4 = i / 8 by omega] at h8
  have h9 := congrArg (fun v => v.getLsbD (i % 8)) h8
  simp only [BitVec.getLsbD_extractLsb', show i % 8 < 8 by omega, decide_true, Bool.true_and, show 8 * (i / 8) + i % 8 = i by omega] at h9
  exact h9

/-- C92, on the circuit, with offsets of the branches that count from the branch itself: in every cycle the output has the words of the
evaluator's input, and from cycle `hammingTime` on the distance in word 1. Missing: the words as the manual says (see below). -/
theorem C92_circuit_partial (L : Nat) (gInit eInit : BitVec (2 ^ L * 32)) (h4 : 4 ≤ L) (hL : L ≤ 28) (hl : 2 * (part 32 eInit 0).toNat + 2 ≤ 2 ^ L)
    (hg : ∀ i (h : i < 16), part 32 gInit i = hammingFromBranch[i]'h) (t : Nat) :
    ∃ o, liteMips L gInit eInit t = some o ∧ ∀ k < 2 ^ L, part 32 o k =
      (if t < hammingTime (part 32 eInit) then part 32 eInit else hammingResult (part 32 eInit)) k := by
  refine hamming_circuit gInit eInit h4 9 2 (by decide) (by decide) hg
    (fun t => if t < hammingTime (part 32 eInit) then part 32 eInit else hammingResult (part 32 eInit)) (fun t => ?_) t
  refine hamming_trace _ eInit hL hl (fun i h => ?_) t
  rw [hg i h]
  exact Eq.trans (congrArg _ (hamming_decode 9 2 i h)) (congrArg some (hamming_early 9 2 i h))

/-- C92 is false for the words as the manual says: in every cycle, with every input, the output is the evaluator's input; the distance is never
stored. -/
theorem C92_false_manual (L : Nat) (gInit eInit : BitVec (2 ^ L * 32)) (h4 : 4 ≤ L) (hL : L ≤ 28) (hl : 2 * (part 32 eInit 0).toNat + 2 ≤ 2 ^ L)
    (hg : ∀ i (h : i < 16), part 32 gInit i = hammingManual[i]'h) (t : Nat) :
    ∃ o, liteMips L gInit eInit t = some o ∧ ∀ k < 2 ^ L, part 32 o k = part 32 eInit k := by
  refine hamming_circuit gInit eInit h4 8 1 (by decide) (by decide) hg (fun _ => part 32 eInit) (fun t => ?_) t
  refine TinyGarble.Proof.Hdl.Mips.hamming_never (fun i h => ?_) (l := (part 32 eInit 0).toNat) hL hl (by simp) rfl (fun _ => rfl) (mipsStart_mem L eInit) t
  rw [hg i h]
  exact Eq.trans (congrArg _ (hamming_decode 8 1 i h)) (congrArg some (hamming_early 8 1 i h))

/-! ## Examples -/

/-- The words of a list. -/
def mipsWords (L : Nat) (l : List (BitVec 32)) : BitVec (2 ^ L * 32) := ofEntries (2 ^ L) 32 fun i => l.getD i 0

/-- Three words, of which two differ. -/
def hammingInput : BitVec (2 ^ 5 * 32) := mipsWords 5 [3, 99, 10, 20, 30, 10, 21, 31]

/-- C92 is false also for the words with delay slots: the words 7 and 7 do not differ, but the circuit stores 1. -/
theorem C92_false_delay_slots : hammingDistance (part 32 (mipsWords 5 [1, 99, 7, 7])) = 0 ∧
    ((liteMips 5 (mipsWords 5 hammingDelaySlots) (mipsWords 5 [1, 99, 7, 7]) 30).map fun o => part 32 o 1) = some 1 := by
  decide +kernel

example : hammingDistance (part 32 hammingInput) = 2 ∧ hammingTime (part 32 hammingInput) = 33 ∧ 2 * (part 32 hammingInput 0).toNat + 2 ≤ 2 ^ 5 := by
  decide +kernel

example : (∀ i (h : i < 16), part 32 (mipsWords 5 hammingFromBranch) i = hammingFromBranch[i]'h) ∧
    (∀ i (h : i < 16), part 32 (mipsWords 5 hammingManual) i = hammingManual[i]'h) := by
  decide +kernel

/-- The answer in cycles 32 and 33, with both kinds of offsets. -/
example : ((liteMips 5 (mipsWords 5 hammingFromBranch) hammingInput 32).map fun o => part 32 o 1) = some 99 ∧
    ((liteMips 5 (mipsWords 5 hammingFromBranch) hammingInput 33).map fun o => part 32 o 1) = some 2 ∧
    ((liteMips 5 (mipsWords 5 hammingManual) hammingInput 60).map fun o => part 32 o 1) = some 99 := by
  decide +kernel

/-- `beq $0, $0, 0` is a branch to itself in the circuit, as `beq $0, $0, -1` is in the manual. -/
example : (decode 0x10000000#32).map Instr.early = decode 0x1000FFFF#32 := by decide +kernel

end TinyGarble.Props.Hdl
