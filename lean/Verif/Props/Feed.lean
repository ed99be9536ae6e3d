import Verif.Proof.Feed
import Verif.Props.Protocol

/-!
# C64: bytes from an untrusted peer
-/

namespace TinyGarble.Props
open TinyGarble Spec Proof

variable (cr : Crypto) (c : Circuit) (A : Args)

/-- C64, garbler. For a circuit whose references are in range, no sequence of bytes from the evaluator, complete or not, leads the
garbler to undefined behaviour. -/
theorem C64_garbler_safe (G : GEnv) (hr : refsInRange c = true) (h : c.eInit + A.cycles * c.eInput < 2 ^ 32) (inc : List Byte) :
    (feed (garbleBN cr c A G) inc).1 ≠ .undefined := fun hu =>
  feed_undefined (W := fun _ => False) (rd := []) (onlyAfter_garbleBN cr c A G hr h []) hu

/-- C64, evaluator. When bytes from the garbler lead the evaluator to undefined behaviour, the last eight bytes it has read announce
more tables than its buffer holds (one for each gate other than XOR, XNOR, NOT). Missing: the full claim, that no bytes do, which is false
(`C64_evaluator_overflow`). -/
theorem C64_evaluator_partial (E : EEnv) (hr : refsInRange c = true) (h : c.eInit + A.cycles * c.eInput < 2 ^ 32) (inc : List Byte)
    (hu : (feed (evaluateBN cr c A E) inc).1 = .undefined) :
    ∃ before count, inc.take (feed (evaluateBN cr c A E) inc).2 = before ++ count ∧ count.length = 8
      ∧ numOfNonXor c < leValue count := by
  have hx := feed_undefined (rd := []) (onlyAfter_evaluateBN cr c A E hr h []) hu
  rw [List.append_nil] at hx
  obtain ⟨hl, hx⟩ := hx
  generalize inc.take (feed (evaluateBN cr c A E) inc).2 = rd at hl hx ⊢
  rw [List.length_reverse] at hl
  refine ⟨rd.take (rd.length - 8), rd.drop (rd.length - 8), (List.take_append_drop _ _).symm, by rw [List.length_drop]; omega, ?_⟩
  rw [List.take_reverse, List.reverse_reverse] at hx
  have : toInt32 (leValue (rd.drop (rd.length - 8)) * tableBytes) ≤ (leValue (rd.drop (rd.length - 8)) * tableBytes : Nat) := by
    unfold toInt32
    rw [BitVec.toInt_eq_toNat_cond, BitVec.toNat_ofNat]
    have := Nat.mod_le (leValue (rd.drop (rd.length - 8)) * tableBytes) (2 ^ 32)
    split <;> omega
  have h2 : numOfNonXor c * tableBytes < leValue (rd.drop (rd.length - 8)) * tableBytes := by omega
  exact Nat.lt_of_mul_lt_mul_right h2

/-- C64, evaluator, negation. In every session that starts at all, some bytes from the garbler make the evaluator write
behind its buffer of tables (for buffers below 2^31 bytes). -/
theorem C64_evaluator_overflow (E : EEnv) (h0 : A.cycles ≠ 0) (hp : A.period ≠ 0 → c.terminateId ≠ 0)
    (h : c.eInit + A.cycles * c.eInput < 2 ^ 32) (ht : (numOfNonXor c + 1) * 48 < 2 ^ 31) :
    ∃ inc, (feed (evaluateBN cr c A E) inc).1 = .undefined :=
  canUndef_evaluateBN cr c A E h0 (fun hh => hp hh.1 hh.2) h ht

/-- C64, evaluator. Whatever the tables contain, a gate that looks at the buffer (any but XOR, XNOR, NOT) finds the index inside. -/
theorem C64_table_index (enc : Block → Block) (sfan : Nat → Nat) (cid : Nat) (x : ECycleIn) (st : EState) {i : Nat} (hi : i < c.gateSize)
    (hg : (c.gate i).type ≠ XORGATE ∧ (c.gate i).type ≠ XNORGATE ∧ (c.gate i).type ≠ NOTGATE) :
    (forLoop (evalStep c enc cid) i (evalPrep c sfan cid x st)).ts.ind < numOfNonXor c := by
  have h1 : ∀ i, (forLoop (evalStep c enc cid) i (evalPrep c sfan cid x st)).ts.ind ≤ forLoop (fun i n =>
      if (c.gate i).type ≠ XORGATE ∧ (c.gate i).type ≠ XNORGATE ∧ (c.gate i).type ≠ NOTGATE then n + 1 else n) i 0 := by
    intro i
    induction i with
    | zero => exact Nat.le_refl _
    | succ i ih =>
      show (evalStep c enc cid i _).ts.ind ≤ if _ then _ else _
      have hs : ∀ st : EState, (evalStep c enc cid i st).ts.ind ≤ st.ts.ind +
          if (c.gate i).type ≠ XORGATE ∧ (c.gate i).type ≠ XNORGATE ∧ (c.gate i).type ≠ NOTGATE then 1 else 0 := by
        intro st
        unfold evalStep
        dsimp only
        split
        · dsimp only
          generalize inVal0 c st.val (c.gate i) = v0
          generalize inVal1 c st.val (c.gate i) = v1
          generalize (c.gate i).type = t
          unfold evalGate
          split <;> dsimp only <;> (repeat' split) <;> simp_all
        · exact Nat.le_add_right _ _
      have := hs (forLoop (evalStep c enc cid) i (evalPrep c sfan cid x st))
      split <;> rename_i hc
      · rw [if_pos hc] at this; exact Nat.le_trans this (Nat.succ_le_succ ih)
      · rw [if_neg hc] at this; exact Nat.le_trans this ih
  have h2 : ∀ k, forLoop (fun i n =>
      if (c.gate i).type ≠ XORGATE ∧ (c.gate i).type ≠ XNORGATE ∧ (c.gate i).type ≠ NOTGATE then n + 1 else n) (i + 1) 0 ≤
      forLoop (fun i n =>
      if (c.gate i).type ≠ XORGATE ∧ (c.gate i).type ≠ XNORGATE ∧ (c.gate i).type ≠ NOTGATE then n + 1 else n) (i + 1 + k) 0 := by
    intro k
    induction k with
    | zero => exact Nat.le_refl _
    | succ k ih =>
      refine Nat.le_trans ih ?_
      show _ ≤ if _ then _ else _
      split
      · exact Nat.le_succ _
      · exact Nat.le_refl _
  have h3 := h2 (c.gateSize - (i + 1))
  rw [show i + 1 + (c.gateSize - (i + 1)) = c.gateSize from by omega] at h3
  have h4 := h1 i
  refine Nat.lt_of_le_of_lt h4 (Nat.lt_of_lt_of_le ?_ h3)
  show _ < if _ then _ else _
  rw [if_pos hg]
  exact Nat.lt_succ_self _

/-- The hypotheses hold for a circuit with secret inputs, public inputs, a flip-flop and AND gates, with and without transfer. -/
example (mask : Nat) (mode : OutputMode) (low ot : Bool) :
    refsInRange prCircuit = true
      ∧ prCircuit.eInit + ({ prA mask mode low with disableOT := ot } : Args).cycles * prCircuit.eInput < 2 ^ 32
      ∧ ({ prA mask mode low with disableOT := ot } : Args).cycles ≠ 0 ∧ prCircuit.terminateId ≠ 0
      ∧ (numOfNonXor prCircuit + 1) * 48 < 2 ^ 31 ∧ 0 < numOfNonXor prCircuit := by
  refine ⟨by decide, ?_, ?_, by decide, by decide, by decide⟩
  · show 0 + _ * 1 < 2 ^ 32
    simp [prA]
  · simp [prA]

end TinyGarble.Props
