import Verif.Spec.Semantics
import Verif.Proof.EvalSim

/-! The plaintext evaluator computes the solution of the circuit equations. -/

namespace TinyGarble
open Spec

theorem bases (c : Circuit) : inputBase c = c.pInputLo ∧ ffBase c = c.dffLo ∧ gateBase c = c.gateLo := by
  unfold gateBase ffBase inputBase Circuit.gateLo Circuit.dffLo Circuit.eInputLo Circuit.gInputLo Circuit.pInputLo
    Circuit.gInitHi Circuit.pInitHi
  omega

theorem fetch_operand {c : Circuit} {hi : Nat} {w : Int} (h : Readable c hi w) (hhi : hi ≤ c.wireSize)
    (v : Nat → Bool) : fetch c.wireSize false true false v w = operand v w := by
  unfold operand fetch Readable at *
  simp only [CONST_ZERO, CONST_ONE]
  split
  · rw [if_neg (by omega), if_pos (by omega)]
  · split
    · rfl
    · split
      · rw [if_neg (by omega)]
      · rw [if_pos (by omega)]

theorem plainDffInit_eq (c : Circuit) (x : Inputs) (i : Nat) : plainDffInit c x i = initialBit c x (c.I i) := by
  unfold plainDffInit initialBit
  simp only
  generalize c.I i = w
  have e0 : CONST_ZERO = -2 := rfl
  have e1 : CONST_ONE = -3 := rfl
  have e2 : c.initSize = c.pInit + c.gInit + c.eInit := rfl
  have e3 : c.pInitHi = c.pInit := rfl
  have e4 : c.gInitHi = c.pInit + c.gInit := rfl
  by_cases h1 : w = CONST_ZERO
  · rw [if_pos h1, if_neg (by omega), if_pos (by omega)]
  · rw [if_neg h1]
    by_cases h2 : w = CONST_ONE
    · rw [if_pos h2, if_pos (by omega)]
    · rw [if_neg h2, if_neg (c := w = -3) (by omega)]
      by_cases h3 : w < 0
      · rw [if_neg (by omega), if_pos h3]
      · obtain ⟨n, rfl⟩ : ∃ n : Nat, w = n := ⟨w.toNat, by omega⟩
        rw [if_neg h3]
        simp only [Int.toNat_natCast]
        by_cases h4 : n < c.pInit + c.gInit + c.eInit
        · rw [if_pos (by omega)]
          by_cases h5 : n < c.pInit
          · rw [if_pos (by omega), if_pos h5]
          · rw [if_neg (by omega), if_neg h5]
            by_cases h6 : n < c.pInit + c.gInit
            · rw [if_pos (by omega), if_pos h6]
              congr 1; omega
            · rw [if_neg (by omega), if_neg h6, if_pos h4]
              congr 1; omega
        · rw [if_neg (by omega), if_neg (c := n < c.pInit) (by omega), if_neg (c := n < c.pInit + c.gInit) (by omega), if_neg h4]

theorem plainWires_solves {c : Circuit} (wf : WF c) (x : Inputs) (w0 : Nat → Bool) :
    Solves c x (plainWires c x w0) := by
  obtain ⟨b1, b2, b3⟩ := bases c
  have hws := wireSize_eq c
  have hl := layout c
  have hs : c.inputSize = c.pInput + c.gInput + c.eInput := rfl
  have he : c.eInputLo = c.gInputLo + c.gInput := rfl
  have eqs : ∀ t, ∃ prev, (∀ k, t = k + 1 → prev = plainWires c x w0 k) ∧
      PlainEqs c x t prev (plainWires c x w0 t) := by
    intro t
    cases t with
    | zero => exact ⟨w0, by omega, plainCycle_eqs wf x 0 w0⟩
    | succ k => exact ⟨_, by intro k' h; obtain rfl : k' = k := by omega
                             rfl, plainCycle_eqs wf x (k + 1) _⟩
  constructor
  · intro t k hk
    obtain ⟨_, _, h⟩ := eqs t
    rw [b1, h.input k (by omega)]
    unfold plainInput
    rw [if_pos (by omega)]
    congr 1; omega
  · intro t k hk
    obtain ⟨_, _, h⟩ := eqs t
    rw [b1, Nat.add_assoc, h.input (c.pInput + k) (by omega)]
    unfold plainInput
    rw [if_neg (by omega), if_pos (by omega)]
    congr 1; omega
  · intro t k hk
    obtain ⟨_, _, h⟩ := eqs t
    rw [b1, show c.pInputLo + c.pInput + c.gInput + k = c.pInputLo + (c.pInput + c.gInput + k) by omega,
      h.input _ (by omega)]
    unfold plainInput
    rw [if_neg (by omega), if_neg (by omega)]
    congr 1; omega
  · intro i hi
    obtain ⟨_, _, h⟩ := eqs 0
    rw [b2, h.dff i hi, if_pos rfl, plainDffInit_eq]
  · intro t i hi
    obtain ⟨p, hp, h⟩ := eqs (t + 1)
    rw [b2, h.dff i hi, if_neg (by omega), hp t rfl, fetch_operand (wf.D i hi) (Nat.le_refl _)]
  · intro t i hi
    obtain ⟨_, _, h⟩ := eqs t
    rw [b3, h.gate i hi, fetch_operand (wf.in0 i hi) (by omega), fetch_operand (wf.in1 i hi) (by omega)]

theorem operand_congr {c : Circuit} {hi : Nat} {w : Int} (h : Readable c hi w) {v v' : Nat → Bool}
    (e : ∀ u, c.initSize ≤ u → u < hi → v u = v' u) : operand v w = operand v' w := by
  unfold operand Readable at *
  split
  · rfl
  · split
    · rfl
    · exact e _ (by omega) (by omega)

theorem solves_unique {c : Circuit} (wf : WF c) {x : Inputs} {v v' : Nat → Nat → Bool} (h : Solves c x v)
    (h' : Solves c x v') (t : Nat) : ∀ w, c.initSize ≤ w → w < c.wireSize → v t w = v' t w := by
  obtain ⟨b1, b2, b3⟩ := bases c
  have hws := wireSize_eq c
  have hl := layout c
  have he : c.eInputLo = c.gInputLo + c.gInput := rfl
  have hd : c.dffLo = c.eInputLo + c.eInput := rfl
  have step : ∀ t, (∀ i < c.dffSize, v t (c.dffLo + i) = v' t (c.dffLo + i)) →
      ∀ w, c.initSize ≤ w → w < c.wireSize → v t w = v' t w := by
    intro t hff
    have low : ∀ w, c.initSize ≤ w → w < c.gateLo → v t w = v' t w := by
      intro w h1 h2
      by_cases c1 : w < c.gInputLo
      · obtain ⟨k, rfl⟩ : ∃ k, w = c.pInputLo + k := ⟨w - c.pInputLo, by omega⟩
        rw [← b1, h.pIn t k (by omega), h'.pIn t k (by omega)]
      · by_cases c2 : w < c.eInputLo
        · obtain ⟨k, rfl⟩ : ∃ k, w = c.pInputLo + c.pInput + k := ⟨w - c.gInputLo, by omega⟩
          rw [← b1, h.gIn t k (by omega), h'.gIn t k (by omega)]
        · by_cases c3 : w < c.dffLo
          · obtain ⟨k, rfl⟩ : ∃ k, w = c.pInputLo + c.pInput + c.gInput + k := ⟨w - c.eInputLo, by omega⟩
            rw [← b1, h.eIn t k (by omega), h'.eIn t k (by omega)]
          · obtain ⟨k, rfl⟩ : ∃ k, w = c.dffLo + k := ⟨w - c.dffLo, by omega⟩
            exact hff k (by omega)
    have gates : ∀ n ≤ c.gateSize, ∀ w, c.initSize ≤ w → w < c.gateLo + n → v t w = v' t w := by
      intro n
      induction n with
      | zero => intro _ w h1 h2; exact low w h1 h2
      | succ n ih =>
        intro hn w h1 h2
        by_cases e : w < c.gateLo + n
        · exact ih (by omega) w h1 e
        · obtain rfl : w = c.gateLo + n := by omega
          rw [← b3, h.gate t n (by omega), h'.gate t n (by omega),
            operand_congr (wf.in0 n (by omega)) (ih (by omega)),
            operand_congr (wf.in1 n (by omega)) (ih (by omega))]
    intro w h1 h2
    exact gates c.gateSize (Nat.le_refl _) w h1 (by omega)
  induction t with
  | zero =>
    apply step
    intro i hi
    rw [← b2, h.ffInit i hi, h'.ffInit i hi]
  | succ t ih =>
    apply step
    intro i hi
    rw [← b2, h.ffNext t i hi, h'.ffNext t i hi]
    exact operand_congr (wf.D i hi) ih

/-! ### Output number -/

theorem bnSetBit_testBit (n i j : Nat) (b : Bool) :
    (bnSetBit n i b).testBit j = if j = i then b else n.testBit j := by
  unfold bnSetBit
  cases b
  · simp only [Bool.false_eq_true, if_false]
    split
    · rename_i h
      rw [Nat.testBit_xor, Nat.testBit_two_pow]
      by_cases e : j = i
      · subst e; simp [h]
      · simp [e, Ne.symm e]
    · rename_i h
      split
      · rename_i e; subst e; simpa using h
      · rfl
  · simp only [if_true]
    rw [Nat.testBit_or, Nat.testBit_two_pow]
    by_cases e : j = i
    · simp [e]
    · simp [e, Ne.symm e]

theorem plainOutputs_testBit (c : Circuit) (cid : Nat) (w : Nat → Bool) (out : Nat) (j : Nat) :
    (plainOutputs c cid w out).testBit j =
      if cid * c.outputSize ≤ j ∧ j < (cid + 1) * c.outputSize then w (c.outputs (j - cid * c.outputSize)).toNat
      else out.testBit j := by
  have key : ∀ b n, (forLoop (fun i out => bnSetBit out (b + i) (w (c.outputs i).toNat)) n out).testBit j =
      if b ≤ j ∧ j < b + n then w (c.outputs (j - b)).toNat else out.testBit j := by
    intro b n
    induction n with
    | zero => simp only [forLoop]; rw [if_neg (by omega)]
    | succ n ih =>
      simp only [forLoop]
      rw [bnSetBit_testBit, ih]
      by_cases e : j = b + n
      · rw [if_pos e, if_pos (by omega), e, Nat.add_sub_cancel_left]
      · rw [if_neg e]
        by_cases e' : b ≤ j ∧ j < b + n
        · rw [if_pos e', if_pos (by omega)]
        · rw [if_neg e', if_neg (by omega)]
  rw [Nat.succ_mul]
  exact key _ _

/-- What the main loop returns. -/
theorem plainLoop_spec (c : Circuit) (x : Inputs) (T : Nat) (v : Nat → Nat → Bool) (P : Nat → (Nat → Bool) → Prop)
    (hstep : ∀ cid w, P cid w → (∀ u, (∃ i, i < c.outputSize ∧ u = (c.outputs i).toNat) ∨ (0 < c.terminateId ∧ u = c.terminateId) →
      plainCycle c x cid w u = v cid u) ∧ P (cid + 1) (plainCycle c x cid w)) :
    ∀ n cid w out, P cid w →
      let r := plainLoop c x T n cid w out
      (cid ≤ r.2 ∧ r.2 ≤ cid + n ∧ (r.2 < cid + n → ∃ k, cid ≤ k ∧ r.2 = k + 1 ∧ StopAt c T v k)
        ∧ ∀ k, cid ≤ k → k + 1 < r.2 → ¬ StopAt c T v k) ∧
      ∀ j, r.1.testBit j =
        if cid * c.outputSize ≤ j ∧ j < r.2 * c.outputSize
        then v (j / c.outputSize) (c.outputs (j % c.outputSize)).toNat else out.testBit j := by
  intro n
  induction n with
  | zero =>
    intro cid w out _
    have e : plainLoop c x T 0 cid w out = (out, cid) := by rw [plainLoop]
    rw [e]
    refine ⟨⟨Nat.le_refl _, Nat.le_refl _, fun h => absurd h (Nat.lt_irrefl _), ?_⟩, ?_⟩
    · intro k h1 h2; simp only at h2; omega
    · intro j
      exact (if_neg (by simp only; omega)).symm
  | succ n ih =>
    intro cid w out hP
    obtain ⟨hv, hP'⟩ := hstep cid w hP
    have hout : ∀ j, (plainOutputs c cid (plainCycle c x cid w) out).testBit j =
        if cid * c.outputSize ≤ j ∧ j < (cid + 1) * c.outputSize
        then v (j / c.outputSize) (c.outputs (j % c.outputSize)).toNat else out.testBit j := by
      intro j
      rw [plainOutputs_testBit]
      split
      · rename_i hj
        rw [Nat.succ_mul] at hj
        have hd : j / c.outputSize = cid := by
          apply Nat.div_eq_of_lt_le
          · rw [Nat.mul_comm]; rw [Nat.mul_comm] at hj; omega
          · rw [Nat.succ_mul]; omega
        have hm : j % c.outputSize = j - cid * c.outputSize := by
          have := Nat.div_add_mod j c.outputSize
          rw [hd, Nat.mul_comm] at this; omega
        rw [hd, hm]
        exact hv _ (Or.inl ⟨_, by omega, rfl⟩)
      · rfl
    have hst : (T ≠ 0 ∧ 0 < c.terminateId ∧ cid % T = 0 ∧ plainCycle c x cid w c.terminateId = true) ↔ StopAt c T v cid := by
      unfold StopAt
      by_cases ht : 0 < c.terminateId
      · rw [hv _ (Or.inr ⟨ht, rfl⟩)]
      · simp [ht]
    unfold plainLoop
    simp only
    by_cases hs : StopAt c T v cid
    · rw [if_pos (hst.mpr hs)]
      refine ⟨⟨by omega, by simp only; omega, fun _ => ⟨cid, Nat.le_refl _, rfl, hs⟩, ?_⟩, hout⟩
      intro k h1 h2; simp only at h2; omega
    · rw [if_neg (fun h => hs (hst.mp h))]
      obtain ⟨⟨i1, i2, i3, i4⟩, i5⟩ := ih (cid + 1) _ (plainOutputs c cid (plainCycle c x cid w) out) hP'
      refine ⟨⟨by omega, by omega, ?_, ?_⟩, ?_⟩
      · intro hlt
        obtain ⟨k, k1, k2⟩ := i3 (by omega)
        exact ⟨k, by omega, k2⟩
      · intro k h1 h2
        by_cases e : k = cid
        · rw [e]; exact hs
        · exact i4 k (by omega) h2
      · intro j
        rw [i5 j, hout j]
        have hmono : (cid + 1) * c.outputSize ≤ (plainLoop c x T n (cid + 1) (plainCycle c x cid w)
          (plainOutputs c cid (plainCycle c x cid w) out)).2 * c.outputSize := Nat.mul_le_mul_right _ i1
        have hm1 : cid * c.outputSize ≤ (cid + 1) * c.outputSize := Nat.mul_le_mul_right _ (by omega)
        generalize (plainLoop c x T n (cid + 1) (plainCycle c x cid w)
          (plainOutputs c cid (plainCycle c x cid w) out)).2 * c.outputSize = M at *
        by_cases c1 : (cid + 1) * c.outputSize ≤ j ∧ j < M
        · rw [if_pos c1, if_pos (by omega)]
        · rw [if_neg c1]
          by_cases c2 : cid * c.outputSize ≤ j ∧ j < (cid + 1) * c.outputSize
          · rw [if_pos c2, if_pos (by omega)]
          · rw [if_neg c2, if_neg (by omega)]

end TinyGarble
