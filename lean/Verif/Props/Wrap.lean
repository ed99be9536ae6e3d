import Verif.Model.Wrap
import Verif.Props.ExampleProtocol
import Verif.Props.Run
import Verif.Proof.BN

/-!
# Positions of bits beyond `2 ^ 31`, more than `2 ^ 32` cycles (C96)
-/

namespace TinyGarble.Props
open TinyGarble Spec

/-- The bit that the code takes for bit `k` of `n`: positions count modulo `2 ^ 32`, and the upper half of them has no bits. -/
def takenBit (n k : Nat) : Bool := decide (k % 2 ^ 32 < 2 ^ 31) && n.testBit (k % 2 ^ 32)

theorem toInt32_eq (k : Nat) : toInt32 k = if k % 2 ^ 32 < 2 ^ 31 then ((k % 2 ^ 32 : Nat) : Int) else ((k % 2 ^ 32 : Nat) : Int) - 2 ^ 32 := by
  rw [toInt32, BitVec.toInt_eq_toNat_cond, BitVec.toNat_ofNat]
  have := Nat.mod_lt k (show 0 < 2 ^ 32 by decide)
  split <;> split <;> omega

theorem bnIsBitSet_taken (n k : Nat) : bnIsBitSet n (toInt32 k) = takenBit n k := by
  rw [bnIsBitSet, toInt32_eq, takenBit]
  have := Nat.mod_lt k (show 0 < 2 ^ 32 by decide)
  by_cases h : k % 2 ^ 32 < 2 ^ 31
  · rw [if_pos h, if_neg (by omega), decide_eq_true h, Bool.true_and]
    rfl
  · rw [if_neg h, if_pos (by omega), decide_eq_false h, Bool.false_and]

theorem taken_small {n k : Nat} (h : k < 2 ^ 31) : takenBit n k = n.testBit k := by
  rw [takenBit, Nat.mod_eq_of_lt (by omega), decide_eq_true h, Bool.true_and]

theorem bnSetBitInt_small {n k : Nat} (h : k < 2 ^ 31) (b : Bool) : bnSetBitInt n (toInt32 k) b = bnSetBit n k b := by
  rw [bnSetBitInt, toInt32_eq, Nat.mod_eq_of_lt (by omega), if_pos h, if_neg (by omega)]
  rfl

/-- `x'` has, at the positions that are used in `n` cycles, the bits that the code takes from `x`. -/
structure Taken (c : Circuit) (n : Nat) (x x' : Inputs) : Prop where
  pInit : ∀ k < c.pInit, x'.pInit.testBit k = takenBit x.pInit k
  gInit : ∀ k < c.gInit, x'.gInit.testBit k = takenBit x.gInit k
  eInit : ∀ k < c.eInit, x'.eInit.testBit k = takenBit x.eInit k
  pInput : ∀ k < n * c.pInput, x'.pInput.testBit k = takenBit x.pInput k
  gInput : ∀ k < n * c.gInput, x'.gInput.testBit k = takenBit x.gInput k
  eInput : ∀ k < n * c.eInput, x'.eInput.testBit k = takenBit x.eInput k

theorem dffInit_taken {c : Circuit} {n : Nat} {x x' : Inputs} (h : Taken c n x x') (i : Nat) : plainDffInit32 c x i = plainDffInit c x' i := by
  have e1 : c.initSize = c.pInit + c.gInit + c.eInit := rfl
  have e2 : c.pInitHi = c.pInit := rfl
  have e3 : c.gInitHi = c.pInit + c.gInit := rfl
  unfold plainDffInit32 plainDffInit
  dsimp only
  split
  · rfl
  · split
    · rfl
    · split
      · split
        · rw [bnIsBitSet_taken, h.pInit _ (by omega)]
        · split
          · rw [bnIsBitSet_taken, h.gInit _ (by omega)]
          · rw [bnIsBitSet_taken, h.eInit _ (by omega)]
      · rfl

theorem pos_lt {n s t k : Nat} (ht : t < n) (hk : k < s) : t * s + k < n * s := by
  calc t * s + k < t * s + s := by omega
    _ = (t + 1) * s := by rw [Nat.add_mul, Nat.one_mul]
    _ ≤ n * s := Nat.mul_le_mul_right _ ht

theorem input_taken {c : Circuit} {n : Nat} {x x' : Inputs} (h : Taken c n x x') {t i : Nat} (ht : t < n) (hi : i < c.inputSize) :
    plainInput32 c x t i = plainInput c x' t i := by
  have e0 : c.inputSize = c.pInput + c.gInput + c.eInput := rfl
  have e1 : c.gInputLo = c.pInputLo + c.pInput := rfl
  have e2 : c.eInputLo = c.pInputLo + c.pInput + c.gInput := rfl
  unfold plainInput32 plainInput
  dsimp only
  split
  · rw [bnIsBitSet_taken, h.pInput]
    have := pos_lt (s := c.pInput) (k := i) ht (by omega)
    omega
  · split
    · rw [bnIsBitSet_taken, h.gInput]
      have := pos_lt (s := c.gInput) (k := i - c.pInput) ht (by omega)
      omega
    · rw [bnIsBitSet_taken, h.eInput]
      have := pos_lt (s := c.eInput) (k := i - c.pInput - c.gInput) ht (by omega)
      omega

theorem setRange_taken {α : Type} (a : Nat → α) (lo n : Nat) {f g : Nat → α} (h : ∀ i < n, f i = g i) : setRange a lo n f = setRange a lo n g := by
  funext w
  unfold setRange
  split
  · exact h _ (by omega)
  · rfl

theorem cycle_taken {c : Circuit} {n : Nat} {x x' : Inputs} (h : Taken c n x x') {t : Nat} (ht : t < n) (w : Nat → Bool) :
    plainCycle32 c x t w = plainCycle c x' t w := by
  unfold plainCycle32 plainCycle plainDff
  dsimp only
  rw [setRange_taken w c.dffLo c.dffSize (fun i _ => by rw [dffInit_taken h i]), setRange_taken _ c.pInputLo c.inputSize (fun i hi => input_taken h ht hi)]

theorem loop_taken {c : Circuit} {n : Nat} {x x' : Inputs} (h : Taken c n x x') (ho : n * c.outputSize ≤ 2 ^ 31) (T : Nat) :
    ∀ m t w out, t + m = n → plainLoop32 c x T m t w out = plainLoop c x' T m t w out
  | 0, _, _, _, _ => rfl
  | m + 1, t, w, out, hm => by
    unfold plainLoop32 plainLoop
    dsimp only
    have e : plainOutputs32 c t (plainCycle c x' t w) out = plainOutputs c t (plainCycle c x' t w) out := by
      unfold plainOutputs32 plainOutputs
      refine Proof.forLoop_congr (fun i hi s => ?_) _
      have := pos_lt (n := n) (s := c.outputSize) (t := t) (k := i) (by omega) hi
      rw [bnSetBitInt_small (by omega)]
    rw [cycle_taken h (by omega), e, loop_taken h ho T m (t + 1) _ _ (by omega)]

/-- C96: the plaintext evaluator, with the conversions to `int`, computes the circuit on the inputs whose bit `k` is bit `k` modulo `2 ^ 32` of the given
input, or 0 if that is at least `2 ^ 31`, if there are at most `2 ^ 31` bits of output. -/
theorem C96_plain {c : Circuit} {n : Nat} {x x' : Inputs} (h : Taken c n x x') (ho : n * c.outputSize ≤ 2 ^ 31) (w0 : Nat → Bool) (T : Nat) :
    evaluatePlaintext32 c x w0 n T = evaluatePlaintext c x' w0 n T :=
  loop_taken h ho T n 0 w0 0 (by omega)

/-- C96: with at most `2 ^ 31` bits of each input and of output this is the plaintext evaluator with positions that are natural numbers, so that what is proved
about that one (C33, and C01 with the protocol) holds for the code. Missing: more bits, for which it is false (`C96_false_output`, `C96_false_garbler`). -/
theorem C96_plain_partial {c : Circuit} {n : Nat} (hi : c.pInit ≤ 2 ^ 31 ∧ c.gInit ≤ 2 ^ 31 ∧ c.eInit ≤ 2 ^ 31)
    (hn : n * c.pInput ≤ 2 ^ 31 ∧ n * c.gInput ≤ 2 ^ 31 ∧ n * c.eInput ≤ 2 ^ 31) (ho : n * c.outputSize ≤ 2 ^ 31) (x : Inputs) (w0 : Nat → Bool) (T : Nat) :
    evaluatePlaintext32 c x w0 n T = evaluatePlaintext c x w0 n T := by
  refine C96_plain ⟨?_, ?_, ?_, ?_, ?_, ?_⟩ ho w0 T <;> exact fun k hk => (taken_small (by omega)).symm

/-- The number whose bits are those that the code takes from `n`, up to position `K`. -/
def takenNumber (n K : Nat) : Nat := forLoop (fun k m => bnSetBit m k (takenBit n k)) K 0

theorem takenNumber_testBit (n K k : Nat) (h : k < K) : (takenNumber n K).testBit k = takenBit n k := by
  unfold takenNumber
  induction K with
  | zero => omega
  | succ K ih =>
    rw [forLoop, bnSetBit_testBit]
    by_cases hk : k = K
    · rw [if_pos hk, hk]
    · rw [if_neg hk]
      exact ih (by omega)

/-- The inputs of `C96_plain` exist for every circuit, number of cycles and inputs. -/
theorem C96_taken_exists (c : Circuit) (n : Nat) (x : Inputs) : ∃ x', Taken c n x x' :=
  ⟨⟨takenNumber x.pInit c.pInit, takenNumber x.gInit c.gInit, takenNumber x.eInit c.eInit, takenNumber x.pInput (n * c.pInput),
    takenNumber x.gInput (n * c.gInput), takenNumber x.eInput (n * c.eInput)⟩, takenNumber_testBit _ _, takenNumber_testBit _ _, takenNumber_testBit _ _,
    takenNumber_testBit _ _, takenNumber_testBit _ _, takenNumber_testBit _ _⟩

theorem bnSetBitInt_high (n k : Nat) (b : Bool) {j : Nat} (hj : 2 ^ 31 ≤ j) (h : n.testBit j = false) : (bnSetBitInt n (toInt32 k) b).testBit j = false := by
  have hm := Nat.mod_lt k (show 0 < 2 ^ 32 by decide)
  rw [bnSetBitInt, toInt32_eq]
  by_cases hk : k % 2 ^ 32 < 2 ^ 31
  · rw [if_pos hk, if_neg (by omega), Int.toNat_natCast, bnSetBit_testBit, if_neg (by omega), h]
  · rw [if_neg hk, if_pos (by omega), h]

theorem outputs_high (c : Circuit) (t : Nat) (w : Nat → Bool) (out : Nat) {j : Nat} (hj : 2 ^ 31 ≤ j) (h : out.testBit j = false) :
    (plainOutputs32 c t w out).testBit j = false := by
  unfold plainOutputs32
  generalize c.outputSize = s
  suffices hs : ∀ m, (forLoop (fun i out => bnSetBitInt out (toInt32 (t * s + i)) (w (c.outputs i).toNat)) m out).testBit j = false from hs s
  intro m
  induction m with
  | zero => exact h
  | succ m ih => exact bnSetBitInt_high _ _ _ hj ih

theorem loop_high (c : Circuit) (x : Inputs) (T : Nat) {j : Nat} (hj : 2 ^ 31 ≤ j) :
    ∀ m t w out, out.testBit j = false → (plainLoop32 c x T m t w out).1.testBit j = false
  | 0, _, _, _, h => h
  | m + 1, t, w, out, h => by
    unfold plainLoop32
    dsimp only
    split
    · exact outputs_high c t _ out hj h
    · exact loop_high c x T hj m (t + 1) _ _ (outputs_high c t _ out hj h)

/-- The claim without a bound is false: no bit of the output from `2 ^ 31` on is ever set, whatever the circuit, the inputs and the number of cycles. -/
theorem C96_false_output (c : Circuit) (x : Inputs) (w0 : Nat → Bool) (n T j : Nat) (hj : 2 ^ 31 ≤ j) :
    (evaluatePlaintext32 c x w0 n T).1.testBit j = false :=
  loop_high c x T hj n 0 w0 0 (Nat.zero_testBit j)

/-- So the result is wrong whenever an output from position `2 ^ 31` on is 1. -/
theorem C96_false_result {c : Circuit} (wf : WF c) (x : Inputs) (w0 : Nat → Bool) (n T : Nat) {v : Nat → Nat → Bool} (hv : Solves c x v)
    {t i : Nat} (ht : t < (evaluatePlaintext c x w0 n T).2) (hi : i < c.outputSize) (hp : 2 ^ 31 ≤ t * c.outputSize + i)
    (h1 : v t (c.outputs i).toNat = true) : evaluatePlaintext32 c x w0 n T ≠ evaluatePlaintext c x w0 n T := by
  intro h
  have h2 := (C33_plain_outputs wf x w0 n T hv).2.1 t ht i hi
  rw [← h, C96_false_output c x w0 n T _ hp, h1] at h2
  cases h2

/-- C96, protocol: at positions below `2 ^ 31` the garbler sends the label that `Model/Protocol` has it send, the evaluator selects in the same way, and both use
the same public inputs. -/
theorem C96_protocol_partial (c : Circuit) (l : BlockPair) (n : Nat) :
    (∀ k < 2 ^ 31, pick32 l n k = pick l n k ∧ select32 n k = n.testBit k) ∧
    ∀ t i, t * c.pInput + i < 2 ^ 31 → publicInput32 c n t i = n.testBit (t * c.pInput + i) := by
  refine ⟨fun k hk => ⟨?_, ?_⟩, fun t i h => ?_⟩
  · rw [pick32, pick, bnIsBitSet_taken, taken_small hk]
  · rw [select32, bnIsBitSet_taken, taken_small hk]
  · rw [publicInput32, bnIsBitSet_taken, taken_small h]

/-- The garbler and the plaintext evaluator disagree: for an input of at most `2 ^ 31` bits whose bit `k` is 1, the garbler sends the label of 0 for the input with
position `q * 2 ^ 32 + k`, `q > 0`, while the plaintext evaluator takes it to be 1, like the evaluator's selection and the public inputs in the protocol. -/
theorem C96_false_garbler (l : BlockPair) (n k q : Nat) (hn : numBits n ≤ 2 ^ 31) (hk : k < 2 ^ 31) (hq : 0 < q) (h : n.testBit k = true) :
    pick32 l n (q * 2 ^ 32 + k) = l.label0 ∧ select32 n (q * 2 ^ 32 + k) = true ∧
    ∀ (c : Circuit) (x : Inputs) (t i : Nat), x.gInput = n → i < c.gInput → t * c.gInput + i = q * 2 ^ 32 + k →
      plainInput32 c x t (c.pInput + i) = true := by
  have ht : takenBit n (q * 2 ^ 32 + k) = true := by
    rw [takenBit, show (q * 2 ^ 32 + k) % 2 ^ 32 = k by omega, h, decide_eq_true hk]
    rfl
  refine ⟨?_, ?_, fun c x t i hx hi hp => ?_⟩
  · rw [pick32, if_pos (Or.inl (by omega))]
  · rw [select32, bnIsBitSet_taken, ht]
  · have e1 : c.gInputLo = c.pInputLo + c.pInput := rfl
    have e2 : c.eInputLo = c.pInputLo + c.pInput + c.gInput := rfl
    unfold plainInput32
    dsimp only
    rw [if_neg (by omega), if_pos (by omega), bnIsBitSet_taken, hx,
      show t * c.gInput + (c.pInput + i) + c.pInputLo - c.gInputLo = t * c.gInput + i by omega, hp, ht]

theorem counter32_toNat (k : Nat) : (counter32 k).toNat = k % 2 ^ 32 := by
  induction k with
  | zero => rfl
  | succ k ih =>
    rw [counter32, BitVec.toNat_add, ih]
    show (k % 2 ^ 32 + 1) % 2 ^ 32 = _
    omega

/-- C96: for less than `2 ^ 32` cycles the loops over the cycles that transfer labels in high-memory mode have one iteration for each cycle, and end. -/
theorem C96_loop_partial (n : Nat) (hn : n < 2 ^ 32) : (∀ k < n, goesOn n k ∧ (counter32 k).toNat = k) ∧ ¬ goesOn n n := by
  unfold goesOn
  refine ⟨fun k hk => ?_, ?_⟩
  · rw [counter32_toNat, Nat.mod_eq_of_lt (by omega)]
    exact ⟨hk, rfl⟩
  · rw [counter32_toNat, Nat.mod_eq_of_lt hn]
    omega

/-- For at least `2 ^ 32` cycles they do not end. -/
theorem C96_false_loop (n : Nat) (hn : 2 ^ 32 ≤ n) (k : Nat) : goesOn n k := by
  unfold goesOn
  have := (counter32 k).isLt
  omega

/-! ## Examples -/

/-- `C96_plain_partial` for the circuit of the examples and a million cycles. -/
example : (prCircuit.pInit ≤ 2 ^ 31 ∧ prCircuit.gInit ≤ 2 ^ 31 ∧ prCircuit.eInit ≤ 2 ^ 31) ∧
    (1000000 * prCircuit.pInput ≤ 2 ^ 31 ∧ 1000000 * prCircuit.gInput ≤ 2 ^ 31 ∧ 1000000 * prCircuit.eInput ≤ 2 ^ 31) ∧
    1000000 * prCircuit.outputSize ≤ 2 ^ 31 := by decide +kernel

/-- `C96_plain` for inputs that repeat after `2 ^ 32` positions. -/
example : ∃ x', Taken prCircuit (2 ^ 33) ⟨0, 0, 0, 0b100, 0b101, 0b111⟩ x' := C96_taken_exists ..

/-- The hypotheses of `C96_false_garbler`: input 1, position `2 ^ 32`. -/
example : numBits 1 ≤ 2 ^ 31 ∧ 0 < 2 ^ 31 ∧ (1 : Nat).testBit 0 = true ∧ 0 < prCircuit.gInput := by decide +kernel

/-- A circuit whose only gate and output is the negation of the constant 0. -/
def oneCircuit : Circuit where
  pInit := 0
  gInit := 0
  eInit := 0
  pInput := 1
  gInput := 0
  eInput := 0
  dffSize := 0
  outputSize := 1
  terminateId := 0
  gateSize := 1
  gate := fun _ => ⟨-2, -2, NOTGATE⟩
  outputs := fun _ => 1
  D := fun _ => 0
  I := fun _ => -2

theorem oneCircuit_wf : WF oneCircuit where
  in0 := fun _ _ => Or.inl (show (-2 : Int) < 0 by decide)
  in1 := fun _ _ => Or.inl (show (-2 : Int) < 0 by decide)
  type := fun _ _ => show NOTGATE ∈ gateTypes by decide
  D := fun i hi => absurd hi (Nat.not_lt_zero i)
  outputs := fun _ _ => show ((0 : Nat) : Int) ≤ 1 ∧ (1 : Int) < ((2 : Nat) : Int) by decide
  term := Or.inl rfl
  size := by decide

/-- The hypotheses of `C96_false_result`, for `2 ^ 31 + 1` cycles. -/
example (x : Inputs) (w0 : Nat → Bool) : ∃ v, Solves oneCircuit x v ∧ 2 ^ 31 < (evaluatePlaintext oneCircuit x w0 (2 ^ 31 + 1) 0).2 ∧
    0 < oneCircuit.outputSize ∧ 2 ^ 31 ≤ 2 ^ 31 * oneCircuit.outputSize + 0 ∧ v (2 ^ 31) (oneCircuit.outputs 0).toNat = true := by
  have hv := plainWires_solves oneCircuit_wf x w0
  refine ⟨_, hv, ?_, by decide, by decide, ?_⟩
  · have h := (C33_plain_outputs oneCircuit_wf x w0 (2 ^ 31 + 1) 0 hv).1
    generalize (evaluatePlaintext oneCircuit x w0 (2 ^ 31 + 1) 0).2 = m at h
    by_contra hm
    obtain ⟨k, _, h2⟩ := h.last (by omega)
    exact h2.1 rfl
  · exact hv.gate (2 ^ 31) 0 (by decide)

end TinyGarble.Props
