import Verif.Props.Rng
import Verif.Props.ExampleProtocol
import Verif.Proof.Transfer
import Mathlib.SetTheory.Cardinal.Finite
import Mathlib.Logic.Equiv.Basic

/-!
# What the evaluator can compute from the garbler's first message (C26)
-/

namespace TinyGarble.Props
open TinyGarble Proof Spec

theorem firstSent_sendBytes (l : List Byte) (k : Unit → Proc α) :
    firstSent l.length ((Proc.sendBytes l).bind k) = some l := by
  induction l with
  | nil => rfl
  | cons b l ih => simp only [Proc.sendBytes, Proc.bind, List.length_cons, firstSent, ih, Option.map_some]

theorem sendData_block (b : Block) : sendData (blockBytes b) 16 = Proc.sendBytes (blockBytes b) := by
  unfold sendData
  have h : toInt32 16 = 16 := by decide
  rw [h, if_neg (by decide)]
  exact congrArg Proc.sendBytes (List.take_of_length_le (by rw [blockBytes_length]; decide))

theorem sendLabels_eq (lab : Nat → BlockPair) (base n off size : Nat) :
    sendLabels lab base n off size
      = Proc.sendBytes (((List.range size).map fun i => pick (lab (base + i)) n (off + i)).flatMap blockBytes) := by
  unfold sendLabels
  rw [forP_sendBytes size fun i _ => sendData_block _, List.flatMap_map]

theorem blocks_length (bs : List Block) : (bs.flatMap blockBytes).length = 16 * bs.length := by
  induction bs with
  | nil => rfl
  | cons b bs ih => rw [List.flatMap_cons, List.length_append, ih, blockBytes_length, List.length_cons]; omega

theorem blockAt_blocks (bs : List Block) (i : Nat) (h : i < bs.length) : blockAt (bs.flatMap blockBytes) i = bs[i] := by
  induction bs generalizing i with
  | nil => cases h
  | cons b bs ih =>
    cases i with
    | zero =>
      show bytesBlock (List.take 16 ((b :: bs).flatMap blockBytes)) = b
      rw [List.flatMap_cons, List.take_append, blockBytes_length, Nat.sub_self, List.take_zero, List.append_nil,
        List.take_of_length_le (by rw [blockBytes_length]), bytesBlock_blockBytes]
    | succ i =>
      rw [List.getElem_cons_succ, ← ih i (by simpa using h)]
      unfold blockAt
      rw [List.flatMap_cons, List.drop_append, List.drop_of_length_le (by rw [blockBytes_length]; omega), List.nil_append,
        blockBytes_length, show 16 * (i + 1) - 16 = 16 * i by omega]

theorem rnd_after (s : Block) (i : Nat) : randomBlocks s (2 + i) = randomBlocks (randomBlocks s 1) i := by
  induction i with
  | zero => rfl
  | succ i ih => show randomBlock (randomBlocks s (2 + i)) = _; rw [ih]; rfl

theorem guessOffset_eq (s : Block) {msg : List Byte} (h : blockAt msg 0 = randomBlocks s 1) :
    guessOffset msg = offsetOf (randomBlocks s) := by
  unfold guessOffset offsetOf
  rw [h]
  show stepBack (randomBlock (randomBlocks s 0)) ||| _ = _
  rw [stepBack_step]

/-- The two labels of a pair differ, and the one for 0 is the value drawn. -/
theorem pick_guess (rnd : Nat → Block) (j n i : Nat) :
    (pick (mkPair (offsetOf rnd) (rnd j)) n i != rnd j) = n.testBit i := by
  rw [pick_eq]
  have hR : offsetOf rnd ≠ 0#128 := by
    intro h
    have : (offsetOf rnd).getLsbD 0 = true := by unfold offsetOf; simp
    rw [h] at this
    simp at this
  cases hb : n.testBit i
  · simp [chosen, mkPair]
  · simp only [chosen, mkPair, if_true]
    rw [bne_iff_ne]
    intro h
    apply hR
    unfold xorBlock at h
    have := congrArg (· ^^^ rnd j) h
    simpa [BitVec.xor_assoc] using this

theorem range_mul (g n : Nat) (f : Nat → Block) :
    (List.range (n * g)).map f = (List.range n).flatMap fun t => (List.range g).map fun k => f (t * g + k) := by
  induction n with
  | zero => simp
  | succ n ih =>
    rw [Nat.succ_mul, List.range_add, List.map_append, ih, List.range_succ, List.flatMap_append, List.flatMap_singleton,
      List.map_map]
    rfl

/-- The first blocks sent in high-memory mode. -/
def openingHigh (c : Circuit) (A : Args) (rnd : Nat → Block) : List Block :=
  keyOf rnd :: ((List.range c.gInit).map (fun k => pick (initLabelsHigh rnd k) A.init k)
    ++ (List.range (A.cycles * c.gInput)).map fun j =>
      pick (inputLabelsHigh c rnd (j / c.gInput * c.secretInputSize + j % c.gInput)) A.input j)

theorem garbleHigh_opening (cr : Crypto) (c : Circuit) (A : Args) (G : GEnv) :
    ∃ k : Unit → Proc (Nat × Nat), garbleHigh cr c A G
      = (Proc.sendBytes ((openingHigh c A G.rnd).tail.flatMap blockBytes)).bind k := by
  unfold garbleHigh garbleTransferHigh
  have e2 : Proc.forP (fun cid _ => sendLabels (inputLabelsHigh c G.rnd) (cid * c.secretInputSize) A.input
        (cid * c.gInput) c.gInput) A.cycles ()
      = Proc.sendBytes (((List.range (A.cycles * c.gInput)).map fun j =>
          pick (inputLabelsHigh c G.rnd (j / c.gInput * c.secretInputSize + j % c.gInput)) A.input j).flatMap blockBytes) := by
    rw [forP_sendBytes (f := fun cid _ => sendLabels (inputLabelsHigh c G.rnd) (cid * c.secretInputSize) A.input
        (cid * c.gInput) c.gInput) A.cycles fun i _ => sendLabels_eq _ _ _ _ _, range_mul, List.flatMap_assoc]
    congr 2
    funext t
    congr 1
    apply List.map_congr_left
    intro k hk
    have hk : k < c.gInput := by simpa using hk
    have a : (t * c.gInput + k) / c.gInput = t := by
      rw [Nat.mul_comm, Nat.mul_add_div (by omega), Nat.div_eq_of_lt hk]; rfl
    have b : (t * c.gInput + k) % c.gInput = k := by
      rw [Nat.mul_comm, Nat.mul_add_mod, Nat.mod_eq_of_lt hk]
    rw [a, b]
  rw [e2, sendLabels_eq]
  simp only [Nat.zero_add]
  unfold openingHigh
  rw [List.tail_cons, List.flatMap_append, sendBytes_append]
  simp only [Proof.bind_assoc]
  exact ⟨_, rfl⟩

theorem garbleBN_opening (cr : Crypto) (c : Circuit) (A : Args) (G : GEnv) (h0 : A.cycles ≠ 0)
    (ht : ¬ (A.period ≠ 0 ∧ c.terminateId = 0)) (hm : A.useLow = false) :
    firstSent (16 * (1 + c.gInit + A.cycles * c.gInput)) (garbleBN cr c A G)
      = some ((openingHigh c A G.rnd).flatMap blockBytes) := by
  obtain ⟨k, hk⟩ := garbleHigh_opening cr c A G
  have hlen : (openingHigh c A G.rnd).length = 1 + c.gInit + A.cycles * c.gInput := by
    simp only [openingHigh, List.length_cons, List.length_append, List.length_map, List.length_range]; omega
  have e : garbleBN cr c A G = (Proc.sendBytes ((openingHigh c A G.rnd).flatMap blockBytes)).bind k := by
    unfold garbleBN
    rw [if_neg h0, if_neg ht, sendData_block]
    simp only [hm, hk]
    rw [show openingHigh c A G.rnd = keyOf G.rnd :: (openingHigh c A G.rnd).tail from rfl, List.flatMap_cons,
      sendBytes_append, Proof.bind_assoc]
    rfl
  rw [e, ← hlen, ← blocks_length]
  exact firstSent_sendBytes _ _

/-- C26 fails, offset: with the generator the program uses, from any state of it, the 16 bytes the garbler
sends first are its state after the offset was drawn; stepping back gives the offset. Holds for every
circuit, cipher, input and mode. -/
theorem C26_evaluator_learns_offset (cr : Crypto) (c : Circuit) (A : Args) (G : GEnv) (s : Block)
    (hr : G.rnd = randomBlocks s) (h0 : A.cycles ≠ 0) (ht : ¬ (A.period ≠ 0 ∧ c.terminateId = 0)) :
    ∃ msg, firstSent 16 (garbleBN cr c A G) = some msg ∧ guessOffset msg = offsetOf G.rnd := by
  unfold garbleBN
  rw [if_neg h0, if_neg ht, sendData_block]
  refine ⟨_, firstSent_sendBytes (blockBytes (keyOf G.rnd)) _, ?_⟩
  rw [hr]
  apply guessOffset_eq
  exact blockAt_blocks [keyOf (randomBlocks s)] 0 (by simp)

/-- C26 fails, inputs: in high-memory mode (the default, and always used for one cycle) the garbler's opening
message, sent before it reads anything, consists of the key and the labels of its private initial values
and inputs; from it alone all these private bits are computed. -/
theorem C26_evaluator_learns_inputs (cr : Crypto) (c : Circuit) (A : Args) (G : GEnv) (s : Block)
    (hr : G.rnd = randomBlocks s) (h0 : A.cycles ≠ 0) (ht : ¬ (A.period ≠ 0 ∧ c.terminateId = 0))
    (hm : A.useLow = false) :
    ∃ msg, firstSent (16 * (1 + c.gInit + A.cycles * c.gInput)) (garbleBN cr c A G) = some msg
      ∧ (∀ k < c.gInit, guessInit 0 msg k = A.init.testBit k)
      ∧ ∀ t < A.cycles, ∀ k < c.gInput, guessInput c msg t k = A.input.testBit (t * c.gInput + k) := by
  have hlen : (openingHigh c A G.rnd).length = 1 + c.gInit + A.cycles * c.gInput := by
    simp only [openingHigh, List.length_cons, List.length_append, List.length_map, List.length_range]; omega
  refine ⟨(openingHigh c A G.rnd).flatMap blockBytes, garbleBN_opening cr c A G h0 ht hm, ?_, ?_⟩
  · intro j hj
    have hkey : blockAt ((openingHigh c A G.rnd).flatMap blockBytes) 0 = keyOf G.rnd :=
      blockAt_blocks _ 0 (by omega)
    unfold guessInit guessLabel
    rw [hkey, blockAt_blocks _ _ (by omega)]
    have e1 : (openingHigh c A G.rnd)[1 + j]'(by omega) = pick (initLabelsHigh G.rnd j) A.init j := by
      simp only [openingHigh, Nat.add_comm 1 j, List.getElem_cons_succ]
      rw [List.getElem_append_left (by simpa using hj)]
      simp
    rw [e1]
    have := pick_guess G.rnd (2 + j) A.init j
    rw [hr] at this ⊢
    rw [Nat.zero_add]
    unfold initLabelsHigh keyOf
    rw [← rnd_after]
    exact this
  · intro t ht' j hj
    have hkey : blockAt ((openingHigh c A G.rnd).flatMap blockBytes) 0 = keyOf G.rnd :=
      blockAt_blocks _ 0 (by omega)
    have hlt : t * c.gInput + j < A.cycles * c.gInput := by
      calc t * c.gInput + j < t * c.gInput + c.gInput := by omega
        _ = (t + 1) * c.gInput := by rw [Nat.succ_mul]
        _ ≤ A.cycles * c.gInput := Nat.mul_le_mul_right _ ht'
    have a : (t * c.gInput + j) / c.gInput = t := by
      rw [Nat.mul_comm, Nat.mul_add_div (by omega), Nat.div_eq_of_lt hj]; rfl
    have b : (t * c.gInput + j) % c.gInput = j := by
      rw [Nat.mul_comm, Nat.mul_add_mod, Nat.mod_eq_of_lt hj]
    unfold guessInput guessLabel
    rw [hkey, blockAt_blocks _ _ (by omega)]
    have e1 : (openingHigh c A G.rnd)[1 + c.gInit + t * c.gInput + j]'(by omega)
        = pick (inputLabelsHigh c G.rnd (t * c.secretInputSize + j)) A.input (t * c.gInput + j) := by
      simp only [openingHigh, show 1 + c.gInit + t * c.gInput + j = c.gInit + (t * c.gInput + j) + 1 by omega,
        List.getElem_cons_succ]
      rw [List.getElem_append_right (by simp)]
      simp [a, b]
    rw [e1]
    have := pick_guess G.rnd (2 + c.initSize + (t * c.secretInputSize + j)) A.input (t * c.gInput + j)
    rw [hr] at this ⊢
    unfold inputLabelsHigh keyOf
    rw [← rnd_after, show 2 + (c.initSize + t * c.secretInputSize + j) = 2 + c.initSize + (t * c.secretInputSize + j) by omega]
    exact this

/-- C26 fails, low-memory mode: the garbler's opening message still gives its private initial values. -/
theorem C26_evaluator_learns_init_low (cr : Crypto) (c : Circuit) (A : Args) (G : GEnv) (s : Block)
    (hr : G.rnd = randomBlocks s) (h0 : A.cycles ≠ 0) (ht : ¬ (A.period ≠ 0 ∧ c.terminateId = 0))
    (hm : A.useLow = true) :
    ∃ msg, firstSent (16 * (1 + c.gInit)) (garbleBN cr c A G) = some msg
      ∧ ∀ k < c.gInit, guessInit (wastedLow c) msg k = A.init.testBit k := by
  have e : ∃ q : Unit → Proc (Nat × Nat), garbleBN cr c A G = (Proc.sendBytes ((keyOf G.rnd ::
      (List.range c.gInit).map fun k => pick (initLabelsLow c G.rnd k) A.init k).flatMap blockBytes)).bind q := by
    unfold garbleBN
    rw [if_neg h0, if_neg ht, sendData_block]
    simp only [hm, if_true]
    unfold garbleLow garbleTransferLow
    rw [List.flatMap_cons, sendBytes_append, sendLabels_eq]
    simp only [Proof.bind_assoc, Nat.zero_add, Nat.zero_mul]
    exact ⟨_, rfl⟩
  obtain ⟨q, e⟩ := e
  have hlen : (keyOf G.rnd :: (List.range c.gInit).map fun k => pick (initLabelsLow c G.rnd k) A.init k).length
      = 1 + c.gInit := by simp only [List.length_cons, List.length_map, List.length_range]; omega
  refine ⟨(keyOf G.rnd :: (List.range c.gInit).map fun k => pick (initLabelsLow c G.rnd k) A.init k).flatMap blockBytes,
    ?_, ?_⟩
  · rw [e, ← hlen, ← blocks_length]
    exact firstSent_sendBytes _ _
  · intro j hj
    have hkey : blockAt ((keyOf G.rnd :: (List.range c.gInit).map fun k => pick (initLabelsLow c G.rnd k)
        A.init k).flatMap blockBytes) 0 = keyOf G.rnd := blockAt_blocks _ 0 (by omega)
    unfold guessInit guessLabel
    rw [hkey, blockAt_blocks _ _ (by omega)]
    have e1 : (keyOf G.rnd :: (List.range c.gInit).map fun k => pick (initLabelsLow c G.rnd k) A.init k)[1 + j]'(by omega)
        = pick (initLabelsLow c G.rnd j) A.init j := by
      simp only [Nat.add_comm 1 j, List.getElem_cons_succ]
      simp
    rw [e1]
    have := pick_guess G.rnd (2 + wastedLow c + j) A.init j
    rw [hr] at this ⊢
    unfold initLabelsLow keyOf
    rw [← rnd_after, show 2 + (wastedLow c + j) = 2 + wastedLow c + j by omega]
    exact this

/-- Draws given by a finite list of independent values. -/
def drawn {N : Nat} (d : Fin N → Block) (i : Nat) : Block := if h : i < N then d ⟨i, h⟩ else 0#128

/-- Is draw `j` the label of a bit in which the two garblers differ? -/
def flips (c : Circuit) (A A' : Args) (j : Nat) : Bool :=
  if j < 2 then false
  else if j - 2 < c.initSize then decide (j - 2 < c.gInit) && (A.init.testBit (j - 2) != A'.init.testBit (j - 2))
  else
    let t := (j - 2 - c.initSize) / c.secretInputSize
    let k := (j - 2 - c.initSize) % c.secretInputSize
    decide (k < c.gInput) && (A.input.testBit (t * c.gInput + k) != A'.input.testBit (t * c.gInput + k))

/-- Swapping the labels of the differing bits. -/
def swapDraws (c : Circuit) (A A' : Args) {N : Nat} (d : Fin N → Block) : Fin N → Block := fun j =>
  if flips c A A' j then d j ^^^ offsetOf (drawn d) else d j

theorem swapDraws_offset (c : Circuit) (A A' : Args) {N : Nat} (d : Fin N → Block) :
    offsetOf (drawn (swapDraws c A A' d)) = offsetOf (drawn d) := by
  unfold offsetOf drawn swapDraws
  by_cases h : 0 < N
  · simp [h, flips]
  · simp [h]

theorem flips_symm (c : Circuit) (A A' : Args) (j : Nat) : flips c A A' j = flips c A' A j := by
  unfold flips
  simp only [bne_comm]

theorem swapDraws_swapDraws (c : Circuit) (A A' : Args) {N : Nat} (d : Fin N → Block) :
    swapDraws c A' A (swapDraws c A A' d) = d := by
  funext j
  show (if flips c A' A j then swapDraws c A A' d j ^^^ offsetOf (drawn (swapDraws c A A' d)) else swapDraws c A A' d j) = d j
  rw [swapDraws_offset, flips_symm]
  unfold swapDraws
  split
  · rw [BitVec.xor_assoc, BitVec.xor_self, BitVec.xor_zero]
  · rfl

theorem swapDraws_pick (c : Circuit) (A A' : Args) {N : Nat} (d : Fin N → Block) (j n n' i : Nat) (hj : j < N)
    (hf : flips c A A' j = (n.testBit i != n'.testBit i)) :
    pick (mkPair (offsetOf (drawn (swapDraws c A A' d))) (drawn (swapDraws c A A' d) j)) n' i
      = pick (mkPair (offsetOf (drawn d)) (drawn d j)) n i := by
  rw [swapDraws_offset, pick_eq, pick_eq]
  have e : drawn (swapDraws c A A' d) j
      = if n.testBit i != n'.testBit i then drawn d j ^^^ offsetOf (drawn d) else drawn d j := by
    rw [← hf]
    conv => lhs; unfold drawn swapDraws
    rw [dif_pos hj]
    simp only [drawn, hj, dif_pos]
  rw [e]
  cases n.testBit i <;> cases n'.testBit i <;> simp [chosen, mkPair, xorBlock]
  rotate_left
  · rw [BitVec.xor_comm]
  rw [BitVec.xor_comm, BitVec.xor_assoc, BitVec.xor_self, BitVec.xor_zero]

theorem swapDraws_opening (c : Circuit) (A A' : Args) (hc : A'.cycles = A.cycles)
    (d : Fin (2 + c.initSize + A.cycles * c.secretInputSize) → Block) :
    openingHigh c A' (drawn (swapDraws c A A' d)) = openingHigh c A (drawn d) := by
  have hI : c.gInit ≤ c.initSize := by unfold Circuit.initSize; omega
  have hS : c.gInput ≤ c.secretInputSize := by unfold Circuit.secretInputSize; omega
  unfold openingHigh
  refine congr (congrArg _ ?_) ?_
  · unfold keyOf drawn swapDraws
    split <;> simp [flips]
  · rw [hc]
    congr 1
    · apply List.map_congr_left
      intro k hk
      have hk : k < c.gInit := by simpa using hk
      apply swapDraws_pick
      · omega
      · unfold flips
        rw [if_neg (by omega), if_pos (by omega), show 2 + k - 2 = k by omega]
        simp [hk]
    · apply List.map_congr_left
      intro j hj
      have hj : j < A.cycles * c.gInput := by simpa using hj
      have hg : 0 < c.gInput := by
        rcases Nat.eq_zero_or_pos c.gInput with h | h
        · rw [h] at hj; omega
        · exact h
      have ht : j / c.gInput < A.cycles := Nat.div_lt_of_lt_mul (by rw [Nat.mul_comm]; exact hj)
      have hk : j % c.gInput < c.gInput := Nat.mod_lt _ hg
      have hlt : j / c.gInput * c.secretInputSize + j % c.gInput < A.cycles * c.secretInputSize := by
        calc _ < j / c.gInput * c.secretInputSize + c.secretInputSize := by omega
          _ = (j / c.gInput + 1) * c.secretInputSize := by rw [Nat.succ_mul]
          _ ≤ _ := Nat.mul_le_mul_right _ ht
      apply swapDraws_pick
      · omega
      · unfold flips
        rw [if_neg (by omega), if_neg (by omega)]
        have e : 2 + c.initSize + (j / c.gInput * c.secretInputSize + j % c.gInput) - 2 - c.initSize
            = j / c.gInput * c.secretInputSize + j % c.gInput := by omega
        have a : (j / c.gInput * c.secretInputSize + j % c.gInput) / c.secretInputSize = j / c.gInput := by
          rw [Nat.mul_comm, Nat.mul_add_div (by omega), Nat.div_eq_of_lt (a := j % c.gInput) (by omega)]; rfl
        have b : (j / c.gInput * c.secretInputSize + j % c.gInput) % c.secretInputSize = j % c.gInput := by
          rw [Nat.mul_comm, Nat.mul_add_mod, Nat.mod_eq_of_lt (by omega)]
        simp only [e, a, b, hk, decide_true, Bool.true_and]
        rw [Nat.mul_comm, Nat.div_add_mod]

/-- C26, partial: the fault lies in the generator. If the values drawn were independent and uniform, then for
any two garblers that differ only in their private numbers every opening message would be equally likely:
the same number of draws lead to it. Missing: the code's draws are steps of one generator, for which the
property is false (above); the later messages (tables) are not covered. -/
theorem C26_opening_hides_partial (cr : Crypto) (c : Circuit) (A A' : Args) (G : GEnv)
    (hA : A' = { A with init := A'.init, input := A'.input }) (h0 : A.cycles ≠ 0)
    (ht : ¬ (A.period ≠ 0 ∧ c.terminateId = 0)) (hm : A.useLow = false) (msg : List Byte) :
    Nat.card {d : Fin (2 + c.initSize + A.cycles * c.secretInputSize) → Block //
        firstSent (16 * (1 + c.gInit + A.cycles * c.gInput)) (garbleBN cr c A { G with rnd := drawn d }) = some msg}
    = Nat.card {d : Fin (2 + c.initSize + A.cycles * c.secretInputSize) → Block //
        firstSent (16 * (1 + c.gInit + A.cycles * c.gInput)) (garbleBN cr c A' { G with rnd := drawn d }) = some msg} := by
  have hc : A'.cycles = A.cycles := by rw [hA]
  have hm' : A'.useLow = false := by rw [hA]; exact hm
  have hp : A'.period = A.period := by rw [hA]
  let e : (Fin (2 + c.initSize + A.cycles * c.secretInputSize) → Block)
      ≃ (Fin (2 + c.initSize + A.cycles * c.secretInputSize) → Block) :=
    { toFun := swapDraws c A A'
      invFun := swapDraws c A' A
      left_inv := swapDraws_swapDraws c A A'
      right_inv := swapDraws_swapDraws c A' A }
  refine Nat.card_congr (e.subtypeEquiv fun d => ?_)
  have h2 := garbleBN_opening cr c A' { G with rnd := drawn (e d) } (hc ▸ h0) (hp ▸ ht) hm'
  rw [hc] at h2
  rw [h2, garbleBN_opening cr c A { G with rnd := drawn d } h0 ht hm]
  have := swapDraws_opening c A A' hc d
  show _ ↔ some ((openingHigh c A' (drawn (swapDraws c A A' d))).flatMap blockBytes) = _
  rw [this]

example : (prA 3 .consecutive false).cycles ≠ 0
    ∧ ¬ ((prA 3 .consecutive false).period ≠ 0 ∧ prCircuit.terminateId = 0) ∧ (prA 3 .consecutive false).useLow = false
    ∧ (prA 3 .consecutive true).useLow = true ∧ prG.rnd = randomBlocks (srandSSE 1111#32) :=
  ⟨by decide, by decide, by decide, by decide, rfl⟩

/-- The example session in high-memory mode: the eavesdropper reads the garbler's input. -/
example : (firstSent (16 * (1 + prCircuit.gInit + 4 * prCircuit.gInput))
    (garbleBN prCrypto prCircuit (prA 3 .consecutive false) prG)).map
      (fun msg => (List.range 4).map fun t => guessInput prCircuit msg t 0)
    = some [true, false, true, false] := by decide +kernel

end TinyGarble.Props
