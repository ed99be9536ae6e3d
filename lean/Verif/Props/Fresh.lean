import Verif.Props.Attack

/-! # C46: every label has its own draw of the generator -/

namespace TinyGarble.Props
open TinyGarble Proof Spec

/-- The label for bit `b` when the one for 0 is `l` and the generator's first draw is `r`. -/
def labelFor (r l : Block) (b : Bool) : Block := if b then l ^^^ (r ||| 1#128) else l

/-- The pair of labels whose first one is `l`. -/
def pairFor (r l : Block) : BlockPair := ⟨labelFor r l false, labelFor r l true⟩

theorem mkPair_pairFor (rnd : Nat → Block) (l : Block) : mkPair (offsetOf rnd) l = pairFor (rnd 0) l := by
  unfold mkPair pairFor labelFor offsetOf xorBlock
  simp [BitVec.xor_comm]

theorem pick_pairFor (r l : Block) (n i : Nat) : pick (pairFor r l) n i = labelFor r l (n.testBit i) := by
  rw [pick_eq]
  cases n.testBit i <;> rfl

/-- C46, low-memory mode. The first draw (the offset), the key, the labels of all initial values and the labels of all
inputs in all cycles are independent: any choice of them arises from the generator's draws. In particular no label is used
twice. The labels are those the garbler sends: first the key and the labels of its initial values, then in each cycle the
labels of its inputs of that cycle. -/
theorem C46_fresh_low (cr : Crypto) (c : Circuit) (A : Args) (G : GEnv) (r key : Block) (I : Nat → Block)
    (L : Nat → Nat → Block) :
    ∃ rnd : Nat → Block, rnd 0 = r ∧ keyOf rnd = key
      ∧ (∀ k < c.secretInitSize, initLabelsLow c rnd k = pairFor r (I k))
      ∧ (∀ cid, ∀ k < c.secretInputSize, inputLabelsLow c rnd cid k = pairFor r (L cid k))
      ∧ (A.useLow = true → A.cycles ≠ 0 → ¬ (A.period ≠ 0 ∧ c.terminateId = 0) →
        firstSent (16 * (1 + c.gInit)) (garbleBN cr c A { G with rnd := rnd })
          = some ((key :: (List.range c.gInit).map fun k => labelFor r (I k) (A.init.testBit k)).flatMap blockBytes))
      ∧ ∀ n cid st out, firstSent (16 * c.gInput) (garbleLoopLow cr c A { G with rnd := rnd } (n + 1) cid st out)
          = some (((List.range c.gInput).map fun k => labelFor r (L cid k) (A.input.testBit (cid * c.gInput + k))).flatMap
              blockBytes) := by
  let base := 2 + wastedLow c + c.secretInitSize
  let rnd : Nat → Block := fun n => if n = 0 then r else if n = 1 then key else
    if n < base then I (n - (2 + wastedLow c)) else L ((n - base) / c.secretInputSize) ((n - base) % c.secretInputSize)
  have hi : ∀ k < c.secretInitSize, initLabelsLow c rnd k = pairFor r (I k) := by
    intro k hk
    unfold initLabelsLow
    have e : rnd (2 + wastedLow c + k) = I k := by
      simp only [rnd]
      rw [if_neg (by omega), if_neg (by omega), if_pos (by simp only [base]; omega)]
      congr 1; omega
    rw [mkPair_pairFor, e]; rfl
  have hl : ∀ cid, ∀ k < c.secretInputSize, inputLabelsLow c rnd cid k = pairFor r (L cid k) := by
    intro cid k hk
    unfold inputLabelsLow
    have e : rnd (2 + wastedLow c + c.secretInitSize + cid * c.secretInputSize + k) = L cid k := by
      simp only [rnd]
      rw [if_neg (by omega), if_neg (by omega), if_neg (by simp only [base]; omega)]
      have e1 : 2 + wastedLow c + c.secretInitSize + cid * c.secretInputSize + k - base = cid * c.secretInputSize + k := by
        simp only [base]; omega
      rw [e1, Nat.mul_comm, Nat.mul_add_div (by omega), Nat.div_eq_of_lt hk, Nat.mul_add_mod, Nat.mod_eq_of_lt hk]
      rfl
    rw [mkPair_pairFor, e]; rfl
  refine ⟨rnd, rfl, rfl, hi, hl, fun hm h0 ht => ?_, fun n cid st out => ?_⟩
  · have e : ∃ q : Unit → Proc (Nat × Nat), garbleBN cr c A { G with rnd := rnd } = (Proc.sendBytes ((keyOf rnd ::
        (List.range c.gInit).map fun k => pick (initLabelsLow c rnd k) A.init k).flatMap blockBytes)).bind q := by
      unfold garbleBN
      rw [if_neg h0, if_neg ht, sendData_block]
      simp only [hm, if_true]
      unfold garbleLow garbleTransferLow
      rw [List.flatMap_cons, sendBytes_append, sendLabels_eq]
      simp only [Proof.bind_assoc, Nat.zero_add, Nat.zero_mul]
      exact ⟨_, rfl⟩
    obtain ⟨q, e⟩ := e
    have em : (keyOf rnd :: (List.range c.gInit).map fun k => pick (initLabelsLow c rnd k) A.init k)
        = key :: (List.range c.gInit).map fun k => labelFor r (I k) (A.init.testBit k) := by
      refine congrArg (key :: ·) (List.map_congr_left fun k hk => ?_)
      have hk := List.mem_range.mp hk
      rw [hi k (by unfold Circuit.secretInitSize; omega), pick_pairFor]
    rw [em] at e
    rw [e]
    have := firstSent_sendBytes ((key :: (List.range c.gInit).map fun k => labelFor r (I k) (A.init.testBit k)).flatMap
      blockBytes) q
    rw [blocks_length] at this
    rw [← this]
    congr 1
    simp only [List.length_cons, List.length_map, List.length_range]; omega
  · have em : ((List.range c.gInput).map fun k => pick (inputLabelsLow c rnd cid (0 + k)) A.input (cid * c.gInput + k))
        = (List.range c.gInput).map fun k => labelFor r (L cid k) (A.input.testBit (cid * c.gInput + k)) := by
      refine List.map_congr_left fun k hk => ?_
      have hk := List.mem_range.mp hk
      rw [Nat.zero_add, hl cid k (by unfold Circuit.secretInputSize; omega), pick_pairFor]
    have e : ∃ q : Unit → Proc (Nat × Nat), garbleLoopLow cr c A { G with rnd := rnd } (n + 1) cid st out
        = (Proc.sendBytes (((List.range c.gInput).map fun k =>
          pick (inputLabelsLow c rnd cid (0 + k)) A.input (cid * c.gInput + k)).flatMap blockBytes)).bind q := by
      rw [garbleLoopLow]
      unfold garbleTransferLow
      rw [sendLabels_eq]
      simp only [Proof.bind_assoc]
      exact ⟨_, rfl⟩
    obtain ⟨q, e⟩ := e
    rw [em] at e
    rw [e]
    have := firstSent_sendBytes (((List.range c.gInput).map fun k =>
      labelFor r (L cid k) (A.input.testBit (cid * c.gInput + k))).flatMap blockBytes) q
    rw [blocks_length] at this
    rw [← this]
    congr 1
    simp only [List.length_map, List.length_range]

/-- C46, high-memory mode: the same; the garbler sends the key, the labels of its initial values and the labels of its inputs
of all cycles at the start. -/
theorem C46_fresh_high (cr : Crypto) (c : Circuit) (A : Args) (G : GEnv) (r key : Block) (I : Nat → Block)
    (L : Nat → Nat → Block) :
    ∃ rnd : Nat → Block, rnd 0 = r ∧ keyOf rnd = key
      ∧ (∀ k < c.secretInitSize, initLabelsHigh rnd k = pairFor r (I k))
      ∧ (∀ cid, ∀ k < c.secretInputSize, inputLabelsHigh c rnd (cid * c.secretInputSize + k) = pairFor r (L cid k))
      ∧ (A.useLow = false → A.cycles ≠ 0 → ¬ (A.period ≠ 0 ∧ c.terminateId = 0) →
        firstSent (16 * (1 + c.gInit + A.cycles * c.gInput)) (garbleBN cr c A { G with rnd := rnd })
          = some ((key :: ((List.range c.gInit).map (fun k => labelFor r (I k) (A.init.testBit k))
              ++ (List.range A.cycles).flatMap fun t => (List.range c.gInput).map fun k =>
                labelFor r (L t k) (A.input.testBit (t * c.gInput + k)))).flatMap blockBytes)) := by
  let base := 2 + c.initSize
  let rnd : Nat → Block := fun n => if n = 0 then r else if n = 1 then key else
    if n < base then I (n - 2) else L ((n - base) / c.secretInputSize) ((n - base) % c.secretInputSize)
  have hi : ∀ k < c.secretInitSize, initLabelsHigh rnd k = pairFor r (I k) := by
    intro k hk
    unfold initLabelsHigh
    have e : rnd (2 + k) = I k := by
      simp only [rnd]
      unfold Circuit.secretInitSize at hk
      rw [if_neg (by omega), if_neg (by omega), if_pos (by simp only [base, Circuit.initSize]; omega)]
      congr 1; omega
    rw [mkPair_pairFor, e]; rfl
  have hl : ∀ cid, ∀ k < c.secretInputSize,
      inputLabelsHigh c rnd (cid * c.secretInputSize + k) = pairFor r (L cid k) := by
    intro cid k hk
    unfold inputLabelsHigh
    have e : rnd (2 + c.initSize + (cid * c.secretInputSize + k)) = L cid k := by
      simp only [rnd]
      rw [if_neg (by omega), if_neg (by omega), if_neg (by simp only [base]; omega)]
      have e1 : 2 + c.initSize + (cid * c.secretInputSize + k) - base = cid * c.secretInputSize + k := by
        simp only [base]; omega
      rw [e1, Nat.mul_comm, Nat.mul_add_div (by omega), Nat.div_eq_of_lt hk, Nat.mul_add_mod, Nat.mod_eq_of_lt hk]
      rfl
    rw [mkPair_pairFor, e]; rfl
  refine ⟨rnd, rfl, rfl, hi, hl, fun hm h0 ht => ?_⟩
  have e := garbleBN_opening cr c A { G with rnd := rnd } h0 ht hm
  rw [e]
  congr 2
  unfold openingHigh
  refine congrArg₂ List.cons rfl (congrArg₂ HAppend.hAppend ?_ ?_)
  · refine List.map_congr_left fun k hk => ?_
    have hk := List.mem_range.mp hk
    show pick (initLabelsHigh rnd k) _ _ = _
    rw [hi k (by unfold Circuit.secretInitSize; omega), pick_pairFor]
  · rw [range_mul]
    congr 1
    funext t
    refine List.map_congr_left fun k hk => ?_
    have hk := List.mem_range.mp hk
    have a : (t * c.gInput + k) / c.gInput = t := by
      rw [Nat.mul_comm, Nat.mul_add_div (by omega), Nat.div_eq_of_lt hk]; rfl
    have b : (t * c.gInput + k) % c.gInput = k := by
      rw [Nat.mul_comm, Nat.mul_add_mod, Nat.mod_eq_of_lt hk]
    show pick (inputLabelsHigh c rnd _) _ _ = _
    rw [a, b, hl t k (by unfold Circuit.secretInputSize; omega), pick_pairFor]

/-- The hypotheses of the last part are met, with inputs and initial values to send. -/
example : ∃ (c : Circuit) (A : Args), A.useLow = true ∧ A.cycles ≠ 0 ∧ ¬ (A.period ≠ 0 ∧ c.terminateId = 0)
    ∧ 0 < c.gInput :=
  ⟨prCircuit, prA 0 .consecutive true, rfl, by decide, by decide, by decide⟩

example : ∃ (c : Circuit) (A : Args), A.useLow = false ∧ A.cycles ≠ 0 ∧ ¬ (A.period ≠ 0 ∧ c.terminateId = 0)
    ∧ 0 < c.gInput :=
  ⟨prCircuit, prA 0 .consecutive false, rfl, by decide, by decide, by decide⟩

end TinyGarble.Props
