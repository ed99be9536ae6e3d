import Verif.Proof.GateSim

/-!
# Properties of single gates: C02, C03, C05 (one gate), C38, C43
-/

namespace TinyGarble.Props
open TinyGarble Spec

/-- Labels of a wire at distance `R`, with label 0 equal to `a`. -/
def pairOf (R a : Block) : BlockPair := ⟨a, a ^^^ R⟩

/-- The label of value `x`. -/
def labelOf (l : BlockPair) (x : Bool) : Block := if x then l.label1 else l.label0

/-! ## C02 -/

/-- C02. A gate that needs a table, garbled by `GarbleGate` from two unrelated wires: the garbler
emits one table and two output labels at distance `R`; the evaluator, holding the labels of `x` and
`y` and finding that table in its buffer, obtains the output label of the gate's truth table on `x`,
`y`, and consumes exactly this table. -/
theorem C02_table_gate_decodes (enc : Block → Block) (R : Block) (hR : getLSB R = true) (cid gid : Nat)
    (hgid : gid < 2 ^ 32) {t : Int} (ht : t ∈ tableTypes) (a b : Block) (i0 i1 j0 j1 : Bool)
    (hG0 : cmpBlock a b = false) (hG1 : cmpBlock a (b ^^^ R) = false) :
    ∃ out T, garbleGate enc R cid gid t (pairOf R a) (.sec i0) (pairOf R b) (.sec i1) = (out, .sec false, some T)
      ∧ T.gid.toNat = gid ∧ out.label1 = out.label0 ^^^ R
      ∧ ∀ (x y : Bool) (ts : TabState), ts.tables ts.ind = T →
        cmpBlock (labelOf (pairOf R a) x) (labelOf (pairOf R b) y) = false →
        evalGate enc cid gid t (labelOf (pairOf R a) x) (.sec j0) (labelOf (pairOf R b) y) (.sec j1) ts
          = (labelOf out (truth t x y), .sec false, { ts with ind := ts.ind + 1 }) := by
  have hne : t ≠ XORGATE ∧ t ≠ XNORGATE ∧ t ≠ NOTGATE := by
    simp only [tableTypes, List.mem_cons, List.not_mem_nil, or_false] at ht
    rcases ht with h | h | h | h | h | h | h | h <;> subst h <;> decide
  have hgid' : (BitVec.ofNat 32 gid).toNat = gid := by
    rw [BitVec.toNat_ofNat, Nat.mod_eq_of_lt hgid]
  refine ⟨(garbleHalfGates enc R cid gid t (pairOf R a) (pairOf R b)).1,
    ⟨(garbleHalfGates enc R cid gid t (pairOf R a) (pairOf R b)).2.1,
     (garbleHalfGates enc R cid gid t (pairOf R a) (pairOf R b)).2.2, BitVec.ofNat 32 gid⟩, ?_, hgid', ?_, ?_⟩
  · unfold garbleGate
    simp only
    rw [if_neg (by simp [pairOf, hG0]), if_neg (by simp [pairOf, hG1]), if_neg hne.1, if_neg hne.2.1,
      if_neg hne.2.2]
  · exact (evalHalfGates_correct enc R hR cid gid ht a b false false).2
  · intro x y ts hts hE
    have hc := evalHalfGates_correct enc R hR cid gid ht a b x y
    have lab : ∀ (z : Bool) (u : Block), labelOf (pairOf R u) z = u ^^^ scale z R := by
      intro z u; cases z <;> simp [labelOf, pairOf]
    unfold evalGate
    simp only
    rw [if_neg (by simp [hE]), if_neg (by simp [hE]), if_neg hne.1, if_neg hne.2.1, if_neg hne.2.2]
    rw [hts]
    simp only
    rw [if_pos hgid', lab x a, lab y b]
    simp only [Prod.mk.injEq, and_true]
    refine hc.1.trans ?_
    unfold labelOf pairOf
    cases truth t x y
    · simp
    · simp [hc.2]

example : getLSB 3#128 = true ∧ (8 : Int) ∈ tableTypes ∧ cmpBlock 4#128 9#128 = false
    ∧ cmpBlock 4#128 (9#128 ^^^ 3#128) = false
    ∧ cmpBlock (labelOf (pairOf 3#128 4#128) true) (labelOf (pairOf 3#128 9#128) false) = false := by decide

/-! ## C03 -/

/-- C03, no table: whatever the labels and wire values, neither party uses the table buffer for an
XOR, XNOR or NOT gate (nor, for the evaluator, any of its random blocks). -/
theorem C03_free_gates_need_no_table (enc : Block → Block) (R : Block) (cid gid : Nat) {t : Int}
    (ht : t = XORGATE ∨ t = XNORGATE ∨ t = NOTGATE) (l0 l1 : BlockPair) (a b : Block) (v0 v1 w0 w1 : WVal)
    (ts : TabState) :
    (garbleGate enc R cid gid t l0 v0 l1 v1).2.2 = none ∧ (evalGate enc cid gid t a w0 b w1 ts).2.2 = ts := by
  constructor
  · cases v0 <;> cases v1 <;> try rfl
    unfold garbleGate
    simp only
    generalize cmpBlock l0.label0 l1.label0 = p
    generalize cmpBlock l0.label0 l1.label1 = q
    rcases ht with rfl | rfl | rfl <;> cases p <;> cases q <;>
      simp [XORGATE, XNORGATE, NOTGATE, ANDNGATE, NORNGATE, ORNGATE, NANDNGATE, ANDGATE, ORGATE, NANDGATE, NORGATE]
  · cases w0 with
    | pub _ => cases w1 <;> rfl
    | sec i =>
      cases w1 with
      | pub _ => rfl
      | sec j =>
        unfold evalGate
        simp only
        generalize cmpBlock a b = p
        rcases ht with rfl | rfl | rfl <;> cases p <;> cases i <;> cases j <;>
          simp [XORGATE, XNORGATE, NOTGATE, ANDNGATE, NORNGATE, ORNGATE, NANDNGATE, ANDGATE, ORGATE, NANDGATE, NORGATE]

/-- C03, correctness on unrelated wires. -/
theorem C03_free_gates_correct (enc : Block → Block) (R : Block) (cid gid : Nat) {t : Int}
    (ht : t = XORGATE ∨ t = XNORGATE ∨ t = NOTGATE) (a b : Block) (i0 i1 j0 j1 : Bool) (x y : Bool) (ts : TabState)
    (hG0 : cmpBlock a b = false) (hG1 : cmpBlock a (b ^^^ R) = false)
    (hE : cmpBlock (labelOf (pairOf R a) x) (labelOf (pairOf R b) y) = false) :
    let g := garbleGate enc R cid gid t (pairOf R a) (.sec i0) (pairOf R b) (.sec i1)
    let e := evalGate enc cid gid t (labelOf (pairOf R a) x) (.sec j0) (labelOf (pairOf R b) y) (.sec j1) ts
    Represents R g.1 g.2.1 e.1 e.2.1 (truth t x y) := by
  simp only
  unfold garbleGate evalGate
  simp only
  rw [if_neg (by simp [pairOf, hG0]), if_neg (by simp [pairOf, hG1]),
    if_neg (c := _ ∧ _ ∧ WVal.sec j0 = WVal.sec j1) (by simp [hE]),
    if_neg (c := _ ∧ _ ∧ WVal.sec j0 ≠ WVal.sec j1) (by simp [hE])]
  have t6 : truth 6 x y = (x ^^ y) := by cases x <;> cases y <;> decide
  have t9 : truth 9 x y = !(x ^^ y) := by cases x <;> cases y <;> decide
  have t12 : truth 12 x y = !x := by cases x <;> cases y <;> decide
  rcases ht with rfl | rfl | rfl <;>
    simp only [if_true, XORGATE, XNORGATE, NOTGATE, t6, t9, t12] <;> unfold Represents <;>
    cases j0 <;> cases j1 <;> cases x <;> cases y <;>
    simp [invertSecretValue, xorSecret, labelOf, pairOf, xorBlock] <;> bxor <;> exact ⟨trivial, trivial⟩

example : cmpBlock 4#128 9#128 = false ∧ cmpBlock 4#128 (9#128 ^^^ 3#128) = false
    ∧ cmpBlock (labelOf (pairOf 3#128 4#128) true) (labelOf (pairOf 3#128 9#128) false) = false := by decide

/-- C03/C05, related wires: both inputs of a gate of any type carry the same labels (`inv = false`)
or the swapped labels (`inv = true`), the evaluator's inversion marks differ by `inv`. Then both
parties agree on whether the output is public and what it is, without a table. -/
theorem C05_related_inputs (enc : Block → Block) (R : Block) (hR : getLSB R = true) (cid gid : Nat) {t : Int}
    (ht : t ∈ gateTypes) (a : Block) (i0 i1 j0 x inv : Bool) (ts : TabState) :
    let l0 := pairOf R a
    let l1 : BlockPair := if inv then ⟨l0.label1, l0.label0⟩ else l0
    let g := garbleGate enc R cid gid t l0 (.sec i0) l1 (.sec i1)
    let e := evalGate enc cid gid t (labelOf l0 x) (.sec j0) (labelOf l0 x) (.sec (j0 ^^ inv)) ts
    Represents R g.1 g.2.1 e.1 e.2.1 (truth t x (x ^^ inv)) ∧ g.2.2 = none ∧ e.2.2 = ts := by
  have h1 : cmpBlock a (a ^^^ R) = false := cmpBlock_odd hR
  have h2 : cmpBlock a a = true := cmpBlock_self a
  have h3 : cmpBlock (a ^^^ R) (a ^^^ R) = true := cmpBlock_self _
  rw [← gateOperator_truth ht]
  simp only [gateTypes, List.mem_cons, List.not_mem_nil, or_false] at ht
  rcases ht with rfl | rfl | rfl | rfl | rfl | rfl | rfl | rfl | rfl | rfl | rfl <;>
    cases inv <;> cases x <;> cases j0 <;>
    simp [garbleGate, evalGate, pairOf, labelOf, h1, h2, h3, Represents, gateOperator, invertSecretValue,
      XORGATE, XNORGATE, NOTGATE, ANDNGATE, NORNGATE, ORNGATE, NANDNGATE, ANDGATE, ORGATE, NANDGATE, NORGATE,
      BitVec.xor_assoc]

example : getLSB 5#128 = true ∧ (12 : Int) ∈ gateTypes := by decide

/-! ## C05, one gate -/

/-- C05 for one gate: when a gate's output is declared public from the public values of its inputs
(a secret input being unknown), every assignment of Booleans to the secret inputs gives that value. -/
theorem C05_known_value_sound {v0 v1 : WVal} {t : Int} (ht : t ∈ gateTypes) {b : Bool}
    (h : knownValue v0 v1 t = .pub b) (x y : Bool) (hx : ∀ p, v0 = .pub p → x = p) (hy : ∀ p, v1 = .pub p → y = p) :
    truth t x y = b := by
  rw [← gateOperator_truth ht]
  exact knownValue_sound h (fun p e => (hx p e).symm) (fun p e => (hy p e).symm)

example : knownValue (.pub false) (.sec true) 8 = .pub false := by decide

/-! ## C38 -/

/-- The tweak of a half gate: cycle, gate and half (0 or 1). -/
def tweakOf (cid gid : Nat) (half : Bool) : Block := if half then tweak1 cid gid else tweak0 cid gid

/-- C38. The tweak determines cycle, gate and half, for all cycle numbers below 2^64 and gate numbers
below 2^63. -/
theorem C38_tweaks_distinct {cid cid' gid gid' : Nat} {half half' : Bool} (h1 : cid < 2 ^ 64) (h2 : cid' < 2 ^ 64)
    (h3 : gid < 2 ^ 63) (h4 : gid' < 2 ^ 63) (h : tweakOf cid gid half = tweakOf cid' gid' half') :
    cid = cid' ∧ gid = gid' ∧ half = half' := by
  have core : ∀ a b a' b' : Nat, a < 2 ^ 64 → b < 2 ^ 64 → a' < 2 ^ 64 → b' < 2 ^ 64 →
      makeBlock a b = makeBlock a' b' → a = a' ∧ b = b' := by
    intro a b a' b' ha hb ha' hb' e
    have e' := congrArg BitVec.toNat e
    unfold makeBlock at e'
    simp only [BitVec.toNat_append, BitVec.toNat_ofNat, Nat.mod_eq_of_lt ha, Nat.mod_eq_of_lt hb,
      Nat.mod_eq_of_lt ha', Nat.mod_eq_of_lt hb'] at e'
    rw [← Nat.shiftLeft_add_eq_or_of_lt hb, ← Nat.shiftLeft_add_eq_or_of_lt hb', Nat.shiftLeft_eq,
      Nat.shiftLeft_eq] at e'
    omega
  unfold tweakOf tweak0 tweak1 at h
  cases half <;> cases half' <;> simp only [if_true, Bool.false_eq_true, if_false] at h <;>
    obtain ⟨e1, e2⟩ := core _ _ _ _ h1 (by omega) h2 (by omega) h
  · exact ⟨e1, by omega, rfl⟩
  · omega
  · omega
  · exact ⟨e1, by omega, rfl⟩

example : tweakOf 1 2 true ≠ tweakOf 2 1 true := by decide

/-! ## C43 -/

/-- C43 is false: two different blocks compare equal. -/
theorem C43_cmpBlock_not_exact : ∃ a b : Block, a ≠ b ∧ cmpBlock a b = true :=
  ⟨0#128, (1#128) <<< 64, by decide, by decide⟩

/-- C43, the true part: the comparison is exact on the lower 64 bits (missing: the upper 64 bits). In
particular equal blocks compare equal, and blocks that compare unequal are different. -/
theorem C43_cmpBlock_partial (a b : Block) :
    (cmpBlock a b = true ↔ a.toNat % 2 ^ 64 = b.toNat % 2 ^ 64) ∧ (a = b → cmpBlock a b = true)
    ∧ (cmpBlock a b = false → a ≠ b) := by
  refine ⟨?_, ?_, ?_⟩
  · unfold cmpBlock
    rw [beq_iff_eq, ← BitVec.toNat_inj]
    simp
  · intro h; rw [h]; exact cmpBlock_self b
  · intro h e; rw [e, cmpBlock_self] at h; exact absurd h (by decide)

example : cmpBlock 1#128 2#128 = false := by decide

end TinyGarble.Props
