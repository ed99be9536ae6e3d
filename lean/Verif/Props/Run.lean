import Verif.Proof.Bounds
import Verif.Proof.Semantics
import Verif.Props.ExampleSession

/-!
# Properties of garbled executions: C01 (core), C04, C05, C06, C07, C08, C09, C12 (core), C33, C39

A `Session` (`Verif.Spec.Run`) fixes circuit, inputs, labels and uninitialised memory; `S.g cid`,
`S.e cid` are what the garbler and the evaluator hold after cycle `cid`, `S.sent cid` are the tables
sent in it. `Solves S.c S.x v` says that `v` is the meaning of the circuit on the plain inputs.
-/

namespace TinyGarble.Props
open TinyGarble Spec

theorem session_post {S : Session} (ok : S.OK) {cid : Nat} (na : S.NoAccident cid) (x0 : Nat → Bool) :
    ∃ gl el pv buf, Post S.c S.enc S.R S.sfan cid gl el pv (symRun S.c S.sfan S.x.pInit S.x.pInput cid)
      (S.g cid) (garbleRun S.lowMem S.c S.enc S.R S.sfan S.gin S.gst0 cid).2 buf (S.e cid)
      (plainWires S.c S.x x0 cid) := by
  obtain ⟨gl, el, pv, buf, _, h⟩ := run_post ok.wf ok.odd (fun g hg => fillFanout_counts ok.wf S.fan0 hg)
    ok.labels S.lowMem x0 ok.gFresh ok.eFresh cid (fun k hk => (na k hk).1) (fun k hk => .inl (na k hk).2)
  exact ⟨gl, el, pv, buf, h⟩

/-- The value `v` gives to a wire is the value in the plaintext evaluator. -/
theorem plain_eq {S : Session} (ok : S.OK) {v : Nat → Nat → Bool} (hv : Solves S.c S.x v) (cid : Nat) {w : Nat}
    (h1 : S.c.initSize ≤ w) (h2 : w < S.c.wireSize) : plainWires S.c S.x (fun _ => false) cid w = v cid w :=
  solves_unique ok.wf (plainWires_solves ok.wf S.x _) hv cid w h1 h2

/-- The wire a reference outside of gates points to is used. -/
theorem extUses_pos_out {c : Circuit} {i : Nat} (hi : i < c.outputSize) {g : Nat} (h0 : 0 ≤ c.outputs i)
    (hg : (c.outputs i).toNat = c.gateLo + g) : 0 < extUses c g := by
  unfold extUses
  have := countEq_pos (w := ((c.gateLo + g : Nat) : Int)) (f := c.outputs) hi (by omega)
  omega

/-! ## C01, core -/

/-- C01, core: after every cycle the two parties' data for each output wire represents the output's
value in the circuit's meaning. -/
theorem C01_outputs_represent {S : Session} (ok : S.OK) {cid : Nat} (na : S.NoAccident cid)
    {v : Nat → Nat → Bool} (hv : Solves S.c S.x v) {i : Nat} (hi : i < S.c.outputSize) :
    let o := (S.c.outputs i).toNat
    Represents S.R ((S.g cid).wires o) ((S.g cid).val o) ((S.e cid).wires o) ((S.e cid).val o) (v cid o) := by
  obtain ⟨gl, el, pv, buf, h⟩ := session_post ok na (fun _ => false)
  have ho := ok.wf.outputs i hi
  have h1 : S.c.initSize ≤ (S.c.outputs i).toNat := by omega
  have h2 : (S.c.outputs i).toNat < S.c.wireSize := by omega
  simp only
  rw [← plain_eq ok hv cid h1 h2]
  exact h.represents h1 h2 (fun g hg => extUses_pos_out hi (by omega) hg)

example : exS.OK ∧ exS.NoAccident 2 ∧ 0 < exS.c.outputSize
    ∧ Solves exS.c exS.x (plainWires exS.c exS.x fun _ => false) :=
  ⟨exS_ok, exS_noAccident, by decide, plainWires_solves exCircuit_wf _ _⟩

/-- C13, core: the same for the terminate wire. -/
theorem C13_terminate_represents {S : Session} (ok : S.OK) {cid : Nat} (na : S.NoAccident cid)
    {v : Nat → Nat → Bool} (hv : Solves S.c S.x v) (ht : 0 < S.c.terminateId) :
    let o := S.c.terminateId
    Represents S.R ((S.g cid).wires o) ((S.g cid).val o) ((S.e cid).wires o) ((S.e cid).val o) (v cid o) := by
  obtain ⟨gl, el, pv, buf, h⟩ := session_post ok na (fun _ => false)
  have ho := ok.wf.term
  simp only
  rw [← plain_eq ok hv cid (by omega) (by omega)]
  apply h.represents (by omega) (by omega)
  intro g hg
  unfold extUses
  rw [if_pos ⟨ht, hg⟩]; omega

/-! ## C04 -/

/-- C04. After every cycle, a wire that the garbler treats as secret, and that is an input, a
flip-flop, or a gate that was not given up, has two labels that differ by the offset; therefore
their lowest bits differ. -/
theorem C04_labels_differ_by_offset {S : Session} (ok : S.OK) {cid : Nat} (na : S.NoAccident cid) {w : Nat}
    (h1 : S.c.initSize ≤ w) (h2 : w < S.c.wireSize) (hs : ((S.g cid).val w).isSecret = true)
    (hl : ∀ g, w = gateBase S.c + g → 0 < (S.g cid).fan g) :
    ((S.g cid).wires w).label1 = ((S.g cid).wires w).label0 ^^^ S.R
    ∧ getLSB ((S.g cid).wires w).label1 = !getLSB ((S.g cid).wires w).label0 := by
  obtain ⟨gl, el, pv, buf, h⟩ := session_post ok na (fun _ => false)
  have hr := h.represents_live h1 h2 (fun g hg => Or.inl (hl g (by rw [(bases S.c).2.2]; exact hg)))
  have : ((S.g cid).wires w).label1 = ((S.g cid).wires w).label0 ^^^ S.R := by
    unfold Represents at hr
    revert hr hs
    cases (S.g cid).val w with
    | pub b => simp [WVal.isSecret]
    | sec i => cases (S.e cid).val w with
      | pub b => simp
      | sec j => intro _ h; exact h.1
  refine ⟨this, ?_⟩
  rw [this, getLSB_xor, ok.odd]
  cases getLSB ((S.g cid).wires w).label0 <;> rfl

example : exS.OK ∧ exS.NoAccident 2 ∧ ((exS.g 1).val 4).isSecret = true ∧ 0 < (exS.g 1).fan 1 :=
  ⟨exS_ok, exS_noAccident, by decide +kernel, by decide +kernel⟩

/-! ## C05 -/

/-- C05. Whenever the garbler (or the evaluator) treats a wire as publicly known, it has that value
in the circuit's meaning. -/
theorem C05_public_values_sound {S : Session} (ok : S.OK) {cid : Nat} (na : S.NoAccident cid)
    {v : Nat → Nat → Bool} (hv : Solves S.c S.x v) {w : Nat} (h1 : S.c.initSize ≤ w) (h2 : w < S.c.wireSize) {b : Bool}
    (hp : (S.g cid).val w = .pub b ∨ (S.e cid).val w = .pub b) : v cid w = b := by
  obtain ⟨gl, el, pv, buf, h⟩ := session_post ok na (fun _ => false)
  rw [← plain_eq ok hv cid h1 h2]
  have e1 := h.g.val w h2
  have e2 := h.e.val w h2
  have e3 := h.p.pub w h1 h2
  rw [e1, e2] at hp
  revert hp e3
  cases (symRun S.c S.sfan S.x.pInit S.x.pInput cid).sw w <;> simp [SWire.toW, SWire.toE]
  intro e3 hb; rw [hb, e3]

example : exS.OK ∧ exS.NoAccident 2 ∧ (exS.g 0).val 6 = .pub false :=
  ⟨exS_ok, exS_noAccident, by decide +kernel⟩

/-! ## C06 -/

/-- C06. After every cycle both parties agree for every wire on whether it is public and on its
public value, and for every gate on its remaining use count (0: given up). -/
theorem C06_same_classification {S : Session} (ok : S.OK) {cid : Nat} (na : S.NoAccident cid) :
    (∀ w < S.c.wireSize, ((S.g cid).val w).isSecret = ((S.e cid).val w).isSecret
      ∧ ∀ b, (S.g cid).val w = .pub b ↔ (S.e cid).val w = .pub b)
    ∧ ∀ g < S.c.gateSize, (S.g cid).fan g = (S.e cid).fan g := by
  obtain ⟨gl, el, pv, buf, h⟩ := session_post ok na (fun _ => false)
  refine ⟨?_, ?_⟩
  · intro w hw
    rw [h.g.val w hw, h.e.val w hw]
    cases (symRun S.c S.sfan S.x.pInit S.x.pInput cid).sw w <;> simp [SWire.toW, SWire.toE, WVal.isSecret]
  · intro g hg
    rw [h.g.fan g hg, h.e.fan g hg]

example : exS.OK ∧ exS.NoAccident 2 := ⟨exS_ok, exS_noAccident⟩

/-! ## C07 -/

/-- C07, counts: the number of tables sent in a cycle is the number the evaluator consumes. -/
theorem C07_sent_eq_consumed {S : Session} (ok : S.OK) {cid : Nat} (na : S.NoAccident cid) :
    (S.e cid).ts.ind = (S.sent cid).length := by
  obtain ⟨gl, el, pv, buf, h⟩ := session_post ok na (fun _ => false)
  exact h.ind_eq

example : exS.OK ∧ exS.NoAccident 2 ∧ (exS.sent 1).length = 3 := ⟨exS_ok, exS_noAccident, exS_tables.2⟩

/-- The number of gates that are not XOR, XNOR or NOT. -/
def nonFreeGates (c : Circuit) : Nat :=
  ((List.range c.gateSize).filter fun i =>
    decide ((c.gate i).type ≠ 6 ∧ (c.gate i).type ≠ 9 ∧ (c.gate i).type ≠ 12)).length

theorem numOfNonXor_eq (c : Circuit) : numOfNonXor c = nonFreeGates c := by
  unfold numOfNonXor nonFreeGates
  induction c.gateSize with
  | zero => rfl
  | succ n ih =>
    simp only [forLoop]
    rw [ih, List.range_succ, List.filter_append, List.length_append]
    by_cases h : (c.gate n).type ≠ 6 ∧ (c.gate n).type ≠ 9 ∧ (c.gate n).type ≠ 12
    · simp [List.filter, h]
    · rw [if_neg h]; simp [List.filter, h]

/-- C07, bounds: for any circuit, any labels and any memory contents, the garbler never writes more
tables than there are non-XOR gates (the size of both of its table arrays), neither before nor after
selection. -/
theorem C07_garbler_within_buffer (lowMem : Bool) (c : Circuit) (enc : Block → Block) (R : Block) (sf : Nat → Nat)
    (cid : Nat) (x : GCycleIn) (st : GState) :
    let r := garbleCycle lowMem c enc R sf cid x st
    r.2.length ≤ nonFreeGates c ∧ (selectTables r.1.fan r.2).length ≤ nonFreeGates c := by
  have h := garbleCycle_tabs lowMem c enc R sf cid x st
  rw [numOfNonXor_eq] at h
  exact ⟨h, Nat.le_trans (List.length_filter_le _ _) h⟩

/-- C07, bounds: for any circuit and any memory contents, the evaluator never looks at an entry of
its table buffer beyond the number of non-XOR gates: replacing all entries beyond it by anything
else changes nothing. Its index never exceeds this number either. -/
theorem C07_evaluator_within_buffer (c : Circuit) (enc : Block → Block) (sf : Nat → Nat) (cid : Nat) (x : ECycleIn)
    (st : EState) (buf : Nat → Table) (hb : ∀ i < nonFreeGates c, st.ts.tables i = buf i) :
    evalCycle c enc sf cid x { st with ts := { st.ts with tables := buf } }
      = { evalCycle c enc sf cid x st with ts := { (evalCycle c enc sf cid x st).ts with tables := buf } }
    ∧ (evalCycle c enc sf cid x st).ts.ind ≤ nonFreeGates c := by
  have h0 : (evalPrep c sf cid x st).ts.ind = 0 := rfl
  have ht : (evalPrep c sf cid x st).ts.tables = st.ts.tables := by
    unfold evalPrep evalInputs evalDff
    by_cases h : cid = 0 <;> simp [h]
  rw [← numOfNonXor_eq] at *
  refine ⟨?_, (evalLoop_ind c enc cid _ h0 c.gateSize).2⟩
  have e : evalPrep c sf cid x { st with ts := { st.ts with tables := buf } } = (evalPrep c sf cid x st).withBuf buf := by
    unfold evalPrep evalInputs evalDff EState.withBuf
    by_cases h : cid = 0 <;> simp [h]
  have := evalLoop_buf c enc cid (evalPrep c sf cid x st) h0 buf (N := numOfNonXor c)
    (by rw [ht]; exact hb) (n := c.gateSize) (Nat.le_refl _)
  unfold evalCycle
  rw [e, this]
  rfl

/-- C07, matching: whenever the evaluator consumes a table at gate `i`, it is the next one of the
buffer, and it is marked with the number of this gate. -/
theorem C07_table_matches_gate (c : Circuit) (enc : Block → Block) (cid i : Nat) (st : EState)
    (h : (evalStep c enc cid i st).ts.ind ≠ st.ts.ind) :
    (evalStep c enc cid i st).ts.ind = st.ts.ind + 1 ∧ (st.ts.tables st.ts.ind).gid.toNat = i := by
  rcases (evalStep_ind c enc cid i st).2 with h' | h'
  · exact absurd h' h
  · exact ⟨h'.1, h'.2.1⟩

/-! ## C08 -/

/-- C08. A secret gate that was given up (its use count dropped to 0, its table is not sent) is not
read by any output, flip-flop, or the terminate signal, and every gate that reads it is given up as
well. -/
theorem C08_skipped_gates_unused {S : Session} (ok : S.OK) {cid : Nat} (na : S.NoAccident cid) {g : Nat}
    (hg : g < S.c.gateSize) (hz : (S.g cid).fan g = 0) (hs : ((S.g cid).val (gateBase S.c + g)).isSecret = true) :
    (∀ i < S.c.outputSize, S.c.outputs i ≠ ((gateBase S.c + g : Nat) : Int))
    ∧ (∀ i < S.c.dffSize, S.c.D i ≠ ((gateBase S.c + g : Nat) : Int))
    ∧ (0 < S.c.terminateId → S.c.terminateId ≠ gateBase S.c + g)
    ∧ ∀ j < S.c.gateSize, (S.c.gate j).input0 = ((gateBase S.c + g : Nat) : Int)
        ∨ (S.c.gate j).input1 = ((gateBase S.c + g : Nat) : Int) → (S.g cid).fan j = 0 := by
  obtain ⟨gl, el, pv, buf, h⟩ := session_post ok na (fun _ => false)
  rw [(bases S.c).2.2] at *
  obtain ⟨h1, h2⟩ := h.skipped hg hz hs
  unfold extUses at h1
  refine ⟨?_, ?_, ?_, h2⟩
  · intro i hi e
    have := countEq_pos hi e
    omega
  · intro i hi e
    have := countEq_pos hi e
    omega
  · intro ht e
    rw [if_pos ⟨ht, e⟩] at h1; omega

example : exSkip.OK ∧ exSkip.NoAccident 0 ∧ (exSkip.g 0).fan 0 = 0 ∧ ((exSkip.g 0).val 2).isSecret = true :=
  ⟨exSkip_ok, exSkip_noAccident, by decide +kernel, by decide +kernel⟩

/-! ## C09 -/

/-- C09. In every cycle the two parties' data for each flip-flop represents its value in the
circuit's meaning. -/
theorem C09_flipflops_represent {S : Session} (ok : S.OK) {cid : Nat} (na : S.NoAccident cid)
    {v : Nat → Nat → Bool} (hv : Solves S.c S.x v) {i : Nat} (hi : i < S.c.dffSize) :
    let o := ffBase S.c + i
    Represents S.R ((S.g cid).wires o) ((S.g cid).val o) ((S.e cid).wires o) ((S.e cid).val o) (v cid o) := by
  obtain ⟨gl, el, pv, buf, h⟩ := session_post ok na (fun _ => false)
  have hl := layout S.c
  have hws := wireSize_eq S.c
  simp only
  rw [(bases S.c).2.1]
  rw [← plain_eq ok hv cid (by omega) (by omega)]
  apply h.represents (by omega) (by omega)
  intro g hg
  omega

example : exS.OK ∧ exS.NoAccident 2 ∧ 0 < exS.c.dffSize := ⟨exS_ok, exS_noAccident, by decide⟩

/-! ## C12, core -/

/-- C12, core: with freshly allocated memory, the garbler's loop bodies of the low-memory and the
high-memory mode compute the same in every cycle (the evaluator's bodies are textually the same). -/
theorem C12_modes_agree (c : Circuit) (enc : Block → Block) (R : Block) (sf : Nat → Nat) (gin : Nat → GCycleIn)
    (st0 : GState) (h : GFresh st0) (cid : Nat) :
    garbleRun true c enc R sf gin st0 cid = garbleRun false c enc R sf gin st0 cid :=
  (garbleRun_mark c enc R sf gin st0 h cid).1

example : GFresh exS.gst0 := exS_ok.gFresh

/-! ## C33 -/

/-- C33, wires: in a well-formed circuit, whatever the uninitialised wire memory, the wires of the
plaintext evaluator are the one and only meaning of the circuit. -/
theorem C33_plain_wires {c : Circuit} (wf : WF c) (x : Inputs) (w0 : Nat → Bool) :
    Solves c x (plainWires c x w0) ∧ ∀ v, Solves c x v → ∀ t w, c.initSize ≤ w → w < c.wireSize →
      plainWires c x w0 t w = v t w :=
  ⟨plainWires_solves wf x w0, fun _ hv t => solves_unique wf (plainWires_solves wf x w0) hv t⟩

/-- C33, outputs. With `n` cycles allowed and terminate period `T`, the plaintext evaluator executes
the number of cycles the specification prescribes, and bit `t * outputSize + i` of its result is
output `i` of cycle `t`; all further bits are 0. -/
theorem C33_plain_outputs {c : Circuit} (wf : WF c) (x : Inputs) (w0 : Nat → Bool) (n T : Nat)
    {v : Nat → Nat → Bool} (hv : Solves c x v) :
    let r := evaluatePlaintext c x w0 n T
    Executed c T v n r.2
    ∧ (∀ t < r.2, ∀ i < c.outputSize, r.1.testBit (t * c.outputSize + i) = v t (c.outputs i).toNat)
    ∧ ∀ j, r.2 * c.outputSize ≤ j → r.1.testBit j = false := by
  have key := plainLoop_spec c x T v
    (fun cid w => (cid = 0 ∧ w = w0) ∨ ∃ k, cid = k + 1 ∧ w = plainWires c x w0 k) (by
      intro cid w hP
      have e : plainCycle c x cid w = plainWires c x w0 cid := by
        rcases hP with ⟨rfl, rfl⟩ | ⟨k, rfl, rfl⟩ <;> rfl
      rw [e]
      refine ⟨?_, Or.inr ⟨cid, rfl, rfl⟩⟩
      intro u hu
      have hb : c.initSize ≤ u ∧ u < c.wireSize := by
        rcases hu with ⟨i, hi, rfl⟩ | ⟨ht, rfl⟩
        · have := wf.outputs i hi; omega
        · have := wf.term; omega
      exact solves_unique wf (plainWires_solves wf x w0) hv cid u hb.1 hb.2) n 0 w0 0 (Or.inl ⟨rfl, rfl⟩)
  obtain ⟨⟨k1, k2, k3, k4⟩, k5⟩ := key
  unfold evaluatePlaintext
  refine ⟨⟨by omega, ?_, ?_⟩, ?_, ?_⟩
  · intro h
    obtain ⟨k, _, h1, h2⟩ := k3 (by omega)
    exact ⟨k, h1, h2⟩
  · intro k hk; exact k4 k (Nat.zero_le _) hk
  · intro t ht i hi
    rw [k5]
    have h1 : t * c.outputSize + i < (plainLoop c x T n 0 w0 0).2 * c.outputSize := by
      have : (t + 1) * c.outputSize ≤ (plainLoop c x T n 0 w0 0).2 * c.outputSize := Nat.mul_le_mul_right _ ht
      rw [Nat.succ_mul] at this; omega
    rw [if_pos ⟨by omega, h1⟩]
    have h2 : (t * c.outputSize + i) / c.outputSize = t := by
      rw [Nat.mul_comm, Nat.mul_add_div (by omega), Nat.div_eq_of_lt hi]; rfl
    have h3 : (t * c.outputSize + i) % c.outputSize = i := by
      rw [Nat.mul_comm, Nat.mul_add_mod, Nat.mod_eq_of_lt hi]
    rw [h2, h3]
  · intro j hj
    rw [k5, if_neg (by omega)]
    exact Nat.zero_testBit j

/-- 5 + 7 = 12 in four cycles of the serial adder. -/
example : WF exCircuit ∧ evaluatePlaintext exCircuit exX (fun _ => true) 4 0 = (12, 4) :=
  ⟨exCircuit_wf, by decide⟩

/-! ## C39 -/

/-- C39, counting: for a well-formed circuit `FillFanout` gives every gate the number of places that
read it (gates, flip-flops, outputs, terminate signal), whatever the memory held before. -/
theorem C39_counts_exact {c : Circuit} (wf : WF c) (f0 : Nat → Nat) {g : Nat} (hg : g < c.gateSize) :
    (fillFanout c f0).1 g = gateUses c g + extUses c g := by
  rw [fillFanout_counts wf f0 hg, sum_cnt]
  rfl

example : WF exCircuit ∧ (fillFanout exCircuit (fun _ => 9)).1 0 = 2 := ⟨exCircuit_wf, by decide⟩

/-- C39, result: for every circuit, `FillFanout` succeeds iff no gate reads itself or a later gate and
every gate is read somewhere. -/
theorem C39_success_iff (c : Circuit) (f0 : Nat → Nat) :
    (fillFanout c f0).2 = true ↔
      (∀ j < c.gateSize, (c.gate j).input0 < ((gateBase c + j : Nat) : Int)
        ∧ (c.gate j).input1 < ((gateBase c + j : Nat) : Int))
      ∧ ∀ g < c.gateSize, 0 < gateUses c g + extUses c g := by
  rw [(bases c).2.2]
  exact fillFanout_success c f0

/-- C39, reduction: for any circuit (cyclic ones included) and any counts, `ReduceFanout` terminates
(it is a total function here, by a decreasing measure), and no count grows. -/
theorem C39_reduce_never_grows (c : Circuit) (f : Nat → Nat) (w : Int) (g : Nat) :
    reduceFanout c f w g ≤ f g := reduceFanout_le c f w g

end TinyGarble.Props
