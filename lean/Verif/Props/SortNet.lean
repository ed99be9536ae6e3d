import Verif.Proof.SortNet
import Verif.Proof.Same
import Verif.Props.Run
import Verif.Props.Sort

/-! # C29: sorting a netlist preserves its function -/

namespace TinyGarble.Props
open TinyGarble.Spec TinyGarble.Proof

/-- The plaintext evaluator on a circuit `a` with the contents of the sorted netlist. -/
theorem evaluates_sorted {c : ReadCircuit} (wf : NetlistWF c) {order inv : List Int} {π σ : Nat → Nat}
    (R : Renum c order inv π σ) {a : Circuit} (hs : SameCircuit a (scheduled (renumbered c order π)))
    (x : Inputs) (v : Nat → Nat → Bool) (hv : Solves (asCircuit c) x v) (w0 : Nat → Bool) (n T : Nat) :
    let r := evaluatePlaintext a x w0 n T
    Executed (asCircuit c) T v n r.2
    ∧ (∀ t < r.2, ∀ i < c.outputs.length, r.1.testBit (t * c.outputs.length + i) = v t (c.outputs[i]?.getD 0).toNat)
    ∧ ∀ j, r.2 * c.outputs.length ≤ j → r.1.testBit j = false := by
  obtain ⟨h1, h2, h3⟩ := C33_plain_outputs (hs.wf (R.wf wf)) x w0 n T (hs.solves (R.solves wf x v hv))
  have hos : a.outputSize = c.outputs.length := by
    rw [hs.outputSize]; simp [scheduled, asCircuit, renumbered]
  rw [hos] at h2 h3
  have hstop : ∀ k, StopAt a T (fun t k => v t (σ k)) k ↔ StopAt (asCircuit c) T v k := by
    intro k
    unfold StopAt
    rw [hs.terminateId]
    show (_ ∧ 0 < (newRef π c.terminateId).toNat ∧ _ ∧ v k (σ (newRef π c.terminateId).toNat) = true)
      ↔ (_ ∧ 0 < c.terminateId.toNat ∧ _ ∧ v k c.terminateId.toNat = true)
    have hlt : c.terminateId.toNat < wireCount c := by
      have := wf.some
      have := wf.term
      have : c.iid ≤ wireCount c := Nat.le_add_right ..
      omega
    have e1 : (newRef π c.terminateId).toNat = π c.terminateId.toNat := by
      unfold newRef
      have := wf.term
      rw [if_neg (by omega), Int.toNat_natCast]
    have e2 : 0 < π c.terminateId.toNat ↔ 0 < c.terminateId.toNat := by
      have z := R.πfix 0 wf.some
      have z' := R.σfix 0 wf.some
      constructor
      · intro h
        refine Nat.pos_of_ne_zero fun h0 => ?_
        rw [h0, z] at h; omega
      · intro h
        refine Nat.pos_of_ne_zero fun h0 => ?_
        have := R.σπ _ hlt
        rw [h0, z'] at this; omega
    rw [e1, e2, R.σπ _ hlt]
  refine ⟨⟨h1.le, fun h => ?_, fun k hk => ?_⟩, fun t ht i hi => ?_, h3⟩
  · obtain ⟨k, e, h⟩ := h1.last h
    exact ⟨k, e, (hstop k).mp h⟩
  · rw [← hstop]; exact h1.before k hk
  · rw [h2 t ht i hi]
    have e1 : a.outputs i = newRef π c.outputs[i] := by
      rw [hs.outputs i (by simpa [scheduled, asCircuit, renumbered] using hi)]
      simp [scheduled, asCircuit, renumbered, List.getElem?_eq_getElem hi]
    obtain ⟨g0, g1⟩ := wf.outputs _ (List.getElem_mem hi)
    rw [e1, List.getElem?_eq_getElem hi]
    simp only [Option.getD_some]
    unfold newRef
    rw [if_neg (by omega), Int.toNat_natCast, R.σπ _ (by omega)]

/-- C29. `SortNetlist` succeeds on every well-formed netlist. The circuit it writes (the gates in the order of the schedule)
has every gate after its operands and all references valid, and the plaintext evaluator run on it produces, for all inputs,
cycle limits and terminate periods, the outputs and the number of cycles that the original netlist prescribes. -/
theorem C29_function_partial {c : ReadCircuit} (wf : NetlistWF c) :
    ∃ c', sortNetlist c = some (some c') ∧ WF (scheduled c') ∧
      ∀ (x : Inputs) (v : Nat → Nat → Bool), Solves (asCircuit c) x v → ∀ (w0 : Nat → Bool) (n T : Nat),
        let r := evaluatePlaintext (scheduled c') x w0 n T
        Executed (asCircuit c) T v n r.2
        ∧ (∀ t < r.2, ∀ i < c.outputs.length, r.1.testBit (t * c.outputs.length + i) = v t (c.outputs[i]?.getD 0).toNat)
        ∧ ∀ j, r.2 * c.outputs.length ≤ j → r.1.testBit j = false := by
  obtain ⟨order, inv, π, σ, ho, R, e⟩ := sortNetlist_eq wf
  exact ⟨_, e, R.wf wf, fun x v hv w0 n T => evaluates_sorted wf R (sameCircuit_refl _) x v hv w0 n T⟩

/-- C29. The netlist's equations determine the values of all wires but those of initial values: there is a solution, and
any two agree. So `v` in `C29_function_partial` exists and is unique. -/
theorem C29_meaning {c : ReadCircuit} (wf : NetlistWF c) (x : Inputs) :
    ∃ v, Solves (asCircuit c) x v ∧ ∀ v', Solves (asCircuit c) x v' → ∀ t w, (asCircuit c).initSize ≤ w → w < wireCount c →
      v' t w = v t w := by
  obtain ⟨order, inv, π, σ, ho, R, e⟩ := sortNetlist_eq wf
  have hu := plainWires_solves (R.wf wf) x (fun _ => false)
  refine ⟨_, R.solves' wf x _ hu, fun v' hv' t w h1 h2 => ?_⟩
  have hws : (scheduled (renumbered c order π)).wireSize = wireCount c := by
    simp [Circuit.wireSize, Circuit.initSize, Circuit.inputSize, scheduled, asCircuit, renumbered, ReadCircuit.iid, wireCount]
    omega
  have := solves_unique (R.wf wf) (R.solves wf x v' hv') hu t (π w) (R.init_ge h1 h2) (by rw [hws]; exact R.πlt w h2)
  simp only [R.σπ w h2] at this
  exact this

/-- C29. A netlist whose gates form a cycle is rejected (FAILURE). -/
theorem C29_cyclic_rejected {c : ReadCircuit} (hc : OperandsExist c) (h : ¬ Acyclic c) : sortNetlist c = some none := by
  rcases topologicalSort_spec c hc with ⟨e, _⟩ | ⟨order, _, h'⟩
  · unfold sortNetlist; rw [e]; rfl
  · exact absurd h'.acyclic h

theorem sortExample_wf : NetlistWF sortExample := by
  refine ⟨by decide, sortExample_acyclic, ?_, ?_, ?_, Or.inr (by decide), by decide⟩
  · intro g hg
    simp only [sortExample, List.mem_cons, List.not_mem_nil, or_false] at hg
    unfold Readable
    rcases hg with rfl | rfl | rfl <;> decide
  · intro g hg
    simp only [sortExample, List.mem_cons, List.not_mem_nil, or_false] at hg
    unfold Readable
    subst hg; decide
  · intro w hw
    simp only [sortExample, List.mem_cons, List.not_mem_nil, or_false] at hw
    rcases hw with rfl | rfl <;> decide

example : ∃ c, NetlistWF c ∧ ∃ b a, Feeds c b a ∧ a < b :=
  ⟨sortExample, sortExample_wf, 5, 3, ⟨0, _, rfl, rfl, Or.inl rfl⟩, by decide⟩

example : ∃ c x v, NetlistWF c ∧ Solves (asCircuit c) x v := by
  obtain ⟨v, hv, _⟩ := C29_meaning sortExample_wf ⟨0, 0, 0, 0, 0, 0⟩
  exact ⟨_, _, _, sortExample_wf, hv⟩

/-- C29, a case excluded above: an output or a terminate signal that is a constant (`output_list` and `terminate_id` are
unsigned and `SortNetlist` does not check them) makes the code read outside of an array. -/
theorem C29_constant_output {c : ReadCircuit} (h0 : 0 < c.iid) (ha : Acyclic c) (hop : OperandsExist c)
    (hd : ∀ g ∈ c.dffs, g.input0 < (wireCount c : Int) ∧ g.input1 < (wireCount c : Int)
      ∧ 0 ≤ g.output ∧ g.output < (wireCount c : Int)) (hn : (∃ w ∈ c.outputs, w < 0) ∨ c.terminateId < 0) :
    sortNetlist c = none := by
  obtain ⟨order, inv, π, σ, ho, R, e⟩ := sortNetlist_steps h0 ha hop hd
  have hneg : ∀ w : Int, w < 0 → getI inv w = none := by
    intro w hw; unfold getI; rw [if_neg (by omega)]
  rw [e]
  rcases hn with ⟨w, hw, hlt⟩ | h
  · have : c.outputs.mapM (getI inv) = none := by
      generalize c.outputs = l at hw
      induction l with
      | nil => cases hw
      | cons a l ih =>
        rw [List.mapM_cons]
        rcases List.mem_cons.mp hw with rfl | hm
        · rw [hneg w hlt]; rfl
        · rw [ih hm]
          cases getI inv a <;> rfl
    rw [this]; rfl
  · rw [if_pos (by omega), hneg _ h]
    cases c.outputs.mapM (getI inv) <;> rfl

example : ∃ c : ReadCircuit, 0 < c.iid ∧ Acyclic c ∧ OperandsExist c ∧ (∃ w ∈ c.outputs, w < 0) :=
  ⟨⟨0, 0, 0, 0, 1, 1, [], [], [-3], 0, []⟩, by decide, acyclic_of_rank (fun _ => 0) (by
    rintro b a ⟨i, g, hg, _⟩; simp at hg), by intro g hg; simp at hg, -3, by simp, by decide⟩

/-- No inputs, no flip-flops; wire 0 is NOT wire 1, wire 1 is 1 XOR 0, wire 2 is NOT wire 0. -/
def wireless : ReadCircuit := ⟨0,0,0,0,0,0,[⟨1,-1,0,12⟩, ⟨-3,-2,1,6⟩, ⟨0,-1,2,12⟩],[],[2],0,[]⟩
theorem wireless_neg (st i) (h : i < 0) : visit wireless st i = some (.ok st) := by rw [visit, if_pos h]
theorem wireless_v1 : visit wireless ⟨[.temp,.un,.un],[]⟩ 1 = some (.ok ⟨[.temp,.per,.un],[1]⟩) := by
  rw [visit]
  simp [getI, setI, wireless, ReadCircuit.iid]
  rw [← wireless, wireless_neg _ _ (by decide)]
  simp
  rw [wireless_neg _ _ (by decide)]
  simp
theorem wireless_v0 : visit wireless ⟨[.un,.un,.un],[]⟩ 0 = some (.ok ⟨[.per,.per,.un],[1,0]⟩) := by
  rw [visit]
  simp [getI, setI, wireless, ReadCircuit.iid]
  rw [← wireless, wireless_v1]
  simp
  rw [wireless_neg _ _ (by decide)]
  simp
theorem wireless_v2 : visit wireless ⟨[.per,.per,.un],[1,0]⟩ 2 = some (.ok ⟨[.per,.per,.per],[1,0,2]⟩) := by
  rw [visit]
  simp [getI, setI, wireless, ReadCircuit.iid]
  rw [← wireless, visit]
  simp [getI]
  rw [wireless_neg _ _ (by decide)]
  simp
theorem wireless_order : topologicalSort wireless = some (some [1,0,2]) := by
  unfold topologicalSort
  have : sortLoop wireless ⟨[.un,.un,.un],[]⟩ = some (.ok ⟨[.per,.per,.per],[1,0,2]⟩) := by
    rw [sortLoop]
    have e : firstUnmarked wireless [.un,.un,.un] = some 0 := by decide
    simp only [e]
    rw [wireless_v0]
    simp [wireless, ReadCircuit.iid]
    rw [← wireless, sortLoop]
    have e : firstUnmarked wireless [.per,.per,.un] = some 2 := by decide
    simp only [e]
    rw [wireless_v2]
    simp [wireless, ReadCircuit.iid]
    rw [← wireless, sortLoop]
    simp [wireless, ReadCircuit.iid]
  have e : sortLoop wireless ⟨(List.range (wireless.iid + wireless.gates.length)).map fun i => if i < wireless.iid then Mark.per else Mark.un, (List.range wireless.iid).map fun i : Nat => (i : Int)⟩ = _ := this
  simp only [e]
  simp [wireless, ReadCircuit.iid]
theorem wireless_sorted : sortNetlist wireless = some (some { wireless with gates := [⟨0,-1,1,12⟩, ⟨-3,-2,0,6⟩, ⟨0,-1,2,12⟩], outputs := [2], schedule := [1,0,2]}) := by
  unfold sortNetlist
  rw [wireless_order]
  decide

/-- C29, another case excluded above: references to wire 0 are not renumbered. In a netlist without inputs and flip-flops
wire 0 is a gate and may move; then the function changes. (Here output 2 is 1, and becomes 0.) -/
theorem C29_wire_zero_lost :
    ∃ c c' : ReadCircuit, Acyclic c ∧ OperandsExist c ∧ sortNetlist c = some (some c') ∧ c.outputs = [2] ∧
      ∃ v, Solves (asCircuit c) ⟨0, 0, 0, 0, 0, 0⟩ v ∧ v 0 2 = true ∧
        (evaluatePlaintext (scheduled c') ⟨0, 0, 0, 0, 0, 0⟩ (fun _ => false) 1 0).1 = 0 := by
  have hop : OperandsExist wireless := by
    intro g hg
    simp only [wireless, List.mem_cons, List.not_mem_nil, or_false] at hg
    rcases hg with rfl | rfl | rfl <;> decide
  obtain ⟨r, e, h⟩ := C28_succeeds_iff_acyclic wireless hop
  rw [wireless_order] at e
  obtain rfl := Option.some.inj e
  refine ⟨_, _, h.mp rfl, hop, wireless_sorted, rfl, fun _ w => if w = 0 then false else true, ?_, rfl, ?_⟩
  · refine ⟨fun t k hk => absurd hk (Nat.not_lt_zero _), fun t k hk => absurd hk (Nat.not_lt_zero _),
      fun t k hk => absurd hk (Nat.not_lt_zero _), fun k hk => absurd hk (Nat.not_lt_zero _),
      fun t k hk => absurd hk (Nat.not_lt_zero _), fun t k hk => ?_⟩
    have hk : k < 3 := hk
    obtain rfl | rfl | rfl : k = 0 ∨ k = 1 ∨ k = 2 := by omega
    all_goals decide
  · decide +kernel

end TinyGarble.Props
