import Verif.Spec.MultiCore
import Verif.Proof.MultiCore
import Verif.Props.Sched
import Verif.Props.SortNet

/-! # C102: distributing the gates over several cores -/

namespace TinyGarble.Props
open TinyGarble.Spec TinyGarble.Proof

theorem gateOrder_of {c : ReadCircuit} {N : Nat} {s : CoreState} {done : List Int} {used : Nat → List Int}
    (h : CInv c N s done used) (hfull : done.length = c.gates.length) : GateOrder c done := by
  refine ⟨?_, ?_⟩
  · have hs : done ⊆ gateNumbers c := fun x hx => (mem_wires _ _).mpr (h.range x hx)
    exact (h.nodup.subperm hs).perm_of_length_le (by simp [gateNumbers, hfull])
  · intro i a b g hi hg hb
    obtain ⟨j, hj, ej⟩ := h.order i a g hi (by simpa using hg) ((c.iid + b : Nat) : Int)
      (by rcases hb with e | e; exacts [Or.inl e.symm, Or.inr e.symm]) (by omega)
    exact ⟨j, hj, by rw [ej]; congr 1; omega⟩

theorem topSort_perm {c : ReadCircuit} (hne : c.gates ≠ []) :
    ∃ index, topSort c.gates = some index ∧ index.Perm ((List.range c.gates.length).map fun i : Nat => (i : Int)) := by
  obtain ⟨index, e, h, _⟩ := C42_topsort_partial c.gates hne
  exact ⟨index, e, h⟩

/-- C102, for netlists with a gate and without cycles (see `C102_no_gate`, `C102_false_cycle`). `Schedule` ends, without
leaving an array, for any number of cores whose rows have room for all gates, with a distribution of the gates. -/
theorem C102_cores_partial (c : ReadCircuit) (hop : OperandsExist c) (hw : ∀ w ∈ readOutside c, w < (wireCount c : Int))
    (ha : Acyclic c) (hne : c.gates ≠ []) (core : List (List Int)) (hn : core ≠ []) (hroom : ∀ row ∈ core, c.gates.length ≤ row.length) :
    ∃ core' work, scheduleCores c core.length core = some core' ∧ Distribution c core.length core' work := by
  obtain ⟨index, e, hp⟩ := topSort_perm hne
  obtain ⟨s, done, used, el, h, hfull⟩ := scheduleLoop_spec hop ha (List.length_pos_iff.mpr hn) hp _ _ _ _
    (startCores_inv c rfl hroom) (Nat.le_refl _)
  have ho := gateOrder_of h hfull
  refine ⟨s.core, used, ?_, ⟨h.core, ?_⟩, h.perm.trans ho.all, h.even, done, ho, h.sub⟩
  · obtain ⟨_, ef, _⟩ := findPath_spec c hop hw
    unfold scheduleCores
    rw [ef, e]
    simp only [Option.bind_eq_bind, Option.bind_some]
    rw [el]
    rfl
  · intro m hm
    obtain ⟨rest, er, _⟩ := h.row m hm
    exact ⟨_, er, List.prefix_append _ _⟩

example : ∃ (c : ReadCircuit) (core : List (List Int)), OperandsExist c ∧ (∀ w ∈ readOutside c, w < (wireCount c : Int)) ∧
    Acyclic c ∧ c.gates ≠ [] ∧ core.length = 2 ∧ ∀ row ∈ core, c.gates.length ≤ row.length :=
  ⟨sortExample, [[-1, -1, -1], [-1, -1, -1]], sortExample_operands, by decide, sortExample_acyclic, by decide, rfl, by decide⟩

/-- C102. Without gates, `Schedule` reads beyond the end of an array of no element. -/
theorem C102_no_gate (c : ReadCircuit) (h : c.gates = []) (n : Nat) (core : List (List Int)) :
    scheduleCores c n core = none := by
  unfold scheduleCores topSort
  rw [h]
  have : quickSort (levels []) (List.map (fun i : Nat => (i : Int)) (List.range ([] : List ReadGate).length)) 0
      ((([] : List ReadGate).length : Int) - 1) = none := C42_empty_reads_outside
  rw [this]
  cases findPath c <;> rfl

example : ∃ c : ReadCircuit, c.gates = [] ∧ 0 < c.outputs.length := ⟨⟨0, 0, 0, 0, 1, 1, [], [], [0], 0, []⟩, rfl, by decide⟩

theorem rounds_inv {c : ReadCircuit} (hop : OperandsExist c) {N : Nat} (hN : 0 < N) {index : List Int}
    (hidx : index.Perm ((List.range c.gates.length).map (fun i : Nat => (i : Int)))) {s : CoreState} {done : List Int}
    {used : Nat → List Int} (h : CInv c N s done used) :
    ∀ n, ∃ s' done' used', rounds c index n s = some s' ∧ CInv c N s' done' used'
  | 0 => ⟨s, done, used, rfl, h⟩
  | n + 1 => by
    obtain ⟨s1, done1, used1, e1, h1⟩ := rounds_inv hop hN hidx h n
    obtain ⟨s2, new, used2, e2, h2, _⟩ := schedulePass_spec hop hN h1.marks index s1 done1 used1 h1 (fun _ hx => hx)
      (hidx.nodup_iff.mpr (nodup_wires _)) (fun k hk => (mem_wires _ _).mp (hidx.mem_iff.mp hk)) (fun _ _ hd => hd)
    exact ⟨s2, done1 ++ new, used2, by rw [rounds, e1]; exact e2, h2⟩

theorem not_full {c : ReadCircuit} (ha : ¬ Acyclic c) {N : Nat} {s : CoreState} {done : List Int} {used : Nat → List Int}
    (h : CInv c N s done used) : s.scheduled < (c.gates.length : Int) := by
  have := h.short
  rw [h.count]
  by_contra hge
  exact ha (h.ordered (by omega)).acyclic

/-- C102. If the gates form a cycle, `Schedule` reports it in the log, goes on, and never ends: after any number of rounds of its loop
there are still gates to be placed, and the condition of the loop holds. -/
theorem C102_false_cycle (c : ReadCircuit) (hop : OperandsExist c) (ha : ¬ Acyclic c)
    (core : List (List Int)) (hn : core ≠ []) (hroom : ∀ row ∈ core, c.gates.length ≤ row.length) :
    ∃ index, topSort c.gates = some index ∧
      ∀ n, ∃ s, rounds c index n (startCores c core.length core) = some s ∧ s.scheduled < (c.gates.length : Int) := by
  have hne : c.gates ≠ [] := by
    intro h
    refine ha fun a hc => ?_
    obtain ⟨b, hb⟩ := Relation.TransGen.head'_iff.mp hc
    obtain ⟨⟨i, g, hg, _⟩, _⟩ := hb
    rw [h] at hg
    simp at hg
  obtain ⟨index, e, hp⟩ := topSort_perm hne
  refine ⟨index, e, fun n => ?_⟩
  obtain ⟨s, done, used, er, h⟩ := rounds_inv hop (List.length_pos_iff.mpr hn) hp (startCores_inv c rfl hroom) n
  exact ⟨s, er, not_full ha h⟩

/-- Wires 2 and 3 read each other. -/
def cyclicNetlist : ReadCircuit := ⟨0, 0, 0, 0, 1, 1, [⟨3, 0, 2, 0⟩, ⟨2, 1, 3, 4⟩], [], [2], 0, []⟩

example : OperandsExist cyclicNetlist ∧ ¬ Acyclic cyclicNetlist := by
  refine ⟨?_, ?_⟩
  · intro g hg
    simp only [cyclicNetlist, List.mem_cons, List.not_mem_nil, or_false] at hg
    rcases hg with rfl | rfl <;> decide
  · intro h
    refine h 2 (Relation.TransGen.tail (b := 3) (Relation.TransGen.single ?_) ?_)
    · exact ⟨1, _, rfl, rfl, Or.inl rfl⟩
    · exact ⟨0, _, rfl, rfl, Or.inl rfl⟩

/-- C102. `FindPath` ends, without leaving an array, and returns SUCCESS exactly when the gates form no cycle and every gate
is needed. -/
theorem C102_loop_partial (c : ReadCircuit) (hop : OperandsExist c) (hw : ∀ w ∈ readOutside c, w < (wireCount c : Int)) :
    ∃ r, findPath c = some r ∧ (r = true ↔ Acyclic c ∧ ∀ i < c.gates.length, Needed c i) := findPath_spec c hop hw

example : OperandsExist sortExample ∧ (∀ w ∈ readOutside sortExample, w < (wireCount sortExample : Int)) :=
  ⟨sortExample_operands, by decide⟩

/-- Both cases occur. -/
example : Acyclic sortExample ∧ ∀ i < sortExample.gates.length, Needed sortExample i := by
  have f1 : Feeds sortExample 5 3 := ⟨0, _, rfl, rfl, Or.inl rfl⟩
  have f2 : Feeds sortExample 4 5 := ⟨2, _, rfl, rfl, Or.inl rfl⟩
  refine ⟨sortExample_acyclic, fun i hi => ⟨3, by decide, ?_⟩⟩
  match i, hi with
  | 0, _ => exact Relation.ReflTransGen.refl
  | 1, _ => exact (Relation.ReflTransGen.single f2).tail f1
  | 2, _ => exact Relation.ReflTransGen.single f1

/-- One gate, which nothing reads. -/
def idleGate : ReadCircuit := ⟨0, 0, 0, 0, 1, 1, [⟨0, 1, 2, 0⟩], [], [0], 0, []⟩

/-- C102. `FindPath` fails, and `Schedule` reports a loop, for a netlist without any: it is enough that nothing reads the
output of a gate. -/
theorem C102_false_loop : ∃ c, OperandsExist c ∧ Acyclic c ∧ findPath c = some false := by
  have hop : OperandsExist idleGate := by
    intro g hg
    simp only [idleGate, List.mem_cons, List.not_mem_nil, or_false] at hg
    subst hg
    decide
  have hf : ∀ b a, Feeds idleGate b a → b < 2 ∧ a = 2 := by
    rintro b a ⟨i, g, hg, rfl, hb⟩
    match i, hg with
    | 0, hg =>
      obtain rfl : _ = g := by simpa [idleGate] using hg
      refine ⟨?_, rfl⟩
      rcases hb with hb | hb <;> simp only at hb <;> omega
    | n + 1, hg => simp [idleGate] at hg
  have ha : Acyclic idleGate := acyclic_of_rank (fun w => w) fun b a h => by
    have := hf b a h
    omega
  obtain ⟨r, e, h⟩ := C102_loop_partial idleGate hop (by decide)
  refine ⟨idleGate, hop, ha, ?_⟩
  rw [e]
  cases r with
  | false => rfl
  | true =>
    obtain ⟨w, hw, hr⟩ := (h.mp rfl).2 0 (by decide)
    have hw0 : w = 0 := by
      have : (w : Int) = 0 := by simpa [readOutside, idleGate] using hw
      omega
    subst hw0
    rcases Relation.ReflTransGen.cases_tail hr with h | ⟨b, _, hb⟩
    · exact absurd h (by decide)
    · exact absurd (hf _ _ hb).2 (by decide)

/-- The result of `TopologicalSortMultiCore`, and the order it uses. -/
theorem multiCore_eq {c : ReadCircuit} (wf : NetlistWF c) (hne : c.gates ≠ []) :
    ∃ order inv π σ, Ordered c order ∧ Renum c order inv π σ ∧
      topologicalSortMultiCore c = some { renumbered c order π with terminateId := c.terminateId } := by
  have hop : OperandsExist c := by
    intro g hg
    obtain ⟨h0, h1, _⟩ := wf.gates g hg
    unfold Readable at h0 h1
    omega
  obtain ⟨index, e, hp⟩ := topSort_perm hne
  have hroom : ∀ row ∈ [List.replicate (c.gates.length + 1) (-1 : Int)], c.gates.length ≤ row.length := by simp
  obtain ⟨s, done, used, el, h, hfull⟩ := scheduleLoop_spec hop wf.acyclic (Nat.one_pos) hp _ _ _ _
    (startCores_inv c (N := 1) rfl hroom) (Nat.le_refl _)
  have ho := h.ordered hfull
  obtain ⟨inv, π, σ, ei, R⟩ := renum_exists ho
  refine ⟨wireOrder c done, inv, π, σ, ho, R, ?_⟩
  obtain ⟨rest, er, _⟩ := h.row 0 Nat.one_pos
  have hused : used 0 = done := by
    have hl : (used 0).length = done.length := by
      have := h.perm.length_eq
      simpa using this
    exact (h.sub 0 Nat.one_pos).eq_of_length hl
  have hrow : (used 0 ++ rest).take c.gates.length = done := by
    rw [hused, ← hfull, List.take_left']
    rfl
  have hdff : c.dffs.mapM (renumberDff inv) = some (c.dffs.map fun g =>
      { g with input0 := newRef π g.input0, input1 := newRef π g.input1, output := newRef π g.output }) := by
    refine mapM_eq _ _ _ fun g hg => ?_
    obtain ⟨g0, g1, g2, g3⟩ := wf.dffs g hg
    unfold Readable at g0
    unfold renumberDff
    rw [R.renumber wf.some (by omega), R.renumber wf.some g1, R.getI g2 g3]
    rfl
  have hgates : (List.range c.gates.length).mapM (renumberGate c inv) = some (renumbered c (wireOrder c done) π).gates := by
    refine mapM_eq _ _ _ fun i hi => ?_
    have hi := List.mem_range.mp hi
    unfold renumberGate
    obtain ⟨g0, g1⟩ := hop _ (List.getElem_mem hi)
    rw [getI_nat, getI_nat, R.inv _ (by unfold wireCount; omega), List.getElem?_eq_getElem hi]
    simp only [Option.bind_eq_bind, Option.bind_some]
    rw [R.renumber wf.some g0, R.renumber wf.some g1]
    rfl
  have hout : c.outputs.mapM (TinyGarble.getI inv) = some (c.outputs.map (newRef π)) := by
    refine mapM_eq _ _ _ fun w hw => ?_
    obtain ⟨h0, h1⟩ := wf.outputs w hw
    exact R.getI (by omega) h1
  have hsched : ((wireOrder c done).drop c.iid).map (fun w : Int => w - (c.iid : Int)) = done := by
    unfold wireOrder
    rw [List.drop_left' (by simp), List.map_map]
    conv => rhs; rw [← List.map_id done]
    refine List.map_congr_left fun k _ => ?_
    simp only [Function.comp, id]
    omega
  obtain ⟨_, ef, _⟩ := findPath_spec c hop (by
    intro w hw
    rcases List.mem_append.mp hw with hw | hw
    · obtain ⟨g, hg, rfl⟩ := List.mem_map.mp hw
      have := (wf.dffs g hg).1
      unfold Readable at this
      omega
    · exact (wf.outputs w hw).2)
  unfold topologicalSortMultiCore scheduleCores
  rw [ef, e]
  simp only [Option.bind_eq_bind, Option.bind_some]
  rw [el]
  simp only [Option.bind_some, Option.pure_def]
  have e0 : TinyGarble.getI s.core 0 = some (used 0 ++ rest) := by
    have := getI_nat s.core 0
    rw [er] at this
    exact this
  rw [e0]
  simp only [Option.bind_some]
  rw [hrow]
  have ei' : invertList (((List.range c.iid).map fun i : Nat => (i : Int)) ++ done.map fun k : Int => k + (c.iid : Int)) = some inv := ei
  rw [ei']
  simp only [Option.bind_some]
  rw [hdff]
  simp only [Option.bind_some]
  rw [hgates]
  simp only [Option.bind_some]
  rw [hout]
  simp only [Option.bind_some, renumbered, hsched]

/-- C102, for netlists with a gate and without a terminate signal (see `C102_false_terminate`).
`TopologicalSortMultiCore` gives a circuit with every gate after its operands, on which the plaintext evaluator produces,
for all inputs, cycle limits and terminate periods, the outputs and the number of cycles that the netlist prescribes. -/
theorem C102_function_partial {c : ReadCircuit} (wf : NetlistWF c) (hne : c.gates ≠ []) (ht : c.terminateId = 0) :
    ∃ c', topologicalSortMultiCore c = some c' ∧ WF (scheduled c') ∧
      ∀ (x : Inputs) (v : Nat → Nat → Bool), Solves (asCircuit c) x v → ∀ (w0 : Nat → Bool) (n T : Nat),
        let r := evaluatePlaintext (scheduled c') x w0 n T
        Executed (asCircuit c) T v n r.2
        ∧ (∀ t < r.2, ∀ i < c.outputs.length, r.1.testBit (t * c.outputs.length + i) = v t (c.outputs[i]?.getD 0).toNat)
        ∧ ∀ j, r.2 * c.outputs.length ≤ j → r.1.testBit j = false := by
  obtain ⟨order, inv, π, σ, ho, R, e⟩ := multiCore_eq wf hne
  have h0 : newRef π c.terminateId = c.terminateId := by
    rw [ht]
    simp [newRef, R.πfix 0 wf.some]
  have e' : topologicalSortMultiCore c = some (renumbered c order π) := by
    rw [e]
    congr 1
    unfold renumbered
    rw [h0]
  exact ⟨_, e', R.wf wf, fun x v hv w0 n T => evaluates_sorted wf R (sameCircuit_refl _) x v hv w0 n T⟩

/-- `sortExample` without its terminate signal. -/
def endlessExample : ReadCircuit := { sortExample with terminateId := 0 }

example : NetlistWF endlessExample ∧ endlessExample.gates ≠ [] ∧ endlessExample.terminateId = 0 := by
  refine ⟨?_, by decide, rfl⟩
  obtain ⟨h1, h2, h3, h4, h5, _, h7⟩ := sortExample_wf
  exact ⟨h1, h2, h3, h4, h5, Or.inl rfl, h7⟩

/-- The gates of `sortExample` have only one order. -/
theorem sortExample_renum {order inv : List Int} {π σ : Nat → Nat} (ho : Ordered sortExample order)
    (R : Renum sortExample order inv π σ) : order = [0, 1, 2, 4, 5, 3] ∧ π 0 = 0 ∧ π 1 = 1 ∧ π 2 = 2 ∧ π 3 = 5 ∧ π 4 = 3 ∧ π 5 = 4 := by
  have p0 := R.πfix 0 (by decide)
  have p1 := R.πfix 1 (by decide)
  have p2 := R.πfix 2 (by decide)
  have l3 := R.πlt 3 (by decide)
  have f1 := R.lt 3 5 ⟨0, _, rfl, rfl, Or.inl rfl⟩ (by decide)
  have f2 := R.lt 5 4 ⟨2, _, rfl, rfl, Or.inl rfl⟩ (by decide)
  have g4 : 3 ≤ π 4 := by
    by_contra hlt
    have s4 := R.σπ 4 (by decide)
    have : π 4 < 3 := by omega
    rw [R.σfix _ this] at s4
    omega
  have hw : wireCount sortExample = 6 := rfl
  rw [hw] at l3
  have e3 : π 3 = 5 := by omega
  have e4 : π 4 = 3 := by omega
  have e5 : π 5 = 4 := by omega
  refine ⟨?_, p0, p1, p2, e3, e4, e5⟩
  have hl : order.length = 6 := by rw [ho.all.length_eq]; rfl
  have hσ : ∀ k w, w < 6 → π w = k → order[k]? = some (w : Int) := by
    intro k w hw6 hk
    have := R.order k (by rw [← hk]; exact R.πlt w hw6)
    rw [this, ← hk, R.σπ w hw6]
  match order, hl with
  | [a, b, c, d, e, f], _ =>
    have h0 := hσ 0 0 (by decide) p0
    have h1 := hσ 1 1 (by decide) p1
    have h2 := hσ 2 2 (by decide) p2
    have h3 := hσ 3 4 (by decide) e4
    have h4 := hσ 4 5 (by decide) e5
    have h5 := hσ 5 3 (by decide) e3
    simp at h0 h1 h2 h3 h4 h5
    rw [h0, h1, h2, h3, h4, h5]

/-- `sortExample` sorted and renumbered, with a terminate signal. -/
def sortedExample (terminateId : Int) : ReadCircuit :=
  ⟨0, 0, 0, 0, 1, 1, [⟨4, 0, 5, 8⟩, ⟨1, 2, 3, 6⟩, ⟨3, -1, 4, 12⟩], [⟨5, -2, 2, -1⟩], [5, 3], terminateId, [1, 2, 0]⟩

/-- C102. The number of the terminate signal is not adapted to the new numbers of the wires: a run of the circuit that
`TopologicalSortMultiCore` gives ends at another cycle than the one of the netlist, which `SortNetlist` preserves
(`C29_function_partial`). -/
theorem C102_false_terminate :
    ∃ c c' c'', NetlistWF c ∧ topologicalSortMultiCore c = some c' ∧ sortNetlist c = some (some c'') ∧
      ∃ x w0 n T, (evaluatePlaintext (scheduled c') x w0 n T).2 ≠ (evaluatePlaintext (scheduled c'') x w0 n T).2 := by
  refine ⟨sortExample, sortedExample 5, sortedExample 4, sortExample_wf, ?_, ?_,
    ⟨0, 0, 0, 0, 0, 0⟩, fun _ => false, 4, 1, by decide +kernel⟩
  · obtain ⟨order, inv, π, σ, ho, R, e⟩ := multiCore_eq sortExample_wf (by decide)
    obtain ⟨rfl, p0, p1, p2, p3, p4, p5⟩ := sortExample_renum ho R
    rw [e]
    simp [renumbered, sortExample, sortedExample, newRef, ReadCircuit.iid, p0, p1, p2, p3, p4, p5, List.range_succ]
  · obtain ⟨order, inv, π, σ, ho, R, e⟩ := sortNetlist_eq sortExample_wf
    obtain ⟨rfl, p0, p1, p2, p3, p4, p5⟩ := sortExample_renum ho R
    rw [e]
    simp [renumbered, sortExample, sortedExample, newRef, ReadCircuit.iid, p0, p1, p2, p3, p4, p5, List.range_succ]

end TinyGarble.Props
