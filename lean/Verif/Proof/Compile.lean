import Verif.Proof.Named
import Verif.Props.Scd

/-! # The numbered netlist has the meaning of the named one -/

namespace TinyGarble.Proof
open TinyGarble.Spec TinyGarble.Props

theorem _root_.TinyGarble.Spec.NamedSolves.same {s : CircuitStr} {x : Inputs} {v : Nat → Name → Bool} (h : NamedSolves s x v)
    (t : Nat) {a b : Name} (hab : SameNet s a b) : v t a = v t b := by
  induction hab with
  | rel a b hab => exact h.joined t a b hab
  | refl a => rfl
  | symm a b _ ih => exact ih.symm
  | trans a b c _ _ ih1 ih2 => exact ih1.trans ih2

theorem Entry.value {s : CircuitStr} {x : Inputs} {v : Nat → Name → Bool} (h : NamedSolves s x v) (t : Nat) {n : Name} {w : Int}
    (e : Entry s n w) : Spec.operand (fun k => v t (driver s k)) w = v t n := by
  unfold Spec.operand
  rcases e with ⟨i, rfl, hi, e⟩ | ⟨rfl, e⟩ | ⟨rfl, e⟩ | ⟨rfl, e⟩
  · rw [if_neg (by omega), if_neg (by omega), Int.toNat_natCast]
    exact h.same t e
  · rw [if_neg (by omega), if_pos (by omega), ← h.same t e, h.missing]
  · rw [if_neg (by omega), if_pos (by omega), ← h.same t e]
    exact (h.zero t).symm
  · rw [if_pos rfl, ← h.same t e]
    exact (h.one t).symm

theorem Entry.lt {s : CircuitStr} {n : Name} {w : Int} (e : Entry s n w) : w < (drivers s : Int) ∧ -3 ≤ w := by
  rcases e with ⟨i, rfl, hi, e⟩ | ⟨rfl, e⟩ | ⟨rfl, e⟩ | ⟨rfl, e⟩ <;> omega

section
variable {s : CircuitStr}

theorem initBit_driver {i : Nat} (h : i < inBase s) : InitBit s (driver s i) := by
  unfold inBase at h
  by_cases h1 : i < s.pInit
  · exact Or.inl ⟨i, h1, driver_pInit s h1⟩
  · by_cases h2 : i < s.pInit + s.gInit
    · refine Or.inr (Or.inl ⟨i - s.pInit, by omega, ?_⟩)
      rw [← driver_gInit s (by omega)]
      congr 1; omega
    · refine Or.inr (Or.inr ⟨i - (s.pInit + s.gInit), by omega, ?_⟩)
      rw [← driver_eInit s (by omega)]
      congr 1; omega

theorem source_driver {i : Nat} (h : inBase s ≤ i) (hi : i < drivers s) : InputBit s (driver s i) ∨ CellOutput s (driver s i) := by
  by_cases h1 : i < inBase s + s.pInput
  · refine Or.inl (Or.inl ⟨i - inBase s, by omega, ?_⟩)
    rw [← driver_pInput s (by omega)]
    congr 1; omega
  by_cases h2 : i < inBase s + s.pInput + s.gInput
  · refine Or.inl (Or.inr (Or.inl ⟨i - (inBase s + s.pInput), by omega, ?_⟩))
    rw [← driver_gInput s (by omega)]
    congr 1; omega
  by_cases h3 : i < cellBase s
  · unfold cellBase at h3
    refine Or.inl (Or.inr (Or.inr ⟨i - (inBase s + s.pInput + s.gInput), by omega, ?_⟩))
    rw [← driver_eInput s (by omega)]
    congr 1; omega
  rw [drivers_eq] at hi
  by_cases h4 : i < cellBase s + s.dffs.length
  · refine Or.inr (Or.inl ⟨s.dffs[i - cellBase s]'(by omega), List.getElem_mem _, ?_⟩)
    rw [← driver_dff s (by omega)]
    congr 1; omega
  · refine Or.inr (Or.inr ⟨s.gates[i - (cellBase s + s.dffs.length)]'(by omega), List.getElem_mem _, ?_⟩)
    rw [← driver_gate s (by omega)]
    congr 1; omega

variable {c : ReadCircuit} (A : Assigned s c)
include A

theorem Assigned.inputBase : Spec.inputBase (asCircuit c) = inBase s := by
  unfold Spec.inputBase inBase asCircuit; simp only; rw [A.pInit, A.gInit, A.eInit]

theorem Assigned.ffBase : Spec.ffBase (asCircuit c) = cellBase s := by
  unfold Spec.ffBase cellBase; rw [A.inputBase]; simp only [asCircuit]; rw [A.pInput, A.gInput, A.eInput]

theorem Assigned.gateBase : Spec.gateBase (asCircuit c) = cellBase s + s.dffs.length := by
  unfold Spec.gateBase; rw [A.ffBase]; simp only [asCircuit]; rw [A.dffs]

theorem Assigned.iid : c.iid = cellBase s + s.dffs.length := by
  unfold ReadCircuit.iid cellBase inBase
  rw [A.dffs, A.pInit, A.gInit, A.eInit, A.pInput, A.gInput, A.eInput]

theorem Assigned.wireCount : wireCount c = drivers s := by
  unfold Spec.wireCount
  rw [drivers_eq, A.iid, A.gates]

theorem Assigned.initSize : (asCircuit c).initSize = inBase s := by
  unfold Circuit.initSize inBase asCircuit; simp only; rw [A.pInit, A.gInit, A.eInit]

/-- The initial value of a flip-flop. -/
theorem Assigned.initial {x : Inputs} {v : Nat → Name → Bool} (h : NamedSolves s x v) {n : Name} {w : Int} (e : Entry s n w)
    (hn : ∀ d, InputBit s d ∨ CellOutput s d → ¬ SameNet s d n) : initialBit (asCircuit c) x w = v 0 n := by
  unfold initialBit
  simp only [asCircuit, A.pInit, A.gInit, A.eInit]
  rcases e with ⟨i, rfl, hi, e⟩ | ⟨rfl, e⟩ | ⟨rfl, e⟩ | ⟨rfl, e⟩
  · have hlt : i < inBase s := by
      by_contra hc
      exact hn _ (source_driver (by omega) hi) e
    unfold inBase at hlt
    rw [if_neg (by omega), if_neg (by omega), Int.toNat_natCast, ← h.same 0 e]
    by_cases h1 : i < s.pInit
    · rw [if_pos h1, driver_pInit s h1, h.pInit 0 i h1]
    rw [if_neg h1]
    by_cases h2 : i < s.pInit + s.gInit
    · rw [if_pos h2]
      have := driver_gInit s (k := i - s.pInit) (by omega)
      rw [show s.pInit + (i - s.pInit) = i by omega] at this
      rw [this, h.gInit 0 _ (by omega)]
    · rw [if_neg h2, if_pos (by omega)]
      have := driver_eInit s (k := i - (s.pInit + s.gInit)) (by omega)
      rw [show s.pInit + s.gInit + (i - (s.pInit + s.gInit)) = i by omega] at this
      rw [this, h.eInit 0 _ (by omega)]
  · rw [if_neg (by omega), if_pos (by omega), ← h.same 0 e, h.missing]
  · rw [if_neg (by omega), if_pos (by omega), ← h.same 0 e]
    exact (h.zero 0).symm
  · rw [if_pos rfl, ← h.same 0 e]
    exact (h.one 0).symm

theorem Assigned.solves (L : Legal s) {x : Inputs} {v : Nat → Name → Bool} (h : NamedSolves s x v) :
    Solves (asCircuit c) x (fun t k => v t (driver s k)) := by
  refine ⟨fun t k hk => ?_, fun t k hk => ?_, fun t k hk => ?_, fun i hi => ?_, fun t i hi => ?_, fun t i hi => ?_⟩
  · rw [A.inputBase]
    have hk : k < s.pInput := by rw [← A.pInput]; exact hk
    simp only [asCircuit]
    rw [driver_pInput s hk, h.pInput t k hk, A.pInput]
  · rw [A.inputBase]
    have hk : k < s.gInput := by rw [← A.gInput]; exact hk
    simp only [asCircuit]
    rw [A.pInput, driver_gInput s hk, h.gInput t k hk, A.gInput]
  · rw [A.inputBase]
    have hk : k < s.eInput := by rw [← A.eInput]; exact hk
    simp only [asCircuit]
    rw [A.pInput, A.gInput, driver_eInput s hk, h.eInput t k hk, A.eInput]
  · have hi : i < c.dffs.length := hi
    have hi' : i < s.dffs.length := by rw [← A.dffs]; exact hi
    rw [A.ffBase, driver_dff s hi', h.ffInit _ (List.getElem_mem _)]
    have e : (asCircuit c).I i = c.dffs[i].input1 := by simp [asCircuit, List.getElem?_eq_getElem hi]
    rw [e]
    exact (A.initial h (fullTable_entry s _ _ (A.dff i hi' hi).2.1) (L.inits _ (List.getElem_mem _))).symm
  · have hi : i < c.dffs.length := hi
    have hi' : i < s.dffs.length := by rw [← A.dffs]; exact hi
    rw [A.ffBase, driver_dff s hi', h.ffNext t _ (List.getElem_mem _)]
    have e : (asCircuit c).D i = c.dffs[i].input0 := by simp [asCircuit, List.getElem?_eq_getElem hi]
    rw [e]
    exact ((fullTable_entry s _ _ (A.dff i hi' hi).1).value h t).symm
  · have hi : i < c.gates.length := hi
    have hi' : i < s.gates.length := by rw [← A.gates]; exact hi
    rw [A.gateBase, driver_gate s hi', h.gate t _ (List.getElem_mem _)]
    have e : (asCircuit c).gate i = ⟨c.gates[i].input0, c.gates[i].input1, c.gates[i].type⟩ := by
      simp [asCircuit, List.getElem?_eq_getElem hi]
    rw [e]
    obtain ⟨h0, h1, _, h3⟩ := A.gate i hi' hi
    rw [(fullTable_entry s _ _ h0).value h t, (fullTable_entry s _ _ h1).value h t, h3]

theorem Assigned.operandsExist : OperandsExist c := by
  intro g hg
  obtain ⟨i, hi, rfl⟩ := List.getElem_of_mem hg
  have hi' : i < s.gates.length := by rw [← A.gates]; exact hi
  obtain ⟨h0, h1, _, _⟩ := A.gate i hi' hi
  rw [A.wireCount]
  exact ⟨(fullTable_entry s _ _ h0).lt.1, (fullTable_entry s _ _ h1).lt.1⟩

theorem Assigned.readable (L : Legal s) {n : Name} {w : Int} (e : Entry s n w) (hr : Read s n) :
    Readable (asCircuit c) (Spec.wireCount c) w := by
  unfold Readable
  rw [A.initSize, A.wireCount]
  by_cases hw : w < 0
  · exact Or.inl hw
  rcases e with ⟨i, rfl, hi, e⟩ | ⟨rfl, e⟩ | ⟨rfl, e⟩ | ⟨rfl, e⟩
  · right
    refine ⟨?_, by omega⟩
    by_contra hlt
    exact L.reads n hr _ (initBit_driver (by omega)) e
  · omega
  · omega
  · omega

theorem Assigned.dffWF (L : Legal s) : ∀ g ∈ c.dffs, Readable (asCircuit c) (Spec.wireCount c) g.input0
    ∧ g.input1 < (Spec.wireCount c : Int) ∧ 0 ≤ g.output ∧ g.output < (Spec.wireCount c : Int) := by
  intro g hg
  obtain ⟨i, hi, rfl⟩ := List.getElem_of_mem hg
  have hi' : i < s.dffs.length := by rw [← A.dffs]; exact hi
  obtain ⟨h0, h1, h2, _⟩ := A.dff i hi' hi
  have hm := List.getElem_mem hi'
  refine ⟨A.readable L (fullTable_entry s _ _ h0) (Or.inr (Or.inl ⟨_, hm, rfl⟩)), ?_, ?_, ?_⟩
  · rw [A.wireCount]; exact (fullTable_entry s _ _ h1).lt.1
  · rcases fullTable_entry s _ _ h2 with ⟨i, e, _⟩ | ⟨e, h⟩ | ⟨e, h⟩ | ⟨e, h⟩
    · omega
    · exact absurd h (L.driven _ hm _ (Or.inl rfl))
    · exact absurd h (L.driven _ hm _ (Or.inr (Or.inl rfl)))
    · exact absurd h (L.driven _ hm _ (Or.inr (Or.inr rfl)))
  · rw [A.wireCount]; exact (fullTable_entry s _ _ h2).lt.1

theorem Assigned.outEntry {j : Nat} (hj : j < c.outputs.length) : Entry s (outputBit j) c.outputs[j] := by
  obtain ⟨n, e, h⟩ := A.output j hj
  have e := fullTable_entry s _ _ e
  rcases h with rfl | ⟨hs, rfl | rfl⟩
  · exact e
  · have hj' := hj
    rw [A.outputs] at hj'
    have : j = 0 := by omega
    subst this
    exact e
  · have hj' := hj
    rw [A.outputs] at hj'
    have : j = 0 := by omega
    subst this
    refine e.trans (Relation.EqvGen.rel _ _ (Or.inr ⟨(outName, s.outputSize), by simp [ports], hs, rfl, rfl⟩))

theorem Assigned.termEntry (ht : s.hasTerminate = true) : Entry s terminateName c.terminateId ∧ c.terminateId ≠ 0 := by
  have := A.term
  rw [if_pos ht] at this
  exact ⟨fullTable_entry s _ _ this.1, this.2⟩

/-- If the netlist can be sorted, it is well-formed. -/
theorem Assigned.netlistWF (L : Legal s) (h0 : 0 < c.iid) (hsz : c.gates.length < 2 ^ 32 - 1) {c' : ReadCircuit}
    (hs : sortNetlist c = some (some c')) : NetlistWF c := by
  have hop := A.operandsExist
  have ha : Acyclic c := by
    by_contra hc
    rw [C29_cyclic_rejected hop hc] at hs
    simp at hs
  have hd := A.dffWF L
  have hneg : ¬ ((∃ w ∈ c.outputs, w < 0) ∨ c.terminateId < 0) := by
    intro hn
    rw [C29_constant_output h0 ha hop (fun g hg => ?_) hn] at hs
    · cases hs
    · obtain ⟨h1, h2, h3, h4⟩ := hd g hg
      refine ⟨?_, h2, h3, h4⟩
      rcases h1 with h1 | h1
      · have : (0 : Int) ≤ (Spec.wireCount c : Int) := by omega
        omega
      · exact h1.2
  have hneg1 : ∀ w ∈ c.outputs, 0 ≤ w := fun w hw => by
    by_contra hc; exact hneg (Or.inl ⟨w, hw, by omega⟩)
  have hneg2 : 0 ≤ c.terminateId := by
    by_contra hc; exact hneg (Or.inr (by omega))
  refine ⟨h0, ha, ?_, hd, ?_, ?_, hsz⟩
  · intro g hg
    obtain ⟨i, hi, rfl⟩ := List.getElem_of_mem hg
    have hi' : i < s.gates.length := by rw [← A.gates]; exact hi
    obtain ⟨h0, h1, _, h3⟩ := A.gate i hi' hi
    have hm := List.getElem_mem hi'
    refine ⟨A.readable L (fullTable_entry s _ _ h0) (Or.inl ⟨_, hm, Or.inl rfl⟩),
      A.readable L (fullTable_entry s _ _ h1) (Or.inl ⟨_, hm, Or.inr rfl⟩), ?_⟩
    rw [h3]
    exact L.types _ hm
  · intro w hw
    have h1 := hneg1 w hw
    obtain ⟨j, hj, rfl⟩ := List.getElem_of_mem hw
    have := A.readable L (A.outEntry hj) (Or.inr (Or.inr (Or.inl ⟨j, by rw [← A.outputs]; exact hj, rfl⟩)))
    rcases this with this | this
    · omega
    · exact this
  · have h := A.term
    by_cases ht : s.hasTerminate = true
    · have := A.readable L (A.termEntry ht).1 (Or.inr (Or.inr (Or.inr ⟨ht, rfl⟩)))
      rcases this with this | this
      · omega
      · exact Or.inr this
    · rw [if_neg ht] at h
      exact Or.inl h

theorem Assigned.fits (hw : drivers s < 2 ^ 31) (ho : s.outputSize < 2 ^ 64) : Fits c := by
  refine ⟨by rw [A.wireCount]; exact hw, by rw [A.outputs]; exact ho, fun g hg => ?_, fun g hg => ?_⟩
  · obtain ⟨i, hi, rfl⟩ := List.getElem_of_mem hg
    have hi' : i < s.gates.length := by rw [← A.gates]; exact hi
    obtain ⟨h0, h1, _, h3⟩ := A.gate i hi' hi
    have a := (fullTable_entry s _ _ h0).lt.2
    have b := (fullTable_entry s _ _ h1).lt.2
    constructor <;> omega
  · obtain ⟨i, hi, rfl⟩ := List.getElem_of_mem hg
    have hi' : i < s.dffs.length := by rw [← A.dffs]; exact hi
    obtain ⟨h0, h1, _, h3⟩ := A.dff i hi' hi
    have a := (fullTable_entry s _ _ h0).lt.2
    have b := (fullTable_entry s _ _ h1).lt.2
    constructor <;> omega

theorem Assigned.stopAt {x : Inputs} {v : Nat → Name → Bool} (h : NamedSolves s x v) (hnn : 0 ≤ c.terminateId) (T k : Nat) :
    StopAt (asCircuit c) T (fun t w => v t (driver s w)) k ↔ NamedStopAt s T v k := by
  unfold StopAt NamedStopAt
  by_cases ht : s.hasTerminate = true
  · obtain ⟨e, hne⟩ := A.termEntry ht
    have hpos : 0 < (asCircuit c).terminateId := by simp only [asCircuit]; omega
    have hv := e.value h k
    unfold Spec.operand at hv
    rw [if_neg (by omega), if_neg (by omega)] at hv
    have hv' : v k (driver s (asCircuit c).terminateId) = v k "terminate".toList := hv
    simp only [hv', hpos, ht, true_and]
  · have hz := A.term
    rw [if_neg ht] at hz
    have : (asCircuit c).terminateId = 0 := by simp only [asCircuit]; rw [hz]; rfl
    simp [this, ht]

end

/-- The parts of a successful compilation. -/
theorem compile_some {s : CircuitStr} {file : List Char} (h : compile s = some (some file)) :
    ∃ c c', idAssignment true s = some c ∧ sortNetlist c = some (some c') ∧ writeScd c' = some file := by
  unfold compile at h
  split at h
  · cases h
  · rename_i c hc
    rw [Option.bind_eq_bind, Option.bind_eq_some_iff] at h
    obtain ⟨r, hr, h⟩ := h
    cases r with
    | none => simp at h
    | some c' =>
      simp only [Option.bind_eq_bind, Option.bind_eq_some_iff] at h
      obtain ⟨f, hf, e⟩ := h
      obtain rfl : f = file := by simpa using e
      exact ⟨c, c', hc, hr, hf⟩

end TinyGarble.Proof
