import Verif.Model.Mapping
import Verif.Props.Verilog

/-! # C65: the mapping file -/

namespace TinyGarble.Props
open TinyGarble.Spec TinyGarble.Proof

/-- The text of a mapping file: a line `name number` for each entry, and the number of the terminate signal. -/
def mappingText (entries : List (Name × Nat)) (term : Nat) : List Char :=
  (entries.map fun e => e.1 ++ [' '] ++ printNat e.2 ++ ['\n']).flatten ++ "terminate ".toList ++ printNat term ++ ['\n']

theorem mapM_map {α β : Type} (f : α → Option β) (g : α → β) (l : List α) (h : ∀ a ∈ l, f a = some (g a)) : l.mapM f = some (l.map g) :=
  mapM_eq f g l h

/-- C65. For a compiled netlist the mapping file lists the flip-flops and gates with consecutive wire numbers, each output of a flip-flop
or gate under its name; in every cycle the wire with that number, in the circuit read back from the circuit file, has the value that
the netlist gives to the name. The last line has the wire of the terminate signal, 0 if there is none. -/
theorem C65_mapping {s : CircuitStr} {file : List Char} (L : Legal s) (O : OneDriver s) (h : compile s = some (some file))
    (h0 : 0 < drivers s - s.gates.length) (hw : drivers s < 2 ^ 31) (ho : s.outputSize < 2 ^ 64) :
    ∃ entries term, compileMap s = some (some (mappingText entries term))
      ∧ entries.map (·.2) = List.range' (s.pInit + s.gInit + s.eInit + s.pInput + s.gInput + s.eInput) (s.dffs.length + s.gates.length)
      ∧ (∀ n, CellOutput s n ↔ n ∈ entries.map (·.1))
      ∧ (s.hasTerminate = false → term = 0) ∧ (s.hasTerminate = true → term ≠ 0)
      ∧ ∀ junk x v u, NamedSolves s x v → Solves (readScd file junk) x u → ∀ t,
          (∀ e ∈ entries, u t e.2 = v t e.1) ∧ (s.hasTerminate = true → u t term = v t "terminate".toList) := by
  obtain ⟨c, c', hc, hs, hf⟩ := compile_some h
  have A := idAssignment_assigned hc
  have hd := drivers_eq s
  have hg := A.gates
  have hiid := A.iid
  have hwc := A.wireCount
  have wf : NetlistWF c := A.netlistWF L (by rw [A.iid]; omega) (by omega) hs
  obtain ⟨order, inv, π, σ, hord, R, e⟩ := sortNetlist_eq wf
  obtain ⟨file', ef, hsame⟩ := C27_roundtrip_partial (R.writable hord wf (A.fits hw ho))
  rw [hs] at e
  obtain rfl : c' = renumbered c order π := by simpa using e
  rw [hf] at ef
  obtain rfl : file = file' := by simpa using ef
  have hcb : cellBase s = s.pInit + s.gInit + s.eInit + s.pInput + s.gInput + s.eInput := rfl
  have hterm0 : 0 ≤ c.terminateId ∧ c.terminateId < (wireCount c : Int) := by
    have := wf.some
    rcases wf.term with e | e
    · rw [e]; exact ⟨Int.le_refl _, by unfold wireCount; omega⟩
    · omega
  have hnt : newRef π c.terminateId = (π c.terminateId.toNat : Int) := by
    unfold newRef; rw [if_neg (by omega)]
  have hπt : π c.terminateId.toNat < drivers s := by rw [← hwc]; exact R.πlt _ (by omega)
  let f : Nat → Name × Nat := fun k => (driver s (σ (cellBase s + k)), cellBase s + k)
  refine ⟨(List.range (s.dffs.length + s.gates.length)).map f, π c.terminateId.toNat, ?_, ?_, ?_, ?_, ?_, ?_⟩
  · unfold compileMap
    rw [hc]
    simp only [Option.bind_eq_bind]
    rw [hs]
    simp only [Option.bind_some]
    unfold writeMapping
    have e1 : (List.range (renumbered c order π).dffs.length).mapM (fun i => do
        let g ← s.dffs[i]?
        let w ← (renumbered c order π).dffs[i]?
        return mapLine g.output (printInt w.output)) =
        some ((List.range s.dffs.length).map fun k => (f k).1 ++ [' '] ++ printNat (f k).2 ++ ['\n']) := by
      have hl : (renumbered c order π).dffs.length = s.dffs.length := by simp [renumbered, A.dffs]
      rw [hl]
      refine mapM_map _ _ _ fun i hi => ?_
      have hi := List.mem_range.mp hi
      have hi' : i < c.dffs.length := by rw [A.dffs]; exact hi
      have hout : c.dffs[i].output = ((cellBase s + i : Nat) : Int) := by
        have e3 := (A.dff i hi hi').2.2.1
        refine Entry.unique O (fullTable_entry s _ _ e3) ?_
        rw [← driver_dff s hi]
        exact Entry.driver (by omega)
      have hfix : σ (cellBase s + i) = cellBase s + i := R.σfix _ (by omega)
      have hpfix : π (cellBase s + i) = cellBase s + i := R.πfix _ (by omega)
      rw [List.getElem?_eq_getElem hi]
      simp only [Option.bind_eq_bind, Option.bind_some, renumbered, List.getElem?_map, List.getElem?_eq_getElem hi', Option.map_some, hout]
      show some (mapLine s.dffs[i].output (printInt (newRef π ((cellBase s + i : Nat) : Int)))) = _
      have : newRef π ((cellBase s + i : Nat) : Int) = ((cellBase s + i : Nat) : Int) := by
        unfold newRef
        rw [if_neg (by omega), Int.toNat_natCast, hpfix]
      rw [this]
      simp only [f, hfix, driver_dff s hi, mapLine, printInt]
      rw [if_neg (by omega), Int.natAbs_natCast]
      simp
    have e2 : (List.range (renumbered c order π).gates.length).mapM (fun i => do
        let gid ← (renumbered c order π).schedule[i]?
        let g ← getI s.gates gid
        let w ← getI (renumbered c order π).gates gid
        return mapLine g.output (printInt w.output)) =
        some ((List.range s.gates.length).map fun k => (f (s.dffs.length + k)).1 ++ [' '] ++ printNat (f (s.dffs.length + k)).2 ++ ['\n']) := by
      have hl : (renumbered c order π).gates.length = s.gates.length := by simp [renumbered, A.gates]
      rw [hl]
      refine mapM_map _ _ _ fun i hi => ?_
      have hi := List.mem_range.mp hi
      have hk : c.iid + i < wireCount c := by unfold wireCount; omega
      have hσ1 := R.σge (w := c.iid + i) (by omega) hk
      have hσ2 := R.σlt _ hk
      have hσ3 := R.πσ _ hk
      obtain ⟨j, hj⟩ : ∃ j, σ (c.iid + i) = c.iid + j := ⟨σ (c.iid + i) - c.iid, by omega⟩
      have hj' : j < c.gates.length := by unfold wireCount at hσ2; omega
      have hj2 : j < s.gates.length := by omega
      have hsch : (renumbered c order π).schedule[i]? = some (j : Int) := by
        simp only [renumbered, List.getElem?_map, List.getElem?_drop]
        rw [R.order _ hk, hj]
        simp only [Option.map_some, Option.some.injEq]
        omega
      rw [hsch]
      simp only [Option.bind_eq_bind, Option.bind_some, getI_nat, List.getElem?_eq_getElem hj2, renumbered, List.getElem?_map]
      rw [List.getElem?_range hj']
      simp only [Option.map_some, Option.bind_some, List.getElem?_eq_getElem hj']
      rw [hj] at hσ3
      rw [hσ3]
      have : σ (cellBase s + (s.dffs.length + i)) = cellBase s + s.dffs.length + j := by
        rw [show cellBase s + (s.dffs.length + i) = c.iid + i from by omega, hj]; omega
      simp only [f, this, driver_gate s hj2, mapLine, printInt]
      rw [if_neg (by omega)]
      simp only [Int.natAbs_natCast, hiid]
      simp [Nat.add_assoc]
    rw [e1, Option.bind_eq_bind, Option.bind_some, e2, Option.bind_some]
    have e3 : printU64 (renumbered c order π).terminateId = printNat (π c.terminateId.toNat) := by
      show printU64 (newRef π c.terminateId) = _
      rw [hnt]
      unfold printU64
      congr 1
      omega
    rw [e3]
    unfold mappingText
    rw [List.range_add]
    simp [mapLine, Function.comp_def]
  · rw [List.map_map, ← hcb]
    refine List.ext_getElem (by simp) fun i h1 h2 => ?_
    simp [f]
  · intro n
    rw [List.map_map, List.mem_map]
    constructor
    · intro hn
      have : ∃ i, cellBase s ≤ i ∧ i < drivers s ∧ n = driver s i := by
        rcases hn with ⟨g, hg, rfl⟩ | ⟨g, hg, rfl⟩
        · obtain ⟨i, hi, rfl⟩ := List.getElem_of_mem hg
          exact ⟨cellBase s + i, by omega, by omega, (driver_dff s hi).symm⟩
        · obtain ⟨i, hi, rfl⟩ := List.getElem_of_mem hg
          exact ⟨cellBase s + s.dffs.length + i, by omega, by omega, (driver_gate s hi).symm⟩
      obtain ⟨i, h1, h2, rfl⟩ := this
      have h3 : cellBase s ≤ π i := by
        by_cases hi : i < c.iid
        · rw [R.πfix i hi]; exact h1
        · have := R.πge (w := i) (by omega) (by omega); omega
      have h4 := R.πlt i (by omega)
      refine ⟨π i - cellBase s, List.mem_range.mpr (by omega), ?_⟩
      show driver s (σ (cellBase s + (π i - cellBase s))) = _
      rw [show cellBase s + (π i - cellBase s) = π i from by omega, R.σπ i (by omega)]
    · rintro ⟨k, hk, rfl⟩
      have hk := List.mem_range.mp hk
      show CellOutput s (driver s (σ (cellBase s + k)))
      have h4 := R.σlt (cellBase s + k) (by omega)
      refine cellOutput_driver s ?_ (by omega)
      by_cases hi : cellBase s + k < c.iid
      · rw [R.σfix _ hi]; omega
      · have := R.σge (w := cellBase s + k) (by omega) (by omega); omega
  · intro ht
    have := A.term
    rw [ht] at this
    rw [show c.terminateId = 0 from this]
    exact R.πfix 0 wf.some
  · intro ht hz
    have := A.term
    rw [if_pos ht] at this
    have h3 := R.σπ c.terminateId.toNat (by omega)
    rw [hz, R.σfix 0 wf.some] at h3
    exact this.2 (by omega)
  · intro junk x v u hv hu t
    have hwf := (hsame junk).wf (R.wf wf)
    have hsol := (hsame junk).solves (R.solves wf x _ (A.solves L hv))
    have hl : (readScd file junk).initSize = inBase s ∧ (readScd file junk).wireSize = drivers s := by
      have hh := hsame junk
      have i1 : (readScd file junk).initSize = inBase s := by
        unfold Circuit.initSize
        rw [hh.pInit, hh.gInit, hh.eInit]
        exact A.initSize
      refine ⟨i1, ?_⟩
      unfold Circuit.wireSize Circuit.inputSize
      rw [i1, hh.pInput, hh.gInput, hh.eInput, hh.dffSize, hh.gateSize]
      simp only [scheduled, asCircuit, renumbered, List.length_map, List.length_range]
      rw [A.pInput, A.gInput, A.eInput, A.dffs, A.gates, hd, hcb]
      unfold inBase
      omega
    have huniq := solves_unique hwf hu hsol t
    rw [hl.1, hl.2] at huniq
    have hib : inBase s ≤ cellBase s := by unfold cellBase; omega
    refine ⟨fun e he => ?_, fun ht => ?_⟩
    · obtain ⟨k, hk, rfl⟩ := List.mem_map.mp he
      have hk := List.mem_range.mp hk
      exact huniq _ (by simp only [f]; omega) (by simp only [f]; omega)
    · obtain ⟨he, hne⟩ := A.termEntry ht
      have hi : inBase s ≤ c.terminateId.toNat := by
        have := wf.term
        rw [A.initSize] at this
        omega
      have hi2 : inBase s ≤ π c.terminateId.toNat := by
        have := R.init_ge (w := c.terminateId.toNat) (by rw [A.initSize]; exact hi) (by omega)
        rw [A.initSize] at this
        exact this
      rw [huniq _ hi2 hπt]
      rw [R.σπ _ (by omega)]
      have hval := he.value hv t
      unfold Spec.operand at hval
      rw [if_neg (by omega), if_neg (by omega)] at hval
      exact hval

/-- C65. The same for Verilog netlists: every line whose name the program has not made up (for the inner gates of multiplexers and full
adders) gives the wire that carries the net. -/
theorem C65_verilog {items : List Item} (P : ProperModule items) {file : List Char} (hf : WrittenIn items file)
    (hm : NoMidNames items) (L : VLegal items) (O : VOneDriver items) (S : VSizes items) {scd : List Char}
    (h : verilog2Scd file = some (some scd)) :
    ∃ entries term, verilog2Map file = some (some (mappingText entries term))
      ∧ ∀ junk x v u, VerilogSolves items x v → Solves (readScd scd junk) x u → ∀ t, ∀ e ∈ entries, ¬ MidName e.1 → u t e.2 = v t e.1 := by
  have hc : compile (moduleNet items) = some (some scd) := by
    unfold verilog2Scd at h
    rw [module_parsed true P.each hf, applies_eq P] at h
    exact h
  obtain ⟨h0, hw⟩ := S.nets
  have ho : (moduleNet items).outputSize < 2 ^ 64 := Nat.lt_trans (width_le P "o") (by decide)
  obtain ⟨entries, term, e, -, -, -, -, hv⟩ :=
    C65_mapping (legal_of_verilog P hm L) (oneDriver_of_verilog P hm O) hc h0 hw ho
  refine ⟨entries, term, ?_, fun junk x v u hvs hu t e he hmid => ?_⟩
  · unfold verilog2Map
    rw [module_parsed true P.each hf, applies_eq P]
    exact e
  · rw [(hv junk x _ u (named_of_verilog P hm hvs) hu t).1 e he]
    exact extend_user items (v t) hmid

/-- The hypotheses hold for a netlist with three gates, and there are values. -/
example : ∃ s file, Legal s ∧ OneDriver s ∧ compile s = some (some file) ∧ 0 < drivers s - s.gates.length
    ∧ drivers s < 2 ^ 31 ∧ s.outputSize < 2 ^ 64 ∧ s.gates.length = 3 ∧ ∀ x, ∃ v, NamedSolves s x v := by
  obtain ⟨file, h⟩ := namedExample_compiles
  exact ⟨_, file, namedExample_legal, namedExample_oneDriver, h, by decide, by decide, by decide, rfl,
    fun x => C49_meaning_partial namedExample_legal namedExample_oneDriver h (by decide) (by decide) x⟩

end TinyGarble.Props
