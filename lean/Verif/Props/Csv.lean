import Verif.Proof.Csv

/-!
# C90: the file with the values of the wires
-/

namespace TinyGarble.Props
open TinyGarble Spec Proof

/-- C90, what the file contains, for every compiled netlist: the values that the netlist gives to the outputs of its cells, one line for each cycle before
the first one in which the circuit terminates, without the cells that the mapping file lists behind a cell called `terminate`. -/
theorem C90_written {s : CircuitStr} {file : List Char} (L : Legal s) (O : OneDriver s) (h : compile s = some (some file))
    (h0 : 0 < drivers s - s.gates.length) (hw : drivers s < 2 ^ 31) (ho : s.outputSize < 2 ^ 64) (hc : CleanNames s) :
    ∃ (map : List Char) (names : List Name), compileMap s = some (some map) ∧ (∀ n, CellOutput s n ↔ n ∈ names)
      ∧ ∀ mem x v, NamedSolves s x v → ∀ w0 n T, ∃ r, CyclesBefore s T v n r
        ∧ csvFile (readScd file mem) x w0 n T map = some (if r = 0 then []
          else csvTable (names.takeWhile (· ≠ "terminate".toList)) r v) := by
  obtain ⟨entries, term, hmap, hnum, hout, -, -, hval⟩ := C65_mapping L O h h0 hw ho
  refine ⟨_, entries.map (·.1), hmap, hout, fun mem x v hv w0 n T => ?_⟩
  have hclean : ∀ e ∈ entries, Clean e.1 := fun e he => hc e.1 ((hout e.1).2 (List.mem_map.2 ⟨e, he, rfl⟩))
  have hws := compiled_wireSize L h h0 hw ho mem
  have hlt : ∀ e ∈ entries, e.2 < (readScd file mem).wireSize := by
    intro e he
    have : e.2 ∈ entries.map (·.2) := List.mem_map.2 ⟨e, he, rfl⟩
    rw [hnum, List.mem_range'_1] at this
    rw [hws, drivers_eq s]
    have hcb : cellBase s = s.pInit + s.gInit + s.eInit + s.pInput + s.gInput + s.eInput := rfl
    omega
  obtain ⟨wf, -⟩ := (compiled_read L h h0 hw ho).1 mem
  have hpl := plainWires_solves wf x w0
  have hu := fun t => (hval mem x v _ hv hpl t).1
  have hvals := fun t => values_entries hclean hlt (by rw [hws]; omega) term (plainWires (readScd file mem) x w0 t) (v t) (hu t)
  obtain ⟨he, -, -⟩ := C49_compiled_partial L h h0 hw ho mem x v hv w0 (n + 1) T
  have hgt := plainLoop_gt (readScd file mem) x T n 0 w0 0
  have hloop := csvLoop_eq (T := T) (names_entries hclean term) hvals n 0 0
  have hfile : csvFile (readScd file mem) x w0 n T (mappingText entries term)
      = csvLoop (readScd file mem) x T ((entries ++ [("terminate".toList, term)]).map mapEntry) n 0 (wiresBefore (readScd file mem) x w0 0) := by
    unfold csvFile
    rw [mapping_lines hclean]
    rfl
  have hwb : wiresBefore (readScd file mem) x w0 0 = w0 := rfl
  rw [hfile, hloop, hwb]
  have hev : (evaluatePlaintext (readScd file mem) x w0 (n + 1) T).2 = (plainLoop (readScd file mem) x T (n + 1) 0 w0 0).2 := rfl
  rw [hev] at he
  generalize (plainLoop (readScd file mem) x T (n + 1) 0 w0 0).2 = m at he hgt
  obtain ⟨r, rfl⟩ : ∃ r, m = r + 1 := ⟨m - 1, by omega⟩
  refine ⟨r, ⟨?_, ?_, ?_⟩, ?_⟩
  · have := he.le
    omega
  · intro hr
    obtain ⟨k, e, hk⟩ := he.last (by omega)
    obtain rfl : r = k := by omega
    exact hk
  · exact fun k hk => he.before k (by omega)
  · congr 1
    rw [show r + 1 - 1 - 0 = r from by omega]
    split
    · rename_i hr
      subst hr
      rfl
    · rename_i hr
      obtain ⟨r', rfl⟩ : ∃ r', r = r' + 1 := ⟨r - 1, by omega⟩
      unfold csvTable
      generalize (entries.map (·.1)).takeWhile (· ≠ "terminate".toList) = names
      rw [List.range_eq_range', List.range'_succ, List.flatMap_cons, List.flatMap_cons, if_pos rfl]
      have et : ∀ t ∈ List.range' (0 + 1) r', (if t = 0 then "cid, ".toList ++ names.flatMap (· ++ ['\t']) ++ ['\n'] else []) ++
          (printNat t ++ ", ".toList ++ (names.map (v t)).flatMap (fun b => if b then "1, ".toList else "0, ".toList) ++ ['\n'])
          = printNat t ++ ", ".toList ++ (names.map (v t)).flatMap (fun b => if b then "1, ".toList else "0, ".toList) ++ ['\n'] := by
        intro t ht
        rw [List.mem_range'_1] at ht
        rw [if_neg (by omega), List.nil_append]
      rw [List.flatMap_congr et]
      simp only [List.append_assoc]

/-- C90: if the program does not stop early and no cell is called `terminate`, the file is the table of all cells and all cycles. Missing: other circuits
(`C90_false_last_cycle`, `C90_false_cells`). -/
theorem C90_table_partial {s : CircuitStr} {file : List Char} (L : Legal s) (O : OneDriver s) (h : compile s = some (some file))
    (h0 : 0 < drivers s - s.gates.length) (hw : drivers s < 2 ^ 31) (ho : s.outputSize < 2 ^ 64) (hc : CleanNames s)
    (hterm : ¬ CellOutput s "terminate".toList) :
    ∃ (map : List Char) (names : List Name), compileMap s = some (some map) ∧ (∀ n, CellOutput s n ↔ n ∈ names)
      ∧ ∀ mem x v, NamedSolves s x v → ∀ w0 n T, 0 < n → (∀ k < n, ¬ NamedStopAt s T v k) →
        csvFile (readScd file mem) x w0 n T map = some (csvTable names n v) := by
  obtain ⟨map, names, hm, hn, hf⟩ := C90_written L O h h0 hw ho hc
  refine ⟨map, names, hm, hn, fun mem x v hv w0 n T hpos hstop => ?_⟩
  obtain ⟨r, hr, e⟩ := hf mem x v hv w0 n T
  obtain rfl : r = n := by
    have := hr.le
    by_contra hne
    exact hstop r (by omega) (hr.stop (by omega))
  rw [e, if_neg (by omega), List.takeWhile_eq_self_iff.2]
  intro n' hn'
  rw [decide_eq_true_iff]
  rintro rfl
  exact hterm ((hn _).2 hn')

/-- C90 for Verilog modules: the table contains every net that a cell drives, with its value in the module. -/
theorem C90_verilog_partial {items : List Item} (P : ProperModule items) {text : List Char} (hf : WrittenIn items text)
    (hm : NoMidNames items) (L : VLegal items) (O : VOneDriver items) (S : VSizes items) {scd : List Char}
    (h : verilog2Scd text = some (some scd)) (hterm : ¬ VOutput items "terminate".toList) :
    ∃ (map : List Char) (names : List Name), verilog2Map text = some (some map) ∧ (∀ n, VOutput items n → n ∈ names)
      ∧ ∀ mem x v, VerilogSolves items x v → ∃ u : Nat → Name → Bool, (∀ t n, ¬ MidName n → u t n = v t n)
        ∧ ∀ w0 n T, 0 < n → (∀ k < n, ¬ NamedStopAt (frame items) T v k) →
          csvFile (readScd scd mem) x w0 n T map = some (csvTable names n u) := by
  have hcmp : compile (moduleNet items) = some (some scd) := by
    unfold verilog2Scd at h
    rw [module_parsed true P.each hf, applies_eq P] at h
    exact h
  obtain ⟨h0, hw⟩ := S.nets
  have ho : (moduleNet items).outputSize < 2 ^ 64 := Nat.lt_trans (width_le P "o") (by decide)
  obtain ⟨map, names, e1, e2, e3⟩ := C90_table_partial (legal_of_verilog P hm L) (oneDriver_of_verilog P hm O) hcmp h0 hw ho
    (verilog_clean P hf) (by
      intro hc
      rcases output_cell P hc with hc | hc
      · exact not_mid (n := "terminate".toList) (by decide) hc
      · exact hterm hc)
  refine ⟨map, names, ?_, fun n hn => (e2 n).1 ?_, fun mem x v hv => ⟨fun t => Proof.extend items (v t), fun t n hn => extend_user items (v t) hn, ?_⟩⟩
  · unfold verilog2Map
    rw [module_parsed true P.each hf, applies_eq P]
    exact e1
  · exact cell_output hn
  · intro w0 n T hpos hs
    refine e3 mem x _ (named_of_verilog P hm hv) w0 n T hpos fun k hk hst => hs k hk ?_
    have := extend_user items (v k) (not_mid (n := "terminate".toList) (by decide))
    unfold NamedStopAt at hst ⊢
    dsimp only at hst
    rw [this] at hst
    exact hst

/-- The hypotheses are met by the example module (one flip-flop, four gates) and all inputs. -/
example : ∃ scd, ProperModule verilogItems ∧ WrittenIn verilogItems verilogText ∧ NoMidNames verilogItems ∧ VLegal verilogItems
    ∧ VOneDriver verilogItems ∧ VSizes verilogItems ∧ verilog2Scd verilogText = some (some scd) ∧ ¬ VOutput verilogItems "terminate".toList
    ∧ ∀ x, ∃ v, VerilogSolves verilogItems x v ∧ ∀ n, ∀ k < n, ¬ NamedStopAt (frame verilogItems) 0 v k := by
  obtain ⟨scd, h1, -⟩ := verilogText_file
  refine ⟨scd, verilogItems_proper, verilogItems_written, verilogItems_noMid, verilogItems_legal, verilogItems_oneDriver, verilogItems_sizes, h1, ?_, fun x => ?_⟩
  · rw [verilogItems_output]
    decide
  · obtain ⟨v, hv⟩ := C51_meaning verilogItems_proper verilogItems_written verilogItems_noMid verilogItems_legal
      verilogItems_oneDriver verilogItems_sizes h1 x
    exact ⟨v, hv, fun n k _ h => h.1 rfl⟩

/-- C90 fails for the cycle in which the circuit terminates: the file has no line for it. -/
theorem C90_false_last_cycle {s : CircuitStr} {file : List Char} (L : Legal s) (O : OneDriver s) (h : compile s = some (some file))
    (h0 : 0 < drivers s - s.gates.length) (hw : drivers s < 2 ^ 31) (ho : s.outputSize < 2 ^ 64) (hc : CleanNames s)
    (mem : Circuit) {x : Inputs} {v : Nat → Name → Bool} (hv : NamedSolves s x v) (w0 : Nat → Bool) {n k T : Nat} (hk : k < n)
    (hs : NamedStopAt s T v k) (hb : ∀ j < k, ¬ NamedStopAt s T v j) :
    (evaluatePlaintext (readScd file mem) x w0 n T).2 = k + 1
    ∧ ∃ map names, compileMap s = some (some map)
      ∧ csvFile (readScd file mem) x w0 n T map = some (if k = 0 then [] else csvTable names k v) := by
  refine ⟨?_, ?_⟩
  · obtain ⟨he, -, -⟩ := C49_compiled_partial L h h0 hw ho mem x v hv w0 n T
    generalize (evaluatePlaintext (readScd file mem) x w0 n T).2 = m at he
    have h1 : ¬ k + 1 < m := fun hlt => he.before k hlt hs
    have h2 : ¬ m < k + 1 := by
      intro hlt
      obtain ⟨j, e, hj⟩ := he.last (by omega)
      exact hb j (by omega) hj
    omega
  · obtain ⟨map, names, e1, -, e3⟩ := C90_written L O h h0 hw ho hc
    obtain ⟨r, hr, e⟩ := e3 mem x v hv w0 n T
    obtain rfl : r = k := by
      have h1 : ¬ k < r := fun hlt => hr.before k hlt hs
      have h2 : ¬ r < k := fun hlt => hb r hlt (hr.stop (by omega))
      omega
    exact ⟨map, _, e1, e⟩

/-- The hypotheses are met: the example terminates in the first cycle if Bob's bit is 0. -/
example : ∃ file v, compile namedExample = some (some file) ∧ CleanNames namedExample ∧ NamedSolves namedExample ⟨0, 0, 0, 0, 0, 0⟩ v
    ∧ NamedStopAt namedExample 1 v 0 := by
  obtain ⟨file, h⟩ := namedExample_compiles
  obtain ⟨v, hv⟩ := C49_meaning_partial namedExample_legal namedExample_oneDriver h (by decide) (by decide) ⟨0, 0, 0, 0, 0, 0⟩
  refine ⟨file, v, h, ?_, hv, by decide, rfl, rfl, ?_⟩
  · intro n hn
    have : n ∈ ["q".toList, "n3".toList, "n4".toList, "n5".toList] := by simpa [CellOutput, namedExample] using hn
    clear hn
    revert n
    decide +kernel
  · have g1 := hv.gate 0 ⟨"e_input[0]".toList, "q".toList, "n4".toList, 6⟩ (List.mem_cons_of_mem _ List.mem_cons_self)
    have g2 := hv.gate 0 ⟨"n4".toList, [], "n5".toList, 12⟩ (List.mem_cons_of_mem _ (List.mem_cons_of_mem _ List.mem_cons_self))
    have g3 := hv.ffInit ⟨"n3".toList, "1'b0".toList, "q".toList, -1⟩ List.mem_cons_self
    have g4 := hv.eInput 0 0 (by decide)
    rw [show indexName eInputName 0 = "e_input[0]".toList from by decide +kernel] at g4
    rw [hv.joined 0 "terminate".toList "n5".toList (.inl (by decide)), g2]
    simp only
    rw [g1]
    simp only
    rw [g3, g4]
    simp only
    rw [hv.zero]
    have : Nat.testBit 0 (0 * namedExample.eInput + 0) = false := by decide
    rw [this]
    generalize v 0 [] = b
    revert b
    decide

/-- The file for a circuit of two gates; the first one drives `terminate`. -/
def csvExample : CircuitStr :=
  { CircuitStr.empty with
    gInput := 1, eInput := 1, outputSize := 1, hasTerminate := true
    gates := [⟨"g_input".toList, "e_input".toList, "terminate".toList, 8⟩, ⟨"terminate".toList, "g_input".toList, "o".toList, 6⟩] }

def csvNumbered : ReadCircuit := ⟨0, 0, 0, 0, 1, 1, [⟨0, 1, 2, 8⟩, ⟨2, 0, 3, 6⟩], [], [3], 2, []⟩

def csvSorted : ReadCircuit := { csvNumbered with schedule := [0, 1] }

theorem csvExample_sorted : sortNetlist csvNumbered = some (some csvSorted) := by
  have h : topologicalSort csvNumbered = some (some [0, 1, 2, 3]) := by
    unfold topologicalSort
    have e : ∃ m, sortLoopN csvNumbered 20 ⟨(List.range (csvNumbered.iid + csvNumbered.gates.length)).map fun i =>
        if i < csvNumbered.iid then Mark.per else Mark.un, (List.range csvNumbered.iid).map fun i : Nat => (i : Int)⟩
        = some (.ok ⟨m, [0, 1, 2, 3]⟩) := ⟨List.replicate 4 .per, by rfl⟩
    obtain ⟨m, e⟩ := e
    have := sortLoopN_sound _ _ _ _ e
    simp only [Option.bind_eq_bind]
    rw [this]
    rfl
  unfold sortNetlist
  rw [h]
  decide +kernel

/-- C90 fails for the cells that follow the driver of the terminate signal: the file for one cycle has no values at all, although there are two gates. -/
theorem C90_false_cells (mem : Circuit) (x : Inputs) (w0 : Nat → Bool) :
    CellOutput csvExample "o".toList ∧ ∃ scd map, compile csvExample = some (some scd) ∧ compileMap csvExample = some (some map)
      ∧ csvFile (readScd scd mem) x w0 1 0 map = some "cid, \n0, \n".toList := by
  have hid : idAssignment true csvExample = some csvNumbered := by decide +kernel
  have hw : Writable csvSorted := by constructor <;> decide
  obtain ⟨scd, h2, h3⟩ := C27_roundtrip_partial hw
  refine ⟨.inr ⟨_, List.mem_cons_of_mem _ (List.mem_singleton.2 rfl), rfl⟩, scd, "terminate 2\no 3\nterminate 2\n".toList, ?_, ?_, ?_⟩
  · unfold compile
    rw [hid]
    simp [csvExample_sorted, h2]
  · unfold compileMap
    rw [hid]
    have : writeMapping csvExample csvSorted = some "terminate 2\no 3\nterminate 2\n".toList := by decide +kernel
    generalize "terminate 2\no 3\nterminate 2\n".toList = map at this
    simp only [Option.bind_eq_bind]
    rw [csvExample_sorted, Option.bind_some]
    simp only
    rw [this]
    rfl
  · unfold csvFile
    rw [show getLines "terminate 2\no 3\nterminate 2\n".toList = ["terminate 2".toList, "o 3".toList, "terminate 2".toList] from by decide +kernel]
    have hn : csvNames ["terminate 2".toList, "o 3".toList, "terminate 2".toList] = some [] := by decide +kernel
    have hv : ∀ ws w, csvValues ws w ["terminate 2".toList, "o 3".toList, "terminate 2".toList] = some [] := by
      intro ws w
      rw [csvValues, show blankPieces [] "terminate 2".toList = ["terminate".toList, "2".toList] from by decide +kernel]
      exact if_pos rfl
    rw [csvLoop, if_neg (fun h => h.1 rfl), if_pos rfl, hn, hv, csvLoop]
    have hp : printNat 0 = "0".toList := by decide +kernel
    rw [hp]
    rfl

end TinyGarble.Props
