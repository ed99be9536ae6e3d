import Verif.Props.Main
import Verif.Props.VerilogErrors
import Verif.Props.ScdDamaged
import Verif.Props.BristolFile

/-!
# C89: what the programs do with files that have errors
-/

namespace TinyGarble.Props
open TinyGarble TinyGarble.Spec TinyGarble.Proof

/-- C89: V2SCD_Main exits with FAILURE, and writes no file, when the Bristol netlist is none (C101). -/
theorem C89_refuses_bristol {file : List Char} (h : ¬ ∃ B, BristolAt file B) {writable : List Char → Bool} {fs : Files} {junk0 junk}
    {o : ConvertOptions} (hn : o.netlist = []) (ht : fs o.brist = some file) : convertMain writable fs junk0 junk o = .failure := by
  have hp : parseBrist true file junk0 junk = none := by
    cases e : parseBrist true file junk0 junk with
    | none => rfl
    | some s =>
      obtain ⟨B, hB, _⟩ := (C101_read_iff_partial ..).1 e
      exact absurd ⟨B, hB⟩ h
  unfold convertMain brist2Map
  by_cases hs : o.scd = []
  · rw [if_pos hs]
  rw [if_neg hs, if_neg (not_not.2 hn), ht]
  dsimp only
  rw [hp]
  split <;> rfl

/-- C89: V2SCD_Main exits with FAILURE, and writes no file, when a statement of the Verilog netlist has an error (C99). -/
theorem C89_refuses_verilog_partial {items : List Item} (h : ∀ i ∈ items, i.Formed) {file : List Char} (hf : WrittenIn items file)
    (hw : ∃ i ∈ items, i.Wrong) {writable : List Char → Bool} {fs : Files} {junk0 junk} {o : ConvertOptions} (hn : o.netlist ≠ [])
    (ht : fs o.netlist = some file) : convertMain writable fs junk0 junk o = .failure := by
  have hp := ((C99_accepted_iff_partial h hf).2.1).2 hw
  unfold convertMain verilog2Map
  rw [if_pos hn, ht]
  dsimp only
  rw [hp]
  split <;> rfl

/-- C89 is false for damaged circuit files: whatever the file of a circuit holds, it is opened as a circuit, and if numbers are missing at its end then
which circuit that is depends on what was in memory. -/
theorem C89_false_damaged {ns : List Int} (F : NumbersFit ns) {file : List Char} (h : words file = ns.map printInt)
    (hl : ns.length < 10 ∨ ns.length < numbersExpected ns) {writable : List Char → Bool} {fs : Files} {name : List Char} (hf : fs name = some file)
    (hw : writable name = true) :
    ∃ mem mem' c c', openScd writable fs name mem = some c ∧ openScd writable fs name mem' = some c' ∧ ¬ SameCircuit c c' := by
  obtain ⟨mem, mem', hs⟩ := C47_false_early_end F h hl
  refine ⟨mem, mem', readScd file mem, readScd file mem', ?_, ?_, hs⟩ <;>
  · unfold openScd
    rw [hf, if_pos hw]
    rfl

/-- The hypotheses are met by the file with an OR gate; for those of the other theorems see the examples of C99 and C47. -/
example (writable : List Char → Bool) (junk0 junk) :
    convertMain writable (fun _ => some "1 3\n1 1 1\n2 1 0 1 2 OR\n".toList) junk0 junk ⟨[], "a.txt".toList, "a.scd".toList⟩ = .failure :=
  C89_refuses_bristol bristolWithOr rfl rfl

end TinyGarble.Props
