import Verif.Proof.VerilogErrors
import Verif.Props.Verilog

/-!
# C99: Verilog netlists with errors
-/

namespace TinyGarble.Props
open TinyGarble TinyGarble.Spec TinyGarble.Proof

/-- C99: a text whose first statement with an error is `bad` is refused, whatever comes after it; without logging, errors in declarations only. -/
theorem C99_refused (log : Bool) {items : List Item} (h : ∀ i ∈ items, i.Proper) {bad : Item} (hb : bad.Formed) (hw : bad.Wrong)
    (hl : log = false → ∀ c, bad ≠ .cell c) {file : List Char} (hf : ReachesIn items bad file) : parseNetlist log file = some none :=
  wrong_refused log h hb hw hl hf

/-- C99, modules of known cells: the module is read exactly if no statement has an error, otherwise FAILURE is returned; with an error there is no
circuit file. -/
theorem C99_accepted_iff_partial {items : List Item} (h : ∀ i ∈ items, i.Formed) {file : List Char} (hf : WrittenIn items file) :
    ((∃ s, parseNetlist true file = some (some s)) ↔ ∀ i ∈ items, ¬ i.Wrong)
    ∧ (parseNetlist true file = some none ↔ ∃ i ∈ items, i.Wrong)
    ∧ ((∃ i ∈ items, i.Wrong) → verilog2Scd file = some none) := by
  have bad : (∃ i ∈ items, i.Wrong) → parseNetlist true file = some none := by
    intro hw
    obtain ⟨l, bad, r, rfl, hb, hl⟩ := first_wrong hw
    obtain ⟨rest, e⟩ := hf
    refine C99_refused true (items := l) (fun i hi => proper_of_formed (h i (by simp [hi])) (hl i hi)) (h bad (by simp)) hb
      (fun h => nomatch h) ⟨itemsWords r ++ "endmodule".toList :: rest, ?_⟩
    rw [e]
    simp [itemsWords]
  have good : (∀ i ∈ items, ¬ i.Wrong) → ∃ s, parseNetlist true file = some (some s) :=
    fun hw => ⟨_, module_parsed true (fun i hi => proper_of_formed (h i hi) (hw i hi)) hf⟩
  refine ⟨⟨fun ⟨s, e⟩ i hi hw => ?_, good⟩, ⟨fun e => ?_, bad⟩, fun hw => ?_⟩
  · rw [bad ⟨i, hi, hw⟩] at e; cases e
  · by_cases hw : ∃ i ∈ items, i.Wrong
    · exact hw
    · obtain ⟨s, e'⟩ := good fun i hi h => hw ⟨i, hi, h⟩
      rw [e'] at e; cases e
  · unfold verilog2Scd
    rw [bad hw]

/-- C99, for all texts: nothing is read without the word `endmodule`. -/
theorem C99_endmodule {log : Bool} {file : List Char} {s : CircuitStr} (h : parseNetlist log file = some (some s)) :
    "endmodule".toList ∈ lexemes file := by
  unfold parseNetlist at h
  rw [parseLines_lexemes log _ file _ rfl] at h
  refine endmodule_of_tokens (log := log) (p := .start .empty) (s := s) ?_
  revert h
  cases parseTokens log (.start .empty) (lexemes file) with
  | next p => cases log <;> exact fun h => nomatch h
  | endmodule s' => intro h; simp only [Option.some.injEq] at h; rw [h]
  | failure => exact fun h => nomatch h
  | undef => exact fun h => nomatch h

/-- C99: proper statements, but no `endmodule`: FAILURE with logging; without logging the program does not end. -/
theorem C99_no_endmodule {items : List Item} (h : ∀ i ∈ items, i.Proper) {file : List Char} (hf : lexemes file = itemsWords items) :
    parseNetlist true file = some none ∧ parseNetlist false file = none := by
  have key : ∀ log, parseTokens log (.start CircuitStr.empty) (lexemes file) = .next (.start (applyItems CircuitStr.empty items)) := by
    intro log
    have := items_parsed log items h [] CircuitStr.empty
    rw [List.append_nil] at this
    rw [hf, this]
    rfl
  constructor <;> unfold parseNetlist <;> rw [parseLines_lexemes _ _ file _ rfl, key] <;> rfl

/-- C99, negation, for all modules and all names `w` that are not in the library: a cell `w` at the end of a module is dropped without a message;
the circuit is that of the module without it. -/
theorem C99_false_unknown_cell (log : Bool) {items : List Item} (h : ∀ i ∈ items, i.Proper) {w inst : Name} {conns : List Spec.Conn}
    (hw : ¬ Reserved w) (hi : ¬ Reserved inst) (hc : ∀ k ∈ conns, k.Proper) {file file' : List Char} (hf : WrittenIn items file)
    (hf' : ∃ rest, lexemes file' = itemsWords items ++ (w :: inst :: conns.flatMap Conn.words ++ ";".toList :: "endmodule".toList :: rest)) :
    (∃ s, parseNetlist log file' = some (some s)) ∧ parseNetlist log file' = parseNetlist log file := by
  obtain ⟨rest, e⟩ := hf'
  have : parseNetlist log file' = some (some (applyItems CircuitStr.empty items)) := by
    unfold parseNetlist
    rw [parseLines_lexemes log _ file' _ rfl, e, items_parsed log items h, unknown_parsed log _ hw hi hc]
  exact ⟨⟨_, this⟩, by rw [this, module_parsed log h hf]⟩

/-! ## Examples -/

/-- A carry output, the input `CIN` is not connected. -/
def wrongCell : Item := .cell ⟨.fadder, "U9".toList, [⟨"IN0", ["n1".toList]⟩, ⟨"IN1", ["n2".toList]⟩, ⟨"CIN", []⟩, ⟨"COUT", ["n3".toList]⟩]⟩

theorem wrongCell_wrong : wrongCell.Formed ∧ wrongCell.Wrong :=
  ⟨⟨free_word (by decide +kernel), fun k hk => conn_ok ((by decide +kernel : ∀ k ∈ [(⟨"IN0", ["n1".toList]⟩ : Spec.Conn), ⟨"IN1", ["n2".toList]⟩,
    ⟨"CIN", []⟩, ⟨"COUT", ["n3".toList]⟩], connOk k = true) k hk), by decide +kernel⟩,
    fun h => h.1 "CIN" (by decide) (by decide +kernel)⟩

example : (Item.output (some 1) ["o".toList, "terminate".toList]).Formed ∧ (Item.output (some 1) ["o".toList, "terminate".toList]).Wrong :=
  ⟨⟨by decide, fun n hn => net_word ((by decide +kernel : ∀ n ∈ ["o".toList, "terminate".toList],
    n ≠ [] ∧ n.head? ≠ some '[' ∧ n ∉ reservedWords) n hn)⟩, "terminate".toList, by decide, by decide, fun _ h => nomatch h⟩

/-- A text with an error after the statements of `verilogItems`. -/
def wrongText : List Char := "FADDER U9 ( .IN0(n1), .IN1(n2), .CIN(), .COUT(n3) );
endmodule".toList

example : (∀ i ∈ [wrongCell], i.Formed) ∧ WrittenIn [wrongCell] wrongText ∧ ∃ i ∈ [wrongCell], i.Wrong :=
  ⟨fun _ hi => List.mem_singleton.1 hi ▸ wrongCell_wrong.1, ⟨[], by decide +kernel⟩, _, List.mem_singleton.2 rfl, wrongCell_wrong.2⟩

def verilogHead : List Char := verilogText.take (verilogText.length - 10)

example : (∀ i ∈ verilogItems, i.Proper) ∧ ReachesIn verilogItems wrongCell (verilogHead ++ wrongText) ∧ lexemes verilogHead = itemsWords verilogItems :=
  ⟨verilogItems_proper.each, ⟨["endmodule".toList], by decide +kernel⟩, by decide +kernel⟩

example : ¬ Reserved "NAND3".toList ∧ ∃ rest, lexemes (verilogHead ++ "NAND3 U9 ( .A(n1), .B(n2), .Z(o[3]) ); endmodule".toList)
    = itemsWords verilogItems ++ ("NAND3".toList :: "U9".toList :: [(⟨"A", ["n1".toList]⟩ : Spec.Conn), ⟨"B", ["n2".toList]⟩,
      ⟨"Z", ["o[3]".toList]⟩].flatMap Conn.words ++ ";".toList :: "endmodule".toList :: rest) :=
  ⟨free_word (by decide +kernel), [], by decide +kernel⟩

end TinyGarble.Props
