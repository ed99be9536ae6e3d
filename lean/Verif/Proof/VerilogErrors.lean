import Verif.Proof.VerilogParse
import Verif.Spec.VerilogErrors

/-!
# Errors in Verilog netlists
-/

namespace TinyGarble.Proof
open TinyGarble TinyGarble.Spec

theorem needPort_none {port : Name → Option Name} {q : String} (h : port q.toList = none) : needPort true port q = none := by
  unfold needPort
  rw [h]
  rfl

theorem someOutput_none {port : Name → Option Name} (h1 : port "SUM".toList = none) (h2 : port "COUT".toList = none) :
    someOutput true port = false := by
  unfold someOutput
  rw [h1, h2]
  rfl

theorem ports_net {c : Cell} (hn : (c.conns.map (·.port)).Nodup) {q : String} (hq : keyOf q ≠ []) : cellPorts c q.toList = c.net q := by
  unfold cellPorts Cell.net
  rw [ports_after c.conns hn q hq]
  simp

theorem need_none {c : Cell} (hn : (c.conns.map (·.port)).Nodup) {q : String} (hq : keyOf q ≠ []) (h : c.net q = none) :
    needPort true (cellPorts c) q = none := needPort_none ((ports_net hn hq).trans h)

/-- A semicolon after a cell that is not connected. -/
theorem cell_refused (s : CircuitStr) {c : Cell} (hn : (c.conns.map (·.port)).Nodup) (hc : ¬ c.Connected) (key : Name) :
    parseToken true (cellState s (gateTypeOf c.kind) (cellPorts c) key) ";".toList = .failure := by
  have hc' : (∃ p ∈ c.kind.inputs, c.net p = none) ∨ (c.kind = .dff ∧ c.net "I" = none) ∨ ∀ p ∈ c.kind.outputs, c.net p = none := by
    by_cases h1 : ∃ p ∈ c.kind.inputs, c.net p = none
    · exact .inl h1
    by_cases h2 : c.kind = .dff ∧ c.net "I" = none
    · exact .inr (.inl h2)
    refine .inr (.inr fun p hp => ?_)
    cases e : c.net p with
    | none => rfl
    | some n =>
      exact absurd ⟨fun p hp h => h1 ⟨p, hp, h⟩, fun hk h => h2 ⟨hk, h⟩, p, hp, by rw [e]; exact fun h => nomatch h⟩ hc
  unfold parseToken
  rw [if_pos rfl]
  unfold closeStatement
  obtain ⟨a1, a2, a3, a4, a5, a6, b⟩ := type_facts
  have tf := two_facts
  have N := fun q hq h => need_none (c := c) hn (q := q) hq h
  cases hk : c.kind <;> rw [hk] at hc'
  case dff =>
    have : needPort true (cellPorts c) "D" = none ∨ needPort true (cellPorts c) "I" = none ∨ needPort true (cellPorts c) "Q" = none := by
      rcases hc' with ⟨p, hp, h⟩ | ⟨_, h⟩ | h
      · simp only [CellKind.inputs, List.mem_cons, List.not_mem_nil, or_false] at hp
        subst hp; exact .inl (N _ (by decide) h)
      · exact .inr (.inl (N _ (by decide) h))
      · exact .inr (.inr (N _ (by decide) (h _ (by decide))))
    simp only [cellState, gateTypeOf, a2, b, reduceIte]
    revert this
    cases needPort true (cellPorts c) "D" <;> cases needPort true (cellPorts c) "I" <;> cases needPort true (cellPorts c) "Q" <;> simp
  case mux =>
    have : needPort true (cellPorts c) "IN0" = none ∨ needPort true (cellPorts c) "IN1" = none ∨ needPort true (cellPorts c) "SEL" = none
        ∨ needPort true (cellPorts c) "F" = none := by
      rcases hc' with ⟨p, hp, h⟩ | ⟨h, _⟩ | h
      · simp only [CellKind.inputs, List.mem_cons, List.not_mem_nil, or_false] at hp
        rcases hp with rfl | rfl | rfl
        · exact .inl (N _ (by decide) h)
        · exact .inr (.inl (N _ (by decide) h))
        · exact .inr (.inr (.inl (N _ (by decide) h)))
      · cases h
      · exact .inr (.inr (.inr (N _ (by decide) (h _ (by decide)))))
    simp only [cellState, gateTypeOf, a3, b, reduceIte]
    revert this
    cases needPort true (cellPorts c) "IN0" <;> cases needPort true (cellPorts c) "IN1" <;> cases needPort true (cellPorts c) "SEL" <;>
      cases needPort true (cellPorts c) "F" <;> simp
  case hadder =>
    have : needPort true (cellPorts c) "IN0" = none ∨ needPort true (cellPorts c) "IN1" = none ∨ someOutput true (cellPorts c) = false := by
      rcases hc' with ⟨p, hp, h⟩ | ⟨h, _⟩ | h
      · simp only [CellKind.inputs, List.mem_cons, List.not_mem_nil, or_false] at hp
        rcases hp with rfl | rfl
        · exact .inl (N _ (by decide) h)
        · exact .inr (.inl (N _ (by decide) h))
      · cases h
      · exact .inr (.inr (someOutput_none ((ports_net hn (by decide)).trans (h _ (by decide)))
          ((ports_net hn (by decide)).trans (h _ (by decide)))))
    simp only [cellState, gateTypeOf, a4, b, reduceIte]
    revert this
    cases needPort true (cellPorts c) "IN0" <;> cases needPort true (cellPorts c) "IN1" <;> simp +contextual
  case fadder =>
    have : needPort true (cellPorts c) "IN0" = none ∨ needPort true (cellPorts c) "IN1" = none ∨ needPort true (cellPorts c) "CIN" = none
        ∨ someOutput true (cellPorts c) = false := by
      rcases hc' with ⟨p, hp, h⟩ | ⟨h, _⟩ | h
      · simp only [CellKind.inputs, List.mem_cons, List.not_mem_nil, or_false] at hp
        rcases hp with rfl | rfl | rfl
        · exact .inl (N _ (by decide) h)
        · exact .inr (.inl (N _ (by decide) h))
        · exact .inr (.inr (.inl (N _ (by decide) h)))
      · cases h
      · exact .inr (.inr (.inr (someOutput_none ((ports_net hn (by decide)).trans (h _ (by decide)))
          ((ports_net hn (by decide)).trans (h _ (by decide))))))
    simp only [cellState, gateTypeOf, a5, b, reduceIte]
    revert this
    cases needPort true (cellPorts c) "IN0" <;> cases needPort true (cellPorts c) "IN1" <;> cases needPort true (cellPorts c) "CIN" <;>
      simp +contextual
  case iv =>
    have : needPort true (cellPorts c) "A" = none ∨ needPort true (cellPorts c) "Z" = none := by
      rcases hc' with ⟨p, hp, h⟩ | ⟨h, _⟩ | h
      · simp only [CellKind.inputs, List.mem_cons, List.not_mem_nil, or_false] at hp
        subst hp; exact .inl (N _ (by decide) h)
      · cases h
      · exact .inr (N _ (by decide) (h _ (by decide)))
    simp only [cellState, gateTypeOf, a1, reduceIte]
    revert this
    cases needPort true (cellPorts c) "A" <;> cases needPort true (cellPorts c) "Z" <;> simp
  all_goals
    have : needPort true (cellPorts c) "A" = none ∨ needPort true (cellPorts c) "B" = none ∨ needPort true (cellPorts c) "Z" = none := by
      rcases hc' with ⟨p, hp, h⟩ | ⟨h, _⟩ | h
      · simp only [CellKind.inputs, List.mem_cons, List.not_mem_nil, or_false] at hp
        rcases hp with rfl | rfl
        · exact .inl (N _ (by decide) h)
        · exact .inr (.inl (N _ (by decide) h))
      · cases h
      · exact .inr (.inr (N _ (by decide) (h _ (by decide))))
    simp only [cellState, gateTypeOf, tf, reduceIte]
    revert this
    cases needPort true (cellPorts c) "A" <;> cases needPort true (cellPorts c) "B" <;> cases needPort true (cellPorts c) "Z" <;> simp

theorem cell_wrong (s : CircuitStr) {c : Cell} (h : (Item.cell c).Formed) (hw : (Item.cell c).Wrong) (rest : List Name) :
    parseTokens true (.start s) ((Item.cell c).words ++ ";".toList :: rest) = .failure := by
  obtain ⟨hi, hc, hn⟩ := h
  rw [start_eq]
  obtain ⟨key, e⟩ := conns_parsed true s (gateTypeOf c.kind) c.conns hc (fun _ => none) []
  simp only [Item.words, List.cons_append, parseTokens, word_cell, word_skipped true s _ _ hi]
  rw [parseTokens_append, e]
  simp only [parseTokens]
  rw [show c.conns.foldl portAfter (fun _ => none) = cellPorts c from rfl, cell_refused s hn hw key]

theorem declare_wrong_input (log : Bool) (s : CircuitStr) (b : Nat) {n : Name} (hw : NetWord n) (h1 : n ∉ ["clk".toList, "rst".toList])
    (h2 : ∀ p ∈ inputNames, n ≠ p.toList) : parseToken log (declState s b false) n = .failure := by
  obtain ⟨c1, c2, c3, _⟩ := not_reserved hw.2.2
  simp only [List.mem_cons, List.not_mem_nil, or_false] at h1
  have e1 := h2 "p_init" (by decide)
  have e2 := h2 "g_init" (by decide)
  have e3 := h2 "e_init" (by decide)
  have e4 := h2 "p_input" (by decide)
  have e5 := h2 "g_input" (by decide)
  have e6 := h2 "e_input" (by decide)
  simp only [parseToken, if_neg c1, if_neg c2, if_neg c3, declState, Bool.not_false, reduceIte, inputWord, if_neg hw.2.1, if_neg h1,
    if_neg e1, if_neg e2, if_neg e3, if_neg e4, if_neg e5, if_neg e6]

theorem declare_wrong_output (log : Bool) (s : CircuitStr) (m : Option Nat) {n : Name} (hw : NetWord n) (h1 : n ≠ "o".toList)
    (h2 : n = "terminate".toList → m ≠ none) : parseToken log (declState s (msbBits m) true) n = .failure := by
  obtain ⟨c1, c2, c3, c4, _⟩ := not_reserved hw.2.2
  simp only [parseToken, if_neg c1, if_neg c2, if_neg c3, if_neg c4, declState, Bool.not_true, Bool.false_eq_true, reduceIte, outputWord,
    if_neg hw.2.1, if_neg h1]
  split
  · rename_i h
    cases m with
    | none => exact absurd rfl (h2 h)
    | some k => simp [msbBits]
  · rfl

theorem inputs_wrong (log : Bool) (names : List Name) (m : Option Nat) (hw : ∀ n ∈ names, NetWord n)
    (h : ∃ n ∈ names, n ∉ ["clk".toList, "rst".toList] ∧ ∀ p ∈ inputNames, n ≠ p.toList) (rest : List Name) : ∀ s : CircuitStr,
    parseTokens log (declState s (msbBits m) false) (names ++ rest) = .failure := by
  induction names with
  | nil => obtain ⟨n, hn, _⟩ := h; cases hn
  | cons n names ih =>
    intro s
    rw [List.cons_append, parseTokens]
    by_cases hn : n ∈ ["clk".toList, "rst".toList] ∨ ∃ p ∈ inputNames, n = p.toList
    · rw [declare_input log s m hn]
      refine ih (fun x hx => hw x (List.mem_cons_of_mem _ hx)) ?_ _
      obtain ⟨x, hx, h1, h2⟩ := h
      rcases List.mem_cons.1 hx with rfl | hx
      · rcases hn with hn | ⟨p, hp, e⟩
        · exact absurd hn h1
        · exact absurd e (h2 p hp)
      · exact ⟨x, hx, h1, h2⟩
    · rw [declare_wrong_input log s _ (hw n List.mem_cons_self) (fun e => hn (.inl e)) fun p hp e => hn (.inr ⟨p, hp, e⟩)]

theorem outputs_wrong (log : Bool) (names : List Name) (m : Option Nat) (hw : ∀ n ∈ names, NetWord n)
    (h : ∃ n ∈ names, n ≠ "o".toList ∧ (n = "terminate".toList → m ≠ none)) (rest : List Name) : ∀ s : CircuitStr,
    parseTokens log (declState s (msbBits m) true) (names ++ rest) = .failure := by
  induction names with
  | nil => obtain ⟨n, hn, _⟩ := h; cases hn
  | cons n names ih =>
    intro s
    rw [List.cons_append, parseTokens]
    by_cases hn : n = "o".toList ∨ (n = "terminate".toList ∧ m = none)
    · rw [declare_output log s m hn]
      refine ih (fun x hx => hw x (List.mem_cons_of_mem _ hx)) ?_ _
      obtain ⟨x, hx, h1, h2⟩ := h
      rcases List.mem_cons.1 hx with rfl | hx
      · rcases hn with hn | ⟨e, hm⟩
        · exact absurd hn h1
        · exact absurd hm (h2 e)
      · exact ⟨x, hx, h1, h2⟩
    · rw [declare_wrong_output log s m (hw n List.mem_cons_self) (fun e => hn (.inl e)) fun e hm => hn (.inr ⟨e, hm⟩)]

theorem item_wrong (log : Bool) (s : CircuitStr) {i : Item} (h : i.Formed) (hw : i.Wrong) (hl : log = false → ∀ c, i ≠ .cell c) (rest : List Name) :
    parseTokens log (.start s) (i.words ++ ";".toList :: rest) = .failure := by
  cases i with
  | input m names =>
    have e : parseToken log (.start s) "input".toList = .next (declState s 0 false) := by
      simp [parseToken, ParseState.start, declState]
    simp only [Item.words, List.cons_append, parseTokens, e]
    rw [List.append_assoc, parseTokens_append, range_parsed log s false m h.1]
    exact inputs_wrong log names m h.2 hw _ s
  | output m names =>
    have e : parseToken log (.start s) "output".toList = .next (declState s 0 true) := by
      simp [parseToken, ParseState.start, declState]
    simp only [Item.words, List.cons_append, parseTokens, e]
    rw [List.append_assoc, parseTokens_append, range_parsed log s true m h.1]
    exact outputs_wrong log names m h.2 hw _ s
  | assign a b => exact hw.elim
  | cell c =>
    cases log with
    | false => exact absurd rfl (hl rfl c)
    | true => exact cell_wrong s h hw rest
  | other ws => exact hw.elim

theorem wrong_refused (log : Bool) {items : List Item} (h : ∀ i ∈ items, i.Proper) {bad : Item} (hb : bad.Formed) (hw : bad.Wrong)
    (hl : log = false → ∀ c, bad ≠ .cell c) {file : List Char} (hf : ReachesIn items bad file) : parseNetlist log file = some none := by
  obtain ⟨rest, e⟩ := hf
  unfold parseNetlist
  rw [parseLines_lexemes log _ file _ rfl, e, items_parsed log items h, item_wrong log _ hb hw hl]

theorem done_ne {r : Option CircuitStr} {f : CircuitStr → ParseState} {s : CircuitStr} :
    (match r with
      | none => ParseStep.failure
      | some x => .next (f x)) ≠ .endmodule s := by
  cases r <;> exact fun h => nomatch h

theorem close_ne {log : Bool} {p : ParseState} {s : CircuitStr} : closeStatement log p ≠ .endmodule s := by
  intro h
  unfold closeStatement at h
  dsimp only at h
  by_cases h1 : p.gateType ∈ twoInput
  · rw [if_pos h1] at h; exact done_ne h
  rw [if_neg h1] at h
  by_cases h1 : p.gateType = NOTGATE
  · rw [if_pos h1] at h; exact done_ne h
  rw [if_neg h1] at h
  by_cases h1 : p.gateType = DFFGATE
  · rw [if_pos h1] at h; exact done_ne h
  rw [if_neg h1] at h
  by_cases h1 : p.gateType = MUXGATE
  · rw [if_pos h1] at h; exact done_ne h
  rw [if_neg h1] at h
  by_cases h1 : p.gateType = HADDERGATE
  · rw [if_pos h1] at h; exact done_ne h
  rw [if_neg h1] at h
  by_cases h1 : p.gateType = FADDERGATE
  · rw [if_pos h1] at h; exact done_ne h
  rw [if_neg h1] at h
  cases h

theorem input_ne {p : ParseState} {w : Name} {s : CircuitStr} : inputWord p w ≠ .endmodule s := by
  intro h
  unfold inputWord at h
  repeat' split at h
  all_goals cases h

theorem output_ne {p : ParseState} {w : Name} {s : CircuitStr} : outputWord p w ≠ .endmodule s := by
  intro h
  unfold outputWord at h
  repeat' split at h
  all_goals cases h

/-- A statement without an error. -/
theorem proper_of_formed {i : Item} (h : i.Formed) (hw : ¬ i.Wrong) : i.Proper := by
  cases i with
  | input m names =>
    refine ⟨h.1, fun n hn => ?_⟩
    by_cases h1 : n ∈ ["clk".toList, "rst".toList]
    · exact .inl h1
    by_cases h2 : ∃ p ∈ inputNames, n = p.toList
    · exact .inr h2
    exact absurd ⟨n, hn, h1, fun p hp e => h2 ⟨p, hp, e⟩⟩ hw
  | output m names =>
    refine ⟨h.1, fun n hn => ?_⟩
    by_cases h1 : n = "o".toList
    · exact .inl h1
    by_cases h2 : n = "terminate".toList ∧ m = none
    · exact .inr h2
    exact absurd ⟨n, hn, h1, fun e hm => h2 ⟨e, hm⟩⟩ hw
  | assign a b => exact h
  | cell c =>
    have hc : c.Connected := Classical.not_not.1 hw
    exact ⟨h.1, h.2.1, h.2.2, hc.1, hc.2.1, hc.2.2⟩
  | other ws => exact h

theorem not_wrong_of_proper {i : Item} (h : i.Proper) : ¬ i.Wrong := by
  cases i with
  | input m names =>
    rintro ⟨n, hn, h1, h2⟩
    rcases h.2 n hn with e | ⟨p, hp, e⟩
    · exact h1 e
    · exact h2 p hp e
  | output m names =>
    rintro ⟨n, hn, h1, h2⟩
    rcases h.2 n hn with e | ⟨e, hm⟩
    · exact h1 e
    · exact h2 e hm
  | assign a b => exact id
  | cell c => exact fun hw => hw ⟨h.inputs, h.init, h.outputs⟩
  | other ws => exact id

/-- The first error of a list of statements. -/
theorem first_wrong {items : List Item} (h : ∃ i ∈ items, i.Wrong) :
    ∃ l bad r, items = l ++ bad :: r ∧ bad.Wrong ∧ ∀ i ∈ l, ¬ i.Wrong := by
  induction items with
  | nil => obtain ⟨i, hi, _⟩ := h; cases hi
  | cons i items ih =>
    by_cases hi : i.Wrong
    · exact ⟨[], i, items, rfl, hi, fun j hj => nomatch hj⟩
    · obtain ⟨j, hj, hw⟩ := h
      rcases List.mem_cons.1 hj with rfl | hj
      · exact absurd hw hi
      obtain ⟨l, bad, r, e, h1, h2⟩ := ih ⟨j, hj, hw⟩
      refine ⟨i :: l, bad, r, by rw [e]; rfl, h1, fun x hx => ?_⟩
      rcases List.mem_cons.1 hx with rfl | hx
      · exact hi
      · exact h2 x hx

/-- A statement that begins with a word that is not known. -/
theorem unknown_parsed (log : Bool) (s : CircuitStr) {w inst : Name} {conns : List Spec.Conn} (hw : ¬ Reserved w) (hi : ¬ Reserved inst)
    (hc : ∀ k ∈ conns, k.Proper) (rest : List Name) :
    parseTokens log (.start s) (w :: inst :: conns.flatMap Conn.words ++ ";".toList :: "endmodule".toList :: rest) = .endmodule s := by
  rw [start_eq]
  obtain ⟨key, e⟩ := conns_parsed log s INVALGATE conns hc (fun _ => none) []
  simp only [List.cons_append, parseTokens, word_skipped log s _ _ hw, word_skipped log s _ _ hi]
  rw [parseTokens_append, e]
  have e1 : parseToken log (cellState s INVALGATE (conns.foldl portAfter fun _ => none) key) ";".toList
      = .next (cellState s INVALGATE (conns.foldl portAfter fun _ => none) []) := by
    unfold parseToken
    rw [if_pos rfl, close_inval log rfl]
    rfl
  simp only [parseTokens, e1]
  simp [parseToken, cellState]

/-- The end of the module is reached only at `endmodule`. -/
theorem endmodule_of_token {log : Bool} {p : ParseState} {w : Name} {s : CircuitStr} (h : parseToken log p w = .endmodule s) :
    w = "endmodule".toList := by
  by_cases hw : w = "endmodule".toList
  · exact hw
  exfalso
  unfold parseToken at h
  by_cases h1 : w = ";".toList
  · rw [if_pos h1] at h; exact close_ne h
  rw [if_neg h1, if_neg hw] at h
  by_cases h1 : w = "input".toList
  · rw [if_pos h1] at h; cases h
  rw [if_neg h1] at h
  by_cases h1 : p.isIn = true
  · rw [if_pos h1] at h; exact input_ne h
  rw [if_neg h1] at h
  by_cases h1 : w = "output".toList
  · rw [if_pos h1] at h; cases h
  rw [if_neg h1] at h
  by_cases h1 : p.isOut = true
  · rw [if_pos h1] at h; exact output_ne h
  rw [if_neg h1] at h
  by_cases h1 : w = "assign".toList
  · rw [if_pos h1] at h; cases h
  rw [if_neg h1] at h
  by_cases h1 : p.isLeft = true
  · rw [if_pos h1] at h; cases h
  rw [if_neg h1] at h
  by_cases h1 : w = "=".toList
  · rw [if_pos h1] at h; cases h
  rw [if_neg h1] at h
  by_cases h1 : p.isRight = true
  · rw [if_pos h1] at h
    cases e : p.s.assigns.getLast? <;> rw [e] at h <;> cases h
  rw [if_neg h1] at h
  cases e : lookupWord cellNames w with
  | some t => rw [e] at h; cases h
  | none =>
    rw [e] at h
    dsimp only at h
    cases e2 : lookupWord portKeys w with
    | some t => rw [e2] at h; cases h
    | none =>
      rw [e2] at h
      dsimp only at h
      by_cases h1 : p.key ≠ []
      · rw [if_pos h1] at h
        by_cases h2 : w.head? = some '['
        · rw [if_pos h2] at h; cases h
        · rw [if_neg h2] at h; cases h
      · rw [if_neg h1] at h; cases h

theorem endmodule_of_tokens {log : Bool} {ws : List Name} {s : CircuitStr} : ∀ {p : ParseState}, parseTokens log p ws = .endmodule s →
    "endmodule".toList ∈ ws := by
  induction ws with
  | nil => intro p h; cases h
  | cons w ws ih =>
    intro p h
    rw [parseTokens] at h
    cases e : parseToken log p w with
    | next p' => rw [e] at h; exact List.mem_cons_of_mem _ (ih h)
    | endmodule s' => rw [endmodule_of_token e]; exact List.mem_cons_self
    | failure => rw [e] at h; cases h
    | undef => rw [e] at h; cases h

end TinyGarble.Proof
