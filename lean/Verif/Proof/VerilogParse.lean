import Verif.Proof.VerilogLex
import Verif.Proof.Scd

/-! # The named netlist that is parsed from a Verilog module -/

namespace TinyGarble.Proof
open TinyGarble.Spec

/-! ## The netlist -/

def gateTypeOf : CellKind → Int
  | .and => ANDGATE | .andn => ANDNGATE | .nand => NANDGATE | .nandn => NANDNGATE | .or => ORGATE | .orn => ORNGATE
  | .nor => NORGATE | .norn => NORNGATE | .xor => XORGATE | .xnor => XNORGATE | .iv => NOTGATE | .dff => DFFGATE
  | .mux => MUXGATE | .hadder => HADDERGATE | .fadder => FADDERGATE

/-- The net at a port, by name. -/
def netAt (c : Cell) (p : String) : Name := (c.net p).getD []

/-- The gates of a cell. -/
def cellGates (id : Nat) (c : Cell) : List GateStr :=
  match c.kind with
  | .mux => muxGates id (netAt c "IN0") (netAt c "IN1") (netAt c "SEL") (netAt c "F")
  | .hadder => hadderGates (netAt c "IN0") (netAt c "IN1") (c.net "SUM") (c.net "COUT")
  | .fadder => fadderGates id (netAt c "IN0") (netAt c "IN1") (netAt c "CIN") (c.net "SUM") (c.net "COUT")
  | .dff => []
  | .iv => [⟨netAt c "A", [], netAt c "Z", NOTGATE⟩]
  | k => [⟨netAt c "A", netAt c "B", netAt c "Z", gateTypeOf k⟩]

/-- The flip-flops of a cell. -/
def cellDffs (c : Cell) : List GateStr :=
  if c.kind = .dff then [⟨netAt c "D", netAt c "I", netAt c "Q", DFFGATE⟩] else []

/-- The cells with the numbers of their first gates. -/
def locate : Nat → List Cell → List (Nat × Cell)
  | _, [] => []
  | id, c :: cs => (id, c) :: locate (id + (cellGates id c).length) cs

def setPort (s : CircuitStr) (w : Nat) (n : Name) : CircuitStr :=
  if n = "p_init".toList then { s with pInit := w }
  else if n = "g_init".toList then { s with gInit := w }
  else if n = "e_init".toList then { s with eInit := w }
  else if n = "p_input".toList then { s with pInput := w }
  else if n = "g_input".toList then { s with gInput := w }
  else if n = "e_input".toList then { s with eInput := w }
  else if n = "o".toList then { s with outputSize := w }
  else if n = "terminate".toList then { s with hasTerminate := true }
  else s

def msbWidth : Option Nat → Nat
  | some k => k + 1
  | none => 1

/-- `no_of_bits` after the range. -/
def msbBits : Option Nat → Nat
  | some k => k + 1
  | none => 0

def applyItem (s : CircuitStr) : Item → CircuitStr
  | .input m names | .output m names => names.foldl (fun s n => setPort s (msbWidth m) n) s
  | .assign a b => { s with assigns := s.assigns ++ [(a, b)] }
  | .cell c => { s with gates := s.gates ++ cellGates s.gates.length c, dffs := s.dffs ++ cellDffs c }
  | .other _ => s

def applyItems (s : CircuitStr) (items : List Item) : CircuitStr := items.foldl applyItem s

/-! ## Words -/

theorem find?_none' {α : Type} {l : List (String × α)} {w : Name} (h : ∀ e ∈ l, w ≠ e.1.toList) : lookupWord l w = none := by
  unfold lookupWord
  rw [List.find?_eq_none.2 (fun e he => by simpa using h e he)]

theorem not_reserved {w : Name} (h : ¬ Reserved w) : w ≠ ";".toList ∧ w ≠ "endmodule".toList ∧ w ≠ "input".toList
    ∧ w ≠ "output".toList ∧ w ≠ "assign".toList ∧ w ≠ "=".toList ∧ lookupWord cellNames w = none ∧ lookupWord portKeys w = none := by
  have hm : ∀ x ∈ [";".toList, "endmodule".toList, "input".toList, "output".toList, "assign".toList, "=".toList], w ≠ x :=
    fun x hx e => h (Or.inl (e ▸ hx))
  have hk : ∀ k : CellKind, w ≠ k.word.toList := fun k e => h (Or.inr (Or.inl ⟨k, e⟩))
  have hp : ∀ p ∈ portWords, w ≠ '.' :: p.toList := fun p hp e => h (Or.inr (Or.inr ⟨p, hp, e⟩))
  refine ⟨hm _ (by simp), hm _ (by simp), hm _ (by simp), hm _ (by simp), hm _ (by simp), hm _ (by simp), find?_none' ?_, find?_none' ?_⟩
  · intro e he
    have : ∃ k : CellKind, e.1 = k.word := by
      have key : ∀ e ∈ cellNames, ∃ k ∈ allCells, e.1 = k.word := by decide
      obtain ⟨k, _, hk⟩ := key e he
      exact ⟨k, hk⟩
    obtain ⟨k, e'⟩ := this
    rw [e']; exact hk k
  · intro e he
    have key : ∀ e ∈ portKeys, ∃ p ∈ portWords, e.1.toList = '.' :: p.toList := by decide
    obtain ⟨p, hp', e'⟩ := key e he
    rw [e']; exact hp p hp'

/-- The state inside a cell statement. -/
def cellState (s : CircuitStr) (t : Int) (port : Name → Option Name) (key : Name) : ParseState :=
  ⟨s, t, 0, false, false, false, false, port, key⟩

theorem start_eq (s : CircuitStr) : ParseState.start s = cellState s INVALGATE (fun _ => none) [] := rfl

theorem word_skipped (log : Bool) (s : CircuitStr) (t : Int) (port : Name → Option Name) {w : Name} (h : ¬ Reserved w) :
    parseToken log (cellState s t port []) w = .next (cellState s t port []) := by
  obtain ⟨h1, h2, h3, h4, h5, h6, h7, h8⟩ := not_reserved h
  simp only [parseToken, cellState, if_neg h1, if_neg h2, if_neg h3, if_neg h4, if_neg h5, if_neg h6, h7, h8,
    Bool.false_eq_true, reduceIte, ne_eq, not_true_eq_false]

theorem word_net (log : Bool) (s : CircuitStr) (t : Int) (port : Name → Option Name) {key w : Name} (hk : key ≠ [])
    (hb : w.head? ≠ some '[') (h : ¬ Reserved w) :
    parseToken log (cellState s t port key) w = .next (cellState s t (fun k => if k = key then some w else port k) key) := by
  obtain ⟨h1, h2, h3, h4, h5, h6, h7, h8⟩ := not_reserved h
  simp only [parseToken, cellState, if_neg h1, if_neg h2, if_neg h3, if_neg h4, if_neg h5, if_neg h6, h7, h8,
    Bool.false_eq_true, reduceIte, ne_eq, if_neg hb, not_false_eq_true, hk]
  rfl

theorem word_index (log : Bool) (s : CircuitStr) (t : Int) (port : Name → Option Name) {key w : Name} (hk : key ≠ [])
    (hb : w.head? = some '[') (h : ¬ Reserved w) :
    parseToken log (cellState s t port key) w
      = .next (cellState s t (fun k => if k = key then some (((port key).getD []) ++ w) else port k) []) := by
  obtain ⟨h1, h2, h3, h4, h5, h6, h7, h8⟩ := not_reserved h
  simp only [parseToken, cellState, if_neg h1, if_neg h2, if_neg h3, if_neg h4, if_neg h5, if_neg h6, h7, h8,
    Bool.false_eq_true, reduceIte, ne_eq, if_pos hb, not_false_eq_true, hk]
  rfl

/-- The key of a port word. -/
def keyOf (p : String) : Name := if p = "CLK" ∨ p = "RST" then [] else p.toList

theorem word_port (log : Bool) (s : CircuitStr) (t : Int) (port : Name → Option Name) (key : Name) {p : String}
    (hp : p ∈ portWords) :
    parseToken log (cellState s t port key) ('.' :: p.toList) = .next (cellState s t port (keyOf p)) := by
  have key : ∀ p ∈ portWords, '.' :: p.toList ≠ ";".toList ∧ '.' :: p.toList ≠ "endmodule".toList ∧ '.' :: p.toList ≠ "input".toList
    ∧ '.' :: p.toList ≠ "output".toList ∧ '.' :: p.toList ≠ "assign".toList ∧ '.' :: p.toList ≠ "=".toList
    ∧ lookupWord cellNames ('.' :: p.toList) = none ∧ (lookupWord portKeys ('.' :: p.toList)).map (·.toList) = some (keyOf p) := by
    decide +kernel
  obtain ⟨h1, h2, h3, h4, h5, h6, h7, h8⟩ := key p hp
  cases h9 : lookupWord portKeys ('.' :: p.toList) with
  | none => rw [h9] at h8; cases h8
  | some k =>
    rw [h9] at h8
    simp only [Option.map_some, Option.some.injEq] at h8
    simp only [parseToken, cellState, if_neg h1, if_neg h2, if_neg h3, if_neg h4, if_neg h5, if_neg h6, h7, h9, h8,
      Bool.false_eq_true, reduceIte]

theorem word_cell (log : Bool) (s : CircuitStr) (port : Name → Option Name) (key : Name) (t : Int) (k : CellKind) :
    parseToken log (cellState s t port key) k.word.toList = .next (cellState s (gateTypeOf k) port key) := by
  have key : ∀ k ∈ allCells, k.word.toList ≠ ";".toList ∧ k.word.toList ≠ "endmodule".toList ∧ k.word.toList ≠ "input".toList
    ∧ k.word.toList ≠ "output".toList ∧ k.word.toList ≠ "assign".toList ∧ k.word.toList ≠ "=".toList
    ∧ lookupWord cellNames k.word.toList = some (gateTypeOf k) := by
    decide +kernel
  obtain ⟨h1, h2, h3, h4, h5, h6, h7⟩ := key k (by cases k <;> decide)
  simp only [parseToken, cellState, if_neg h1, if_neg h2, if_neg h3, if_neg h4, if_neg h5, if_neg h6, h7,
      Bool.false_eq_true, reduceIte]

/-! ## Cells -/

/-- The map `port` after a connection. -/
def portAfter (port : Name → Option Name) (c : Conn) : Name → Option Name :=
  if keyOf c.port = [] ∨ c.pieces = [] then port
  else fun k => if k = c.port.toList then some c.pieces.flatten else port k

theorem keyOf_eq {p : String} (h : keyOf p ≠ []) : keyOf p = p.toList := by
  unfold keyOf at *
  split at h
  · exact absurd rfl h
  · rename_i hh
    rw [if_neg hh]

theorem conn_parsed (log : Bool) (s : CircuitStr) (t : Int) (port : Name → Option Name) (key : Name) {c : Conn} (h : c.Proper) :
    ∃ key', parseTokens log (cellState s t port key) c.words = .next (cellState s t (portAfter port c) key') := by
  obtain ⟨hp, hc⟩ := h
  unfold Conn.words
  simp only [parseTokens, word_port log s t port key hp]
  by_cases hk : keyOf c.port = []
  · rw [hk]
    refine ⟨[], ?_⟩
    unfold portAfter
    rw [if_pos (Or.inl hk)]
    rcases hc with e | ⟨a, ha, e⟩ | ⟨a, i, ha, hi, e⟩
    · rw [e]; rfl
    · rw [e]; simp only [parseTokens, word_skipped log s t port ha.2.2]
    · rw [e]; simp only [parseTokens, word_skipped log s t port ha.2.2, word_skipped log s t port hi]
  · unfold portAfter
    rcases hc with e | ⟨a, ha, e⟩ | ⟨a, i, ha, hi, e⟩
    · rw [e]; exact ⟨_, by rw [if_pos (Or.inr rfl)]; rfl⟩
    · rw [e]
      refine ⟨keyOf c.port, ?_⟩
      rw [if_neg (by simp [hk])]
      simp only [parseTokens, word_net log s t port hk ha.2.1 ha.2.2]
      rw [keyOf_eq hk]
      simp
    · rw [e]
      refine ⟨[], ?_⟩
      rw [if_neg (by simp [hk])]
      simp only [parseTokens, word_net log s t port hk ha.2.1 ha.2.2, word_index log s t _ hk rfl hi]
      rw [keyOf_eq hk]
      congr 2
      funext k
      by_cases e' : k = c.port.toList <;> simp [e']

theorem conns_parsed (log : Bool) (s : CircuitStr) (t : Int) (cs : List Conn) (h : ∀ c ∈ cs, c.Proper) :
    ∀ (port : Name → Option Name) (key : Name), ∃ key',
      parseTokens log (cellState s t port key) (cs.flatMap Conn.words) = .next (cellState s t (cs.foldl portAfter port) key') := by
  induction cs with
  | nil => intro port key; exact ⟨key, rfl⟩
  | cons c cs ih =>
    intro port key
    obtain ⟨k1, e1⟩ := conn_parsed log s t port key (h c List.mem_cons_self)
    obtain ⟨k2, e2⟩ := ih (fun c hc => h c (List.mem_cons_of_mem _ hc)) (portAfter port c) k1
    refine ⟨k2, ?_⟩
    rw [List.flatMap_cons, parseTokens_append, e1]
    exact e2

theorem toList_inj {a b : String} : a.toList = b.toList ↔ a = b := String.toList_inj

theorem ports_after (cs : List Conn) (hn : (cs.map (·.port)).Nodup) (q : String) (hq : keyOf q ≠ []) :
    ∀ port : Name → Option Name,
      cs.foldl portAfter port q.toList = ((cs.find? (fun k => k.port = q)).bind Conn.net).or (port q.toList) := by
  induction cs with
  | nil => intro port; rfl
  | cons c cs ih =>
    intro port
    rw [List.map_cons, List.nodup_cons] at hn
    rw [List.foldl_cons, ih hn.2, List.find?_cons]
    by_cases e : c.port = q
    · subst e
      have hnone : cs.find? (fun k => k.port = c.port) = none := by
        rw [List.find?_eq_none]
        intro k hk he
        exact hn.1 (by rw [← of_decide_eq_true he]; exact List.mem_map_of_mem hk)
      rw [hnone]
      simp only [decide_true, Option.bind_none, Option.none_or, Option.bind_some]
      unfold portAfter Conn.net
      by_cases hp : c.pieces = []
      · simp [hp]
      · simp [hp, hq]
    · have : decide (c.port = q) = false := by simp [e]
      rw [this]
      simp only
      congr 1
      unfold portAfter
      split
      · rfl
      · simp only
        rw [if_neg (fun h => e (toList_inj.1 h).symm)]

/-- The map `port` at the end of a cell. -/
def cellPorts (c : Cell) : Name → Option Name := c.conns.foldl portAfter (fun _ => none)

theorem cellPorts_net {c : Cell} (h : c.Proper) (q : String) (hq : keyOf q ≠ []) : cellPorts c q.toList = c.net q := by
  unfold cellPorts Cell.net
  rw [ports_after c.conns h.once q hq]
  simp

theorem net_ne {c : Cell} (h : c.Proper) {q : String} {n : Name} (hn : c.net q = some n) : n ≠ [] := by
  unfold Cell.net at hn
  cases e : c.conns.find? (fun k => k.port = q) with
  | none => rw [e] at hn; cases hn
  | some k =>
    rw [e] at hn
    have hk := h.conns k (List.mem_of_find?_eq_some e)
    simp only [Option.bind_some, Conn.net] at hn
    split at hn
    · cases hn
    · rename_i hp
      obtain rfl := Option.some.inj hn
      rcases hk.2 with e' | ⟨a, ha, e'⟩ | ⟨a, i, ha, _, e'⟩
      · exact absurd e' hp
      · rw [e']; simpa using ha.1
      · rw [e']; simp

theorem needPort_net (log : Bool) {c : Cell} (h : c.Proper) {q : String} (hq : keyOf q ≠ []) (hn : c.net q ≠ none) :
    needPort log (cellPorts c) q = some (netAt c q) := by
  unfold needPort netAt
  rw [cellPorts_net h q hq]
  cases e : c.net q with
  | none => exact absurd e hn
  | some n => simp [net_ne h e]

theorem someOutput_net (log : Bool) {c : Cell} (h : c.Proper) (ho : c.net "SUM" ≠ none ∨ c.net "COUT" ≠ none) :
    someOutput log (cellPorts c) = true := by
  unfold someOutput
  rw [cellPorts_net h "SUM" (by decide), cellPorts_net h "COUT" (by decide)]
  rcases ho with ho | ho
  · cases e : c.net "SUM" with
    | none => exact absurd e ho
    | some n => simp [net_ne h e]
  · cases e : c.net "COUT" with
    | none => exact absurd e ho
    | some n => simp [net_ne h e]

theorem type_facts : NOTGATE ∉ twoInput ∧ DFFGATE ∉ twoInput ∧ MUXGATE ∉ twoInput ∧ HADDERGATE ∉ twoInput ∧ FADDERGATE ∉ twoInput ∧ INVALGATE ∉ twoInput
    ∧ DFFGATE ≠ NOTGATE ∧ MUXGATE ≠ NOTGATE ∧ MUXGATE ≠ DFFGATE ∧ HADDERGATE ≠ NOTGATE ∧ HADDERGATE ≠ DFFGATE ∧ HADDERGATE ≠ MUXGATE ∧ FADDERGATE ≠ NOTGATE ∧ FADDERGATE ≠ DFFGATE ∧ FADDERGATE ≠ MUXGATE ∧ FADDERGATE ≠ HADDERGATE ∧ INVALGATE ≠ NOTGATE ∧ INVALGATE ≠ DFFGATE ∧ INVALGATE ≠ MUXGATE ∧ INVALGATE ≠ HADDERGATE ∧ INVALGATE ≠ FADDERGATE := by decide

theorem close_inval (log : Bool) {p : ParseState} (h : p.gateType = INVALGATE) : closeStatement log p
    = .next { p with isIn := false, isOut := false, bits := 0, isLeft := false, isRight := false, key := [] } := by
  obtain ⟨a1, a2, a3, a4, a5, a6, b⟩ := type_facts
  unfold closeStatement
  rw [h]
  simp only [a6, b, reduceIte]

theorem two_facts : ANDGATE ∈ twoInput ∧ ANDNGATE ∈ twoInput ∧ NANDGATE ∈ twoInput ∧ NANDNGATE ∈ twoInput ∧ ORGATE ∈ twoInput
    ∧ ORNGATE ∈ twoInput ∧ NORGATE ∈ twoInput ∧ NORNGATE ∈ twoInput ∧ XORGATE ∈ twoInput ∧ XNORGATE ∈ twoInput := by decide

theorem cell_closed (log : Bool) (s : CircuitStr) {c : Cell} (h : c.Proper) (key : Name) :
    parseToken log (cellState s (gateTypeOf c.kind) (cellPorts c) key) ";".toList = .next (.start (applyItem s (.cell c))) := by
  have hi := h.inputs
  have ho := h.outputs
  have hd := h.init
  unfold parseToken
  rw [if_pos rfl]
  unfold closeStatement
  obtain ⟨a1, a2, a3, a4, a5, a6, b⟩ := type_facts
  have tf := two_facts
  cases hk : c.kind <;> rw [hk] at hi ho hd
  case dff =>
    have n1 := needPort_net log h (q := "D") (by decide) (hi _ (by decide))
    have n2 := needPort_net log h (q := "I") (by decide) (hd rfl)
    have n3 := needPort_net log h (q := "Q") (by decide) (by simpa [CellKind.outputs] using ho)
    simp [cellState, gateTypeOf, a1, a2, a3, b, tf, ParseState.start, applyItem, cellGates, cellDffs, hk, n1, n2, n3]
  case mux =>
    have n1 := needPort_net log h (q := "IN0") (by decide) (hi _ (by decide))
    have n2 := needPort_net log h (q := "IN1") (by decide) (hi _ (by decide))
    have n3 := needPort_net log h (q := "SEL") (by decide) (hi _ (by decide))
    have n4 := needPort_net log h (q := "F") (by decide) (by simpa [CellKind.outputs] using ho)
    simp [cellState, gateTypeOf, a1, a2, a3, b, tf, ParseState.start, applyItem, cellGates, cellDffs, hk, n1, n2, n3, n4]
  case hadder =>
    have n1 := needPort_net log h (q := "IN0") (by decide) (hi _ (by decide))
    have n2 := needPort_net log h (q := "IN1") (by decide) (hi _ (by decide))
    have n3 := someOutput_net log h (by simpa [CellKind.outputs] using ho)
    have n4 := cellPorts_net h "SUM" (by decide)
    have n5 := cellPorts_net h "COUT" (by decide)
    simp only [cellState, gateTypeOf] at *
    simp [a4, a5, b, ParseState.start, applyItem, cellGates, cellDffs, hk, n1, n2, n3, ← n4, ← n5]
  case fadder =>
    have n1 := needPort_net log h (q := "IN0") (by decide) (hi _ (by decide))
    have n2 := needPort_net log h (q := "IN1") (by decide) (hi _ (by decide))
    have n6 := needPort_net log h (q := "CIN") (by decide) (hi _ (by decide))
    have n3 := someOutput_net log h (by simpa [CellKind.outputs] using ho)
    have n4 := cellPorts_net h "SUM" (by decide)
    have n5 := cellPorts_net h "COUT" (by decide)
    simp only [cellState, gateTypeOf] at *
    simp [a4, a5, b, ParseState.start, applyItem, cellGates, cellDffs, hk, n1, n2, n6, n3, ← n4,
      ← n5]
  case iv =>
    have n1 := needPort_net log h (q := "A") (by decide) (hi _ (by decide))
    have n4 := needPort_net log h (q := "Z") (by decide) (by simpa [CellKind.outputs] using ho)
    simp [cellState, gateTypeOf, a1, a2, a3, b, tf, ParseState.start, applyItem, cellGates, cellDffs, hk, n1, n4]
  all_goals
    have n1 := needPort_net log h (q := "A") (by decide) (hi _ (by decide))
    have n2 := needPort_net log h (q := "B") (by decide) (hi _ (by decide))
    have n4 := needPort_net log h (q := "Z") (by decide) (by simpa [CellKind.outputs] using ho)
    simp [cellState, gateTypeOf, a1, a2, a3, b, tf, ParseState.start, applyItem, cellGates, cellDffs, hk, n1, n2, n4]

theorem cell_parsed (log : Bool) (s : CircuitStr) {c : Cell} (h : c.Proper) :
    parseTokens log (.start s) ((Item.cell c).words ++ [";".toList]) = .next (.start (applyItem s (.cell c))) := by
  rw [start_eq]
  obtain ⟨key, e⟩ := conns_parsed log s (gateTypeOf c.kind) c.conns h.conns (fun _ => none) []
  simp only [Item.words, List.cons_append, parseTokens, word_cell, word_skipped log s _ _ h.inst]
  rw [parseTokens_append, e]
  simp only [parseTokens]
  rw [show c.conns.foldl portAfter (fun _ => none) = cellPorts c from rfl, cell_closed log s h key]

/-! ## Other statements -/

theorem other_parsed (log : Bool) (s : CircuitStr) {ws : List Name} (h : ∀ w ∈ ws, ¬ Reserved w) :
    parseTokens log (.start s) (ws ++ [";".toList]) = .next (.start s) := by
  induction ws with
  | nil =>
    simp only [List.nil_append, parseTokens, parseToken, if_pos, close_inval log (p := ParseState.start s) rfl]
    rfl
  | cons w ws ih =>
    rw [List.cons_append, parseTokens, start_eq, word_skipped log s _ _ (h w List.mem_cons_self)]
    exact ih (fun w hw => h w (List.mem_cons_of_mem _ hw))

theorem assign_parsed (log : Bool) (s : CircuitStr) {a b : Name} (ha : ¬ Reserved a) (hb : ¬ Reserved b) :
    parseTokens log (.start s) ((Item.assign a b).words ++ [";".toList]) = .next (.start (applyItem s (.assign a b))) := by
  obtain ⟨a1, a2, a3, a4, a5, a6, _⟩ := not_reserved ha
  obtain ⟨b1, b2, b3, b4, b5, b6, _⟩ := not_reserved hb
  have c1 : "assign".toList ≠ ";".toList := by decide
  have c2 : "assign".toList ≠ "endmodule".toList := by decide
  have c3 : "assign".toList ≠ "input".toList := by decide
  have c4 : "assign".toList ≠ "output".toList := by decide
  have d1 : "=".toList ≠ ";".toList := by decide
  have d2 : "=".toList ≠ "endmodule".toList := by decide
  have d3 : "=".toList ≠ "input".toList := by decide
  have d4 : "=".toList ≠ "output".toList := by decide
  have d5 : "=".toList ≠ "assign".toList := by decide
  have e1 : INVALGATE ∉ twoInput := by decide
  have e2 : INVALGATE ≠ NOTGATE := by decide
  have e3 : INVALGATE ≠ DFFGATE := by decide
  have e4 : INVALGATE ≠ MUXGATE := by decide
  have e5 : INVALGATE ≠ HADDERGATE := by decide
  have e6 : INVALGATE ≠ FADDERGATE := by decide
  simp only [Item.words, List.cons_append, List.nil_append, parseTokens, parseToken, ParseState.start, if_neg a1, if_neg a2, if_neg a3,
    if_neg a4, if_neg a5, if_neg a6, if_neg b1, if_neg b2, if_neg b3, if_neg b4, if_neg b5, if_neg b6, if_neg c1, if_neg c2,
    if_neg c3, if_neg c4, if_neg d1, if_neg d2, if_neg d3, if_neg d4, if_neg d5, Bool.false_eq_true, reduceIte,
    List.getLast?_append, List.getLast?_singleton, Option.some_or, List.dropLast_concat, closeStatement, if_neg e1, if_neg e2,
    if_neg e3, if_neg e4, if_neg e5, if_neg e6, applyItem]

/-- The state inside a declaration. -/
def declState (s : CircuitStr) (bits : Nat) (out : Bool) : ParseState :=
  ⟨s, INVALGATE, bits, false, false, !out, out, fun _ => none, []⟩

theorem rangeBits_word (m : Nat) (h : m + 1 < 2 ^ 31) : rangeBits ('[' :: (printNat m ++ ":0]".toList)) = some (m + 1) := by
  have hd : ∀ ch ∈ printNat m, isDelim ch = false := by
    intro ch hm
    have h1 := printNat_isDec m ch hm
    have h2 := dec_not_space h1
    unfold isDec at h1
    simp only [decide_eq_true_eq] at h1
    simp only [isDelim, h2, Bool.false_or, Bool.or_eq_false_iff, decide_eq_false_iff_not]
    omega
  have e0 : ":0]".toList = [':', '0', ']'] := by decide
  have h1 : isDelim '[' = true := by decide
  have h2 : isDelim ':' = true := by decide
  have e1 : ('[' :: (printNat m ++ ":0]".toList)).dropWhile isDelim = printNat m ++ ":0]".toList := by
    rw [List.dropWhile_cons, if_pos h1]
    cases e : printNat m with
    | nil => exact absurd e (printNat_ne m)
    | cons ch l =>
      rw [List.cons_append, List.dropWhile_cons, if_neg]
      rw [hd ch (by rw [e]; exact List.mem_cons_self)]; simp
  have e2 : (printNat m ++ ":0]".toList).takeWhile (fun c => !isDelim c) = printNat m := by
    rw [List.takeWhile_append_of_pos (fun ch hm => by rw [hd ch hm]; rfl), e0, List.takeWhile_cons, if_neg (by simp [h2])]
    simp
  have e3 : (printNat m).takeWhile isDec = printNat m := by
    have := List.takeWhile_append_of_pos (l₂ := []) (printNat_isDec m)
    simpa using this
  unfold rangeBits
  simp only [e1, e2, e3, decValue_printNat]
  rw [if_neg (printNat_ne m), if_pos h]

theorem range_parsed (log : Bool) (s : CircuitStr) (out : Bool) (m : Option Nat) (h : ∀ k ∈ m, k + 1 < 2 ^ 31) :
    parseTokens log (declState s 0 out) (rangeWord m)
      = .next (declState s (msbBits m) out) := by
  cases m with
  | none => rfl
  | some k =>
    have hr := rangeBits_word k (h k rfl)
    have h1 : ∀ l : List Char, '[' :: l ≠ ";".toList := by intro l e; cases e
    have h2 : ∀ l : List Char, '[' :: l ≠ "endmodule".toList := by intro l e; cases e
    have h3 : ∀ l : List Char, '[' :: l ≠ "input".toList := by intro l e; cases e
    have h4 : ∀ l : List Char, '[' :: l ≠ "output".toList := by intro l e; cases e
    simp only [rangeWord, parseTokens, parseToken, if_neg (h1 _), if_neg (h2 _), if_neg (h3 _), if_neg (h4 _), declState]
    cases out
    · simp only [Bool.not_false, reduceIte, inputWord, List.head?_cons, hr, msbBits]
    · simp only [Bool.not_true, Bool.false_eq_true, reduceIte, outputWord, List.head?_cons, hr, msbBits]

theorem declare_input (log : Bool) (s : CircuitStr) (m : Option Nat) {n : Name}
    (hn : n ∈ ["clk".toList, "rst".toList] ∨ ∃ p ∈ inputNames, n = p.toList) :
    parseToken log (declState s (msbBits m) false) n
      = .next (declState (setPort s (msbWidth m) n) (msbBits m) false) := by
  have hb : portBits (msbBits m) = msbWidth m := by cases m <;> simp [portBits, msbWidth, msbBits]
  generalize msbBits m = b at *
  have hn' : n ∈ ["clk".toList, "rst".toList, "p_init".toList, "g_init".toList, "e_init".toList, "p_input".toList, "g_input".toList,
      "e_input".toList] := by
    rcases hn with hn | ⟨p, hp, rfl⟩
    · simp only [List.mem_cons, List.not_mem_nil, or_false] at hn
      rcases hn with rfl | rfl <;> decide
    · simp only [inputNames, List.mem_cons, List.not_mem_nil, or_false] at hp
      rcases hp with rfl | rfl | rfl | rfl | rfl | rfl <;> decide
  simp only [List.mem_cons, List.not_mem_nil, or_false] at hn'
  rcases hn' with rfl | rfl | rfl | rfl | rfl | rfl | rfl | rfl <;>
    simp [parseToken, declState, inputWord, setPort, hb]

theorem declare_output (log : Bool) (s : CircuitStr) (m : Option Nat) {n : Name}
    (hn : n = "o".toList ∨ (n = "terminate".toList ∧ m = none)) :
    parseToken log (declState s (msbBits m) true) n
      = .next (declState (setPort s (msbWidth m) n) (msbBits m) true) := by
  rcases hn with rfl | ⟨rfl, rfl⟩
  · cases m <;> simp [parseToken, declState, outputWord, setPort, portBits, msbWidth, msbBits]
  · simp [parseToken, declState, outputWord, setPort, msbBits]

theorem decl_close (log : Bool) (s : CircuitStr) (b : Nat) (out : Bool) :
    parseToken log (declState s b out) ";".toList = .next (.start s) := by
  simp only [parseToken, if_pos, close_inval log (p := declState s b out) rfl]
  rfl

theorem names_parsed (log : Bool) (names : List Name) (m : Option Nat) (out : Bool)
    (h : ∀ n ∈ names, if out then n = "o".toList ∨ (n = "terminate".toList ∧ m = none)
      else n ∈ ["clk".toList, "rst".toList] ∨ ∃ p ∈ inputNames, n = p.toList) : ∀ s : CircuitStr,
    parseTokens log (declState s (msbBits m) out) (names ++ [";".toList])
      = .next (.start (names.foldl (fun s n => setPort s (msbWidth m) n) s)) := by
  induction names with
  | nil => intro s; simp only [List.nil_append, parseTokens, decl_close, List.foldl_nil]
  | cons n names ih =>
    intro s
    have hn := h n List.mem_cons_self
    rw [List.cons_append, parseTokens, List.foldl_cons]
    cases out
    · rw [if_neg (by decide)] at hn
      rw [declare_input log s m hn]
      exact ih (fun n hm => h n (List.mem_cons_of_mem _ hm)) _
    · rw [if_pos rfl] at hn
      rw [declare_output log s m hn]
      exact ih (fun n hm => h n (List.mem_cons_of_mem _ hm)) _

theorem item_parsed (log : Bool) (s : CircuitStr) {i : Item} (h : i.Proper) :
    parseTokens log (.start s) (i.words ++ [";".toList]) = .next (.start (applyItem s i)) := by
  cases i with
  | input m names =>
    have e : parseToken log (.start s) "input".toList = .next (declState s 0 false) := by
      simp [parseToken, ParseState.start, declState]
    simp only [Item.words, List.cons_append, parseTokens, e]
    rw [List.append_assoc, parseTokens_append, range_parsed log s false m h.1]
    exact names_parsed log names m false (fun n hn => by simpa using h.2 n hn) s
  | output m names =>
    have e : parseToken log (.start s) "output".toList = .next (declState s 0 true) := by
      simp [parseToken, ParseState.start, declState]
    simp only [Item.words, List.cons_append, parseTokens, e]
    rw [List.append_assoc, parseTokens_append, range_parsed log s true m h.1]
    exact names_parsed log names m true (fun n hn => by simpa using h.2 n hn) s
  | assign a b => exact assign_parsed log s h.1.2.2 h.2.2.2
  | cell c => exact cell_parsed log s h
  | other ws => exact other_parsed log s h

theorem items_parsed (log : Bool) (items : List Item) (h : ∀ i ∈ items, i.Proper) (rest : List Name) : ∀ s : CircuitStr,
    parseTokens log (.start s) (itemsWords items ++ rest) = parseTokens log (.start (applyItems s items)) rest := by
  induction items with
  | nil => intro s; rfl
  | cons i items ih =>
    intro s
    have e := item_parsed log s (h i List.mem_cons_self)
    have e2 := ih (fun j hj => h j (List.mem_cons_of_mem _ hj)) (applyItem s i)
    unfold itemsWords at e2 ⊢
    rw [List.flatMap_cons, List.append_assoc, parseTokens_append, e]
    exact e2

/-- The result of parsing. -/
theorem module_parsed (log : Bool) {items : List Item} (h : ∀ i ∈ items, i.Proper) {file : List Char} (hf : WrittenIn items file) :
    parseNetlist log file = some (some (applyItems CircuitStr.empty items)) := by
  obtain ⟨rest, e⟩ := hf
  unfold parseNetlist
  rw [parseLines_lexemes log _ file _ rfl, e, items_parsed log items h]
  have : ∀ p : ParseState, parseToken log p "endmodule".toList = .endmodule p.s := by
    intro p; simp [parseToken]
  simp only [parseTokens, this]
  rfl

end TinyGarble.Proof
