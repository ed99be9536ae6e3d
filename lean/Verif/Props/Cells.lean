import Verif.Model.Cells
import Verif.Spec.Liberty
import Verif.Spec.Verilog
import Verif.Props.Verilog

/-!
# The libraries of cells
-/

namespace TinyGarble.Props

open TinyGarble.Cells TinyGarble.Spec

/-- The modules of dff_full.v have the outputs and the functions that the meaning of a netlist (`Cell.Computes`) assumes. -/
theorem C83_verilog (c : Cell) (u : Name → Bool) (hk : c.kind ≠ .dff) :
    (dffFullV c.kind.word (c.val u)).map Prod.fst = c.kind.outputs
    ∧ (c.Computes u ↔ ∀ o ∈ dffFullV c.kind.word (c.val u), c.Drives u o.1 o.2) := by
  cases h : c.kind <;> simp_all [Cell.Computes, dffFullV, CellKind.word, CellKind.outputs]
  cases c.val u "SEL" <;> simp

/-- A library of cells gives a cell its function: all texts can be read, the outputs are those of the cell, and they have the values
that the meaning of a netlist assumes. -/
def Realises (library : List (String × List (String × String))) (k : CellKind) : Prop :=
  ∃ functions, library.lookup k.word = some functions
    ∧ (∀ p, p ∈ functions.map Prod.fst ↔ p ∈ k.outputs)
    ∧ ∀ (c : Cell) (u : Name → Bool), c.kind = k → ∃ outs, Liberty.outputs functions (c.val u) = some outs
      ∧ outs.map Prod.fst = functions.map Prod.fst ∧ (c.Computes u ↔ ∀ o ∈ outs, c.Drives u o.1 o.2)

theorem read1 {p t : String} {e : Liberty.Expr} (h : Liberty.read t = some e) (i : String → Bool) :
    Liberty.outputs [(p, t)] i = some [(p, e.eval i)] := by
  simp [Liberty.outputs, h]

theorem read2 {p t q s : String} {e f : Liberty.Expr} (h : Liberty.read t = some e) (g : Liberty.read s = some f) (i : String → Bool) :
    Liberty.outputs [(p, t), (q, s)] i = some [(p, e.eval i), (q, f.eval i)] := by
  simp [Liberty.outputs, h, g]

/-- The Liberty file dff_full.lib gives all cells without state their function. -/
theorem C83_lib (k : CellKind) (hk : k ∉ [CellKind.dff]) : Realises dffFullLib k := by
  cases k with
  | and =>
    refine ⟨_, rfl, by simp [CellKind.outputs], fun c u h => ⟨_, read1 (e := .and (.pin ['A']) (.pin ['B'])) (by decide +kernel) _, rfl, ?_⟩⟩
    simp [Cell.Computes, h, Liberty.Expr.eval]
  | andn =>
    refine ⟨_, rfl, by simp [CellKind.outputs], fun c u h => ⟨_, read1 (e := .and (.pin ['A']) (.not (.pin ['B']))) (by decide +kernel) _, rfl, ?_⟩⟩
    simp [Cell.Computes, h, Liberty.Expr.eval]
  | nand =>
    refine ⟨_, rfl, by simp [CellKind.outputs], fun c u h => ⟨_, read1 (e := .not (.and (.pin ['A']) (.pin ['B']))) (by decide +kernel) _, rfl, ?_⟩⟩
    simp [Cell.Computes, h, Liberty.Expr.eval]
  | nandn =>
    refine ⟨_, rfl, by simp [CellKind.outputs], fun c u h => ⟨_, read1 (e := .not (.and (.pin ['A']) (.not (.pin ['B'])))) (by decide +kernel) _, rfl, ?_⟩⟩
    simp [Cell.Computes, h, Liberty.Expr.eval]
  | or =>
    refine ⟨_, rfl, by simp [CellKind.outputs], fun c u h => ⟨_, read1 (e := .or (.pin ['A']) (.pin ['B'])) (by decide +kernel) _, rfl, ?_⟩⟩
    simp [Cell.Computes, h, Liberty.Expr.eval]
  | orn =>
    refine ⟨_, rfl, by simp [CellKind.outputs], fun c u h => ⟨_, read1 (e := .or (.pin ['A']) (.not (.pin ['B']))) (by decide +kernel) _, rfl, ?_⟩⟩
    simp [Cell.Computes, h, Liberty.Expr.eval]
  | nor =>
    refine ⟨_, rfl, by simp [CellKind.outputs], fun c u h => ⟨_, read1 (e := .not (.or (.pin ['A']) (.pin ['B']))) (by decide +kernel) _, rfl, ?_⟩⟩
    simp [Cell.Computes, h, Liberty.Expr.eval]
  | norn =>
    refine ⟨_, rfl, by simp [CellKind.outputs], fun c u h => ⟨_, read1 (e := .not (.or (.pin ['A']) (.not (.pin ['B'])))) (by decide +kernel) _, rfl, ?_⟩⟩
    simp [Cell.Computes, h, Liberty.Expr.eval]
  | xor =>
    refine ⟨_, rfl, by simp [CellKind.outputs], fun c u h => ⟨_, read1 (e := .xor (.pin ['A']) (.pin ['B'])) (by decide +kernel) _, rfl, ?_⟩⟩
    simp [Cell.Computes, h, Liberty.Expr.eval]
  | xnor =>
    refine ⟨_, rfl, by simp [CellKind.outputs], fun c u h => ⟨_, read1 (e := .not (.xor (.pin ['A']) (.pin ['B']))) (by decide +kernel) _, rfl, ?_⟩⟩
    simp [Cell.Computes, h, Liberty.Expr.eval]
  | iv =>
    refine ⟨_, rfl, by simp [CellKind.outputs], fun c u h => ⟨_, read1 (e := .not (.pin ['A'])) (by decide +kernel) _, rfl, ?_⟩⟩
    simp [Cell.Computes, h, Liberty.Expr.eval]
  | dff => simp at hk
  | mux =>
    refine ⟨_, rfl, by simp [CellKind.outputs], fun c u h => ⟨_, read1 (e := .or (.and (.not (.pin ['S', 'E', 'L'])) (.pin ['I', 'N', '0'])) (.and (.pin ['S', 'E', 'L']) (.pin ['I', 'N', '1']))) (by decide +kernel) _, rfl, ?_⟩⟩
    cases hs : c.val u "SEL" <;> simp [Cell.Computes, h, Liberty.Expr.eval, hs]
  | hadder =>
    refine ⟨_, rfl, by simp [CellKind.outputs], fun c u h => ⟨_, read2 (e := .xor (.pin ['I', 'N', '0']) (.pin ['I', 'N', '1']))
      (f := .and (.pin ['I', 'N', '0']) (.pin ['I', 'N', '1'])) (by decide +kernel) (by decide +kernel) _, rfl, ?_⟩⟩
    simp [Cell.Computes, h, Liberty.Expr.eval]
  | fadder =>
    refine ⟨_, rfl, by simp [CellKind.outputs, or_comm], fun c u h => ⟨_, read2 (e := .or (.or (.and (.pin ['C', 'I', 'N']) (.pin ['I', 'N', '0'])) (.and (.pin ['C', 'I', 'N']) (.pin ['I', 'N', '1']))) (.and (.pin ['I', 'N', '0']) (.pin ['I', 'N', '1'])))
      (f := .xor (.xor (.pin ['I', 'N', '0']) (.pin ['I', 'N', '1'])) (.pin ['C', 'I', 'N'])) (by decide +kernel) (by decide +kernel) _, rfl, ?_⟩⟩
    simp [Cell.Computes, h, Liberty.Expr.eval, and_comm]

/-- The Liberty file asic_cell_yosys_extended.lib, which has no multiplexer and no half adder, gives the other cells without state
their function. -/
theorem C83_extended (k : CellKind) (hk : k ∉ [CellKind.dff, CellKind.mux, CellKind.hadder]) : Realises extendedLib k := by
  cases k with
  | and =>
    refine ⟨_, rfl, by simp [CellKind.outputs], fun c u h => ⟨_, read1 (e := .and (.pin ['A']) (.pin ['B'])) (by decide +kernel) _, rfl, ?_⟩⟩
    simp [Cell.Computes, h, Liberty.Expr.eval]
  | andn =>
    refine ⟨_, rfl, by simp [CellKind.outputs], fun c u h => ⟨_, read1 (e := .and (.pin ['A']) (.not (.pin ['B']))) (by decide +kernel) _, rfl, ?_⟩⟩
    simp [Cell.Computes, h, Liberty.Expr.eval]
  | nand =>
    refine ⟨_, rfl, by simp [CellKind.outputs], fun c u h => ⟨_, read1 (e := .not (.and (.pin ['A']) (.pin ['B']))) (by decide +kernel) _, rfl, ?_⟩⟩
    simp [Cell.Computes, h, Liberty.Expr.eval]
  | nandn =>
    refine ⟨_, rfl, by simp [CellKind.outputs], fun c u h => ⟨_, read1 (e := .not (.and (.pin ['A']) (.not (.pin ['B'])))) (by decide +kernel) _, rfl, ?_⟩⟩
    simp [Cell.Computes, h, Liberty.Expr.eval]
  | or =>
    refine ⟨_, rfl, by simp [CellKind.outputs], fun c u h => ⟨_, read1 (e := .or (.pin ['A']) (.pin ['B'])) (by decide +kernel) _, rfl, ?_⟩⟩
    simp [Cell.Computes, h, Liberty.Expr.eval]
  | orn =>
    refine ⟨_, rfl, by simp [CellKind.outputs], fun c u h => ⟨_, read1 (e := .or (.pin ['A']) (.not (.pin ['B']))) (by decide +kernel) _, rfl, ?_⟩⟩
    simp [Cell.Computes, h, Liberty.Expr.eval]
  | nor =>
    refine ⟨_, rfl, by simp [CellKind.outputs], fun c u h => ⟨_, read1 (e := .not (.or (.pin ['A']) (.pin ['B']))) (by decide +kernel) _, rfl, ?_⟩⟩
    simp [Cell.Computes, h, Liberty.Expr.eval]
  | norn =>
    refine ⟨_, rfl, by simp [CellKind.outputs], fun c u h => ⟨_, read1 (e := .not (.or (.pin ['A']) (.not (.pin ['B'])))) (by decide +kernel) _, rfl, ?_⟩⟩
    simp [Cell.Computes, h, Liberty.Expr.eval]
  | xor =>
    refine ⟨_, rfl, by simp [CellKind.outputs], fun c u h => ⟨_, read1 (e := .xor (.pin ['A']) (.pin ['B'])) (by decide +kernel) _, rfl, ?_⟩⟩
    simp [Cell.Computes, h, Liberty.Expr.eval]
  | xnor =>
    refine ⟨_, rfl, by simp [CellKind.outputs], fun c u h => ⟨_, read1 (e := .not (.xor (.pin ['A']) (.pin ['B']))) (by decide +kernel) _, rfl, ?_⟩⟩
    simp [Cell.Computes, h, Liberty.Expr.eval]
  | iv =>
    refine ⟨_, rfl, by simp [CellKind.outputs], fun c u h => ⟨_, read1 (e := .not (.pin ['A'])) (by decide +kernel) _, rfl, ?_⟩⟩
    simp [Cell.Computes, h, Liberty.Expr.eval]
  | dff => simp at hk
  | mux => simp at hk
  | hadder => simp at hk
  | fadder =>
    refine ⟨_, rfl, by simp [CellKind.outputs, or_comm], fun c u h => ⟨_, read2 (e := .or (.or (.and (.pin ['C', 'I', 'N']) (.pin ['I', 'N', '0'])) (.and (.pin ['C', 'I', 'N']) (.pin ['I', 'N', '1']))) (.and (.pin ['I', 'N', '0']) (.pin ['I', 'N', '1'])))
      (f := .xor (.xor (.pin ['I', 'N', '0']) (.pin ['I', 'N', '1'])) (.pin ['C', 'I', 'N'])) (by decide +kernel) (by decide +kernel) _, rfl, ?_⟩⟩
    simp [Cell.Computes, h, Liberty.Expr.eval, and_comm]

/-- What a flip-flop stores: first an event with active `RST`, then an edge of the clock after each cycle. -/
def stored (event : Bool → Bool → (String → Bool) → Option Bool) (q : Bool) (c : Cell) (v : Nat → Name → Bool) : Nat → Option Bool
  | 0 => event q false (fun p => if p = "RST" then true else c.val (v 0) p)
  | t + 1 => (stored event q c v t).bind fun q => event q true (fun p => if p = "RST" then false else c.val (v t) p)

/-- The events of the flip-flop of dff_full.v. -/
def verilogDff (q clock : Bool) (i : String → Bool) : Option Bool := some (dffFullVDff q clock i)

/-- The events of a flip-flop of a Liberty file. -/
def libertyDff (f : FF) (q clock : Bool) (i : String → Bool) : Option Bool := Liberty.next f.nextState f.clear f.preset f.both q clock i

theorem stored_verilog (q : Bool) (c : Cell) (v : Nat → Name → Bool) (t : Nat) :
    stored verilogDff q c v t = some (match t with
      | 0 => c.val (v 0) "I"
      | t + 1 => c.val (v t) "D") := by
  induction t with
  | zero => simp [stored, verilogDff, dffFullVDff]
  | succ t ih => simp [stored, ih, verilogDff, dffFullVDff]

/-- The flip-flop of dff_full.v starts with `I` and takes over `D` after each cycle, whatever was stored before. -/
theorem C83_dff (q : Bool) (c : Cell) (v : Nat → Name → Bool) (hk : c.kind = .dff) :
    c.Stores v ↔ ∀ t, ∃ b, stored verilogDff q c v t = some b ∧ c.Drives (v t) "Q" b := by
  simp only [stored_verilog, Cell.Stores, hk, true_implies]
  constructor
  · rintro ⟨h0, h⟩ t
    cases t with
    | zero => exact ⟨_, rfl, h0⟩
    | succ t => exact ⟨_, rfl, h t⟩
  · intro h
    refine ⟨?_, fun t => ?_⟩
    · obtain ⟨b, hb, h⟩ := h 0
      cases hb
      exact h
    · obtain ⟨b, hb, h⟩ := h (t + 1)
      cases hb
      exact h

theorem dffFullLibDff_eq (q clock : Bool) (i : String → Bool) : libertyDff dffFullLibDff q clock i = verilogDff q clock i := by
  have h1 : Liberty.read "I'*RST" = some (.and (.not (.pin ['I'])) (.pin ['R', 'S', 'T'])) := by decide +kernel
  have h2 : Liberty.read "I*RST" = some (.and (.pin ['I']) (.pin ['R', 'S', 'T'])) := by decide +kernel
  have h3 : Liberty.read "D" = some (.pin ['D']) := by decide +kernel
  simp only [libertyDff, dffFullLibDff, Liberty.next, h1, h2, h3, verilogDff, dffFullVDff]
  cases hi : i "I" <;> cases hr : i "RST" <;> simp [Liberty.Expr.eval, hi, hr]

/-- So does the flip-flop of dff_full.lib. -/
theorem C83_lib_dff (q : Bool) (c : Cell) (v : Nat → Name → Bool) (hk : c.kind = .dff) :
    c.Stores v ↔ ∀ t, ∃ b, stored (libertyDff dffFullLibDff) q c v t = some b ∧ c.Drives (v t) "Q" b := by
  have : libertyDff dffFullLibDff = verilogDff := by
    funext q clock i
    exact dffFullLibDff_eq q clock i
  rw [this]
  exact C83_dff q c v hk

/-- The flip-flop of asic_cell_yosys_extended.lib does not: at the start it is cleared, or not determined when `I` is set, and
afterwards it keeps 1 as long as `I` is set. -/
theorem C83_extended_dff_false (q clock : Bool) (i : String → Bool) :
    (i "RST" = true → i "I" = true → libertyDff extendedLibDff q clock i = none)
    ∧ (i "RST" = false → i "I" = true → libertyDff extendedLibDff q clock i = some true) := by
  have h1 : Liberty.read "RST" = some (.pin ['R', 'S', 'T']) := by decide +kernel
  have h2 : Liberty.read "I" = some (.pin ['I']) := by decide +kernel
  have h3 : Liberty.read "D" = some (.pin ['D']) := by decide +kernel
  simp only [libertyDff, extendedLibDff, Liberty.next, h1, h2, h3]
  constructor <;> intro hr hi <;> simp [Liberty.Expr.eval, hi, hr]

/-- The outputs of asic_cell_yosys.lib are named `Y`. The cells of the netlist have no such port, and the reader drops the output: with
ENABLE_LOG it rejects the netlist, otherwise the net of the output becomes the input. -/
theorem C83_yosys_pin_false : (∀ f ∈ yosysLib, f.2.map Prod.fst = ["Y"]) ∧ (∀ k : CellKind, "Y" ∉ k.outputs)
    ∧ parseNetlist true "input e_input; output o; IV U1 ( .A(e_input), .Y(o) ); endmodule".toList = some none
    ∧ (parseNetlist false "input e_input; output o; IV U1 ( .A(e_input), .Y(o) ); endmodule".toList).map (Option.map CircuitStr.gates)
      = some (some [⟨"o".toList, [], [], NOTGATE⟩]) := by
  refine ⟨by decide +kernel, ?_, ?_, by decide +kernel⟩
  · intro k
    cases k <;> simp [CellKind.outputs]
  · have : (match parseNetlist true "input e_input; output o; IV U1 ( .A(e_input), .Y(o) ); endmodule".toList with
      | some none => true
      | _ => false) = true := by decide +kernel
    revert this
    cases parseNetlist true "input e_input; output o; IV U1 ( .A(e_input), .Y(o) ); endmodule".toList with
    | none => simp
    | some r => cases r <;> simp

/-- A full adder with 1, 0, 1 at its inputs, and a flip-flop. -/
example : dffFullV CellKind.fadder.word (fun p => p = "IN0" || p = "CIN") = [("SUM", false), ("COUT", true)]
    ∧ (∃ c : Cell, c.kind = .dff ∧ c.net "Q" = some "q".toList) :=
  ⟨by decide +kernel, ⟨.dff, "U1".toList, [⟨"Q", ["q".toList]⟩]⟩, rfl, by decide +kernel⟩

end TinyGarble.Props
