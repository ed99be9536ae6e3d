import Verif.Spec.Named

/-!
# Verilog netlists

A module as a list of statements, its words, and its meaning. The cells are those of the library
circuit_synthesis/lib/dff_full/dff_full.v. Of `CircuitStr` only the sizes of the ports and the assignments are used here.
-/

namespace TinyGarble.Spec

/-! ## Words of a text -/

/-- White space, commas and parentheses separate words. -/
def separates (ch : Char) : Bool := ch ∈ [' ', ',', '(', ')', '\t', '\r', '\n']

/-- A word, when there is one. -/
def flush (w : Name) : List Name := if w = [] then [] else [w]

/-- The words of a text; a semicolon is a word by itself. `w` is the word read so far. -/
def lexemesFrom : Name → List Char → List Name
  | w, [] => flush w
  | w, ch :: l =>
    if separates ch then flush w ++ lexemesFrom [] l
    else if ch = ';' then flush w ++ [[';']] ++ lexemesFrom [] l
    else lexemesFrom (w ++ [ch]) l

/-- The words of a text. -/
def lexemes (l : List Char) : List Name := lexemesFrom [] l

/-! ## Statements -/

/-- The cells of the library. -/
inductive CellKind where
  | and | andn | nand | nandn | or | orn | nor | norn | xor | xnor | iv | dff | mux | hadder | fadder
deriving DecidableEq, Repr

/-- Names of the cells. -/
def CellKind.word : CellKind → String
  | .and => "AND" | .andn => "ANDN" | .nand => "NAND" | .nandn => "NANDN" | .or => "OR" | .orn => "ORN" | .nor => "NOR"
  | .norn => "NORN" | .xor => "XOR" | .xnor => "XNOR" | .iv => "IV" | .dff => "DFF" | .mux => "MUX" | .hadder => "HADDER"
  | .fadder => "FADDER"

/-- Inputs that a cell reads in every cycle. -/
def CellKind.inputs : CellKind → List String
  | .iv => ["A"]
  | .dff => ["D"]
  | .mux => ["IN0", "IN1", "SEL"]
  | .hadder => ["IN0", "IN1"]
  | .fadder => ["IN0", "IN1", "CIN"]
  | _ => ["A", "B"]

/-- Outputs. -/
def CellKind.outputs : CellKind → List String
  | .dff => ["Q"]
  | .mux => ["F"]
  | .hadder | .fadder => ["SUM", "COUT"]
  | _ => ["Z"]

/-- A connection `.port(net)`: no net, a name, or a name and an index such as `[3]` with white space between. -/
structure Conn where
  port : String
  pieces : List Name

def Conn.net (c : Conn) : Option Name := if c.pieces = [] then none else some c.pieces.flatten

/-- An instance of a cell. -/
structure Cell where
  kind : CellKind
  inst : Name
  conns : List Conn

/-- The net at a port. -/
def Cell.net (c : Cell) (port : String) : Option Name := (c.conns.find? (fun k => k.port = port)).bind Conn.net

/-- Statements. A declaration has an optional range `[msb:0]`. `other` is any statement without meaning here: the head of the
module, a declaration of wires. -/
inductive Item where
  | input (msb : Option Nat) (names : List Name)
  | output (msb : Option Nat) (names : List Name)
  | assign (a b : Name)
  | cell (c : Cell)
  | other (ws : List Name)

def rangeWord : Option Nat → List Name
  | none => []
  | some m => ['[' :: (printNat m ++ ":0]".toList)]

def Conn.words (c : Conn) : List Name := ('.' :: c.port.toList) :: c.pieces

def Item.words : Item → List Name
  | .input m names => "input".toList :: (rangeWord m ++ names)
  | .output m names => "output".toList :: (rangeWord m ++ names)
  | .assign a b => ["assign".toList, a, "=".toList, b]
  | .cell c => c.kind.word.toList :: c.inst :: c.conns.flatMap Conn.words
  | .other ws => ws

/-- The words of the statements. -/
def itemsWords (items : List Item) : List Name := items.flatMap (fun i => i.words ++ [";".toList])

/-- The module is written in the file: its statements, `endmodule`, and anything else. Layout is free. -/
def WrittenIn (items : List Item) (file : List Char) : Prop :=
  ∃ rest, lexemes file = itemsWords items ++ "endmodule".toList :: rest

/-! ## Proper statements -/

def allCells : List CellKind :=
  [.and, .andn, .nand, .nandn, .or, .orn, .nor, .norn, .xor, .xnor, .iv, .dff, .mux, .hadder, .fadder]

def portWords : List String := ["A", "B", "D", "I", "Z", "Q", "IN0", "IN1", "CIN", "SEL", "COUT", "SUM", "F", "CLK", "RST"]

/-- Words with a meaning: they are no names of nets and instances. -/
def Reserved (w : Name) : Prop :=
  w ∈ [";".toList, "endmodule".toList, "input".toList, "output".toList, "assign".toList, "=".toList]
  ∨ (∃ k : CellKind, w = k.word.toList) ∨ ∃ p ∈ portWords, w = '.' :: p.toList

/-- A name of a net. -/
def NetWord (w : Name) : Prop := w ≠ [] ∧ w.head? ≠ some '[' ∧ ¬ Reserved w

/-- A connection to nothing, to a name, or to a name and an index. -/
def Conn.Proper (c : Conn) : Prop :=
  c.port ∈ portWords
  ∧ (c.pieces = [] ∨ (∃ a, NetWord a ∧ c.pieces = [a])
    ∨ ∃ a i, NetWord a ∧ ¬ Reserved ('[' :: i) ∧ c.pieces = [a, '[' :: i])

/-- All inputs of the cell are connected, and the output; of an adder at least one of the two outputs. -/
structure Cell.Proper (c : Cell) : Prop where
  inst : ¬ Reserved c.inst
  conns : ∀ k ∈ c.conns, k.Proper
  once : (c.conns.map (·.port)).Nodup
  inputs : ∀ p ∈ c.kind.inputs, c.net p ≠ none
  init : c.kind = .dff → c.net "I" ≠ none
  outputs : ∃ p ∈ c.kind.outputs, c.net p ≠ none

def inputNames : List String := ["p_init", "g_init", "e_init", "p_input", "g_input", "e_input"]

def Item.Proper : Item → Prop
  | .input m names => (∀ k ∈ m, k + 1 < 2 ^ 31)
    ∧ ∀ n ∈ names, n ∈ ["clk".toList, "rst".toList] ∨ ∃ p ∈ inputNames, n = p.toList
  | .output m names => (∀ k ∈ m, k + 1 < 2 ^ 31)
    ∧ ∀ n ∈ names, n = "o".toList ∨ (n = "terminate".toList ∧ m = none)
  | .assign a b => NetWord a ∧ NetWord b
  | .cell c => c.Proper
  | .other ws => ∀ w ∈ ws, ¬ Reserved w

/-- The width that a declaration gives to a port. -/
def Item.declares (n : Name) : Item → Option Nat
  | .input m names | .output m names => if n ∈ names then some (match m with
    | some k => k + 1
    | none => 1) else none
  | _ => none

/-- Proper statements, and no port declared twice. -/
structure ProperModule (items : List Item) : Prop where
  each : ∀ i ∈ items, i.Proper
  once : items.Pairwise (fun i j => ∀ n, i.declares n ≠ none → j.declares n = none)

/-! ## Meaning -/

/-- Width of a port; 0 when it is not declared. -/
def width (items : List Item) (p : String) : Nat := (items.findSome? (Item.declares p.toList)).getD 0

def Item.cell? : Item → Option Cell
  | .cell c => some c
  | _ => none

def Item.assign? : Item → Option (Name × Name)
  | .assign a b => some (a, b)
  | _ => none

/-- The cells of a module. -/
def cells (items : List Item) : List Cell := items.filterMap Item.cell?

/-- The ports and assignments of a module. -/
def frame (items : List Item) : CircuitStr where
  gates := []
  dffs := []
  assigns := items.filterMap Item.assign?
  pInit := width items "p_init"
  gInit := width items "g_init"
  eInit := width items "e_init"
  pInput := width items "p_input"
  gInput := width items "g_input"
  eInput := width items "e_input"
  outputSize := width items "o"
  hasTerminate := (items.findSome? (Item.declares "terminate".toList)).isSome

/-- Value at an input port. -/
def Cell.val (c : Cell) (u : Name → Bool) (port : String) : Bool := match c.net port with
  | some n => u n
  | none => false

/-- The net at an output port, if there is one, has this value. -/
def Cell.Drives (c : Cell) (u : Name → Bool) (port : String) (b : Bool) : Prop := ∀ n, c.net port = some n → u n = b

/-- The function of a cell without state (dff_full.v:4-203). -/
def Cell.Computes (c : Cell) (u : Name → Bool) : Prop :=
  let A := c.val u "A"
  let B := c.val u "B"
  let IN0 := c.val u "IN0"
  let IN1 := c.val u "IN1"
  let CIN := c.val u "CIN"
  match c.kind with
  | .and => c.Drives u "Z" (A && B)
  | .andn => c.Drives u "Z" (A && !B)
  | .nand => c.Drives u "Z" (!(A && B))
  | .nandn => c.Drives u "Z" (!(A && !B))
  | .or => c.Drives u "Z" (A || B)
  | .orn => c.Drives u "Z" (A || !B)
  | .nor => c.Drives u "Z" (!(A || B))
  | .norn => c.Drives u "Z" (!(A || !B))
  | .xor => c.Drives u "Z" (A ^^ B)
  | .xnor => c.Drives u "Z" (!(A ^^ B))
  | .iv => c.Drives u "Z" (!A)
  | .mux => c.Drives u "F" (if c.val u "SEL" then IN1 else IN0)
  | .hadder => c.Drives u "SUM" (IN0 ^^ IN1) ∧ c.Drives u "COUT" (IN0 && IN1)
  | .fadder => c.Drives u "SUM" (IN0 ^^ IN1 ^^ CIN) ∧ c.Drives u "COUT" ((CIN && IN0) || (CIN && IN1) || (IN0 && IN1))
  | .dff => True

/-- A flip-flop starts with `I` and takes over `D` after each cycle (dff_full.v:206-228). -/
def Cell.Stores (c : Cell) (v : Nat → Name → Bool) : Prop :=
  c.kind = .dff → c.Drives (v 0) "Q" (c.val (v 0) "I") ∧ ∀ t, c.Drives (v (t + 1)) "Q" (c.val (v t) "D")

/-- The valuations of the nets that satisfy all statements. -/
structure VerilogSolves (items : List Item) (x : Inputs) (v : Nat → Name → Bool) : Prop where
  ports : NamedSolves (frame items) x v
  computes : ∀ c ∈ cells items, ∀ t, c.Computes (v t)
  stores : ∀ c ∈ cells items, c.Stores v

/-! ## Restrictions -/

/-- The names that the program makes up. -/
def MidName (n : Name) : Prop := "MUX_MID_".toList <+: n ∨ "FADDER_MID_".toList <+: n

/-- No net has such a name. -/
structure NoMidNames (items : List Item) : Prop where
  assigns : ∀ a ∈ (frame items).assigns, ¬ MidName a.1 ∧ ¬ MidName a.2
  cells : ∀ c ∈ cells items, ∀ p n, c.net p = some n → ¬ MidName n

/-- Output of a cell. -/
def VOutput (items : List Item) (n : Name) : Prop := ∃ c ∈ cells items, ∃ p ∈ c.kind.outputs, c.net p = some n

/-- The nets that are read in every cycle. -/
def VRead (items : List Item) (n : Name) : Prop :=
  (∃ c ∈ cells items, ∃ p ∈ c.kind.inputs, c.net p = some n)
  ∨ (∃ k < width items "o", n = outputBit k) ∨ ((frame items).hasTerminate = true ∧ n = "terminate".toList)

/-- As `Legal`. -/
structure VLegal (items : List Item) : Prop where
  inits : ∀ c ∈ cells items, c.kind = .dff → ∀ n, c.net "I" = some n →
    ∀ d, InputBit (frame items) d ∨ VOutput items d → ¬ SameNet (frame items) d n
  reads : ∀ n, VRead items n → ∀ d, InitBit (frame items) d → ¬ SameNet (frame items) d n
  driven : ∀ c ∈ cells items, c.kind = .dff → ∀ n, c.net "Q" = some n → ∀ k, ConstName k → ¬ SameNet (frame items) k n

/-- What drives nets. -/
def VSource (items : List Item) (n : Name) : Prop :=
  ConstName n ∨ InitBit (frame items) n ∨ InputBit (frame items) n ∨ VOutput items n

/-- As `OneDriver`. -/
structure VOneDriver (items : List Item) : Prop where
  nets : ∀ a b, VSource items a → VSource items b → SameNet (frame items) a b → a = b
  cells : ((cells items).flatMap (fun c => c.kind.outputs.filterMap c.net)).Nodup
  fresh : ∀ n, VOutput items n → ¬ ConstName n ∧ ¬ InitBit (frame items) n ∧ ¬ InputBit (frame items) n

end TinyGarble.Spec
