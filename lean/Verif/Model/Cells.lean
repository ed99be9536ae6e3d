/-!
# The libraries of cells

The cells of circuit_synthesis/lib. The functions of the Liberty files are given by their text; `Spec/Liberty` says how to read it.
-/

namespace TinyGarble.Cells

/-- The combinational modules of lib/dff_full/dff_full.v:4-203: the outputs for the inputs `i`. -/
def dffFullV (name : String) (i : String → Bool) : List (String × Bool) :=
  match name with
  | "MUX" => [("F", (!i "SEL" && i "IN0") || (i "SEL" && i "IN1"))]
  | "HADDER" => [("SUM", i "IN0" ^^ i "IN1"), ("COUT", i "IN0" && i "IN1")]
  | "FADDER" => [("SUM", i "IN0" ^^ i "IN1" ^^ i "CIN"), ("COUT", (i "CIN" && i "IN0") || (i "CIN" && i "IN1") || (i "IN0" && i "IN1"))]
  | "AND" => [("Z", i "A" && i "B")]
  | "ANDN" => [("Z", i "A" && !i "B")]
  | "NAND" => [("Z", !(i "A" && i "B"))]
  | "NANDN" => [("Z", !(i "A" && !i "B"))]
  | "OR" => [("Z", i "A" || i "B")]
  | "ORN" => [("Z", i "A" || !i "B")]
  | "NOR" => [("Z", !(i "A" || i "B"))]
  | "NORN" => [("Z", !(i "A" || !i "B"))]
  | "XOR" => [("Z", i "A" ^^ i "B")]
  | "XNOR" => [("Z", !(i "A" ^^ i "B"))]
  | "IV" => [("Z", !i "A")]
  | _ => []

/-- The module `DFF` of dff_full.v:206-228 at an event: the new value of `Q`. `clock` is a rising edge of `CLK`. -/
def dffFullVDff (q : Bool) (clock : Bool) (i : String → Bool) : Bool :=
  if i "RST" then i "I" else if clock then i "D" else q

/-- A flip-flop group of a Liberty file: the texts of its attributes. -/
structure FF where
  nextState : String
  clear : String
  preset : String
  /-- `clear_preset_var1`, when it is given. -/
  both : Option String

/-- The attributes `function` of lib/dff_full/dff_full.lib (lines 39-376). -/
def dffFullLib : List (String × List (String × String)) :=
  [("MUX", [("F", "(SEL'*IN0)+(SEL*IN1)")]),
   ("HADDER", [("SUM", "IN0^IN1"), ("COUT", "(IN0*IN1)")]),
   ("FADDER", [("COUT", "((CIN*IN0)+(CIN*IN1)+(IN0*IN1))"), ("SUM", "IN0^IN1^CIN")]),
   ("AND", [("Z", "A*B")]),
   ("ANDN", [("Z", "A*B'")]),
   ("NAND", [("Z", "(A*B)'")]),
   ("NANDN", [("Z", "(A*B')'")]),
   ("OR", [("Z", "(A+B)")]),
   ("ORN", [("Z", "(A+B')")]),
   ("NOR", [("Z", "(A+B)'")]),
   ("NORN", [("Z", "(A+B')'")]),
   ("IV", [("Z", "A'")]),
   ("XOR", [("Z", "A^B")]),
   ("XNOR", [("Z", "(A^B)'")])]

/-- The flip-flop of dff_full.lib:380-386. -/
def dffFullLibDff : FF := ⟨"D", "I'*RST", "I*RST", some "L"⟩

/-- The attributes `function` of lib/asic_cell_yosys_extended.lib:2-73. -/
def extendedLib : List (String × List (String × String)) :=
  [("IV", [("Z", "A'")]),
   ("XOR", [("Z", "(A^B)")]),
   ("XNOR", [("Z", "(A^B)'")]),
   ("NOR", [("Z", "(A+B)'")]),
   ("OR", [("Z", "(A+B)")]),
   ("NAND", [("Z", "(A&B)'")]),
   ("AND", [("Z", "(A&B)")]),
   ("NORN", [("Z", "(A+B')'")]),
   ("ORN", [("Z", "(A+B')")]),
   ("NANDN", [("Z", "(A&B')'")]),
   ("ANDN", [("Z", "(A&B')")]),
   ("FADDER", [("COUT", "((CIN*IN0)+(CIN*IN1)+(IN0*IN1))"), ("SUM", "IN0^IN1^CIN")])]

/-- The flip-flop of asic_cell_yosys_extended.lib:75-88. -/
def extendedLibDff : FF := ⟨"D", "RST", "I", none⟩

/-- The attributes `function` of lib/asic_cell_yosys.lib. -/
def yosysLib : List (String × List (String × String)) :=
  [("IV", [("Y", "A'")]),
   ("XOR", [("Y", "(A^B)")]),
   ("NOR", [("Y", "(A+B)'")])]

end TinyGarble.Cells
