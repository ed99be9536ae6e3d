import Verif.Model.Netlist

/-!
# Parsing Verilog netlists

Models `ParseNetlist` (scd/parse_netlist.cpp:67-414). Logging is left out. The file can be opened; characters are single
bytes. `log` tells whether the program is compiled with ENABLE_LOG: otherwise the checks have no effect (util/log.h:66-81).
-/

namespace TinyGarble

def MUXGATE : Int := 15
def HADDERGATE : Int := 16
def FADDERGATE : Int := 17
def INVALGATE : Int := 18

/-! ## Tokens -/

/-- Dropped delimiters of `char_separator<char> sep(" ,()\t\r", ";")` (parse_netlist.cpp:91). -/
def isDropped (ch : Char) : Bool := ch = ' ' || ch = ',' || ch = '(' || ch = ')' || ch = '\t' || ch = '\r'

/-- Kept delimiters. -/
def isKept (ch : Char) : Bool := ch = ';'

/-- One token and what is left, as `boost::char_separator` does it with `drop_empty_tokens`: dropped delimiters are skipped; a
kept delimiter is a token by itself; another token reaches to the next delimiter. -/
def nextToken (line : List Char) : Option (Name × List Char) :=
  match line.dropWhile isDropped with
  | [] => none
  | ch :: l => if isKept ch then some ([ch], l)
    else some (ch :: l.takeWhile (fun c => !(isDropped c || isKept c)), l.dropWhile (fun c => !(isDropped c || isKept c)))

theorem nextToken_lt {line : List Char} {r : Name × List Char} (h : nextToken line = some r) : r.2.length < line.length := by
  unfold nextToken at h
  have h1 : (line.dropWhile isDropped).length ≤ line.length := (List.dropWhile_sublist _).length_le
  split at h
  · cases h
  · rename_i ch l e
    rw [e, List.length_cons] at h1
    split at h
    · obtain rfl := Option.some.inj h
      simp only; omega
    · obtain rfl := Option.some.inj h
      have := (List.dropWhile_sublist (fun c => !(isDropped c || isKept c)) (l := l)).length_le
      simp only; omega

/-- The tokens of a line (parse_netlist.cpp:91-93). -/
def tokens (line : List Char) : List Name :=
  match h : nextToken line with
  | none => []
  | some r => r.1 :: tokens r.2
termination_by line.length
decreasing_by exact nextToken_lt h

/-- The lines that `getline` returns (parse_netlist.cpp:87-90); the last one may be empty. -/
def fileLines : List Char → List (List Char)
  | [] => [[]]
  | ch :: l => if ch = '\n' then [] :: fileLines l else match fileLines l with
    | [] => [[ch]]
    | x :: xs => (ch :: x) :: xs

/-- `ispunct` or `isspace` in the "C" locale: the delimiters of `tokenizer<>`. -/
def isDelim (ch : Char) : Bool :=
  isWhite ch || decide (33 ≤ ch.toNat ∧ ch.toNat ≤ 47) || decide (58 ≤ ch.toNat ∧ ch.toNat ≤ 64)
    || decide (91 ≤ ch.toNat ∧ ch.toNat ≤ 96) || decide (123 ≤ ch.toNat ∧ ch.toNat ≤ 126)

/-- `no_of_bits` of a range such as `[7:0]` (parse_netlist.cpp:282-285, 310-313): the first piece between punctuation, as a number, plus
one. `none` when there is no such piece (the iterator is at the end) or the number exceeds `int`. -/
def rangeBits (str : Name) : Option Nat :=
  let piece := (str.dropWhile isDelim).takeWhile (fun c => !isDelim c)
  if piece = [] then none
  else
    let v := decValue (piece.takeWhile isDec)
    if v + 1 < 2 ^ 31 then some (v + 1) else none

/-! ## The state machine -/

/-- The local variables of `ParseNetlist` (parse_netlist.cpp:76-85). -/
structure ParseState where
  s : CircuitStr
  gateType : Int
  bits : Nat
  isRight : Bool
  isLeft : Bool
  isIn : Bool
  isOut : Bool
  port : Name → Option Name
  key : Name

/-- The values at the beginning. -/
def ParseState.start (s : CircuitStr) : ParseState := ⟨s, INVALGATE, 0, false, false, false, false, fun _ => none, []⟩

/-- What happens after a token: the next state, end of the module, FAILURE, undefined behaviour (or, at the end of the file, an
endless loop). -/
inductive ParseStep where
  | next (p : ParseState)
  | endmodule (s : CircuitStr)
  | failure
  | undef

/-- `CHECK_EXPR_MSG(port.count(k) > 0 && port[k] != "", …)` followed by `port[k]`. -/
def needPort (log : Bool) (port : Name → Option Name) (k : String) : Option Name :=
  match port k.toList with
  | some n => if n = [] ∧ log then none else some n
  | none => if log then none else some []

/-- The gates of a MUX cell (parse_netlist.cpp:157-178). -/
def muxGates (id : Nat) (in0 in1 sel f : Name) : List GateStr :=
  let mid1 := "MUX_MID_1_".toList ++ printNat id
  let mid2 := "MUX_MID_2_".toList ++ printNat id
  [⟨in0, in1, mid1, XORGATE⟩, ⟨sel, mid1, mid2, ANDGATE⟩, ⟨in0, mid2, f, XORGATE⟩]

/-- The gates of a half adder (parse_netlist.cpp:193-208). -/
def hadderGates (in0 in1 : Name) (sum cout : Option Name) : List GateStr :=
  (match sum with
    | some o => [⟨in0, in1, o, XORGATE⟩]
    | none => [])
  ++ match cout with
    | some o => [⟨in0, in1, o, ANDGATE⟩]
    | none => []

/-- The gates of a full adder (parse_netlist.cpp:224-263). -/
def fadderGates (id : Nat) (in0 in1 cin : Name) (sum cout : Option Name) : List GateStr :=
  let mid1 := "FADDER_MID_1_".toList ++ printNat id
  let mid2 := "FADDER_MID_2_".toList ++ printNat id
  let mid3 := "FADDER_MID_3_".toList ++ printNat id
  [⟨in0, cin, mid1, XORGATE⟩]
  ++ (match sum with
    | some o => [⟨in1, mid1, o, XORGATE⟩]
    | none => [])
  ++ match cout with
    | some o => [⟨in1, cin, mid2, XORGATE⟩, ⟨mid1, mid2, mid3, ANDGATE⟩, ⟨cin, mid3, o, XORGATE⟩]
    | none => []

/-- The types of two-input gates (parse_netlist.cpp:95-99). -/
def twoInput : List Int :=
  [ANDGATE, ANDNGATE, NANDGATE, NANDNGATE, ORGATE, ORNGATE, NORGATE, NORNGATE, XORGATE, XNORGATE]

/-- `SUM` or `COUT` is there (parse_netlist.cpp:189-191, 220-222). -/
def someOutput (log : Bool) (port : Name → Option Name) : Bool :=
  !log || (match port "SUM".toList with
    | some n => n ≠ []
    | none => false) || match port "COUT".toList with
    | some n => n ≠ []
    | none => false

/-- A semicolon (parse_netlist.cpp:94-274). -/
def closeStatement (log : Bool) (p : ParseState) : ParseStep :=
  let done (r : Option CircuitStr) : ParseStep := match r with
    | none => .failure
    | some s => .next { p with s := s, gateType := INVALGATE, port := fun _ => none, key := [] }
  if p.gateType ∈ twoInput then done do
    let a ← needPort log p.port "A"
    let b ← needPort log p.port "B"
    let z ← needPort log p.port "Z"
    return { p.s with gates := p.s.gates ++ [⟨a, b, z, p.gateType⟩] }
  else if p.gateType = NOTGATE then done do
    let a ← needPort log p.port "A"
    let z ← needPort log p.port "Z"
    return { p.s with gates := p.s.gates ++ [⟨a, [], z, p.gateType⟩] }
  else if p.gateType = DFFGATE then done do
    let d ← needPort log p.port "D"
    let i ← needPort log p.port "I"
    let q ← needPort log p.port "Q"
    return { p.s with dffs := p.s.dffs ++ [⟨d, i, q, p.gateType⟩] }
  else if p.gateType = MUXGATE then done do
    let in0 ← needPort log p.port "IN0"
    let in1 ← needPort log p.port "IN1"
    let sel ← needPort log p.port "SEL"
    let f ← needPort log p.port "F"
    return { p.s with gates := p.s.gates ++ muxGates p.s.gates.length in0 in1 sel f }
  else if p.gateType = HADDERGATE then done do
    let in0 ← needPort log p.port "IN0"
    let in1 ← needPort log p.port "IN1"
    if someOutput log p.port = false then none
    else return { p.s with
      gates := p.s.gates ++ hadderGates in0 in1 (p.port "SUM".toList) (p.port "COUT".toList) }
  else if p.gateType = FADDERGATE then done do
    let in0 ← needPort log p.port "IN0"
    let in1 ← needPort log p.port "IN1"
    let cin ← needPort log p.port "CIN"
    if someOutput log p.port = false then none
    else return { p.s with
      gates := p.s.gates ++ fadderGates p.s.gates.length in0 in1 cin (p.port "SUM".toList) (p.port "COUT".toList) }
  else .next { p with isIn := false, isOut := false, bits := 0, isLeft := false, isRight := false, key := [] }

/-- `(no_of_bits > 0) ? no_of_bits : 1`. -/
def portBits (bits : Nat) : Nat := if 0 < bits then bits else 1

/-- A word of an `input` declaration (parse_netlist.cpp:280-305). -/
def inputWord (p : ParseState) (str : Name) : ParseStep :=
  if str.head? = some '[' then match rangeBits str with
    | none => .undef
    | some b => .next { p with bits := b }
  else if str = "clk".toList ∨ str = "rst".toList then .next p
  else if str = "p_init".toList then .next { p with s := { p.s with pInit := portBits p.bits } }
  else if str = "g_init".toList then .next { p with s := { p.s with gInit := portBits p.bits } }
  else if str = "e_init".toList then .next { p with s := { p.s with eInit := portBits p.bits } }
  else if str = "p_input".toList then .next { p with s := { p.s with pInput := portBits p.bits } }
  else if str = "g_input".toList then .next { p with s := { p.s with gInput := portBits p.bits } }
  else if str = "e_input".toList then .next { p with s := { p.s with eInput := portBits p.bits } }
  else .failure

/-- A word of an `output` declaration (parse_netlist.cpp:308-326). -/
def outputWord (p : ParseState) (str : Name) : ParseStep :=
  if str.head? = some '[' then match rangeBits str with
    | none => .undef
    | some b => .next { p with bits := b }
  else if str = "terminate".toList then
    if p.bits ≠ 0 then .failure else .next { p with s := { p.s with hasTerminate := true } }
  else if str = "o".toList then .next { p with s := { p.s with outputSize := portBits p.bits } }
  else .failure

/-- The names of the cells (parse_netlist.cpp:341-370). -/
def cellNames : List (String × Int) :=
  [("AND", ANDGATE), ("ANDN", ANDNGATE), ("NAND", NANDGATE), ("NANDN", NANDNGATE), ("OR", ORGATE), ("ORN", ORNGATE),
    ("NOR", NORGATE), ("NORN", NORNGATE), ("XOR", XORGATE), ("XNOR", XNORGATE), ("IV", NOTGATE), ("DFF", DFFGATE),
    ("MUX", MUXGATE), ("HADDER", HADDERGATE), ("FADDER", FADDERGATE)]

/-- The ports of the cells (parse_netlist.cpp:371-400). -/
def portKeys : List (String × String) :=
  [(".A", "A"), (".B", "B"), (".D", "D"), (".I", "I"), (".Z", "Z"), (".Q", "Q"), (".IN0", "IN0"), (".IN1", "IN1"),
    (".CIN", "CIN"), (".SEL", "SEL"), (".COUT", "COUT"), (".SUM", "SUM"), (".F", "F"), (".CLK", ""), (".RST", "")]

/-- The entry of a word in a list. -/
def lookupWord {α : Type} (l : List (String × α)) (str : Name) : Option α :=
  match l.find? (fun e => str = e.1.toList) with
  | some e => some e.2
  | none => none

/-- One token (parse_netlist.cpp:94-410). -/
def parseToken (log : Bool) (p : ParseState) (str : Name) : ParseStep :=
  if str = ";".toList then closeStatement log p
  else if str = "endmodule".toList then .endmodule p.s
  else if str = "input".toList then .next { p with isIn := true }
  else if p.isIn then inputWord p str
  else if str = "output".toList then .next { p with isOut := true }
  else if p.isOut then outputWord p str
  else if str = "assign".toList then .next { p with isLeft := true }
  else if p.isLeft then .next { p with s := { p.s with assigns := p.s.assigns ++ [(str, [])] }, isLeft := false }
  else if str = "=".toList then .next { p with isRight := true }
  else if p.isRight then match p.s.assigns.getLast? with
    | none => .undef
    | some a => .next { p with s := { p.s with assigns := p.s.assigns.dropLast ++ [(a.1, str)] }, isRight := false }
  else match lookupWord cellNames str with
    | some t => .next { p with gateType := t }
    | none => match lookupWord portKeys str with
      | some k => .next { p with key := k.toList }
      | none =>
        if p.key ≠ [] then
          if str.head? = some '[' then
            .next { p with
              port := fun k => if k = p.key then some (((p.port p.key).getD []) ++ str) else p.port k
              key := [] }
          else .next { p with port := fun k => if k = p.key then some str else p.port k }
        else .next p

/-- The tokens of a line. -/
def parseTokens (log : Bool) : ParseState → List Name → ParseStep
  | p, [] => .next p
  | p, str :: rest => match parseToken log p str with
    | .next p' => parseTokens log p' rest
    | r => r

/-- The loop over the lines (parse_netlist.cpp:87-413). At the end of the file the check of `fin.good()` fails; without it the
loop does not end. -/
def parseLines (log : Bool) : ParseState → List (List Char) → ParseStep
  | _, [] => if log then .failure else .undef
  | p, line :: rest => match parseTokens log p (tokens line) with
    | .next p' => parseLines log p' rest
    | r => r

/-- `ParseNetlist` (parse_netlist.cpp:67-414): `none` is undefined behaviour or an endless loop, `some none` is FAILURE. -/
def parseNetlist (log : Bool) (file : List Char) : Option (Option CircuitStr) :=
  match parseLines log (ParseState.start CircuitStr.empty) (fileLines file) with
  | .endmodule s => some (some s)
  | .failure => some none
  | .undef => none
  | .next _ => none

/-- `Verilog2SCD` (scd/v_2_scd.cpp:29-63), compiled with ENABLE_LOG; see `compile`. -/
def verilog2Scd (file : List Char) : Option (Option (List Char)) :=
  match parseNetlist true file with
  | none => none
  | some none => some none
  | some (some s) => compile s

end TinyGarble
