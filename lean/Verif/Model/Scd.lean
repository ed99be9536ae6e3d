import Verif.Model.Sort
import Verif.Model.Proc

/-!
# Circuit files

Models `WriteSCD` and `ReadSCD` (scd/scd.cpp:46-192) on the characters of the file, with the formatted input and output of
integers of the C++ standard library in the "C" locale. Left out: opening the file, running out of memory.
-/

namespace TinyGarble

/-! ## Formatted output of integers -/

/-- The decimal digit `d`. -/
def decDigit (d : Nat) : Char := Char.ofNat (48 + d)

/-- `stream << n` for an unsigned integer. -/
def printNat (n : Nat) : List Char :=
  if n < 10 then [decDigit n] else printNat (n / 10) ++ [decDigit (n % 10)]

/-- `stream << v` for a signed integer. -/
def printInt (v : Int) : List Char := if v < 0 then '-' :: printNat v.natAbs else printNat v.natAbs

/-- `stream << w` for a `uint64_t`; `w` stands for itself modulo 2^64. -/
def printU64 (w : Int) : List Char := printNat (w % 2 ^ 64).toNat

/-! ## WriteSCD -/

/-- `int gindex = task_schedule[i]; gate_list[gindex]` (scd.cpp:139-140). `task_schedule` holds `uint64_t`. -/
def scheduledGate (c : ReadCircuit) (i : Nat) : Option ReadGate := do
  let s ← c.schedule[i]?
  getI c.gates (toInt32 (s % 2 ^ 64).toNat)

/-- A loop that writes numbers, each followed by a space, and the end of the line (e.g. scd.cpp:138-142). -/
def scdLine (l : List (List Char)) : List Char := l.flatMap (fun t => t ++ [' ']) ++ ['\n']

/-- The first line (scd.cpp:129-133): no space after the last number. -/
def scdHeader (c : ReadCircuit) : List Char :=
  printNat c.pInit ++ [' '] ++ printNat c.gInit ++ [' '] ++ printNat c.eInit ++ [' '] ++ printNat c.pInput ++ [' ']
  ++ printNat c.gInput ++ [' '] ++ printNat c.eInput ++ [' '] ++ printNat c.dffs.length ++ [' ']
  ++ printNat c.outputs.length ++ [' '] ++ printU64 c.terminateId ++ [' '] ++ printNat c.gates.length ++ ['\n']

/-- `WriteSCD` (scd.cpp:122-192): the contents of the file; `none` for an access outside of an array. -/
def writeScd (c : ReadCircuit) : Option (List Char) := do
  let gates ← (List.range c.gates.length).mapM (scheduledGate c)
  return scdHeader c
    ++ scdLine (gates.map fun g => printInt g.input0)
    ++ scdLine (gates.map fun g => printInt g.input1)
    ++ scdLine (gates.map fun g => printInt g.type)
    ++ scdLine (c.outputs.map printU64)
    ++ scdLine (c.dffs.map fun g => printInt g.input0)
    ++ scdLine (c.dffs.map fun g => printInt g.input1)

/-! ## Formatted input of integers -/

/-- `isspace` in the "C" locale. -/
def isWhite (ch : Char) : Bool := ch = ' ' || ch = '\t' || ch = '\n' || ch = '\x0b' || ch = '\x0c' || ch = '\r'

/-- A decimal digit. -/
def isDec (ch : Char) : Bool := decide (48 ≤ ch.toNat ∧ ch.toNat ≤ 57)

/-- An input stream: the characters not yet read and `good()`. -/
structure InStream where
  rest : List Char
  good : Bool

/-- The number with the given decimal digits. -/
def decValue (l : List Char) : Nat := l.foldl (fun n ch => 10 * n + (ch.toNat - 48)) 0

/-- What `stream >> x` stores and the new state, when the digits `ds` follow an optional sign (`std::num_get::do_get`).
Without digits 0 is stored. A value that does not fit is replaced by the nearest one. In both cases the stream fails. Reaching
the end of the file right after the digits sets `eofbit`, so that `good()` no longer holds. -/
def storeNumber (lo hi : Int) (unsigned neg : Bool) (ds rest : List Char) : Int × InStream :=
  let m : Int := decValue ds
  if ds = [] then (0, ⟨rest, false⟩)
  else if unsigned then
    if hi < m then (hi, ⟨rest, false⟩)
    else (if neg then (hi + 1 - m) % (hi + 1) else m, ⟨rest, !rest.isEmpty⟩)
  else
    let v := if neg then -m else m
    if v < lo then (lo, ⟨rest, false⟩)
    else if hi < v then (hi, ⟨rest, false⟩)
    else (v, ⟨rest, !rest.isEmpty⟩)

/-- `stream >> x` for an integer type with the range `lo .. hi`; `old` is the value of `x` before. A stream that is not good,
or ends before anything but white space is read, leaves `x` as it was. -/
def readNumber (lo hi : Int) (unsigned : Bool) (old : Int) (s : InStream) : Int × InStream :=
  if s.good = false then (old, s)
  else
    match s.rest.dropWhile isWhite with
    | [] => (old, ⟨[], false⟩)
    | '-' :: t => storeNumber lo hi unsigned true (t.takeWhile isDec) (t.dropWhile isDec)
    | '+' :: t => storeNumber lo hi unsigned false (t.takeWhile isDec) (t.dropWhile isDec)
    | t => storeNumber lo hi unsigned false (t.takeWhile isDec) (t.dropWhile isDec)

/-- `uint64_t`. -/
def readU64 (old : Nat) (s : InStream) : Nat × InStream :=
  let r := readNumber 0 (2 ^ 64 - 1) true old s
  (r.1.toNat, r.2)

/-- `int64_t`. -/
def readI64 (old : Int) (s : InStream) : Int × InStream := readNumber (-2 ^ 63) (2 ^ 63 - 1) false old s

/-- `int`. -/
def readI32 (old : Int) (s : InStream) : Int × InStream := readNumber (-2 ^ 31) (2 ^ 31 - 1) false old s

/-- `for (i = 0; i < n; i++) f >> a[i]`. -/
def readArray (rd : Int → InStream → Int × InStream) (n : Nat) (a : Nat → Int) (s : InStream) : (Nat → Int) × InStream :=
  forLoop (fun i r => let x := rd (r.1 i) r.2; (upd r.1 i x.1, x.2)) n (a, s)

/-- `ReadSCD` (scd.cpp:46-120) on the contents of a file; the result is always SUCCESS. `junk` is the memory before: the
structure of the caller and the newly allocated arrays. The arrays have no elements beyond their sizes; 0 stands there. -/
def readScd (file : List Char) (junk : Circuit) : Circuit :=
  let s : InStream := ⟨file, true⟩
  let pInit := readU64 junk.pInit s
  let gInit := readU64 junk.gInit pInit.2
  let eInit := readU64 junk.eInit gInit.2
  let pInput := readU64 junk.pInput eInit.2
  let gInput := readU64 junk.gInput pInput.2
  let eInput := readU64 junk.eInput gInput.2
  let dffSize := readU64 junk.dffSize eInput.2
  let outputSize := readU64 junk.outputSize dffSize.2
  let terminateId := readU64 junk.terminateId outputSize.2
  let gateSize := readU64 junk.gateSize terminateId.2
  let in0 := readArray readI64 gateSize.1 (fun i => (junk.gate i).input0) gateSize.2
  let in1 := readArray readI64 gateSize.1 (fun i => (junk.gate i).input1) in0.2
  let type := readArray readI32 gateSize.1 (fun i => (junk.gate i).type) in1.2
  let outputs := readArray readI64 outputSize.1 junk.outputs type.2
  let D := readArray readI64 dffSize.1 junk.D outputs.2
  let I := readArray readI64 dffSize.1 junk.I D.2
  { pInit := pInit.1, gInit := gInit.1, eInit := eInit.1, pInput := pInput.1, gInput := gInput.1, eInput := eInput.1,
    dffSize := dffSize.1, outputSize := outputSize.1, terminateId := terminateId.1, gateSize := gateSize.1
    gate := fun i => if i < gateSize.1 then ⟨in0.1 i, in1.1 i, type.1 i⟩ else ⟨0, 0, 0⟩
    outputs := fun i => if i < outputSize.1 then outputs.1 i else 0
    D := fun i => if i < dffSize.1 then D.1 i else 0
    I := fun i => if i < dffSize.1 then I.1 i else 0 }

end TinyGarble
