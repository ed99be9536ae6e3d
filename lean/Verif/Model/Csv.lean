import Verif.Model.Plain
import Verif.Model.InputFile

/-!
# The file with the values of the wires

Models the part of `EvalauatePlaintext` that writes the `.csv` file (scd/scd_evaluator.cpp:54-70, 215-243), when that file and the `.map` file
can be opened. A result `none` is undefined behaviour: an iterator beyond the end, a number that exceeds `int`, an access outside of an array.
-/

namespace TinyGarble

/-- The pieces of a line for `char_separator<char> sep(" \t")` (scd_evaluator.cpp:69, 219): separated by blanks and tabs, none of them empty.
`w` is the piece read so far. -/
def blankPieces : List Char → List Char → List (List Char)
  | w, [] => if w = [] then [] else [w]
  | w, ch :: l =>
    if ch = ' ' ∨ ch = '\t' then (if w = [] then [] else [w]) ++ blankPieces [] l
    else blankPieces (w ++ [ch]) l

/-- `atoi`: white space, a sign, digits; 0 without digits, undefined beyond `int`. -/
def atoi (s : List Char) : Option Int :=
  let s := s.dropWhile isWhite
  let neg := decide (s.head? = some '-')
  let s := if s.head? = some '-' ∨ s.head? = some '+' then s.tail else s
  let v : Int := decValue (s.takeWhile isDec)
  let v := if neg then -v else v
  if -2 ^ 31 ≤ v ∧ v < 2 ^ 31 then some v else none

/-- The names in the first line (scd_evaluator.cpp:218-224). -/
def csvNames : List (List Char) → Option (List Char)
  | [] => some []
  | line :: rest => match blankPieces [] line with
    | [] => none
    | name :: _ =>
      if name = "terminate".toList then some []
      else (csvNames rest).map fun t => name ++ ['\t'] ++ t

/-- The values in a line (scd_evaluator.cpp:231-238). -/
def csvValues (wireSize : Nat) (wires : Nat → Bool) : List (List Char) → Option (List Char)
  | [] => some []
  | line :: rest => match blankPieces [] line with
    | [] => none
    | name :: pieces =>
      if name = "terminate".toList then some []
      else match pieces with
        | [] => none
        | index :: _ => match atoi index with
          | none => none
          | some i =>
            if 0 ≤ i ∧ i < wireSize then
              (csvValues wireSize wires rest).map fun t => (if wires i.toNat then "1, ".toList else "0, ".toList) ++ t
            else none

/-- The main loop (scd_evaluator.cpp:73-243; see `plainLoop`) with what it writes to the file. `lines` are the lines of the `.map` file, which is read
from its beginning in every cycle. In the cycle in which the circuit terminates the loop is left before the writing (scd_evaluator.cpp:205). -/
def csvLoop (c : Circuit) (x : Inputs) (terminatePeriod : Nat) (lines : List (List Char)) : Nat → Nat → (Nat → Bool) → Option (List Char)
  | 0, _, _ => some []
  | n + 1, cid, wires =>
    let wires := plainCycle c x cid wires
    if terminatePeriod ≠ 0 ∧ 0 < c.terminateId ∧ cid % terminatePeriod = 0 ∧ wires c.terminateId = true then some []
    else do
      let head ← if cid = 0 then (csvNames lines).map fun t => "cid, ".toList ++ t ++ ['\n'] else some []
      let values ← csvValues c.wireSize wires lines
      let rest ← csvLoop c x terminatePeriod lines n (cid + 1) wires
      return head ++ (printNat cid ++ ", ".toList ++ values ++ ['\n']) ++ rest

/-- The `.csv` file that `EvalauatePlaintext` leaves. -/
def csvFile (c : Circuit) (x : Inputs) (w0 : Nat → Bool) (clockCycles terminatePeriod : Nat) (map : List Char) : Option (List Char) :=
  csvLoop c x terminatePeriod (getLines map) clockCycles 0 w0

end TinyGarble
