import Verif.Model.Str

/-!
# Numerals

What it means that a string shows a number.
-/

namespace TinyGarble.Spec
open TinyGarble

/-- The sixteen hexadecimal digits. -/
def hexAlphabet : List Char := "0123456789ABCDEF".toList

/-- Value of a hexadecimal numeral; small letters count as capitals. -/
def hexValue (s : List Char) : Nat := s.foldl (fun a c => 16 * a + hexAlphabet.idxOf c.toUpper) 0

/-- Value of a binary numeral. -/
def binValue (s : List Char) : Nat := s.foldl (fun a c => 2 * a + if c = '1' then 1 else 0) 0

/-- `s` is a hexadecimal numeral, in capitals or small letters. -/
def IsHex (s : List Char) : Prop := ∀ c ∈ s, c ∈ "0123456789ABCDEFabcdef".toList

/-- `s` is a binary numeral. -/
def IsBin (s : List Char) : Prop := ∀ c ∈ s, c = '0' ∨ c = '1'

/-- `s` is the string that shows `n` in results: capitals, "0" for zero, else whole bytes, the first one not
zero. -/
structure Shows (s : List Char) (n : Nat) : Prop where
  digits : ∀ c ∈ s, c ∈ hexAlphabet
  value : hexValue s = n
  short : s = ['0'] ∨ (s.length % 2 = 0 ∧ s ≠ [] ∧ s.take 2 ≠ ['0', '0'])

/-- The outputs of cycle `t`, when each cycle has `os` outputs: bit `k` is output `k`. -/
structure IsCycle (os outputs t v : Nat) : Prop where
  small : v < 2 ^ os
  bits : ∀ k < os, v.testBit k = outputs.testBit (t * os + k)

/-- The signed number that `w` bits stand for. -/
def signed (w n : Nat) : Int := if w ≠ 0 ∧ n.testBit (w - 1) then (n % 2 ^ w : Nat) - 2 ^ w else (n % 2 ^ w : Nat)

/-- Where field `i` starts when fields of the given widths are written one after the other, the first one on the
left. -/
def fieldLow (widths : List Nat) (i : Nat) : Nat := (widths.drop (i + 1)).sum

/-- `s` shows one cycle with `os` outputs: bit `i` of the number is output `i`. -/
def ShowsCycle (os : Nat) (bit : Nat → Bool) (s : List Char) : Prop :=
  ∃ v, Shows s v ∧ ∀ i, v.testBit i = (decide (i < os) && bit i)

/-- `s` is the result string of an execution of `m` cycles with `os` outputs each, `bit t i` being output `i` of
cycle `t`. -/
def ShowsRun (mode : OutputMode) (os m : Nat) (bit : Nat → Nat → Bool) (s : List Char) : Prop :=
  match mode with
  | .consecutive => ∃ v, Shows s v ∧ (∀ t < m, ∀ i < os, v.testBit (t * os + i) = bit t i)
      ∧ ∀ j, m * os ≤ j → v.testBit j = false
  | .separatedClock => ∃ lines : List (List Char), lines.length = m ∧ s = List.intercalate ['\n'] lines
      ∧ ∀ t (h : t < lines.length), ShowsCycle os (bit t) lines[t]
  | .lastClock => ShowsCycle os (bit (m - 1)) s

end TinyGarble.Spec
