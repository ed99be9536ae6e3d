import Verif.Spec.Str

/-!
# Text files and multi-word numbers
-/

namespace TinyGarble.Spec

/-- `text` is a file with the given lines; the newline at the very end may be missing. -/
def IsTextOf (lines : List (List Char)) (text : List Char) : Prop :=
  text = lines.flatMap (· ++ ['\n']) ∨
  ∃ init last, lines = init ++ [last] ∧ last ≠ [] ∧ text = init.flatMap (· ++ ['\n']) ++ last

/-- Each line is a hexadecimal numeral of `w` digits. -/
def HexLines (w : Nat) (lines : List (List Char)) : Prop := ∀ l ∈ lines, IsHex l ∧ l.length = w

/-- The number with the given 32-bit words, lowest first. -/
def numberOf (words : List (BitVec 32)) : Nat := words.foldr (fun x a => x.toNat + 2 ^ 32 * a) 0

/-- The same character, or the upper and the lower case of one of the 26 letters. -/
def sameLetter (a b : Char) : Prop :=
  a = b ∨ ∃ k < 26, (a.toNat = 'A'.toNat + k ∧ b.toNat = 'a'.toNat + k) ∨ (a.toNat = 'a'.toNat + k ∧ b.toNat = 'A'.toNat + k)

end TinyGarble.Spec
