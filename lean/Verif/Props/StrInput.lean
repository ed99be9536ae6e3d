import Verif.Props.StrBlock
import Verif.Props.InputFile
import Verif.Model.StrApi

/-!
# C100: strings of inputs that are not numerals
-/

namespace TinyGarble.Spec

/-- What a string says as an input: the hexadecimal numeral at its beginning, after at most one minus sign. -/
def numeralAt (s : List Char) : List Char :=
  (if s.head? = some '-' then s.tail else s).takeWhile (· ∈ "0123456789ABCDEFabcdef".toList)

end TinyGarble.Spec

namespace TinyGarble.Props
open TinyGarble Proof Spec

theorem leadingHex_takeWhile (s : List Char) :
    ofDigits 16 (leadingHex s) = hexValue (s.takeWhile (· ∈ "0123456789ABCDEFabcdef".toList)) := by
  have e : leadingHex s = (s.takeWhile (· ∈ "0123456789ABCDEFabcdef".toList)).map fun c => hexAlphabet.idxOf c.toUpper := by
    induction s with
    | nil => rfl
    | cons c s ih =>
      rw [leadingHex, List.takeWhile_cons]
      by_cases hc : c ∈ "0123456789ABCDEFabcdef".toList
      · rw [hexDigit_eq c hc, if_pos (by simpa using hc)]
        simp only [List.map_cons, ih]
      · rw [if_neg (by simpa using hc)]
        cases e : hexDigit? c with
        | none => rfl
        | some d => exact absurd (hexDigit_some e).1 hc
  rw [e, ofDigits_hex]

/-- C100, for all strings: the number that is used is that of the numeral at the beginning of the string, 0 if there is none. Nothing is refused.
Missing: that other strings are refused, which is false (`C100_false_prefix`, `C100_false_rest`). -/
theorem C100_value_partial (s : List Char) : hex2bn s = hexValue (numeralAt s) := by
  unfold hex2bn numeralAt
  split
  · rw [if_pos (List.head?_cons ..)]; exact leadingHex_takeWhile _
  · rename_i h
    rw [if_neg]
    · exact leadingHex_takeWhile _
    · intro e
      cases s with
      | nil => cases e
      | cons c s => exact h s (by rw [Option.some.inj e])

example : numeralAt "-12aBxyz".toList = "12aB".toList ∧ numeralAt "0x12".toList = "0".toList ∧ numeralAt "q".toList = [] := by decide

/-- C100: the number of a numeral is its value. -/
theorem C100_numeral {s : List Char} (h : IsHex s) : hex2bn s = hexValue s := hex2bn_isHex h

example : IsHex "12aB".toList := by unfold IsHex; decide

/-- C100 fails, for all circuits, inputs and cryptographic functions: an input with the usual prefix `0x` is accepted, and the parties do exactly
what they do for the input 0. -/
theorem C100_false_prefix (cr : Crypto) (f : Option Circuit) (a : StrArgs) (G : GEnv) (E : EEnv) (d : List Char) :
    garbleStr cr f { a with input := '0' :: 'x' :: d } G = garbleStr cr f { a with input := ['0'] } G
    ∧ evaluateStr cr f { a with input := '0' :: 'x' :: d } E = evaluateStr cr f { a with input := ['0'] } E
    ∧ garbleStr cr f { a with mask := '0' :: 'x' :: d } G = garbleStr cr f { a with mask := ['0'] } G
    ∧ evaluateStr cr f { a with mask := '0' :: 'x' :: d } E = evaluateStr cr f { a with mask := ['0'] } E := by
  have h : hex2bn ('0' :: 'x' :: d) = hex2bn ['0'] := rfl
  refine ⟨?_, ?_, ?_, ?_⟩ <;> simp only [garbleStr, evaluateStr, StrArgs.parse, h]

/-- C100 fails likewise: what follows a numeral is ignored. -/
theorem C100_false_rest (cr : Crypto) (f : Option Circuit) (a : StrArgs) (G : GEnv) (E : EEnv) {d : List Char} (hd : IsHex d) {x : Char}
    (hx : x ∉ "0123456789ABCDEFabcdef".toList) (hm : d ≠ [] ∨ x ≠ '-') (t : List Char) :
    garbleStr cr f { a with input := d ++ x :: t } G = garbleStr cr f { a with input := d } G
    ∧ evaluateStr cr f { a with input := d ++ x :: t } E = evaluateStr cr f { a with input := d } E := by
  have h : hex2bn (d ++ x :: t) = hex2bn d := by
    rw [C100_value_partial, C100_numeral hd]
    have hh : (d ++ x :: t).head? ≠ some '-' := by
      cases d with
      | nil =>
        rcases hm with hm | hm
        · exact absurd rfl hm
        · exact fun e => hm (Option.some.inj e)
      | cons c d =>
        intro e
        have := hd c (by simp)
        rw [Option.some.inj e] at this
        revert this
        decide
    unfold numeralAt
    rw [if_neg hh, List.takeWhile_append_of_pos (fun c hc => by simpa using hd c hc), List.takeWhile_cons, if_neg (by simpa using hx),
      List.append_nil]
  constructor <;> simp only [garbleStr, evaluateStr, StrArgs.parse, h]

example : IsHex "12".toList ∧ 'g' ∉ "0123456789ABCDEFabcdef".toList ∧ ("12".toList ≠ [] ∨ 'g' ≠ '-') :=
  ⟨by unfold IsHex; decide, by decide, .inl (by decide)⟩

/-- C100 fails, plaintext evaluator: likewise. -/
theorem C100_false_plaintext (f : Option Circuit) (m v : Bool) (s : StrInputs) (w0 : Nat → Bool) (cycles period : Nat) (mode : OutputMode)
    (d : List Char) : evaluatePlaintextStr f m v { s with gInput := '0' :: 'x' :: d } w0 cycles period mode
      = evaluatePlaintextStr f m v { s with gInput := ['0'] } w0 cycles period mode := by
  have h : hex2bn ('0' :: 'x' :: d) = hex2bn ['0'] := rfl
  simp only [evaluatePlaintextStr, StrInputs.parse, h]

end TinyGarble.Props
