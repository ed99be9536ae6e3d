import Verif.Proof.A23Aes
import Verif.Props.Aes

/-!
# C62: aes.c and sbox.c for the ARM core

`getSBoxValue 3 8 2` is the function with the arrays that the code declares: `y[3]`, `t[8]`, `z[2]`.
-/

namespace TinyGarble.Props
open TinyGarble Spec A23

/-- C62, false. aes.c as written reads and writes outside of the local arrays of `getSBoxValue`, for every key and message. -/
theorem C62_aes_undefined (g e o0 : List Byte) : aesMain (getSBoxValue 3 8 2) g e o0 = none :=
  aesMain_none getSBoxValue_declared g e o0

/-- C62, false. The same for sbox.c. -/
theorem C62_sbox_undefined (g e o0 : List Word) : sboxMain (getSBoxValue 3 8 2) g e o0 = none := by
  unfold sboxMain
  cases g[0]? with
  | none => rfl
  | some x =>
    cases e[0]? with
    | none => rfl
    | some y => simp only [getSBoxValue_declared, Option.bind_eq_bind, Option.bind_some, Option.bind_none]

/-- The two repaired versions: with arrays of the size that the code uses, and with the table (`COMPUTESBOX` 0). -/
def RepairedSBox (sub : Byte → Option Byte) : Prop := sub = getSBoxValue 3 9 3 ∨ sub = tableSBoxValue

theorem repaired_eq {sub : Byte → Option Byte} (h : RepairedSBox sub) (b : Byte) : sub b = some (Aes.sbox b) := by
  rcases h with rfl | rfl
  · exact getSBoxValue_large b
  · exact tableSBoxValue_eq b

/-- C62. With arrays `t[9]` and `z[3]`, or with the table, aes.c encrypts the evaluator's 16 bytes with the garbler's key as in FIPS-197
(AES-128: 4 key words, 10 rounds). Missing: the array sizes that the code declares (`C62_aes_undefined`). -/
theorem C62_aes_partial {sub : Byte → Option Byte} (hsub : RepairedSBox sub) {g e o0 : List Byte} (hg : g.length = 16)
    (he : e.length = 16) (ho : o0.length = 16) :
    ∃ o w, aesMain sub g e o0 = some o ∧ o.length = 16 ∧ Aes.KeySchedule 4 (Aes.wordsOfBytes (g.getD · 0)) w
      ∧ Aes.stateOfBytes (o.getD · 0) = Aes.cipher 10 w (Aes.stateOfBytes (e.getD · 0)) :=
  aesMain_eq (repaired_eq hsub) hg he ho

/-- C62. sbox.c, repaired in the same way, applies the substitution box of FIPS-197 to the shared byte. Missing: as above
(`C62_sbox_undefined`). -/
theorem C62_sbox_partial {sub : Byte → Option Byte} (hsub : RepairedSBox sub) (x y w : Word) :
    sboxMain sub [x] [y] [w] = some [(Aes.sbox ((x ^^^ y).setWidth 8)).setWidth 32] := by
  have hx : x.setWidth 8 ^^^ y.setWidth 8 = (x ^^^ y).setWidth 8 := BitVec.setWidth_xor.symm
  unfold sboxMain
  simp only [List.getElem?_cons_zero, Option.bind_eq_bind, Option.bind_some, repaired_eq hsub, hx]
  rfl

/-- The example of FIPS-197, appendix B. -/
def bytes16 (x : Nat) : List Byte := (List.range 16).map (hexBytes 16 x)

example : aesMain tableSBoxValue (bytes16 0x2b7e151628aed2a6abf7158809cf4f3c) (bytes16 0x3243f6a8885a308d313198a2e0370734)
    (List.replicate 16 7) = some (bytes16 0x3925841d02dc09fbdc118597196a0b32) := by decide +kernel

example : sboxMain tableSBoxValue [0xF53] [0xA00] [5] = some [0xed] := by decide +kernel

end TinyGarble.Props
