import Verif.Model.Protocol
import Verif.Model.Rng

/-!
# An eavesdropper's computation

Functions of the bytes the garbler sends, to be compared with the garbler's secrets.
-/

namespace TinyGarble.Spec
open TinyGarble

/-- The first `n` bytes a program sends, provided that it sends them before reading anything. -/
def firstSent {α : Type} : Nat → Proc α → Option (List Byte)
  | 0, _ => some []
  | n + 1, .send b k => (firstSent n k).map (b :: ·)
  | _ + 1, _ => none

/-- The `i`-th 16-byte block of a message. -/
def blockAt (msg : List Byte) (i : Nat) : Block := bytesBlock ((msg.drop (16 * i)).take 16)

/-- The state from which the generator steps to `b`: the multipliers are inverted modulo 2^32. -/
def stepBack (b : Block) : Block :=
  lanes ((lane b 0 - 2531011#32) * 3115528533#32) ((lane b 1 - 10395331#32) * 2891854165#32)
    ((lane b 2 - 13737667#32) * 3115528533#32) ((lane b 3 - 1#32) * 2783094533#32)

/-- The secret offset, from the first block of the message. -/
def guessOffset (msg : List Byte) : Block := stepBack (blockAt msg 0) ||| 1#128

/-- A label of the garbler, from the first block of the message: the `i`-th value drawn after the key. -/
def guessLabel (msg : List Byte) (i : Nat) : Block := randomBlocks (blockAt msg 0) i

/-- The garbler's private initial value bit `k`: is the label sent for it not the one for 0? `skip` is the
number of values drawn between the key and the first label. -/
def guessInit (skip : Nat) (msg : List Byte) (k : Nat) : Bool := blockAt msg (1 + k) != guessLabel msg (skip + k)

/-- The garbler's private input bit `k` of cycle `t`, in high-memory mode. -/
def guessInput (c : Circuit) (msg : List Byte) (t k : Nat) : Bool :=
  blockAt msg (1 + c.gInit + t * c.gInput + k) != guessLabel msg (c.initSize + t * c.secretInputSize + k)

end TinyGarble.Spec
