import Verif.Model.Proc

/-!
# One party facing arbitrary bytes

What a program does when the other side is not trusted: it reads whatever bytes are there.
-/

namespace TinyGarble.Spec
open TinyGarble

/-- How a run ends. -/
inductive Ending where
  /-- with SUCCESS -/
  | success
  /-- with FAILURE -/
  | failure
  /-- in undefined behaviour -/
  | undefined
  /-- all bytes are read and the program waits for more -/
  | waiting
  deriving DecidableEq

/-- The ending of a program that is given the bytes `inc` to read, and the number of bytes it has read. -/
def feed {α : Type} : Proc α → List Byte → Ending × Nat
  | .ret _, _ => (.success, 0)
  | .fail, _ => (.failure, 0)
  | .undef, _ => (.undefined, 0)
  | .send _ k, inc => feed k inc
  | .recv _, [] => (.waiting, 0)
  | .recv k, b :: inc => let r := feed (k b) inc; (r.1, r.2 + 1)

end TinyGarble.Spec
