import Verif.Model.Proc

/-!
# Conversations

What one party sends and returns when it is given a sequence of bytes to read.
-/

namespace TinyGarble.Spec
open TinyGarble

/-- The bytes a program sends and its result, when it runs to the end reading exactly the bytes `inc`. -/
def talk {α : Type} : Proc α → List Byte → Option (List Byte × α)
  | .ret a, [] => some ([], a)
  | .ret _, _ :: _ => none
  | .fail, _ => none
  | .undef, _ => none
  | .send b k, inc => (talk k inc).map fun r => (b :: r.1, r.2)
  | .recv _, [] => none
  | .recv k, b :: inc => talk (k b) inc

end TinyGarble.Spec
