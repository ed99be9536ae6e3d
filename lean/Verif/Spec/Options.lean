import Verif.Spec.Schedule
import Verif.Spec.EndToEnd

/-!
# Options and ends of executions
-/

namespace TinyGarble.Spec
open TinyGarble

variable {α β : Type}

/-- However the two processes are scheduled, with buffers of `cap` bytes: after at most `n` steps both have returned SUCCESS with the results `a` and
`b`; bytes that nobody reads may be left. -/
def AlwaysReturns (cap : Nat) (A : Proc α) (B : Proc β) (a : α) (b : β) : Prop :=
  ∃ n, ∀ m x, Steps cap m (start A B) x → m ≤ n ∧ ((x.A = .ret a ∧ x.B = .ret b) ∧ m = n ∨ ∃ y, Step cap x y)

/-- Some execution leads to undefined behaviour of the second process. -/
def CanBeUndefined (cap : Nat) (A : Proc α) (B : Proc β) : Prop := ∃ m x, Steps cap m (start A B) x ∧ x.B = .undef

/-- What `--output_mode` can be, for each mode (`--help` of the programs). -/
def modeWords : OutputMode → List String
  | .consecutive => ["0", "consecutive"]
  | .separatedClock => ["1", "separated_clock"]
  | .lastClock => ["2", "last_clock"]

/-- The option selects the mode; without the option the outputs are consecutive. -/
def Selects (option : Option (List Char)) (m : OutputMode) : Prop := match option with
  | none => m = .consecutive
  | some s => ∃ w ∈ modeWords m, s = w.toList

end TinyGarble.Spec
