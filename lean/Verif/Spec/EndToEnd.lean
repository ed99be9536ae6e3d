import Verif.Spec.Protocol

/-!
# Ready to execute
-/

namespace TinyGarble.Spec

/-- What an execution of a circuit needs besides the circuit being well formed: at least one cycle, a terminate signal when a
period is given, matching arguments, a working connection, sizes in range, fresh memory; and, whatever the values `u` of the
wires are: labels do not agree by accident, the terminate signal is public when it is looked at, and no output bit of the
evaluator is lost (see C10). -/
structure Ready (cap : Nat) (cr : Crypto) (c : Circuit) (A B : Args) (G : GEnv) (E : EEnv) : Prop where
  cycles : 0 < A.cycles
  term : A.period ≠ 0 → 0 < c.terminateId
  paired : Paired A B
  conn : Connected cap A.disableOT G E
  sizes : Sizes c A B
  gFresh : GFresh G.st0
  eFresh : EFresh c E.st0
  lucky : ∀ u, Solves c (inputsOf A B) u → (sessionOf cr c A B G E).Lucky A.period A.cycles u
  publicStop : ∀ u, Solves c (inputsOf A B) u → (sessionOf cr c A B G E).PublicStop A.period A.cycles u
  kept : ∀ u, Solves c (inputsOf A B) u → ∀ t < A.cycles, ∀ i < c.outputSize, ¬ (sessionOf cr c A B G E).LostAt A.mask u t i

end TinyGarble.Spec
