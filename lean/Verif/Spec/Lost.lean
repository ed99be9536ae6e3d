import Verif.Model.Protocol

/-!
# Conversations

Two programs that talk to each other, and the bytes that each of them sends: used for the examples about lost connections; and the state of
the garbler after a cycle of high-memory mode.
-/

namespace TinyGarble.Spec

/-- The bytes that the first and the second program send while they talk to each other, for at most `fuel` steps; `a` and `b` have been
sent to the first and to the second and wait to be read. A program that wants to read waits while the other goes on. -/
def converse {α β : Type} : Nat → Proc α → Proc β → List Byte → List Byte → List Byte × List Byte
  | 0, _, _, _, _ => ([], [])
  | n + 1, .send x p, q, a, b => let r := converse n p q a (b ++ [x]); (x :: r.1, r.2)
  | n + 1, .recv k, q, x :: a, b => converse n (k x) q a b
  | n + 1, p, .send x q, a, b => let r := converse n p q (a ++ [x]) b; (r.1, x :: r.2)
  | n + 1, p, .recv k, a, x :: b => converse n p (k x) a b
  | _, _, _, _, _ => ([], [])

/-- The garbler's state after garbling cycle `cid` in high-memory mode, from state `st`. -/
def afterCycle (cr : Crypto) (c : Circuit) (A : Args) (G : GEnv) (cid : Nat) (st : GState) : GState :=
  (garbleCycle false c (cr.enc (keyOf G.rnd)) (offsetOf G.rnd) (fillFanout c G.fan0).1 cid
    ⟨A.pInit, A.pInput, initLabelsHigh G.rnd, fun k => inputLabelsHigh c G.rnd (cid * c.secretInputSize + k)⟩ st).1

/-- The garbler's state before cycle `k` in high-memory mode, when no cycle before was the last. -/
def beforeCycle (cr : Crypto) (c : Circuit) (A : Args) (G : GEnv) : Nat → GState
  | 0 => G.st0
  | k + 1 => afterCycle cr c A G k (beforeCycle cr c A G k)

/-- Whenever the garbler looks at the terminate signal, its value is public. -/
def PublicSignal (cr : Crypto) (c : Circuit) (A : Args) (G : GEnv) : Prop :=
  ∀ k < A.cycles, A.period ≠ 0 → k % A.period = 0 → ∃ b, (beforeCycle cr c A G (k + 1)).val c.terminateId = .pub b

end TinyGarble.Spec
