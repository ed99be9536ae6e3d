import Verif.Model.Proc

/-!
# Executions of two communicating processes

A configuration consists of the two programs and the bytes in transit in each direction. A step is
one byte written or read by one of the processes. A process can write when the buffer of its
direction has room (`cap` bytes), and read when the buffer of the other direction is not empty.
-/

namespace TinyGarble.Spec
open TinyGarble

structure Config (α β : Type) where
  A : Proc α
  /-- bytes on their way from A to B, oldest first -/
  ab : List Byte
  /-- bytes on their way from B to A, oldest first -/
  ba : List Byte
  B : Proc β

variable {α β : Type}

/-- One step of one process. -/
inductive Step (cap : Nat) : Config α β → Config α β → Prop where
  | sendA {b k q r B} (h : q.length < cap) : Step cap ⟨.send b k, q, r, B⟩ ⟨k, q ++ [b], r, B⟩
  | recvA {k q b r B} : Step cap ⟨.recv k, q, b :: r, B⟩ ⟨k b, q, r, B⟩
  | sendB {A q r b k} (h : r.length < cap) : Step cap ⟨A, q, r, .send b k⟩ ⟨A, q, r ++ [b], k⟩
  | recvB {A b q r k} : Step cap ⟨A, b :: q, r, .recv k⟩ ⟨A, q, r, k b⟩

/-- `n` steps. -/
inductive Steps (cap : Nat) : Nat → Config α β → Config α β → Prop where
  | refl {x} : Steps cap 0 x x
  | tail {n x y z} : Steps cap n x y → Step cap y z → Steps cap (n + 1) x z

/-- The start of an execution: nothing is in transit. -/
def start (A : Proc α) (B : Proc β) : Config α β := ⟨A, [], [], B⟩

/-- Both processes have returned SUCCESS with the given results, and all bytes sent were consumed. -/
def finished (a : α) (b : β) : Config α β := ⟨.ret a, [], [], .ret b⟩

/-- However the two processes are scheduled, with buffers of `cap` bytes: no execution is longer than
`n` steps, none gets stuck before both processes have finished with results `a` and `b`, all bytes
sent having been consumed, and the finished ones took exactly `n` steps. -/
def AlwaysFinishes (cap : Nat) (A : Proc α) (B : Proc β) (a : α) (b : β) : Prop :=
  ∃ n, ∀ m x, Steps cap m (start A B) x →
    m ≤ n ∧ (x = finished a b ∧ m = n ∨ ∃ y, Step cap x y)

/-- With buffers of `cap` bytes, some execution reaches a configuration in which neither process can
ever go on, although not both have returned. -/
def CanDeadlock (cap : Nat) (A : Proc α) (B : Proc β) : Prop :=
  ∃ m x, Steps cap m (start A B) x ∧ (∀ y, ¬ Step cap x y) ∧ ∀ a b, x.A ≠ .ret a ∨ x.B ≠ .ret b

/-- However the two processes are scheduled, with buffers of `cap` bytes: after at most `n` steps both
wait for the other one to send, with nothing in transit, forever. -/
def AlwaysDeadlocks (cap : Nat) (A : Proc α) (B : Proc β) : Prop :=
  ∃ n, ∀ m x, Steps cap m (start A B) x →
    m ≤ n ∧ ((∃ f g, x = ⟨.recv f, [], [], .recv g⟩) ∧ m = n ∨ ∃ y, Step cap x y)

end TinyGarble.Spec
