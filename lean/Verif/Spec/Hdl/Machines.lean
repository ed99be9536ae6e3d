/-!
# A stack machine and a memory
-/

namespace TinyGarble.Spec.Hdl

/-- The instructions of the stack machine: 0 nop, 1 add, 2 subtract, 3 multiply, 4 push, 5 negate, 6 and, 7 or. There is no result if
there are too few operands. -/
def execute {N : Nat} : List (BitVec N) → Nat → BitVec N → Option (List (BitVec N))
  | a :: s, 0, _ => some (a :: s)
  | a :: b :: s, 1, _ => some ((a + b) :: s)
  | a :: b :: s, 2, _ => some ((a - b) :: s)
  | a :: b :: s, 3, _ => some ((a * b) :: s)
  | s, 4, x => some (x :: s)
  | a :: s, 5, _ => some ((-a) :: s)
  | a :: b :: s, 6, _ => some ((a &&& b) :: s)
  | a :: b :: s, 7, _ => some ((a ||| b) :: s)
  | _, _, _ => none

/-- The tops of the stack after each instruction; no result if the stack has at some time more than `S` entries. -/
def tops {N : Nat} (S : Nat) : List (BitVec N) → List (Nat × BitVec N) → Option (List (BitVec N))
  | _, [] => some []
  | s, (op, x) :: l => do
    let s ← execute s op x
    if s.length ≤ S then
      let a ← s.head?
      let r ← tops S s l
      some (a :: r)
    else none

/-- The content of address `a` after the given writes (address and data), the last one first. -/
def content {W : Nat} (a : Nat) : List (Nat × BitVec W) → BitVec W
  | [] => 0
  | (b, d) :: l => if b = a then d else content a l

end TinyGarble.Spec.Hdl
