import Verif.Model.Gate

/-!
# Specification of gates

The number of a two-input gate type in `util/common.h` *is* its truth table: bit `2*a + b` of the
number is the value on inputs `a`, `b`. `NOT` (12) is the exception: it is the complement of its
first input.
-/

namespace TinyGarble.Spec

/-- Truth table of a gate type. -/
def truth (t : Int) (a b : Bool) : Bool :=
  if t = 12 then !a else t.toNat.testBit (2 * a.toNat + b.toNat)

/-- The gate types of the SCD format (without flip-flops). -/
def gateTypes : List Int := [8, 4, 7, 11, 14, 13, 1, 2, 6, 9, 12]

/-- The gate types that need a garbled table. -/
def tableTypes : List Int := [8, 4, 7, 11, 14, 13, 1, 2]

/-- What the two parties hold for one wire represents the Boolean `x`: either both know `x`
publicly, or the garbler holds two labels at distance `R` and the evaluator holds the one for `x`. -/
def Represents (R : Block) (gl : BlockPair) (gv : WVal) (el : Block) (ev : WVal) (x : Bool) : Prop :=
  match gv, ev with
  | .pub a, .pub b => a = x ∧ b = x
  | .sec _, .sec _ => gl.label1 = gl.label0 ^^^ R ∧ el = (if x then gl.label1 else gl.label0)
  | _, _ => False

end TinyGarble.Spec
