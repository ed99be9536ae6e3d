import Mathlib.Data.Nat.Notation

/-!
# The operators of Verilog

A vector stands for an integer; an operator yields the integer in the name of the operator, modulo a power of two.
-/

namespace TinyGarble.Spec.Hdl

/-- The integer for which a vector stands: in two's complement if it is signed. -/
def value {n : Nat} (signed : Bool) (a : BitVec n) : Int := if signed then a.toInt else a.toNat

/-- A truth value as a vector. -/
def truth (Y : Nat) (p : Prop) [Decidable p] : BitVec Y := BitVec.ofNat Y (if p then 1 else 0)

end TinyGarble.Spec.Hdl
