import Verif.Spec.Sha3
import Verif.Spec.Aes

/-!
# Vectors of bits as states of AES and Keccak
-/

namespace TinyGarble.Spec.Hdl

/-- Byte `i` of a vector, the lowest one first. -/
def byte {n : Nat} (v : BitVec n) (i : Nat) : BitVec 8 := BitVec.ofNat 8 (v.toNat / 2 ^ (8 * i))

/-- The lanes of a vector of 1600 bits: lane `(x, y)` has number `5 y + x`, lane 0 are the highest 64 bits. -/
def keccakState (v : BitVec 1600) : Sha3.State := fun x y z => v.getLsbD (64 * (24 - (5 * y.val + x.val)) + z.val)

/-- A round of Keccak without the addition of the constant. -/
def roundWithoutConstant (A : Sha3.State) : Sha3.State := Sha3.chi (Sha3.pi (Sha3.rho (Sha3.theta A)))

/-- `n` rounds without constants. -/
def roundsWithoutConstant (A : Sha3.State) : Nat → Sha3.State
  | 0 => A
  | n + 1 => roundWithoutConstant (roundsWithoutConstant A n)

end TinyGarble.Spec.Hdl
