/-!
# SHA3-256 (FIPS-202)

Strings of bits are functions with a length. Numbers of sections and algorithms refer to FIPS-202 (2015); the lane size is 64.
-/

namespace TinyGarble.Spec.Sha3

/-- A state array `A[x, y, z]` (3.1). -/
abbrev State := Fin 5 → Fin 5 → Fin 64 → Bool

/-- Algorithm 1. -/
def column (A : State) (x : Fin 5) (z : Fin 64) : Bool := A x 0 z ^^ A x 1 z ^^ A x 2 z ^^ A x 3 z ^^ A x 4 z
def theta (A : State) : State := fun x y z => A x y z ^^ (column A (x - 1) z ^^ column A (x + 1) (z - 1))

/-- Algorithm 2: the lane that is visited in step `t`. -/
def rhoLane : Nat → Fin 5 × Fin 5
  | 0 => (1, 0)
  | t + 1 => ((rhoLane t).2, 2 * (rhoLane t).1 + 3 * (rhoLane t).2)
/-- The lane visited in step `t` is rotated by `(t + 1)(t + 2) / 2`; the lane (0, 0) is not visited. -/
def rhoOffset (x y : Fin 5) : Nat :=
  match (List.range 24).find? fun t => rhoLane t == (x, y) with
  | some t => (t + 1) * (t + 2) / 2
  | none => 0
def rho (A : State) : State := fun x y z => A x y (z - Fin.ofNat 64 (rhoOffset x y))

/-- Algorithm 3. -/
def pi (A : State) : State := fun x y z => A (x + 3 * y) x z

/-- Algorithm 4. -/
def chi (A : State) : State := fun x y z => A x y z ^^ ((!A (x + 1) y z) && A (x + 2) y z)

/-- Algorithm 5: the register of 8 bits, bit `i` is `R[i]`. -/
def rcStep (R : List Bool) : List Bool :=
  match false :: R with
  | [r0, r1, r2, r3, r4, r5, r6, r7, r8] => [r0 ^^ r8, r1, r2, r3, r4 ^^ r8, r5 ^^ r8, r6 ^^ r8, r7]
  | _ => []
def rcRegister : Nat → List Bool
  | 0 => [true, false, false, false, false, false, false, false]
  | t + 1 => rcStep (rcRegister t)
def rc (t : Nat) : Bool := (rcRegister (t % 255)).headD false

/-- Algorithm 6: bit `2^j - 1` of the round constant is `rc (j + 7 ir)`. -/
def roundConstant (ir : Nat) (z : Fin 64) : Bool :=
  (List.range 7).any fun j => z.val == 2 ^ j - 1 && rc (j + 7 * ir)
def iota (A : State) (ir : Nat) : State := fun x y z => if x = 0 ∧ y = 0 then A x y z ^^ roundConstant ir z else A x y z

/-- Algorithm 7, for 24 rounds. -/
def round (A : State) (ir : Nat) : State := iota (chi (pi (rho (theta A)))) ir
def rounds (A : State) : Nat → State
  | 0 => A
  | n + 1 => round (rounds A n) n
def keccakP (A : State) : State := rounds A 24

/-- 3.1.2: the state of a string of 1600 bits. -/
def stateOf (S : Nat → Bool) : State := fun x y z => S (64 * (5 * y.val + x.val) + z.val)
/-- 3.1.3: the string of a state. -/
def stringOf (A : State) : Nat → Bool := fun i =>
  A (Fin.ofNat 5 (i / 64 % 5)) (Fin.ofNat 5 (i / 320)) (Fin.ofNat 64 (i % 64))

/-- 5.1: `pad10*1` for rate 1088. -/
def padding (m : Nat) : List Bool := true :: List.replicate ((2 * 1088 - m % 1088 - 2) % 1088) false ++ [true]

/-- Algorithm 8: the state after `k` blocks of `P` have been absorbed (rate 1088, capacity 512). -/
def absorb (P : List Bool) : Nat → Nat → Bool
  | 0 => fun _ => false
  | k + 1 => stringOf (keccakP (stateOf fun i => absorb P k i ^^ (if i < 1088 then P.getD (1088 * k + i) false else false)))

/-- 6.1: SHA3-256. Bits 0, …, 255 are the digest of the message `M`, which is padded with 01 and `pad10*1`. -/
def sha3_256 (M : List Bool) : Nat → Bool :=
  let N := M ++ [false, true]
  let P := N ++ padding N.length
  absorb P (P.length / 1088)

/-- B.1: the bits of bytes, least significant bit first. -/
def bits (m : List (BitVec 8)) : List Bool := m.flatMap fun b => (List.range 8).map b.getLsbD

end TinyGarble.Spec.Sha3
