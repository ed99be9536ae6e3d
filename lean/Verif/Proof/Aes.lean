import Verif.Model.Aes
import Verif.Spec.Aes
import Verif.Proof.Rng

/-!
# The cipher of crypto/aes.h is AES
-/

namespace TinyGarble
open Spec

/-! ### Bytes of a register -/

theorem byteAt_ofBytes (f : Nat → Byte) {i : Nat} (h : i < 16) : byteAt (ofBytes f) i = f i := by
  have hi : i = 0 ∨ i = 1 ∨ i = 2 ∨ i = 3 ∨ i = 4 ∨ i = 5 ∨ i = 6 ∨ i = 7 ∨ i = 8 ∨ i = 9 ∨ i = 10 ∨ i = 11
      ∨ i = 12 ∨ i = 13 ∨ i = 14 ∨ i = 15 := by omega
  unfold byteAt ofBytes
  rcases hi with rfl | rfl | rfl | rfl | rfl | rfl | rfl | rfl | rfl | rfl | rfl | rfl | rfl | rfl | rfl | rfl <;>
    (apply BitVec.eq_of_getLsbD_eq
     intro j hj
     simp only [BitVec.getLsbD_extractLsb', BitVec.getLsbD_append, hj, decide_true, Bool.true_and]
     repeat (first
       | rw [if_pos (by omega)]
       | rw [if_neg (by omega)])
     exact congrArg _ (by omega))

theorem ext_bytes {x y : Block} (h : ∀ i < 16, byteAt x i = byteAt y i) : x = y := by
  apply BitVec.eq_of_getLsbD_eq
  intro j hj
  have e := congrArg (fun b : Byte => b.getLsbD (j % 8)) (h (j / 8) (by omega))
  have h8 : j % 8 < 8 := Nat.mod_lt _ (by omega)
  simp only [byteAt, BitVec.getLsbD_extractLsb', h8, decide_true, Bool.true_and] at e
  rwa [Nat.div_add_mod] at e

theorem byteAt_xor (x y : Block) (i : Nat) : byteAt (x ^^^ y) i = byteAt x i ^^^ byteAt y i := by
  unfold byteAt; ext j hj; simp

theorem ofBytes_congr {f g : Nat → Byte} (h : ∀ i < 16, f i = g i) : ofBytes f = ofBytes g :=
  ext_bytes fun i hi => by rw [byteAt_ofBytes _ hi, byteAt_ofBytes _ hi, h i hi]

/-! ### Bytes -/

theorem double8_xor (a b : Byte) : double8 (a ^^^ b) = double8 a ^^^ double8 b := by
  unfold double8
  rw [BitVec.shiftLeft_xor_distrib, BitVec.msb_xor]
  generalize a <<< 1 = x, b <<< 1 = y
  cases a.msb <;> cases b.msb <;> (apply BitVec.eq_of_getLsbD_eq; intro i hi; simp) <;>
    cases x.getLsbD i <;> cases y.getLsbD i <;> simp

/-- `inv` is the multiplicative inverse. -/
theorem mul_inv (b : Byte) (h : b ≠ 0) : Aes.mul b (Aes.inv b) = 1 := by
  have : ∀ b : Fin 256, b ≠ 0 → Aes.mul (BitVec.ofFin b) (Aes.inv (BitVec.ofFin b)) = 1 := by decide +kernel
  exact this b.toFin fun e => h (congrArg BitVec.ofFin e)

theorem subByte_eq (b : Byte) : subByte b = Aes.sbox b := by
  have : ∀ b : Fin 256, subByte (BitVec.ofFin b) = Aes.sbox (BitVec.ofFin b) := by decide +kernel
  exact this b.toFin

theorem invSubByte_subByte (b : Byte) : invSubByte (subByte b) = b := by
  have : ∀ b : Fin 256, invSubByte (subByte (BitVec.ofFin b)) = BitVec.ofFin b := by decide +kernel
  exact this b.toFin

theorem mul_two (b : Byte) : Aes.mul 0x02 b = double8 b := by
  have : ∀ b : Fin 256, Aes.mul 0x02 (BitVec.ofFin b) = double8 (BitVec.ofFin b) := by decide +kernel
  exact this b.toFin

theorem mul_three (b : Byte) : Aes.mul 0x03 b = double8 b ^^^ b := by
  have : ∀ b : Fin 256, Aes.mul 0x03 (BitVec.ofFin b) = double8 (BitVec.ofFin b) ^^^ BitVec.ofFin b := by
    decide +kernel
  exact this b.toFin

end TinyGarble
