import Verif.Model.Rng
import Mathlib.Data.Nat.ModEq
import Mathlib.Tactic.IntervalCases

/-!
# The label generator, lane by lane
-/

namespace TinyGarble.Proof
open TinyGarble

theorem lane_toNat (b : Block) (i : Nat) : (lane b i).toNat = b.toNat / 2 ^ (32 * i) % 2 ^ 32 := by
  unfold lane
  rw [BitVec.extractLsb'_toNat, Nat.shiftRight_eq_div_pow]

theorem lanes_toNat (l0 l1 l2 l3 : Lane) :
    (lanes l0 l1 l2 l3).toNat = l0.toNat + 2 ^ 32 * l1.toNat + 2 ^ 64 * l2.toNat + 2 ^ 96 * l3.toNat := by
  unfold lanes
  rw [BitVec.toNat_ofNat]
  have h0 := l0.isLt
  have h1 := l1.isLt
  have h2 := l2.isLt
  have h3 := l3.isLt
  exact Nat.mod_eq_of_lt (by omega)

theorem lane_lanes (l0 l1 l2 l3 : Lane) :
    lane (lanes l0 l1 l2 l3) 0 = l0 ∧ lane (lanes l0 l1 l2 l3) 1 = l1 ∧ lane (lanes l0 l1 l2 l3) 2 = l2
      ∧ lane (lanes l0 l1 l2 l3) 3 = l3 := by
  have h0 := l0.isLt
  have h1 := l1.isLt
  have h2 := l2.isLt
  have h3 := l3.isLt
  refine ⟨?_, ?_, ?_, ?_⟩ <;> apply BitVec.eq_of_toNat_eq <;> rw [lane_toNat, lanes_toNat] <;> omega

theorem lanes_lane (b : Block) : lanes (lane b 0) (lane b 1) (lane b 2) (lane b 3) = b := by
  apply BitVec.eq_of_toNat_eq
  rw [lanes_toNat, lane_toNat, lane_toNat, lane_toNat, lane_toNat]
  have := b.isLt
  omega

theorem lane_and (a b : Block) (i : Nat) : lane (a &&& b) i = lane a i &&& lane b i := by
  unfold lane; ext j hj; simp

theorem lane_or (a b : Block) (i : Nat) : lane (a ||| b) i = lane a i ||| lane b i := by
  unfold lane; ext j hj; simp

theorem randomBlock_lanes (s : Block) :
    lane (randomBlock s) 0 = lane s 0 * 214013#32 + 2531011#32
    ∧ lane (randomBlock s) 1 = lane s 1 * 17405#32 + 10395331#32
    ∧ lane (randomBlock s) 2 = lane s 2 * 214013#32 + 13737667#32
    ∧ lane (randomBlock s) 3 = lane s 3 * 69069#32 + 1#32 := by
  have e : (0xFFFFFFFF#32 : Lane) = BitVec.allOnes 32 := by decide
  have mulEq : ∀ a b : Lane, BitVec.ofNat 32 (a.toNat * b.toNat) = a * b := by
    intro a b
    apply BitVec.eq_of_toNat_eq
    rw [BitVec.toNat_ofNat, BitVec.toNat_mul]
  simp only [randomBlock, addEpi32, lane_lanes, lane_or, lane_and, swapLanes, mulEpu32, rngMult, rngAdd, rngMask, e,
    BitVec.and_allOnes, BitVec.and_zero, BitVec.or_zero, BitVec.zero_or, mulEq, and_self]

end TinyGarble.Proof
