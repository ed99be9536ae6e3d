import Verif.Model.BlockShift
import Mathlib.Tactic.IntervalCases

/-! # Doubling and shifting blocks: lemmas -/

namespace TinyGarble.Proof

theorem getLsbD_setEpi32 (w3 w2 w1 w0 : BitVec 32) (i : Nat) : (setEpi32 w3 w2 w1 w0).getLsbD i =
    if i < 32 then w0.getLsbD i else if i < 64 then w1.getLsbD (i - 32) else if i < 96 then w2.getLsbD (i - 64)
    else w3.getLsbD (i - 96) := by
  unfold setEpi32
  rw [BitVec.getLsbD_append, BitVec.getLsbD_append, BitVec.getLsbD_append]
  by_cases h1 : i < 32
  · simp [h1]
  · by_cases h2 : i < 64
    · simp [h1, h2, show i - 32 < 32 by omega]
    · by_cases h3 : i < 96
      · rw [if_neg h1, if_neg h2, if_pos h3]
        simp [h1, show ¬ i - 32 < 32 by omega, show i - 32 - 32 = i - 64 by omega, show i - 64 < 32 by omega]
      · simp [h1, h2, h3, show ¬ i - 32 < 32 by omega, show ¬ i - 32 - 32 < 32 by omega, show i - 32 - 32 - 32 = i - 96 by omega]

theorem getLsbD_blockWord (b : Block) (k i : Nat) :
    (blockWord b k).getLsbD i = (decide (i < 32) && b.getLsbD (32 * k + i)) := by
  unfold blockWord; rw [BitVec.getLsbD_extractLsb']

theorem msb_blockWord (b : Block) (k : Nat) : (blockWord b k).msb = b.getLsbD (32 * k + 31) := by
  rw [BitVec.msb_eq_getLsbD_last, getLsbD_blockWord]
  simp

theorem doubleBlock_bit (b : Block) (i : Nat) (hi : i < 128) : (doubleBlock b).getLsbD i =
    (((b <<< 1).getLsbD i) ^^ (b.getLsbD 127 && (135#128).getLsbD i)) := by
  unfold doubleBlock
  rw [BitVec.getLsbD_xor]
  simp only [shuffle2103, slliEpi32, sraiEpi32, getLsbD_setEpi32, getLsbD_blockWord, BitVec.getLsbD_and,
    BitVec.getLsbD_shiftLeft, BitVec.getLsbD_sshiftRight, msb_blockWord]
  interval_cases i <;> simp

theorem leftShiftBlock_bit (b : Block) (i : Nat) (hi : i < 128) : (leftShiftBlock b).getLsbD i =
    if i = 63 then (b.getLsbD 62 ^^ b.getLsbD 63) else if i = 64 then false else (b <<< 1).getLsbD i := by
  unfold leftShiftBlock slliEpi64
  simp only [BitVec.getLsbD_xor, BitVec.getLsbD_append, getLsbD_setEpi32, BitVec.getLsbD_and, BitVec.getLsbD_shiftLeft,
    BitVec.getLsbD_extractLsb']
  interval_cases i <;> simp

theorem rightShiftBlock_bit (b : Block) (i : Nat) (hi : i < 128) : (rightShiftBlock b).getLsbD i =
    if i = 64 then b.getLsbD 64 else (b <<< 1).getLsbD i := by
  unfold rightShiftBlock slliEpi64
  simp only [BitVec.getLsbD_xor, BitVec.getLsbD_append, getLsbD_setEpi32, BitVec.getLsbD_and, BitVec.getLsbD_shiftLeft,
    BitVec.getLsbD_extractLsb']
  interval_cases i <;> simp

end TinyGarble.Proof
