import Verif.Proof.BlockShift

/-! # C103: doubling and shifting blocks -/

namespace TinyGarble.Props
open TinyGarble.Proof

/-- The terms of degree less than 128 of the polynomial `X^128 + X^7 + X^2 + X + 1` over the field of two elements. -/
def modulusTerms : List Nat := [0, 1, 2, 7]

/-- Bit `i` of `X` times the polynomial with the coefficients `b`, modulo that polynomial: the coefficient of `X^(i-1)`, and
the coefficient of `X^127` if the modulus has the term `X^i`. -/
def timesX (b : Nat → Bool) (i : Nat) : Bool := (decide (0 < i) && b (i - 1)) ^^ (b 127 && decide (i ∈ modulusTerms))

/-- C103. `Double_Block` and `SlowDouble_Block` double a block in the field of 2^128 elements. -/
theorem C103_double (b : Block) (i : Nat) (hi : i < 128) :
    (doubleBlock b).getLsbD i = timesX b.getLsbD i ∧ (slowDoubleBlock b).getLsbD i = timesX b.getLsbD i := by
  have h : (doubleBlock b).getLsbD i = timesX b.getLsbD i := by
    rw [doubleBlock_bit b i hi, BitVec.getLsbD_shiftLeft]
    unfold timesX modulusTerms
    interval_cases i <;> simp
  exact ⟨h, h⟩

example : doubleBlock (1#128 <<< 127 ||| 1#128) = 133#128 := by decide +kernel

/-- C103. `LeftShift` moves every bit up by one place only if bit 63 is 0; else the bit is not moved to place 64, but added
to place 63. -/
theorem C103_left_partial (b : Block) : leftShiftBlock b = b <<< 1 ↔ b.getLsbD 63 = false := by
  constructor
  · intro h
    have := congrArg (fun x : Block => x.getLsbD 64) h
    simp only [leftShiftBlock_bit b 64 (by decide), BitVec.getLsbD_shiftLeft] at this
    simpa using this.symm
  · intro h
    refine BitVec.eq_of_getLsbD_eq fun i hi => ?_
    rw [leftShiftBlock_bit b i hi]
    by_cases h1 : i = 63
    · subst h1
      rw [if_pos rfl, h, BitVec.getLsbD_shiftLeft]
      simp
    · rw [if_neg h1]
      by_cases h2 : i = 64
      · subst h2
        rw [if_pos rfl, BitVec.getLsbD_shiftLeft]
        simpa using h
      · rw [if_neg h2]

example : (1#128).getLsbD 63 = false ∧ (1#128 <<< 63).getLsbD 63 = true := by decide +kernel

/-- C103. `LeftShift` leaves the block with bit 63 as it is. -/
theorem C103_false_left : leftShiftBlock (1#128 <<< 63) = 1#128 <<< 63 := by decide +kernel

/-- C103. `RightShift` moves the bits up instead of down: only the block of zeros has the right result. -/
theorem C103_false_right (b : Block) : rightShiftBlock b = b >>> 1 ↔ b = 0 := by
  constructor
  · intro h
    have key : ∀ i < 128, (if i = 64 then b.getLsbD 64 else (b <<< 1).getLsbD i) = b.getLsbD (1 + i) := by
      intro i hi
      have := congrArg (fun x : Block => x.getLsbD i) h
      simp only [rightShiftBlock_bit b i hi, BitVec.getLsbD_ushiftRight] at this
      exact this
    -- from place 65 on, a bit is that two places above, and there is none above 127
    have step : ∀ i, 0 < i → i < 128 → i ≠ 64 → b.getLsbD (i - 1) = b.getLsbD (i + 1) := by
      intro i h0 h1 h2
      have := key i h1
      rw [if_neg h2, BitVec.getLsbD_shiftLeft] at this
      rw [show i + 1 = 1 + i by omega, ← this]
      simp [h1, show ¬ i < 1 by omega]
    have top : ∀ n, ∀ i, i < 128 → 64 ≤ i → i % 2 = 0 → 128 - i ≤ n → b.getLsbD i = false := by
      intro n
      induction n with
      | zero => intro i h1 _ _ h4; omega
      | succ n ih =>
        intro i h1 h2 h3 h4
        have s := step (i + 1) (by omega) (by omega) (by omega)
        rw [show i + 1 - 1 = i by omega, show i + 1 + 1 = i + 2 by omega] at s
        rw [s]
        by_cases h : i + 2 < 128
        · exact ih (i + 2) h (by omega) (by omega) (by omega)
        · exact BitVec.getLsbD_of_ge _ _ (by omega)
    have h64 := top 128 64 (by decide) (by decide) (by decide) (by omega)
    have h65 : b.getLsbD 65 = false := by
      have := key 64 (by decide)
      rw [if_pos rfl] at this
      rw [show (65 : Nat) = 1 + 64 by rfl, ← this]
      exact h64
    have odd : ∀ n, ∀ i, i < 128 → 65 ≤ i → i % 2 = 1 → i ≤ n → b.getLsbD i = false := by
      intro n
      induction n with
      | zero => intro i _ h2 _ h4; omega
      | succ n ih =>
        intro i h1 h2 h3 h4
        by_cases h : i = 65
        · rw [h]; exact h65
        · have s := step (i - 1) (by omega) (by omega) (by omega)
          rw [show i - 1 - 1 = i - 2 by omega, show i - 1 + 1 = i by omega] at s
          rw [← s]
          exact ih (i - 2) (by omega) (by omega) (by omega) (by omega)
    have h1 : b.getLsbD 1 = false := by
      have := key 0 (by decide)
      rw [if_neg (by decide), BitVec.getLsbD_shiftLeft] at this
      simpa using this.symm
    have low1 : ∀ n, ∀ i, i < 64 → i % 2 = 1 → i ≤ n → b.getLsbD i = false := by
      intro n
      induction n with
      | zero => intro i _ h3 h4; omega
      | succ n ih =>
        intro i hl h3 h4
        by_cases h : i = 1
        · rw [h]; exact h1
        · have s := step (i - 1) (by omega) (by omega) (by omega)
          rw [show i - 1 - 1 = i - 2 by omega, show i - 1 + 1 = i by omega] at s
          rw [← s]
          exact ih (i - 2) (by omega) (by omega) (by omega)
    have low0 : ∀ n, ∀ i, i < 64 → i % 2 = 0 → 64 - i ≤ n → b.getLsbD i = false := by
      intro n
      induction n with
      | zero => intro i _ h3 h4; omega
      | succ n ih =>
        intro i hl h3 h4
        have s := step (i + 1) (by omega) (by omega) (by omega)
        rw [show i + 1 - 1 = i by omega, show i + 1 + 1 = i + 2 by omega] at s
        rw [s]
        by_cases h : i + 2 < 64
        · exact ih (i + 2) h (by omega) (by omega)
        · rw [show i + 2 = 64 by omega]; exact h64
    refine BitVec.eq_of_getLsbD_eq fun i hi => ?_
    have : b.getLsbD i = false := by
      rcases Nat.lt_or_ge i 64 with hl | hl
      · rcases Nat.mod_two_eq_zero_or_one i with hp | hp
        · exact low0 64 i hl hp (by omega)
        · exact low1 64 i hl hp (by omega)
      · rcases Nat.mod_two_eq_zero_or_one i with hp | hp
        · exact top 128 i hi hl hp (by omega)
        · exact odd 128 i hi (by omega) hp (by omega)
    rw [this]
    simp
  · rintro rfl
    decide +kernel

example : rightShiftBlock 1#128 = 2#128 := by decide +kernel

end TinyGarble.Props
