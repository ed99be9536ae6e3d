import Verif.Proof.Hdl.Arith

/-!
# The library of circuits (C69)

All widths; `N >= M` as the comments in the sources demand.
-/

namespace TinyGarble.Props.Hdl

open TinyGarble.Hdl TinyGarble.Spec.Hdl TinyGarble.Proof.Hdl

/-- ADD: sum and carry. -/
theorem C69_add {n m : Nat} (h : m ≤ n) (A : BitVec n) (B : BitVec m) (CI : Bool) :
    (ADD A B CI).1.toNat + 2 ^ n * (ADD A B CI).2.toNat = A.toNat + B.toNat + CI.toNat := ADD_spec h A B CI

/-- SUB: difference modulo `2 ^ N`, and whether it does not borrow. -/
theorem C69_sub {n m : Nat} (h : m ≤ n) (A : BitVec n) (B : BitVec m) :
    ((SUB A B).1.toNat : Int) = ((A.toNat : Int) - B.toNat) % 2 ^ n ∧ ((SUB A B).2 = true ↔ B.toNat ≤ A.toNat) := by
  refine ⟨?_, by rw [SUB_snd h]; simp⟩
  rw [SUB_fst, BitVec.toNat_sub, toNat_widen h]
  have hB := Nat.lt_of_lt_of_le B.isLt (Nat.pow_le_pow_right (show 2 > 0 by omega) h)
  push_cast [Nat.le_of_lt hB]
  rw [show (2 : Int) ^ n - B.toNat + A.toNat = (A.toNat - B.toNat) + 2 ^ n by ring, Int.add_emod_right]

/-- COMP: not less. -/
theorem C69_comp {n m : Nat} (h : m ≤ n) (A : BitVec n) (B : BitVec m) : COMP A B = true ↔ B.toNat ≤ A.toNat := by
  rw [COMP_spec h]; simp

/-- MUX: the second input if selected. -/
theorem C69_mux {n : Nat} (A B : BitVec n) (S : Bool) : MUX A B S = if S then B else A := MUX_eq A B S

/-- TwosComplement. -/
theorem C69_twos {n : Nat} (A : BitVec n) : ((TwosComplement A).toNat : Int) = (-(A.toNat : Int)) % 2 ^ n := by
  rw [Twos_eq, BitVec.toNat_neg]
  have hA := A.isLt
  push_cast [Nat.le_of_lt hA]
  rw [show (2 : Int) ^ n - A.toNat = -A.toNat + 2 ^ n by ring, Int.add_emod_right]

/-- ADD_: the exact signed sum. -/
theorem C69_add_signed {n m : Nat} (h : m ≤ n) (hm : 0 < m) (A : BitVec n) (B : BitVec m) :
    (ADD_ A B).toInt = A.toInt + B.toInt := ADD__spec h hm A B

/-- SUB_: the exact signed difference. -/
theorem C69_sub_signed {n m : Nat} (h : m ≤ n) (hm : 0 < m) (A : BitVec n) (B : BitVec m) :
    (SUB_ A B).toInt = A.toInt - B.toInt := SUB__spec h hm A B

/-- MULT: the exact product. -/
theorem C69_mult {n m : Nat} (A : BitVec n) (B : BitVec m) : (MULT A B).toNat = A.toNat * B.toNat := MULT_spec A B

/-- MULT_: the exact signed product. -/
theorem C69_mult_signed {n m : Nat} (hn : 0 < n) (hm : 0 < m) (A : BitVec n) (B : BitVec m) :
    (MULT_ A B).toInt = A.toInt * B.toInt := MULT__spec hn hm A B

/-- DIV: the quotient. -/
theorem C69_div {n m : Nat} (A : BitVec n) (B : BitVec m) (hB : B.toNat ≠ 0) : (DIV A B).toNat = A.toNat / B.toNat := DIV_spec A B hB

/-- DIV: all ones for the divisor 0. -/
theorem C69_div_zero {n m : Nat} (A : BitVec n) (B : BitVec m) (hB : B.toNat = 0) : (DIV A B).toNat = 2 ^ n - 1 := by
  rw [DIV_zero A B hB, BitVec.toNat_allOnes]

/-- DIV_: the signed quotient, rounded towards zero; except for the least number divided by -1, whose quotient does not fit. -/
theorem C69_div_signed {n m : Nat} (hn : 0 < n) (A : BitVec n) (B : BitVec m) (hB : B.toInt ≠ 0)
    (hmin : ¬ (A.toInt = -2 ^ (n - 1) ∧ B.toInt = -1)) : (DIV_ A B).toInt = A.toInt.tdiv B.toInt := DIV__spec hn A B hB hmin

/-- square_root_comb with `N = 2 h` and at least `h` steps: the rounded down square root. -/
theorem C69_sqrt {h M : Nat} (hh : 0 < h) (hM : h ≤ M) (A : BitVec (h + h)) :
    (squareRoot M A).toNat ^ 2 ≤ A.toNat ∧ A.toNat < ((squareRoot M A).toNat + 1) ^ 2 := by
  rw [root_spec hh hM]
  exact ⟨Nat.sqrt_le' _, Nat.lt_succ_sqrt' _⟩

/-- COUNT: the number of ones. -/
theorem C69_count (n : Nat) (A : BitVec n) : (COUNT n A).toNat = ones n A.getLsbD := COUNT_spec n A

/-- SHIFT_LEFT shifts to the right, SHIFT_RIGHT to the left. -/
theorem C69_shifts_reversed {n : Nat} (a : BitVec n) (amount : BitVec (clog2 n + 1)) :
    (SHIFT_LEFT a amount).toNat = a.toNat / 2 ^ amount.toNat ∧ (SHIFT_RIGHT a amount).toNat = a.toNat * 2 ^ amount.toNat % 2 ^ n := by
  rw [SHIFT_LEFT_eq, SHIFT_RIGHT_eq, BitVec.toNat_ushiftRight, BitVec.toNat_shiftLeft, Nat.shiftRight_eq_div_pow, Nat.shiftLeft_eq]
  exact ⟨rfl, rfl⟩

/-- The names of the shifts are wrong, with amount 1 on 16 bits. -/
theorem C69_shift_left_wrong : ∃ (a : BitVec 16) (amount : BitVec (clog2 16 + 1)), SHIFT_LEFT a amount ≠ a <<< amount.toNat :=
  ⟨4, 1, by rw [SHIFT_LEFT_eq]; have : clog2 16 + 1 = 5 := by simp [clog2]
            simp [this]⟩

/-! ## The hypotheses are met -/

example : (ADD 200#8 100#8 true).1 = 45#8 ∧ (ADD 200#8 100#8 true).2 = true := by decide +kernel
example : (2 : Nat) ≤ 8 ∧ (ADD 200#8 3#2 false).1 = 203#8 := by decide +kernel
example : (ADD_ 100#8 100#8).toInt = 200 ∧ (SUB_ (-100#8) 100#8).toInt = -200 := by decide +kernel
example : (MULT 255#8 3#2) = 765#10 ∧ (MULT_ (-128#8) (-128#8)).toInt = 16384 := by decide +kernel
example : (7#4).toNat ≠ 0 ∧ DIV 200#8 7#4 = 28#8 := by decide +kernel
example : (-7#4).toInt ≠ 0 ∧ ¬ ((100#8).toInt = -2 ^ (8 - 1) ∧ (-7#4).toInt = -1) ∧ (DIV_ 100#8 (-7#4)).toInt = -14 := by decide +kernel
example : (0 < 4) ∧ squareRoot 16 (200#8 : BitVec (4 + 4)) = 14#4 := by decide +kernel
example : (1 < 600) ∧ (instances 600).length = 600 := by decide +kernel

end TinyGarble.Props.Hdl
