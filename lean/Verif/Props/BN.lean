import Verif.Proof.BN

/-!
# Properties of big numbers: C17, C18, C19, C23
-/

namespace TinyGarble.Props
open TinyGarble Spec Proof

/-! ## C17 -/

/-- C17 is false of negative numbers: the sign is not transmitted. -/
theorem C17_sign_lost : ∃ a : Int, ∃ b : Int, (∀ cap > 0, AlwaysFinishes cap (sendBN a) recvBN () b) ∧ b ≠ a :=
  ⟨-5, 5, fun _ hc => (dual_bn (a := -5) (by decide +kernel)).alwaysFinishes hc, by decide⟩

/-- C17, partial: for non-negative numbers (that OpenSSL can represent: `BN_num_bits` is an `int`),
under every schedule and with buffers of any size `RecvBN` returns the number given to `SendBN` and consumes all bytes. Missing:
negative numbers, for which it is false. -/
theorem C17_bn_transmission_partial {a : Int} (h0 : 0 ≤ a) (h : numBits a.toNat < 2 ^ 31) {cap : Nat}
    (hc : 0 < cap) : AlwaysFinishes cap (sendBN a) recvBN () a := by
  have hb : numBytes a.natAbs < 2 ^ 31 := by
    rw [show a.natAbs = a.toNat by omega]
    unfold numBytes; omega
  have := (dual_bn hb).alwaysFinishes hc
  rwa [show ((a.natAbs : Nat) : Int) = a by omega] at this

example : (0 : Int) ≤ 2 ^ 1000 + 77 ∧ numBits ((2 ^ 1000 + 77 : Int).toNat) < 2 ^ 31 := by decide +kernel

/-! ## C18 -/

/-- C18. A block converted to a big number is the number whose binary digits are the block's, and a
big number converted to a block gives its low 128 bits; hence the round trip is the identity. -/
theorem C18_block_bn (w : Block) (n : Nat) :
    (∀ j, (blockToBN w).testBit j = w.getLsbD j)
    ∧ (∀ j < 128, (bnToBlock n).getLsbD j = n.testBit j)
    ∧ bnToBlock (blockToBN w) = w := by
  refine ⟨?_, ?_, ?_⟩
  · intro j; rw [blockToBN_eq]; rfl
  · intro j hj; rw [bnToBlock_eq, BitVec.getLsbD_ofNat]; simp [hj]
  · rw [bnToBlock_eq, blockToBN_eq]; simp

/-- A label with leading zero bytes. -/
example : blockToBN 0xab00#128 = 0xab00 ∧ numBytes 0xab00 = 2 := by decide +kernel

/-! ## C19 -/

/-- C19, xor: the low `bits` bits of the result are the exclusive or of the arguments, whatever the
result held before; the bits above are those it held before. -/
theorem C19_xor (r bits v w j : Nat) :
    (bnXor r bits v w).testBit j = if j < bits then (v.testBit j ^^ w.testBit j) else r.testBit j :=
  bnXor_testBit r bits v w j

/-- C19, xor in place (`r` is also an argument). -/
theorem C19_xor_in_place (r bits w j : Nat) :
    (bnXorInPlace r bits w).testBit j = if j < bits then (r.testBit j ^^ w.testBit j) else r.testBit j :=
  bnXorInPlace_testBit r bits w j

/-- C19, invert: exactly the low `bits` bits are complemented. -/
theorem C19_invert (v bits j : Nat) :
    (bnInvert v bits).testBit j = if j < bits then !(v.testBit j) else v.testBit j :=
  bnInvert_testBit v bits j

/-- C19, full one: the value is 2^bits - 1 and success is reported, for every number of bits. -/
theorem C19_full_one (bits : Nat) : bnFullOne bits = (2 ^ bits - 1, true) := bnFullOne_eq bits

/-! ## C23 -/

/-- C23. Transposition never fails; bit `k` of row `i` of the result is bit `i` of row `k` of the
input, and the result has no other bits. -/
theorem C23_transpose (v : Nat → Nat) (vLen bitLen : Nat) :
    ∃ w, switchRowColumn v vLen bitLen = some w
      ∧ ∀ i < bitLen, (∀ k < vLen, (w i).testBit k = (v k).testBit i) ∧ w i < 2 ^ vLen := by
  obtain ⟨w, h1, h2⟩ := switchRowColumn_eq v vLen bitLen
  refine ⟨w, h1, ?_⟩
  intro i hi
  refine ⟨fun k hk => by rw [h2 i hi, if_pos hk], ?_⟩
  apply Nat.lt_pow_two_of_testBit
  intro k hk
  rw [h2 i hi, if_neg (by omega)]

/-- C23, pairs. -/
theorem C23_transpose_pair (v : Nat → Nat → Nat) (vLen bitLen : Nat) :
    ∃ w, switchRowColumnPair v vLen bitLen = some w
      ∧ ∀ i < bitLen, ∀ j < 2, (∀ k < vLen, (w i j).testBit k = (v k j).testBit i) ∧ w i j < 2 ^ vLen := by
  obtain ⟨w, h1, h2⟩ := switchRowColumnPair_eq v vLen bitLen
  refine ⟨w, h1, ?_⟩
  intro i hi j hj
  refine ⟨fun k hk => by rw [h2 i hi j hj, if_pos hk], ?_⟩
  apply Nat.lt_pow_two_of_testBit
  intro k hk
  rw [h2 i hi j hj, if_neg (by omega)]

/-- C23, twice: transposing a matrix with `bitLen` columns twice gives it back. -/
theorem C23_transpose_twice (v : Nat → Nat) (vLen bitLen : Nat) (hv : ∀ k < vLen, v k < 2 ^ bitLen) :
    ∃ w u, switchRowColumn v vLen bitLen = some w ∧ switchRowColumn w bitLen vLen = some u
      ∧ ∀ k < vLen, u k = v k := by
  obtain ⟨w, h1, h2⟩ := switchRowColumn_eq v vLen bitLen
  obtain ⟨u, h3, h4⟩ := switchRowColumn_eq w bitLen vLen
  refine ⟨w, u, h1, h3, ?_⟩
  intro k hk
  apply Nat.eq_of_testBit_eq
  intro i
  rw [h4 k hk]
  by_cases hi : i < bitLen
  · rw [if_pos hi, h2 i hi, if_pos hk]
  · rw [if_neg hi]
    exact (Nat.testBit_lt_two_pow (Nat.lt_of_lt_of_le (hv k hk) (Nat.pow_le_pow_right (by omega) (by omega)))).symm

example : ∀ k < 3, (fun k => k + 5 : Nat → Nat) k < 2 ^ 4 := by decide

end TinyGarble.Props
