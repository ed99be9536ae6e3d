import Verif.Model.Hdl.Lib
import Mathlib.Tactic.Ring
import Mathlib.Data.Nat.Sqrt

/-!
# The library of circuits: cells
-/

namespace TinyGarble.Proof.Hdl

open TinyGarble.Hdl

theorem getLsbD_ofBits (n : Nat) (f : Nat → Bool) (i : Nat) : (ofBits n f).getLsbD i = (decide (i < n) && f i) := by
  induction n with
  | zero => simp [ofBits]
  | succ n ih =>
    rw [ofBits, BitVec.getLsbD_cons]
    by_cases h : i = n
    · simp [h]
    · rw [if_neg h, ih]
      by_cases h2 : i < n
      · simp [h2, Nat.lt_succ_of_lt h2]
      · simp [h2, show ¬ i < n + 1 by omega]

theorem range'_flatMap (k : Nat) : ((List.range k).flatMap fun h => (List.range 512).map fun g => h * 512 + g) = List.range (k * 512) := by
  induction k with
  | zero => rfl
  | succ k ih =>
    rw [List.range_succ (n := k), List.flatMap_append, ih, Nat.succ_mul, List.range_add, List.flatMap_singleton]

/-- Every index occurs once, in ascending order. -/
theorem instances_eq (n : Nat) : instances n = List.range n := by
  unfold instances
  split
  · rfl
  · rw [range'_flatMap, List.range_eq_range' (n := n / 512 * 512)]
    conv_rhs => rw [show n = n / 512 * 512 + (n - n / 512 * 512) by omega, List.range_eq_range', ← List.range'_append_1]
    simp

/-- The carries of an addition. -/
theorem chain_spec {n : Nat} (A B : BitVec n) (c : Bool) :
    (∀ i ≤ n, (chain n A.getLsbD B.getLsbD c).C i = BitVec.carry i A B c) ∧
    ∀ i < n, (chain n A.getLsbD B.getLsbD c).S i = (A + B + BitVec.setWidth n (BitVec.ofBool c)).getLsbD i := by
  have key : ∀ k ≤ n, ∀ w, w = (List.range k).foldl (chainStep A.getLsbD B.getLsbD)
      { C := setBit (fun _ => false) 0 c, S := fun _ => false } →
      (∀ i ≤ k, w.C i = BitVec.carry i A B c) ∧ ∀ i < k, w.S i = (A + B + BitVec.setWidth n (BitVec.ofBool c)).getLsbD i := by
    intro k
    induction k with
    | zero =>
      rintro _ w rfl
      refine ⟨fun i hi => ?_, fun i hi => absurd hi (by omega)⟩
      obtain rfl : i = 0 := by omega
      simp [setBit]
    | succ k ih =>
      rintro hk w' rfl
      have ih := ih (by omega) _ rfl
      rw [List.range_succ, List.foldl_append, List.foldl_cons, List.foldl_nil]
      generalize (List.range k).foldl _ _ = w at ih ⊢
      refine ⟨fun i hi => ?_, fun i hi => ?_⟩
      · by_cases h : i = k + 1
        · subst h
          simp only [chainStep, setBit, if_true]
          rw [ih.1 k (by omega), BitVec.carry_succ]
          cases A.getLsbD k <;> cases B.getLsbD k <;> cases BitVec.carry k A B c <;> rfl
        · simp only [chainStep, setBit, if_neg h]
          exact ih.1 i (by omega)
      · by_cases h : i = k
        · subst h
          simp only [chainStep, setBit, if_true]
          rw [ih.1 i (by omega), BitVec.getLsbD_add_add_bool (by omega)]
          cases A.getLsbD i <;> cases B.getLsbD i <;> cases BitVec.carry i A B c <;> rfl
        · simp only [chainStep, setBit, if_neg h]
          exact ih.2 i (by omega)
  have := key n (Nat.le_refl n) _ rfl
  unfold chain
  rw [instances_eq]
  exact this

theorem eq_of_bits {n : Nat} {x y : BitVec n} (h : ∀ i < n, x.getLsbD i = y.getLsbD i) : x = y :=
  BitVec.eq_of_getLsbD_eq fun i hi => h i hi

theorem ofBits_congr {n : Nat} {f : Nat → Bool} {x : BitVec n} (h : ∀ i < n, f i = x.getLsbD i) : ofBits n f = x := by
  apply eq_of_bits
  intro i hi
  rw [getLsbD_ofBits, h i hi]
  simp [hi]

theorem padded {n m : Nat} (B : BitVec m) (h : n > m) : (0#(n - m) ++ B).setWidth n = B.setWidth n := by
  apply eq_of_bits
  intro i hi
  simp only [BitVec.getLsbD_setWidth, BitVec.getLsbD_append]
  by_cases h : i < m
  · simp [h]
  · simp [h, BitVec.getLsbD_of_ge B i (by omega)]

theorem padded' {n m : Nat} (B : BitVec m) : (0#(n - m) ++ B).setWidth n = B.setWidth n := by
  apply eq_of_bits
  intro i hi
  simp only [BitVec.getLsbD_setWidth, BitVec.getLsbD_append]
  by_cases h : i < m
  · simp [h]
  · simp [h, BitVec.getLsbD_of_ge B i (by omega)]

theorem ADD_eq {n m : Nat} (A : BitVec n) (B : BitVec m) (c : Bool) :
    ADD A B c = (A + B.setWidth n + BitVec.setWidth n (BitVec.ofBool c), BitVec.carry n A (B.setWidth n) c) := by
  have e : (if n > m then (0#(n - m) ++ B).setWidth n else B.setWidth n) = B.setWidth n := by
    split
    · exact padded B ‹_›
    · rfl
  unfold ADD
  simp only [e]
  exact Prod.ext (ofBits_congr fun i hi => (chain_spec A (B.setWidth n) c).2 i hi) ((chain_spec A (B.setWidth n) c).1 n (Nat.le_refl n))

theorem carry_full {n : Nat} (A B : BitVec n) (c : Bool) : BitVec.carry n A B c = decide (2 ^ n ≤ A.toNat + B.toNat + c.toNat) := by
  unfold BitVec.carry
  rw [Nat.mod_eq_of_lt A.isLt, Nat.mod_eq_of_lt B.isLt]

theorem toNat_carry {n : Nat} (c : Bool) (h : 0 < n ∨ c = false) : (BitVec.setWidth n (BitVec.ofBool c)).toNat = c.toNat := by
  cases c
  · simp
  · have hn : 0 < n := by simpa using h
    simp only [BitVec.ofBool_true, BitVec.toNat_setWidth, Bool.toNat_true]
    exact Nat.mod_eq_of_lt (by
      have := Nat.one_lt_two_pow (n := n) (by omega)
      simpa using this)

/-- Sum and carry together are the sum of the numbers. -/
theorem sum_carry {n : Nat} (A B : BitVec n) (c : Bool) :
    (A + B + BitVec.setWidth n (BitVec.ofBool c)).toNat + 2 ^ n * (BitVec.carry n A B c).toNat = A.toNat + B.toNat + c.toNat := by
  rw [carry_full]
  by_cases hn : 0 < n
  · rw [BitVec.toNat_add, BitVec.toNat_add, toNat_carry c (Or.inl hn), Nat.mod_add_mod]
    have hA := A.isLt
    have hB := B.isLt
    have hc : c.toNat ≤ 1 := by cases c <;> simp
    by_cases h : 2 ^ n ≤ A.toNat + B.toNat + c.toNat
    · rw [Nat.mod_eq_sub_mod h, Nat.mod_eq_of_lt (by omega)]
      simp only [h, decide_true, Bool.toNat_true, Nat.mul_one]
      omega
    · rw [Nat.mod_eq_of_lt (by omega)]
      simp [h]
  · obtain rfl : n = 0 := by omega
    have hA := A.isLt
    have hB := B.isLt
    have hz : (A + B + BitVec.setWidth 0 (BitVec.ofBool c)).toNat = 0 := by
      have := (A + B + BitVec.setWidth 0 (BitVec.ofBool c)).isLt
      omega
    rw [hz]
    obtain ⟨hA, hB⟩ : A.toNat = 0 ∧ B.toNat = 0 := by omega
    rw [hA, hB]
    cases c <;> rfl

theorem ADD_spec {n m : Nat} (h : m ≤ n) (A : BitVec n) (B : BitVec m) (c : Bool) :
    (ADD A B c).1.toNat + 2 ^ n * (ADD A B c).2.toNat = A.toNat + B.toNat + c.toNat := by
  rw [ADD_eq, sum_carry, BitVec.toNat_setWidth, Nat.mod_eq_of_lt (Nat.lt_of_lt_of_le B.isLt (Nat.pow_le_pow_right (by omega) h))]

theorem not_bits {n : Nat} (B : BitVec n) : ∀ i < n, (!B.getLsbD i) = (~~~B).getLsbD i := by
  intro i hi
  simp [hi]

theorem chain_congr {n : Nat} {A : Nat → Bool} {B B' : Nat → Bool} (h : ∀ i < n, B i = B' i) (c : Bool) :
    chain n A B c = chain n A B' c := by
  unfold chain
  rw [instances_eq]
  have key : ∀ (l : List Nat) (w : Chain), (∀ i ∈ l, i < n) →
      l.foldl (chainStep A B) w = l.foldl (chainStep A B') w := by
    intro l
    induction l with
    | nil => intros; rfl
    | cons x l ih =>
      intro w hl
      rw [List.foldl_cons, List.foldl_cons, chainStep, chainStep, h x (hl x (by simp)), ih _ (fun i hi => hl i (by simp [hi]))]
  exact key _ _ (fun i hi => by simpa using hi)

theorem SUB_eq {n m : Nat} (A : BitVec n) (B : BitVec m) :
    SUB A B = (A + ~~~(B.setWidth n) + BitVec.setWidth n (BitVec.ofBool true), BitVec.carry n A (~~~(B.setWidth n)) true) := by
  unfold SUB
  simp only [padded']
  rw [chain_congr (not_bits (B.setWidth n))]
  exact Prod.ext (ofBits_congr fun i hi => (chain_spec A (~~~(B.setWidth n)) true).2 i hi)
    ((chain_spec A (~~~(B.setWidth n)) true).1 n (Nat.le_refl n))

theorem COMP_eq {n m : Nat} (A : BitVec n) (B : BitVec m) : COMP A B = (SUB A B).2 := by
  have e : (if n > m then (0#(n - m) ++ B).setWidth n else B.setWidth n) = B.setWidth n := by
    split
    · exact padded B ‹_›
    · rfl
  unfold COMP
  simp only [e]
  unfold SUB
  simp only [padded']

theorem carry_not {n : Nat} (A B : BitVec n) : BitVec.carry n A (~~~B) true = decide (B.toNat ≤ A.toNat) := by
  rw [carry_full, BitVec.toNat_not]
  have hB := B.isLt
  simp only [Bool.toNat_true]
  congr 1
  apply propext
  omega

theorem toNat_widen {n m : Nat} (h : m ≤ n) (B : BitVec m) : (B.setWidth n).toNat = B.toNat := by
  rw [BitVec.toNat_setWidth, Nat.mod_eq_of_lt (Nat.lt_of_lt_of_le B.isLt (Nat.pow_le_pow_right (by omega) h))]

theorem sub_not {n : Nat} (A B : BitVec n) : A + ~~~B + BitVec.setWidth n (BitVec.ofBool true) = A - B := by
  by_cases hn : n = 0
  · subst hn
    exact Subsingleton.elim _ _
  · have : BitVec.setWidth n (BitVec.ofBool true) = 1#n := by
      apply BitVec.eq_of_toNat_eq
      rw [toNat_carry true (Or.inl (by omega))]
      have := Nat.one_lt_two_pow (n := n) hn
      simp [Nat.mod_eq_of_lt this]
    rw [this, BitVec.sub_eq_add_neg, BitVec.neg_eq_not_add, BitVec.add_assoc]

theorem SUB_fst {n m : Nat} (A : BitVec n) (B : BitVec m) : (SUB A B).1 = A - B.setWidth n := by
  rw [SUB_eq]; exact sub_not _ _

theorem SUB_snd {n m : Nat} (h : m ≤ n) (A : BitVec n) (B : BitVec m) : (SUB A B).2 = decide (B.toNat ≤ A.toNat) := by
  rw [SUB_eq]
  show BitVec.carry _ _ _ _ = _
  rw [carry_not, toNat_widen h]

theorem COMP_spec {n m : Nat} (h : m ≤ n) (A : BitVec n) (B : BitVec m) : COMP A B = decide (B.toNat ≤ A.toNat) := by
  rw [COMP_eq, SUB_snd h]

theorem foldl_setBit (f : Nat → Bool) (n i : Nat) (hi : i < n) (z : Nat → Bool) :
    (List.range n).foldl (fun O g => setBit O g (f g)) z i = f i := by
  induction n with
  | zero => omega
  | succ n ih =>
    rw [List.range_succ, List.foldl_append, List.foldl_cons, List.foldl_nil, setBit]
    by_cases h : i = n
    · rw [if_pos h, h]
    · rw [if_neg h, ih (by omega)]

theorem MUX_eq {n : Nat} (A B : BitVec n) (S : Bool) : MUX A B S = if S then B else A := by
  unfold MUX
  rw [instances_eq]
  apply ofBits_congr
  intro i hi
  rw [foldl_setBit _ _ _ hi]
  cases S
  · simp
  · simp only [Bool.and_true, if_true]
    cases A.getLsbD i <;> cases B.getLsbD i <;> rfl

theorem MUX1_eq (A B S : Bool) : MUX1 A B S = if S then B else A := by
  unfold MUX1
  rw [MUX_eq]
  cases S <;> simp

theorem Twos_eq {n : Nat} (A : BitVec n) : TwosComplement A = -A := by
  unfold TwosComplement
  rw [ADD_eq]
  show ~~~A + (0#n).setWidth n + _ = _
  have := sub_not (0#n) A
  rw [BitVec.zero_add] at this
  rw [BitVec.setWidth_eq, BitVec.add_zero, this, BitVec.zero_sub]

theorem ADD_fst {n m : Nat} (A : BitVec n) (B : BitVec m) : (ADD A B false).1 = A + B.setWidth n := by
  rw [ADD_eq]; simp

end TinyGarble.Proof.Hdl
