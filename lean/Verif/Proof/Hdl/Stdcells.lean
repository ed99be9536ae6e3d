import Verif.Model.Hdl.Stdcells
import Verif.Spec.Hdl.Operators
import Verif.Proof.Hdl.Arith

/-!
# Lemmas about the technology mapping
-/

namespace TinyGarble.Proof.Hdl.Stdcells

open TinyGarble.Hdl TinyGarble.Hdl.Stdcells TinyGarble.Spec.Hdl TinyGarble.Proof.Hdl

theorem pos_eq {n : Nat} (s : Bool) (a : BitVec n) (m : Nat) : pos s a m = BitVec.ofInt m (value s a) := by
  unfold pos value
  cases s
  · rw [if_neg (by decide), if_neg (by decide), BitVec.ofInt_natCast]
    exact BitVec.eq_of_toNat_eq (by simp)
  · rfl

theorem value_pos {n m : Nat} (s : Bool) (a : BitVec n) (h : n ≤ m) : value s (pos s a m) = value s a := by
  unfold pos value
  cases s
  · simp only [Bool.false_eq_true, if_false]
    rw [toNat_widen h]
  · simp only [if_true]
    exact BitVec.toInt_signExtend_of_le h

/-! ## The adder -/

theorem fulladd_fst (a b c : Bool) : (fulladd a b c).1 = Bool.atLeastTwo a b c := by cases a <;> cases b <;> cases c <;> rfl

theorem fulladd_snd (a b c : Bool) : (fulladd a b c).2 = (a ^^ (b ^^ c)) := by cases a <;> cases b <;> cases c <;> rfl

theorem carries_eq {W : Nat} (a b : BitVec W) (c : Bool) (i : Nat) : carries a b c i = BitVec.carry i a b c := by
  induction i with
  | zero => rw [BitVec.carry_zero]; rfl
  | succ i ih => rw [BitVec.carry_succ, carries, ih, fulladd_fst]

theorem alu_y {W : Nat} (a b : BitVec W) (c : Bool) : (alu a b c).y = a + b + (BitVec.ofBool c).setWidth W := by
  apply ofBits_congr
  intro i hi
  rw [fulladd_snd, carries_eq, BitVec.getLsbD_add_add_bool hi]

theorem alu_sub {W : Nat} (a b : BitVec W) : (alu a (~~~b) true).y = a - b := by rw [alu_y, sub_not]

theorem alu_ult {W : Nat} (a b : BitVec W) : (!(alu a (~~~b) true).cout) = decide (a.toNat < b.toNat) := by
  show (!carries a (~~~b) true W) = _
  rw [carries_eq, carry_not]
  by_cases h : b.toNat ≤ a.toNat <;> simp [h] <;> omega

theorem alu_slt {W : Nat} (hW : 0 < W) (a b : BitVec W) :
    (((alu a (~~~b) true).cout ^^ (alu a (~~~b) true).csign) != (alu a (~~~b) true).y.getLsbD (W - 1)) = decide (a.toInt < b.toInt) := by
  have h := BitVec.slt_eq_not_carry (x := a) (y := b)
  rw [BitVec.slt] at h
  rw [h]
  show ((carries a (~~~b) true W ^^ carries a (~~~b) true (W - 1)) !=
    (ofBits W fun i => (fulladd (a.getLsbD i) ((~~~b).getLsbD i) (carries a (~~~b) true i)).2).getLsbD (W - 1)) = _
  rw [getLsbD_ofBits, decide_eq_true (by omega : W - 1 < W), Bool.true_and, fulladd_snd, carries_eq, carries_eq, BitVec.getLsbD_not,
    decide_eq_true (by omega : W - 1 < W), Bool.true_and, BitVec.msb_eq_getLsbD_last, BitVec.msb_eq_getLsbD_last]
  cases BitVec.carry W a (~~~b) true <;> cases BitVec.carry (W - 1) a (~~~b) true <;> cases a.getLsbD (W - 1) <;> cases b.getLsbD (W - 1) <;> rfl

theorem alu_zero {W : Nat} (a b : BitVec W) : ((alu a (~~~b) true).y == 0) = decide (a.toNat = b.toNat) := by
  rw [alu_sub, Bool.eq_iff_iff, beq_iff_eq, decide_eq_true_iff, BitVec.toNat_inj]
  constructor
  · intro h
    have h2 : a - b + b = 0 + b := by rw [h]
    rw [BitVec.sub_add_cancel, show (0 : BitVec W) + b = b from BitVec.zero_add b] at h2
    exact h2
  · rintro rfl
    exact BitVec.sub_self a

/-! ## Shifts -/

theorem amount_eq {W : Nat} (hW : W ≤ 2 ^ 30) {g : Nat → BitVec W → BitVec W} (hsat : ∀ k x, W ≤ k → g k x = g W x) (i : Nat) : g (amount i) = g (2 ^ i) := by
  unfold amount
  split
  · next h =>
    funext x
    rw [hsat _ _ hW, hsat _ _ (le_trans hW (Nat.pow_le_pow_right (by omega) (by omega)))]
  · rfl

theorem stages_upto {W nb : Nat} {g : Nat → BitVec W → BitVec W} (h0 : ∀ x, g 0 x = x) (hadd : ∀ k l x, g k (g l x) = g (l + k) x)
    (a : BitVec W) (b : BitVec nb) (f : Nat → Bool) (n : Nat) (hf : ∀ i < n, f i = b.getLsbD i) :
    (List.range n).foldl (fun x i => if f i then g (2 ^ i) x else x) a = g (b.toNat % 2 ^ n) a := by
  induction n with
  | zero => rw [Nat.pow_zero, Nat.mod_one, h0]; rfl
  | succ n ih =>
    rw [List.range_succ, List.foldl_append, ih fun i hi => hf i (by omega), List.foldl_cons, List.foldl_nil, hf n (by omega), Nat.mod_pow_succ,
      BitVec.getLsbD, Nat.testBit_eq_decide_div_mod_eq]
    rcases Nat.mod_two_eq_zero_or_one (b.toNat / 2 ^ n) with h | h
    · rw [h, if_neg (by simp), Nat.mul_zero, Nat.add_zero]
    · rw [h, if_pos (by simp), Nat.mul_one, hadd]

theorem stages_eq {W nb : Nat} (hW : W ≤ 2 ^ 30) (g : Nat → BitVec W → BitVec W) (h0 : ∀ x, g 0 x = x) (hadd : ∀ k l x, g k (g l x) = g (l + k) x)
    (hsat : ∀ k x, W ≤ k → g k x = g W x) (a : BitVec W) (b : BitVec nb) : stages (fun i => g (amount i)) a b = g b.toNat a := by
  unfold stages
  simp only [amount_eq hW hsat]
  by_cases h : bbWidth W nb < nb
  · have hb : bbWidth W nb = clog2 W + 1 + 1 := by
      unfold bbWidth at h ⊢
      split at h
      · next h' => rw [if_pos h']
      · omega
    have hw : W ≤ 2 ^ (clog2 W + 1) := le_trans (clog2_spec W) (Nat.pow_le_pow_right (by omega) (by omega))
    rw [hb, List.range_succ, List.foldl_append, stages_upto h0 hadd a b _ (clog2 W + 1), List.foldl_cons, List.foldl_nil]
    · rw [show bbit W b (clog2 W + 1) = (b >>> (clog2 W + 1) != 0) by
        unfold bbit
        rw [if_pos ⟨by omega, h⟩, hb, show clog2 W + 1 + 1 - 1 = clog2 W + 1 by omega]]
      have hs : (b >>> (clog2 W + 1) != 0) = decide (2 ^ (clog2 W + 1) ≤ b.toNat) := by
        rw [Bool.eq_iff_iff, bne_iff_ne, decide_eq_true_iff, Ne, ← BitVec.toNat_inj, BitVec.toNat_ushiftRight, Nat.shiftRight_eq_div_pow]
        show ¬ b.toNat / 2 ^ (clog2 W + 1) = (0#nb).toNat ↔ _
        rw [BitVec.toNat_ofNat, Nat.zero_mod, Nat.div_eq_zero_iff]
        have := Nat.two_pow_pos (clog2 W + 1)
        omega
      rw [hs]
      by_cases h2 : 2 ^ (clog2 W + 1) ≤ b.toNat
      · rw [decide_eq_true h2, if_pos rfl, hadd, hsat _ _ (by omega), hsat b.toNat _ (by omega)]
      · rw [decide_eq_false h2, if_neg (by simp), Nat.mod_eq_of_lt (by omega)]
    · intro i hi
      unfold bbit
      rw [if_neg (by rw [hb]; omega)]
  · have hb : bbWidth W nb = nb := by
      unfold bbWidth at h ⊢
      split at h
      · omega
      · next h' => rw [if_neg h']
    rw [hb, stages_upto h0 hadd a b _ nb fun i hi => by unfold bbit; rw [if_neg (by omega)], Nat.mod_eq_of_lt b.isLt]

theorem shift_left {W : Nat} (k : Nat) (x : BitVec W) : shift false (0 - (k : Int)) x = x <<< k := by
  apply ofBits_congr
  intro i hi
  rw [BitVec.getLsbD_shiftLeft, decide_eq_true hi, Bool.true_and]
  by_cases h : i < k
  · rw [if_pos (by omega), decide_eq_true h]; rfl
  · rw [if_neg (by omega), if_pos (by omega), decide_eq_false h, show ((i : Int) + (0 - (k : Int))).toNat = i - k by omega]; rfl

theorem getLsbD_shift {W : Nat} (X : Bool) (k : Nat) (x : BitVec W) (i : Nat) :
    (shift X (k : Int) x).getLsbD i = (decide (i < W) && if i + k < W then x.getLsbD (i + k) else X) := by
  unfold shift
  rw [getLsbD_ofBits, if_neg (by omega), show ((i : Int) + (k : Int)).toNat = i + k by omega]
  congr 1
  by_cases h : i + k < W
  · rw [if_pos h, if_pos (by omega)]
  · rw [if_neg h, if_neg (by omega)]

theorem shift_zero {W : Nat} (X : Bool) (x : BitVec W) : shift X ((0 : Nat) : Int) x = x := by
  apply eq_of_bits
  intro i hi
  rw [getLsbD_shift, decide_eq_true hi, if_pos (by omega)]; rfl

theorem shift_add {W : Nat} (X : Bool) (k l : Nat) (x : BitVec W) : shift X (k : Int) (shift X (l : Int) x) = shift X ((l + k : Nat) : Int) x := by
  apply eq_of_bits
  intro i hi
  rw [getLsbD_shift, getLsbD_shift, getLsbD_shift, decide_eq_true hi, show i + k + l = i + (l + k) by omega]
  by_cases h : i + (l + k) < W
  · rw [if_pos (by omega), if_pos h, decide_eq_true (by omega)]; rfl
  · rw [if_neg h]
    by_cases h2 : i + k < W
    · rw [if_pos h2, decide_eq_true h2]; rfl
    · rw [if_neg h2]

theorem shift_sat {W : Nat} (X : Bool) (k : Nat) (x : BitVec W) (h : W ≤ k) : shift X (k : Int) x = shift X (W : Int) x := by
  apply eq_of_bits
  intro i hi
  rw [getLsbD_shift, getLsbD_shift, if_neg (by omega), if_neg (by omega)]

theorem stages_left {W nb : Nat} (hW : W ≤ 2 ^ 30) (a : BitVec W) (b : BitVec nb) :
    stages (fun i => shift false (0 - (amount i : Int))) a b = a <<< b.toNat := by
  rw [show (fun i => shift (W := W) false (0 - (amount i : Int))) = fun i => (fun k x => x <<< k) (amount i) from
    funext fun i => funext fun x => shift_left _ x]
  apply stages_eq hW (fun k x => x <<< k)
  · intro x; simp
  · intro k l x
    show x <<< l <<< k = x <<< (l + k)
    rw [← BitVec.shiftLeft_add]
  · intro k x hk
    show x <<< k = x <<< W
    rw [BitVec.shiftLeft_eq_zero hk, BitVec.shiftLeft_eq_zero (le_refl _)]

theorem stages_right {W nb : Nat} (hW : W ≤ 2 ^ 30) (X : Bool) (a : BitVec W) (b : BitVec nb) :
    stages (fun i => shift X (amount i)) a b = shift X b.toNat a :=
  stages_eq hW (fun k x => shift X (k : Int) x) (shift_zero X) (shift_add X) (shift_sat X) a b

theorem shift_logical {W : Nat} (k : Nat) (x : BitVec W) : shift false (k : Int) x = x >>> k := by
  apply eq_of_bits
  intro i hi
  rw [getLsbD_shift, BitVec.getLsbD_ushiftRight, decide_eq_true hi, Nat.add_comm k i]
  split
  · rfl
  · next h => rw [BitVec.getLsbD_of_ge _ _ (by omega)]; rfl

theorem shift_arith {W : Nat} (k : Nat) (x : BitVec W) : shift (x.getLsbD (W - 1)) (k : Int) x = x.sshiftRight k := by
  apply eq_of_bits
  intro i hi
  rw [getLsbD_shift, BitVec.getLsbD_sshiftRight, decide_eq_true hi, Nat.add_comm k i, decide_eq_false (by omega : ¬ W ≤ i), BitVec.msb_eq_getLsbD_last]
  rfl

end TinyGarble.Proof.Hdl.Stdcells
