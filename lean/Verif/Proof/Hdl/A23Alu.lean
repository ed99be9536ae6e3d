import Verif.Model.Hdl.A23
import Verif.Spec.Arm
import Verif.Proof.Hdl.Mips

/-!
# Shifter and ALU of the ARM processor
-/

namespace TinyGarble.Proof.Hdl.A23

open TinyGarble.Hdl TinyGarble.Proof.Hdl TinyGarble.Hdl.A23
open TinyGarble.Spec.Mips (Fits)
open TinyGarble.Spec.Arm (Op Shift sum diff)
open TinyGarble.Proof.Hdl.Mips (toInt_32 getLsbD_31)

theorem bits_eq (x : BitVec 32) (i w : Nat) : TinyGarble.Spec.Mips.bits x i w = slice x i w := by
  apply BitVec.eq_of_toNat_eq
  rw [TinyGarble.Spec.Mips.bits, slice, BitVec.toNat_ofNat, BitVec.extractLsb'_toNat, Nat.shiftRight_eq_div_pow]

theorem bit_eq (x : BitVec 32) (i : Nat) : TinyGarble.Spec.Arm.bit x i = x.getLsbD i := by
  rw [TinyGarble.Spec.Arm.bit, BitVec.getLsbD, Nat.testBit_eq_decide_div_mod_eq]

theorem getLsbD_slice {n : Nat} (x : BitVec n) (i w k : Nat) : (slice x i w).getLsbD k = (decide (k < w) && x.getLsbD (i + k)) := by
  rw [slice, BitVec.getLsbD_extractLsb']

theorem toNat_slice {n : Nat} (x : BitVec n) (i w : Nat) : (slice x i w).toNat = x.toNat / 2 ^ i % 2 ^ w := by
  rw [slice, BitVec.extractLsb'_toNat, Nat.shiftRight_eq_div_pow]

/-- What the shifter has after it has shifted by `acc`: bit `k` is `f acc k`, the carry is `g acc`. -/
def Inv (f : Nat → Nat → Bool) (c0 : Bool) (g : Nat → Bool) (t : BitVec 33) (acc : Nat) : Prop :=
  (∀ k < 32, t.getLsbD k = f acc k) ∧ t.getLsbD 32 = if acc = 0 then c0 else g acc

theorem toNat_5 (shift : BitVec 5) : shift.toNat = 0 + 2 ^ 4 * (shift.getLsbD 4).toNat + 2 ^ 3 * (shift.getLsbD 3).toNat
    + 2 ^ 2 * (shift.getLsbD 2).toNat + 2 ^ 1 * (shift.getLsbD 1).toNat + 2 ^ 0 * (shift.getLsbD 0).toNat := by
  revert shift; decide

theorem inv_fold {f : Nat → Nat → Bool} {c0 : Bool} {g : Nat → Bool} (stp : BitVec 33 → Nat → BitVec 33) (shift : BitVec 5) (t : BitVec 33)
    (h0 : Inv f c0 g t 0)
    (h : ∀ t acc i, i < 5 → acc + 2 ^ i ≤ 32 → Inv f c0 g t acc → Inv f c0 g (stp t i) (acc + 2 ^ i)) :
    Inv f c0 g ([4, 3, 2, 1, 0].foldl (fun (t : BitVec 33) i => if shift.getLsbD i then stp t i else t) t) shift.toNat := by
  have one : ∀ t acc i, i < 5 → acc + 2 ^ i ≤ 32 → Inv f c0 g t acc →
      Inv f c0 g (if shift.getLsbD i then stp t i else t) (acc + 2 ^ i * (shift.getLsbD i).toNat) := by
    intro t acc i hi ha hI
    cases hb : shift.getLsbD i with
    | false => simpa using hI
    | true => simpa using h t acc i hi ha hI
  have hs : shift.toNat = 0 + 2 ^ 4 * (shift.getLsbD 4).toNat + 2 ^ 3 * (shift.getLsbD 3).toNat + 2 ^ 2 * (shift.getLsbD 2).toNat
      + 2 ^ 1 * (shift.getLsbD 1).toNat + 2 ^ 0 * (shift.getLsbD 0).toNat := by
    exact toNat_5 shift
  have le : ∀ b : Bool, b.toNat ≤ 1 := by decide
  have l4 := le (shift.getLsbD 4)
  have l3 := le (shift.getLsbD 3)
  have l2 := le (shift.getLsbD 2)
  have l1 := le (shift.getLsbD 1)
  rw [hs]
  exact one _ _ 0 (by decide) (by omega) (one _ _ 1 (by decide) (by omega) (one _ _ 2 (by decide) (by omega) (one _ _ 3 (by decide) (by omega)
    (one _ _ 4 (by decide) (by omega) h0))))

theorem pow_pos2 (i : Nat) : 0 < 2 ^ i := Nat.pow_pos (by decide)

theorem lsl_inv (x : BitVec 32) (shift : BitVec 5) :
    Inv (fun n k => if k < n then false else x.getLsbD (k - n)) (x.getLsbD 31) (fun n => x.getLsbD (32 - n)) (lslStruct x shift) shift.toNat := by
  unfold lslStruct
  refine inv_fold (fun t i => ofBits 33 fun k => if k = 32 then t.getLsbD (32 - 2 ^ i) else if k < 2 ^ i then false else t.getLsbD (k - 2 ^ i)) shift _ ⟨fun k hk => ?_, ?_⟩ ?_
  · rw [BitVec.getLsbD_cons, if_neg (by omega)]; simp [hk]
  · rw [BitVec.getLsbD_cons]; simp
  · rintro t acc i hi ha ⟨h1, h2⟩
    have hp := pow_pos2 i
    refine ⟨fun k hk => ?_, ?_⟩
    · rw [getLsbD_ofBits, if_neg (by omega), decide_eq_true (by omega), Bool.true_and]
      show _ = if k < acc + 2 ^ i then false else x.getLsbD (k - (acc + 2 ^ i))
      by_cases h : k < 2 ^ i
      · rw [if_pos h, if_pos (by omega)]
      · rw [if_neg h, h1 _ (by omega)]
        show (if k - 2 ^ i < acc then false else x.getLsbD (k - 2 ^ i - acc)) = _
        by_cases h' : k < acc + 2 ^ i
        · rw [if_pos h', if_pos (by omega)]
        · rw [if_neg h', if_neg (by omega)]; congr 1; omega
    · rw [getLsbD_ofBits, if_pos rfl, h1 _ (by omega), if_neg (by omega)]
      show (decide (32 < 33) && if 32 - 2 ^ i < acc then false else x.getLsbD (32 - 2 ^ i - acc)) = x.getLsbD (32 - (acc + 2 ^ i))
      rw [if_neg (by omega)]
      rw [decide_eq_true (by decide), Bool.true_and]; congr 1; omega

theorem sr_inv (sign : Bool) (x : BitVec 32) (shift : BitVec 5) :
    Inv (fun n k => if k + n < 32 then x.getLsbD (k + n) else sign) (x.getLsbD 0) (fun n => x.getLsbD (n - 1)) (srStruct sign x shift) shift.toNat := by
  unfold srStruct
  refine inv_fold (fun t i => ofBits 33 fun k => if k = 32 then t.getLsbD (2 ^ i - 1) else if k < 32 - 2 ^ i then t.getLsbD (k + 2 ^ i) else sign) shift _ ⟨fun k hk => ?_, ?_⟩ ?_
  · rw [BitVec.getLsbD_cons, if_neg (by omega)]; simp [hk]
  · rw [BitVec.getLsbD_cons]; simp
  · rintro t acc i hi ha ⟨h1, h2⟩
    have hp := pow_pos2 i
    refine ⟨fun k hk => ?_, ?_⟩
    · rw [getLsbD_ofBits, if_neg (by omega), decide_eq_true (by omega), Bool.true_and]
      show _ = if k + (acc + 2 ^ i) < 32 then x.getLsbD (k + (acc + 2 ^ i)) else sign
      by_cases h : k < 32 - 2 ^ i
      · rw [if_pos h, h1 _ (by omega)]
        show (if k + 2 ^ i + acc < 32 then x.getLsbD (k + 2 ^ i + acc) else sign) = _
        rw [show k + 2 ^ i + acc = k + (acc + 2 ^ i) by omega]
      · rw [if_neg h, if_neg (by omega)]
    · rw [getLsbD_ofBits, if_pos rfl, h1 _ (by omega), if_neg (by omega)]
      show (decide (32 < 33) && if 2 ^ i - 1 + acc < 32 then x.getLsbD (2 ^ i - 1 + acc) else sign) = x.getLsbD (acc + 2 ^ i - 1)
      rw [if_pos (by omega)]
      rw [decide_eq_true (by decide), Bool.true_and]; congr 1; omega

theorem ror_inv (x : BitVec 32) (shift : BitVec 5) :
    Inv (fun n k => x.getLsbD ((k + n) % 32)) (x.getLsbD 31) (fun n => x.getLsbD (n - 1)) (rorStruct x shift) shift.toNat := by
  unfold rorStruct
  refine inv_fold (fun t i => ofBits 33 fun k => if k = 32 then t.getLsbD (2 ^ i - 1) else if k < 32 - 2 ^ i then t.getLsbD (k + 2 ^ i) else t.getLsbD (k - (32 - 2 ^ i))) shift _ ⟨fun k hk => ?_, ?_⟩ ?_
  · rw [BitVec.getLsbD_cons]; simp [show k ≠ 32 by omega, Nat.mod_eq_of_lt hk]
  · rw [BitVec.getLsbD_cons]; simp
  · rintro t acc i hi ha ⟨h1, h2⟩
    have hp := pow_pos2 i
    refine ⟨fun k hk => ?_, ?_⟩
    · rw [getLsbD_ofBits, if_neg (by omega), decide_eq_true (by omega), Bool.true_and]
      show _ = x.getLsbD ((k + (acc + 2 ^ i)) % 32)
      by_cases h : k < 32 - 2 ^ i
      · rw [if_pos h, h1 _ (by omega)]
        show x.getLsbD ((k + 2 ^ i + acc) % 32) = _
        rw [show k + 2 ^ i + acc = k + (acc + 2 ^ i) by omega]
      · rw [if_neg h, h1 _ (by omega)]
        show x.getLsbD ((k - (32 - 2 ^ i) + acc) % 32) = _
        congr 1
        rw [show k + (acc + 2 ^ i) = (k - (32 - 2 ^ i) + acc) + 32 by omega, Nat.add_mod_right]
    · rw [getLsbD_ofBits, if_pos rfl, h1 _ (by omega), if_neg (by omega)]
      show (decide (32 < 33) && x.getLsbD ((2 ^ i - 1 + acc) % 32)) = x.getLsbD (acc + 2 ^ i - 1)
      rw [Nat.mod_eq_of_lt (by omega)]
      rw [decide_eq_true (by decide), Bool.true_and]; congr 1; omega

/-- The code of a kind of shift. -/
def code : Shift → BitVec 2
  | .lsl => 0
  | .lsr => 1
  | .asr => 2
  | .ror => 3

theorem ofCode_code (f : BitVec 2) : code (Shift.ofCode f.toNat) = f := by revert f; decide

/-- The shifter when the lower five bits of the amount are not 0. -/
theorem barrelShift_pos (k : Shift) (x : BitVec 32) (c : Bool) (amount : BitVec 8) (h : amount.toNat % 32 ≠ 0) :
    barrelShift x c amount (code k) = k.by x (amount.toNat % 32) := by
  have hn : (slice amount 0 5).toNat = amount.toNat % 32 := by rw [toNat_slice]; simp
  have h0 : amount ≠ 0 := by rintro rfl; exact h rfl
  have hlt : amount.toNat % 32 < 32 := Nat.mod_lt _ (by decide)
  cases k with
  | lsl =>
    obtain ⟨h1, h2⟩ := lsl_inv x (slice amount 0 5)
    rw [hn] at h1 h2
    rw [if_neg h] at h2
    dsimp only at h1 h2
    refine Prod.ext ?_ ?_
    · show slice (lslStruct x (slice amount 0 5)) 0 32 = x <<< (amount.toNat % 32)
      apply eq_of_bits
      intro i hi
      rw [getLsbD_slice, Nat.zero_add, h1 i hi, decide_eq_true hi, Bool.true_and, BitVec.getLsbD_shiftLeft]
      by_cases h : i < amount.toNat % 32 <;> simp [h, hi]
    · show (if amount = 0 then c else (lslStruct x (slice amount 0 5)).getLsbD 32) = TinyGarble.Spec.Arm.bit x (32 - amount.toNat % 32)
      rw [if_neg h0, h2, bit_eq]
  | lsr =>
    obtain ⟨h1, h2⟩ := sr_inv false x (slice amount 0 5)
    rw [hn] at h1 h2
    rw [if_neg h] at h2
    dsimp only at h1 h2
    refine Prod.ext ?_ ?_
    · show slice (srStruct false x (slice amount 0 5)) 0 32 = x >>> (amount.toNat % 32)
      apply eq_of_bits
      intro i hi
      rw [getLsbD_slice, Nat.zero_add, h1 i hi, decide_eq_true hi, Bool.true_and, BitVec.getLsbD_ushiftRight]
      by_cases h : i + amount.toNat % 32 < 32
      · rw [if_pos h, Nat.add_comm]
      · rw [if_neg h, BitVec.getLsbD_of_ge _ _ (by omega)]
    · show (if amount = 0 then c else (srStruct false x (slice amount 0 5)).getLsbD 32) = TinyGarble.Spec.Arm.bit x (amount.toNat % 32 - 1)
      rw [if_neg h0, h2, bit_eq]
  | asr =>
    obtain ⟨h1, h2⟩ := sr_inv (x.getLsbD 31) x (slice amount 0 5)
    rw [hn] at h1 h2
    rw [if_neg h] at h2
    dsimp only at h1 h2
    refine Prod.ext ?_ ?_
    · show slice (srStruct (x.getLsbD 31) x (slice amount 0 5)) 0 32 = x.sshiftRight (amount.toNat % 32)
      apply eq_of_bits
      intro i hi
      rw [getLsbD_slice, Nat.zero_add, h1 i hi, decide_eq_true hi, Bool.true_and, BitVec.getLsbD_sshiftRight]
      by_cases h : i + amount.toNat % 32 < 32
      · rw [if_pos h, Nat.add_comm, if_pos (by omega)]; simp; omega
      · rw [if_neg h, if_neg (by omega)]; simp [BitVec.msb_eq_getLsbD_last]; omega
    · show (if amount = 0 then c else (srStruct (x.getLsbD 31) x (slice amount 0 5)).getLsbD 32) = TinyGarble.Spec.Arm.bit x (amount.toNat % 32 - 1)
      rw [if_neg h0, h2, bit_eq]
  | ror =>
    obtain ⟨h1, h2⟩ := ror_inv x (slice amount 0 5)
    rw [hn] at h1 h2
    rw [if_neg h] at h2
    dsimp only at h1 h2
    refine Prod.ext ?_ ?_
    · show slice (rorStruct x (slice amount 0 5)) 0 32 = x.rotateRight (amount.toNat % 32)
      apply eq_of_bits
      intro i hi
      rw [getLsbD_slice, Nat.zero_add, h1 i hi, decide_eq_true hi, Bool.true_and, BitVec.getLsbD_rotateRight]
      rw [Nat.mod_eq_of_lt hlt]
      by_cases h : i < 32 - amount.toNat % 32
      · simp only [h, decide_true, cond_true]; congr 1; omega
      · simp only [h, decide_false, cond_false, hi, decide_true, Bool.true_and]; congr 1; omega
    · show (if amount = 0 then c else (rorStruct x (slice amount 0 5)).getLsbD 32) = TinyGarble.Spec.Arm.bit x (amount.toNat % 32 - 1)
      rw [if_neg h0, h2, bit_eq]

/-- The shifter when the lower five bits of the amount are 0. -/
theorem barrelShift_low (f : BitVec 2) (x : BitVec 32) (c : Bool) (amount : BitVec 8) (h : amount.toNat % 32 = 0) :
    (barrelShift x c amount f).1 = x := by
  have hn : (slice amount 0 5).toNat = 0 := by rw [toNat_slice]; simpa using h
  apply eq_of_bits
  intro i hi
  have hf : f.toNat = 0 ∨ f.toNat = 1 ∨ f.toNat = 2 ∨ f.toNat = 3 := by have := f.isLt; omega
  unfold barrelShift
  rcases hf with h | h | h | h <;> rw [h] <;> rw [getLsbD_slice, Nat.zero_add, decide_eq_true hi, Bool.true_and]
  · show (lslStruct _ _).getLsbD i = _
    rw [(lsl_inv x (slice amount 0 5)).1 i hi, hn]; simp
  · show (srStruct _ _ _).getLsbD i = _
    rw [(sr_inv _ x (slice amount 0 5)).1 i hi, hn]; simp [hi]
  · show (srStruct _ _ _).getLsbD i = _
    rw [(sr_inv _ x (slice amount 0 5)).1 i hi, hn]; simp [hi]
  · show (rorStruct _ _).getLsbD i = _
    rw [(ror_inv x (slice amount 0 5)).1 i hi, hn]; simp [Nat.mod_eq_of_lt hi]

theorem barrelShift_zero (f : BitVec 2) (x : BitVec 32) (c : Bool) : barrelShift x c 0 f = (x, c) :=
  Prod.ext (barrelShift_low f x c 0 rfl) rfl

/-- Rotation by a multiple of 32. -/
theorem barrelShift_ror (x : BitVec 32) (c : Bool) (amount : BitVec 8) (h0 : amount ≠ 0) (h : amount.toNat % 32 = 0) :
    barrelShift x c amount 3 = (Shift.ror).by x 32 := by
  refine Prod.ext ?_ ?_
  · rw [barrelShift_low _ _ _ _ h]
    show x = x.rotateRight 32
    apply eq_of_bits
    intro i hi
    rw [BitVec.getLsbD_rotateRight]
    simp [hi]
  · obtain ⟨h1, h2⟩ := ror_inv x (slice amount 0 5)
    have hn : (slice amount 0 5).toNat = 0 := by rw [toNat_slice]; simpa using h
    rw [hn, if_pos rfl] at h2
    show (if amount = 0 then c else (rorStruct x (slice amount 0 5)).getLsbD 32) = TinyGarble.Spec.Arm.bit x 31
    rw [if_neg h0, h2, bit_eq]

/-! ## Adder -/

theorem fadder_toNat (a b : BitVec 32) (k : Bool) :
    (BitVec.cons false a + BitVec.cons false b + (0#32 ++ BitVec.ofBool k) : BitVec 33).toNat = a.toNat + b.toNat + k.toNat := by
  have ha := a.isLt
  have hb := b.isLt
  have hk : (0#32 ++ BitVec.ofBool k : BitVec 33).toNat = k.toNat := by cases k <;> rfl
  have hl : k.toNat ≤ 1 := by cases k <;> decide
  rw [BitVec.toNat_add, BitVec.toNat_add, hk, BitVec.toNat_cons, BitVec.toNat_cons]
  simp
  omega

theorem slice_fadder {t : BitVec 33} {n : Nat} (h : t.toNat = n) : slice t 0 32 = BitVec.ofNat 32 n := by
  apply BitVec.eq_of_toNat_eq
  rw [toNat_slice, h, BitVec.toNat_ofNat]
  simp

theorem bit32_fadder {t : BitVec 33} {n : Nat} (h : t.toNat = n) : t.getLsbD 32 = decide (2 ^ 32 ≤ n) := by
  have := t.isLt
  rw [BitVec.getLsbD, Nat.testBit_eq_decide_div_mod_eq, h]
  rw [h] at this
  congr 1
  apply propext
  constructor <;> intro h <;> omega

theorem bit31_fadder (t : BitVec 33) : t.getLsbD 31 = (slice t 0 32).getLsbD 31 := by
  rw [getLsbD_slice]; rfl

theorem overflow_sum (a b : BitVec 32) (k : Bool) :
    ((!a.getLsbD 31 && !b.getLsbD 31 && (BitVec.ofNat 32 (a.toNat + b.toNat + k.toNat)).getLsbD 31) ||
      (a.getLsbD 31 && b.getLsbD 31 && !(BitVec.ofNat 32 (a.toNat + b.toNat + k.toNat)).getLsbD 31)) =
    decide (¬ Fits (a.toInt + b.toInt + k.toNat)) := by
  have ha := a.isLt
  have hb := b.isLt
  have hk : k.toNat ≤ 1 := by cases k <;> decide
  rw [getLsbD_31, getLsbD_31, getLsbD_31, toInt_32, toInt_32, BitVec.toNat_ofNat]
  rw [Bool.eq_iff_iff]
  simp only [Bool.or_eq_true, Bool.and_eq_true, Bool.not_eq_true', decide_eq_true_eq, decide_eq_false_iff_not]
  unfold Fits
  split <;> split <;> omega

theorem diff_eq (a b : BitVec 32) (k : Bool) : diff a b k = sum a (~~~b) k := by
  have ha := a.isLt
  have hb := b.isLt
  have hn : (~~~b).toNat = 2 ^ 32 - 1 - b.toNat := BitVec.toNat_not
  have hv : a - b - BitVec.ofNat 32 (!k).toNat = BitVec.ofNat 32 (a.toNat + (~~~b).toNat + k.toNat) := by
    apply BitVec.eq_of_toNat_eq
    rw [BitVec.toNat_sub, BitVec.toNat_sub, hn, BitVec.toNat_ofNat, BitVec.toNat_ofNat]
    cases k <;> simp <;> omega
  have hc : decide (b.toNat + (!k).toNat ≤ a.toNat) = decide (2 ^ 32 ≤ a.toNat + (~~~b).toNat + k.toNat) := by
    congr 1
    apply propext
    rw [hn]
    cases k <;> simp <;> omega
  have hi : a.toInt - b.toInt - (!k).toNat = a.toInt + (~~~b).toInt + k.toNat := by
    rw [toInt_32 b, toInt_32 (~~~b), hn]
    cases k <;> simp <;> split <;> split <;> omega
  rw [diff, TinyGarble.Spec.Arm.sum, hv, hc, hi]

/-- The flags as in the specification. -/
def absF (f : Flags) : TinyGarble.Spec.Arm.Flags := ⟨f.n, f.z, f.c, f.v⟩

/-- The adder of the ALU without carry from the flags. -/
theorem alu_sum (a b : BitVec 32) (bc sc : Bool) (notSel : Bool) (cin : Nat) (h : cin ≠ 2) :
    let r := alu a b bc sc false notSel cin false 1
    (r.1, absF r.2) = sum a (if notSel then ~~~b else b) (if cin = 0 then false else if cin = 1 then true else sc) := by
  intro r
  have hf := fadder_toNat a (if notSel then ~~~b else b) (if cin = 0 then false else if cin = 1 then true else sc)
  obtain ⟨t, ht⟩ : ∃ t, t = (BitVec.cons false a + BitVec.cons false (if notSel then ~~~b else b)
    + (0#32 ++ BitVec.ofBool (if cin = 0 then false else if cin = 1 then true else sc)) : BitVec 33) := ⟨_, rfl⟩
  rw [← ht] at hf
  have hc : ((1 : Nat) == 1 && cin == 2) = false := by rw [Bool.and_eq_false_iff]; exact Or.inr (beq_eq_false_iff_ne.2 h)
  have h1 : r.1 = slice t 0 32 := by rw [ht]; rfl
  have h2 : r.2 = ⟨(slice t 0 32).getLsbD 31, slice t 0 32 == 0, t.getLsbD 32, 1 == 1 && ((!a.getLsbD 31 && !(if notSel then ~~~b else b).getLsbD 31 && t.getLsbD 31)
      || (a.getLsbD 31 && (if notSel then ~~~b else b).getLsbD 31 && !t.getLsbD 31))⟩ := by
    rw [ht]
    refine Eq.trans (b := if ((1 : Nat) == 1 && cin == 2) = true then _ else _) rfl ?_
    rw [hc]
    rfl
  rw [h1, h2]
  refine Prod.ext (slice_fadder hf) ?_
  show TinyGarble.Spec.Arm.Flags.mk _ _ _ (true && _) = _
  rw [bit31_fadder, slice_fadder hf, bit32_fadder hf, Bool.true_and, overflow_sum, ← bit_eq]
  refine congrArg (fun z => TinyGarble.Spec.Arm.Flags.mk _ z _ _) ?_
  rw [Bool.eq_iff_iff]; simp

/-- The adder of the ALU, the result only. -/
theorem alu_value (a b : BitVec 32) (bc sc : Bool) (notSel : Bool) (cin : Nat) (cout : Bool) :
    (alu a b bc sc false notSel cin cout 1).1 = (sum a (if notSel then ~~~b else b) (if cin = 0 then false else if cin = 1 then true else sc)).1 :=
  slice_fadder (fadder_toNat _ _ _)

theorem alu_swap (a b : BitVec 32) (bc sc notSel : Bool) (cin : Nat) (cout : Bool) (out : Nat) :
    alu a b bc sc true notSel cin cout out = alu b a bc sc false notSel cin cout out := rfl

end TinyGarble.Proof.Hdl.A23
