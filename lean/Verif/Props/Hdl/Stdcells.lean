import Verif.Proof.Hdl.StdcellsDiv
import Verif.Props.Hdl.Knns

/-!
# The technology mapping for yosys (C82)

The widths are those of Verilog: positive; those of shifted vectors are at most 2^30.
-/

namespace TinyGarble.Props.Hdl

open TinyGarble.Hdl TinyGarble.Spec.Hdl TinyGarble.Proof.Hdl
open TinyGarble.Hdl.Stdcells (pos)

variable {na nb : Nat} (a : BitVec na) (b : BitVec nb) (Y : Nat)

/-- C82: `$add`, with the carry `c`. -/
theorem C82_add (sa sb c : Bool) (hY : 0 < Y) : Stdcells.add sa sb a b c Y = BitVec.ofInt Y (value sa a + value sb b + (if c then 1 else 0)) := by
  rw [Stdcells.add, Stdcells.alu_y, Stdcells.pos_eq, Stdcells.pos_eq, BitVec.ofInt_add, BitVec.ofInt_add]
  congr 1
  apply BitVec.eq_of_toNat_eq
  rw [toNat_carry c (Or.inl hY)]
  cases c
  · simp
  · rw [if_pos rfl]
    show 1 = (BitVec.ofInt Y ((1 : Nat) : Int)).toNat
    rw [BitVec.ofInt_natCast, BitVec.toNat_ofNat, Nat.mod_eq_of_lt (Nat.one_lt_two_pow (by omega))]

/-- C82: `$sub`. -/
theorem C82_sub (sa sb : Bool) : Stdcells.sub sa sb a b Y = BitVec.ofInt Y (value sa a - value sb b) := by
  rw [Stdcells.sub, Stdcells.alu_sub, Stdcells.pos_eq, Stdcells.pos_eq, BitVec.sub_eq_add_neg, ← BitVec.ofInt_neg, ← BitVec.ofInt_add, Int.sub_eq_add_neg]

/-- C82: `$neg`. -/
theorem C82_neg (s : Bool) : Stdcells.neg s a Y = BitVec.ofInt Y (-value s a) := by
  rw [Stdcells.neg, C82_sub, show value s 0#1 = 0 by cases s <;> rfl, Int.zero_sub]

/-- C82: `$mul`. -/
theorem C82_mul (sa sb : Bool) (hY : 0 < Y) : Stdcells.mul sa sb a b Y = BitVec.ofInt Y (value sa a * value sb b) := by
  rw [Stdcells.mul, Stdcells.mul_eq hY, Stdcells.pos_eq, Stdcells.pos_eq, BitVec.ofInt_mul]

theorem setWidth_ofInt {W Y : Nat} (h : Y ≤ W) (z : Int) : (BitVec.ofInt W z).setWidth Y = BitVec.ofInt Y z := by
  apply BitVec.eq_of_toNat_eq
  rw [BitVec.toNat_setWidth, BitVec.toNat_ofInt, BitVec.toNat_ofInt]
  have hd : ((2 ^ Y : Nat) : Int) ∣ ((2 ^ W : Nat) : Int) := Int.natCast_dvd_natCast.2 (Nat.pow_dvd_pow 2 h)
  have h1 : 0 ≤ z % ((2 ^ W : Nat) : Int) := Int.emod_nonneg _ (by positivity)
  rw [← Int.toNat_natCast (2 ^ Y), ← Int.toNat_emod h1 (by positivity), Int.emod_emod_of_dvd _ hd, Int.toNat_natCast]

theorem truth_eq (Y : Nat) (x : Bool) (p : Prop) [Decidable p] (h : x = decide p) : (BitVec.ofBool x).setWidth Y = truth Y p := by
  unfold truth
  by_cases hp : p
  · rw [h, if_pos hp, decide_eq_true hp]
    exact BitVec.eq_of_toNat_eq (by simp)
  · rw [h, if_neg hp, decide_eq_false hp]
    exact BitVec.eq_of_toNat_eq (by simp)

theorem le_width (na nb : Nat) : na ≤ (if na > nb then na else nb) ∧ nb ≤ (if na > nb then na else nb) := by
  split <;> omega

/-- C82: `$lt`, for operands that are both signed or both unsigned. -/
theorem C82_lt (s : Bool) (ha : 0 < na) : Stdcells.lt s s a b Y = truth Y (value s a < value s b) := by
  obtain ⟨h1, h2⟩ := le_width na nb
  unfold Stdcells.lt
  dsimp only
  rw [← Stdcells.value_pos s a h1, ← Stdcells.value_pos s b h2]
  generalize pos s a _ = x
  generalize pos s b _ = y
  cases s
  · exact truth_eq Y _ _ (by rw [Stdcells.alu_ult]; exact decide_eq_decide.2 (Int.ofNat_lt).symm)
  · exact truth_eq Y _ _ (by rw [Stdcells.alu_slt (by omega)]; rfl)

/-- C82: `$le`, for operands that are both signed or both unsigned. -/
theorem C82_le (s : Bool) (ha : 0 < na) : Stdcells.le s s a b Y = truth Y (value s a ≤ value s b) := by
  obtain ⟨h1, h2⟩ := le_width na nb
  unfold Stdcells.le
  dsimp only
  rw [← Stdcells.value_pos s a h1, ← Stdcells.value_pos s b h2]
  generalize pos s a _ = x
  generalize pos s b _ = y
  rw [Stdcells.alu_zero]
  cases s
  · refine truth_eq Y _ _ ?_
    rw [Stdcells.alu_ult, ← Bool.decide_or]
    refine decide_eq_decide.2 ?_
    show _ ↔ (x.toNat : Int) ≤ (y.toNat : Int)
    omega
  · refine truth_eq Y _ _ ?_
    rw [Stdcells.alu_slt (by omega), ← Bool.decide_or]
    refine decide_eq_decide.2 ?_
    show _ ↔ x.toInt ≤ y.toInt
    rw [BitVec.toNat_inj, ← BitVec.toInt_inj]
    omega

/-- C82: `$gt`, for operands that are both signed or both unsigned. -/
theorem C82_gt (s : Bool) (hb : 0 < nb) : Stdcells.gt s s a b Y = truth Y (value s a > value s b) := C82_lt b a Y s hb

/-- C82: `$ge`, for operands that are both signed or both unsigned. -/
theorem C82_ge (s : Bool) (hb : 0 < nb) : Stdcells.ge s s a b Y = truth Y (value s a ≥ value s b) := C82_le b a Y s hb

theorem xor_zero {W : Nat} (x y : BitVec W) (s : Bool) : (x ^^^ y == 0) = decide (value s x = value s y) := by
  have h : x ^^^ y = 0 ↔ x = y := by
    constructor
    · intro h
      apply BitVec.eq_of_getLsbD_eq
      intro i hi
      have := congrArg (fun z => z.getLsbD i) h
      simp only [BitVec.getLsbD_xor] at this
      rw [show BitVec.getLsbD (0 : BitVec W) i = false from BitVec.getLsbD_zero] at this
      revert this
      cases x.getLsbD i <;> cases y.getLsbD i <;> simp
    · rintro rfl
      exact BitVec.xor_self
  rw [Bool.eq_iff_iff, beq_iff_eq, decide_eq_true_iff, h]
  cases s
  · show _ ↔ (x.toNat : Int) = (y.toNat : Int)
    rw [Int.ofNat_inj, BitVec.toNat_inj]
  · exact BitVec.toInt_inj.symm

/-- C82: `$eq` and `$eqx`, for operands that are both signed or both unsigned. -/
theorem C82_eq (s : Bool) : Stdcells.eq s s a b Y = truth Y (value s a = value s b) := by
  obtain ⟨h1, h2⟩ := le_width na nb
  unfold Stdcells.eq
  dsimp only
  refine truth_eq Y _ _ ?_
  rw [xor_zero _ _ s, Stdcells.value_pos s a h1, Stdcells.value_pos s b h2]

/-- C82: `$ne` and `$nex`, for operands that are both signed or both unsigned. -/
theorem C82_ne (s : Bool) : Stdcells.ne s s a b Y = truth Y (value s a ≠ value s b) := by
  obtain ⟨h1, h2⟩ := le_width na nb
  unfold Stdcells.ne
  dsimp only
  refine truth_eq Y _ _ ?_
  rw [bne, xor_zero _ _ s, Stdcells.value_pos s a h1, Stdcells.value_pos s b h2, ← decide_not]

/-- C82: `$shl` and `$sshl`; the second operand is unsigned. -/
theorem C82_shl (s : Bool) (hY : Y ≤ 2 ^ 30) :
    Stdcells.shl s a b Y = BitVec.ofInt Y (value s a * 2 ^ b.toNat) ∧ Stdcells.sshl s a b Y = BitVec.ofInt Y (value s a * 2 ^ b.toNat) := by
  have h : Stdcells.shl s a b Y = BitVec.ofInt Y (value s a * 2 ^ b.toNat) := by
    rw [Stdcells.shl, Stdcells.stages_left hY, Stdcells.pos_eq, BitVec.shiftLeft_eq_mul_twoPow, BitVec.ofInt_mul]
    congr 1
    apply BitVec.eq_of_toNat_eq
    rw [BitVec.toNat_twoPow, show (2 : Int) ^ b.toNat = ((2 ^ b.toNat : Nat) : Int) by push_cast; rfl, BitVec.ofInt_natCast, BitVec.toNat_ofNat]
  exact ⟨h, h⟩

/-- C82: `$shr`: the first operand is extended to at least the width of the result, by its sign if it is signed, and zeros are shifted in. -/
theorem C82_shr (s : Bool) (ha : na ≤ 2 ^ 30) (hY : Y ≤ 2 ^ 30) :
    Stdcells.shr s a b Y = BitVec.ofNat Y ((BitVec.ofInt (max na Y) (value s a)).toNat / 2 ^ b.toNat) := by
  have hm : (if na > Y then na else Y) = max na Y := by split <;> omega
  unfold Stdcells.shr
  dsimp only
  rw [Stdcells.stages_right (by split <;> omega), Stdcells.shift_logical, Stdcells.pos_eq, hm]
  apply BitVec.eq_of_toNat_eq
  rw [BitVec.toNat_setWidth, BitVec.toNat_ushiftRight, Nat.shiftRight_eq_div_pow, BitVec.toNat_ofNat]

/-- C82: `$sshr`: division by a power of two, rounded down. -/
theorem C82_sshr (s : Bool) (ha : 0 < na) (ha' : na ≤ 2 ^ 30) (hY : Y ≤ 2 ^ 30) :
    Stdcells.sshr s a b Y = BitVec.ofInt Y (value s a / 2 ^ b.toNat) := by
  have h1 : na ≤ (if na > Y then na else Y) := by split <;> omega
  have h2 : Y ≤ (if na > Y then na else Y) := by split <;> omega
  have h3 : (if na > Y then na else Y) ≤ 2 ^ 30 := by split <;> omega
  unfold Stdcells.sshr
  dsimp only
  rw [← Stdcells.value_pos s a h1]
  have hx : (s && a.getLsbD (na - 1)) = (s && (pos s a (if na > Y then na else Y)).getLsbD ((if na > Y then na else Y) - 1)) := by
    cases s
    · rfl
    · show a.getLsbD (na - 1) = (a.signExtend (if na > Y then na else Y)).getLsbD ((if na > Y then na else Y) - 1)
      rw [BitVec.getLsbD_signExtend, decide_eq_true (by omega), Bool.true_and]
      by_cases h : na > Y
      · rw [if_pos h, if_pos (by omega)]
      · rw [if_neg h]
        by_cases h' : Y - 1 < na
        · rw [if_pos h', show Y - 1 = na - 1 by omega]
        · rw [if_neg h', BitVec.msb_eq_getLsbD_last]
  rw [hx]
  generalize hW : (if na > Y then na else Y) = W at *
  generalize pos s a W = x
  rw [Stdcells.stages_right h3]
  have hset : ∀ c : BitVec W, (ofBits Y fun i => if i < W then c.getLsbD i else if s then c.getLsbD (W - 1) else false) = c.setWidth Y := by
    intro c
    apply ofBits_congr
    intro i hi
    rw [if_pos (by omega), BitVec.getLsbD_setWidth, decide_eq_true hi, Bool.true_and]
  rw [hset]
  cases s
  · rw [Bool.false_and, Stdcells.shift_logical]
    apply BitVec.eq_of_toNat_eq
    show _ = (BitVec.ofInt Y ((x.toNat : Int) / 2 ^ b.toNat)).toNat
    rw [show (x.toNat : Int) / 2 ^ b.toNat = ((x.toNat / 2 ^ b.toNat : Nat) : Int) by push_cast; rfl, BitVec.ofInt_natCast, BitVec.toNat_setWidth,
      BitVec.toNat_ushiftRight, Nat.shiftRight_eq_div_pow, BitVec.toNat_ofNat]
  · rw [Bool.true_and, Stdcells.shift_arith]
    show _ = BitVec.ofInt Y (x.toInt / 2 ^ b.toNat)
    rw [← setWidth_ofInt h2, show (2 : Int) ^ b.toNat = ((2 ^ b.toNat : Nat) : Int) by push_cast; rfl, ← Int.shiftRight_eq_div_pow, ← BitVec.toInt_sshiftRight,
      BitVec.ofInt_toInt]

theorem abs_eq {W : Nat} (s : Bool) (x : BitVec W) :
    ((if s && x.getLsbD (W - 1) then -x else x).toNat : Int) = if s && x.getLsbD (W - 1) then -value s x else value s x := by
  cases s
  · rfl
  · rw [Bool.true_and]
    show _ = if x.getLsbD (W - 1) = true then -x.toInt else x.toInt
    rw [BitVec.toInt_eq_msb_cond, BitVec.msb_eq_getLsbD_last]
    split
    · next h =>
      have hx : 0 < x.toNat := by
        rcases Nat.eq_zero_or_pos x.toNat with h0 | h0
        · rw [BitVec.getLsbD, h0, Nat.zero_testBit] at h; cases h
        · exact h0
      have := x.isLt
      rw [BitVec.toNat_neg, Nat.mod_eq_of_lt (by omega)]
      push_cast [Nat.le_of_lt this]
      ring
    · rfl

theorem value_neg {W : Nat} (x : BitVec W) : x.getLsbD (W - 1) = true ↔ value true x < 0 := by
  show _ ↔ x.toInt < 0
  rw [← BitVec.msb_eq_getLsbD_last, BitVec.msb_eq_toInt, decide_eq_true_iff]

/-- Division of absolute values, with the signs. -/
theorem tdiv_signs (x y : Int) (m n : Nat) (hx : (m : Int) = if x < 0 then -x else x) (hy : (n : Int) = if y < 0 then -y else y) :
    x.tdiv y = (if (x < 0) ↔ (y < 0) then ((m / n : Nat) : Int) else -((m / n : Nat) : Int)) ∧
    x.tmod y = (if x < 0 then -((m % n : Nat) : Int) else ((m % n : Nat) : Int)) := by
  have h1 : x = if x < 0 then -(m : Int) else (m : Int) := by split at hx <;> split <;> omega
  have h2 : y = if y < 0 then -(n : Int) else (n : Int) := by split at hy <;> split <;> omega
  by_cases hx0 : x < 0 <;> by_cases hy0 : y < 0
  all_goals
    simp only [hx0, hy0, if_true, if_false] at h1 h2
    simp only [hx0, hy0, iff_true, iff_false, not_true, if_true, if_false]
    rw [h1, h2]
    simp only [Int.neg_tdiv, Int.tdiv_neg, Int.neg_neg, Int.neg_tmod, Int.tmod_neg, Int.ofNat_tdiv, Int.ofNat_tmod, and_self]

/-- C82: `$div` and `$mod`, for operands that are both signed or both unsigned: the quotient is rounded towards zero. Division by zero is
undefined in Verilog. -/
theorem C82_div (s : Bool) (ha : 0 < na) (hb : value s b ≠ 0) :
    Stdcells.div s s a b Y = BitVec.ofInt Y ((value s a).tdiv (value s b)) ∧ Stdcells.mod s s a b Y = BitVec.ofInt Y ((value s a).tmod (value s b)) := by
  have h1 : na ≤ Stdcells.divWidth na nb Y := by unfold Stdcells.divWidth; split <;> (try split) <;> omega
  have h2 : nb ≤ Stdcells.divWidth na nb Y := by unfold Stdcells.divWidth; split <;> (try split) <;> omega
  have h3 : Y ≤ Stdcells.divWidth na nb Y := by unfold Stdcells.divWidth; split <;> (try split) <;> omega
  unfold Stdcells.div Stdcells.mod Stdcells.divMod
  dsimp only
  rw [← Stdcells.value_pos s b h2] at hb
  rw [← Stdcells.value_pos s a h1, ← Stdcells.value_pos s b h2]
  generalize Stdcells.divWidth na nb Y = W at *
  generalize pos s a W = x at *
  generalize pos s b W = y at *
  have hW : 0 < W := by omega
  have ex := abs_eq s x
  have ey := abs_eq s y
  generalize (if s && x.getLsbD (W - 1) then -x else x) = u at *
  generalize (if s && y.getLsbD (W - 1) then -y else y) = v at *
  have hneg : ∀ z : BitVec W, (s && z.getLsbD (W - 1)) = decide (value s z < 0) := by
    intro z
    cases s
    · exact (decide_eq_false (by show ¬ (z.toNat : Int) < 0; omega)).symm
    · rw [Bool.true_and, Bool.eq_iff_iff, decide_eq_true_iff]
      exact value_neg z
  rw [hneg] at ex ey
  simp only [decide_eq_true_iff] at ex ey
  have hv : 0 < v.toNat := by
    by_contra h0
    rw [show v.toNat = 0 by omega] at ey
    split at ey <;> omega
  obtain ⟨q1, q2⟩ := Stdcells.divModU_eq u v hv
  obtain ⟨t1, t2⟩ := tdiv_signs _ _ _ _ ex ey
  have hd : (s && s && x.getLsbD (W - 1) != y.getLsbD (W - 1)) = decide (¬ (value s x < 0 ↔ value s y < 0)) := by
    have hx := hneg x
    have hy := hneg y
    cases s
    · rw [Bool.false_and] at hx hy
      have hx := of_decide_eq_false hx.symm
      have hy := of_decide_eq_false hy.symm
      simp [hx, hy]
    · rw [Bool.true_and] at hx hy
      rw [hx, hy]
      by_cases p : value true x < 0 <;> by_cases q : value true y < 0 <;> simp [p, q]
  rw [t1, t2, ← setWidth_ofInt h3, ← setWidth_ofInt h3, hd, Bool.and_self, hneg, ← q1, ← q2]
  have e : ∀ z : BitVec W, BitVec.ofInt W (z.toNat : Int) = z := fun z => by rw [BitVec.ofInt_natCast, BitVec.ofNat_toNat, BitVec.setWidth_eq]
  have e' : ∀ z : BitVec W, BitVec.ofInt W (-(z.toNat : Int)) = -z := fun z => by rw [BitVec.ofInt_neg, e]
  constructor
  · by_cases p : value s x < 0 ↔ value s y < 0
    · rw [if_pos p, decide_eq_false (not_not.2 p), if_neg (by simp), e]
    · rw [if_neg p, decide_eq_true p, if_pos rfl, e']
  · by_cases p : value s x < 0
    · rw [if_pos p, decide_eq_true p, if_pos rfl, e']
    · rw [if_neg p, decide_eq_false p, if_neg (by simp), e]

/-- C82: `$pmux`: the part of `B` at the only bit of `S` that is set, or `A` if none is. -/
theorem C82_pmux {W S : Nat} (hW : 0 < W) (a : BitVec W) (b : BitVec (W * S)) (s : BitVec S) :
    (∀ k < S, (∀ j < S, s.getLsbD j = decide (j = k)) → Stdcells.pmux a b s = part W b k) ∧ Stdcells.pmux a b 0 = a := by
  refine ⟨fun k hk hs => ?_, Stdcells.pmux_none a b⟩
  have hne : (s != 0) = true := by
    rw [bne_iff_ne]
    rintro rfl
    have := hs k hk
    rw [decide_eq_true rfl, show BitVec.getLsbD (0 : BitVec S) k = false from BitVec.getLsbD_zero] at this
    cases this
  unfold Stdcells.pmux
  dsimp only
  rw [if_pos hne]
  apply ofBits_congr
  intro i hi
  have hdiv : ∀ j, (W * j + i) / W = j := fun j => by rw [Nat.mul_add_div hW, Nat.div_eq_of_lt hi, Nat.add_zero]
  rw [show (part W b k).getLsbD i = b.getLsbD (W * k + i) by
      rw [part, BitVec.getLsbD_ofNat, decide_eq_true hi, Bool.true_and, Nat.testBit_div_two_pow, BitVec.getLsbD, Nat.add_comm], Bool.eq_iff_iff, List.any_eq_true]
  constructor
  · rintro ⟨j, hj, h⟩
    rw [hdiv, hs j (List.mem_range.1 hj), Bool.and_eq_true, decide_eq_true_iff] at h
    rw [← h.2]
    exact h.1
  · intro h
    refine ⟨k, List.mem_range.2 hk, ?_⟩
    rw [hdiv, hs k hk, decide_eq_true rfl, Bool.and_true]
    exact h

/-- C82: `$safe_pmux`: the part of `B` at the only bit of `S` that is set, or `A` if none or more than one is. -/
theorem C82_safe_pmux {W S : Nat} (hW : 0 < W) (a : BitVec W) (b : BitVec (W * S)) (s : BitVec S) :
    (∀ k < S, (∀ j < S, s.getLsbD j = decide (j = k)) → Stdcells.safePmux a b s = part W b k) ∧
    ((¬ ∃ k < S, ∀ j < S, s.getLsbD j = decide (j = k)) → Stdcells.safePmux a b s = a) := by
  have hany : (List.range S).any (fun i => (match i with | 0 => false | i + 1 => Stdcells.foundFirst s i) && s.getLsbD i) = true ↔
      ∃ i < S, ∃ j < i, s.getLsbD i = true ∧ s.getLsbD j = true := by
    rw [List.any_eq_true]
    constructor
    · rintro ⟨i, hi, h⟩
      rw [Bool.and_eq_true] at h
      cases i with
      | zero => exact absurd h.1 (by simp)
      | succ i =>
        obtain ⟨j, hj, h'⟩ := (Stdcells.foundFirst_eq s i).1 h.1
        exact ⟨i + 1, List.mem_range.1 hi, j, by omega, h.2, h'⟩
    · rintro ⟨i, hi, j, hj, h1, h2⟩
      refine ⟨i, List.mem_range.2 hi, ?_⟩
      rw [Bool.and_eq_true]
      cases i with
      | zero => omega
      | succ i => exact ⟨(Stdcells.foundFirst_eq s i).2 ⟨j, by omega, h2⟩, h1⟩
  unfold Stdcells.safePmux
  dsimp only
  refine ⟨fun k hk hs => ?_, fun hs => ?_⟩
  · rw [if_neg]
    · exact (C82_pmux hW a b s).1 k hk hs
    · intro h
      obtain ⟨i, hi, j, hj, h1, h2⟩ := hany.1 h
      rw [hs i hi, decide_eq_true_iff] at h1
      rw [hs j (by omega), decide_eq_true_iff] at h2
      omega
  · split
    · exact Stdcells.pmux_none a b
    · next h =>
      have h : ¬ _ := fun h' => h (hany.2 h')
      have hz : s = 0 := by
        apply BitVec.eq_of_getLsbD_eq
        intro i hi
        rw [show BitVec.getLsbD (0 : BitVec S) i = false from BitVec.getLsbD_zero]
        by_contra hc
        have hc : s.getLsbD i = true := by simpa using hc
        refine hs ⟨i, hi, fun j hj => ?_⟩
        by_cases hji : j = i
        · rw [hji, hc, decide_eq_true rfl]
        · rw [decide_eq_false hji]
          by_contra hd
          have hd : s.getLsbD j = true := by simpa using hd
          rcases Nat.lt_or_gt_of_ne hji with hl | hl
          · exact h ⟨i, hi, j, hl, hc, hd⟩
          · exact h ⟨j, hj, i, hl, hd, hc⟩
      rw [hz]
      exact Stdcells.pmux_none a b

/-- An example: −7 divided by 2, as numbers of 4 and 3 bits: quotient −3, remainder −1; −8 shifted by 9 is −1. -/
example : Stdcells.div true true 9#4 2#3 5 = 29#5 ∧ Stdcells.mod true true 9#4 2#3 5 = 31#5 ∧ Stdcells.sshr true 8#4 9#4 6 = 63#6 ∧
    value true 2#3 ≠ 0 ∧ Stdcells.safePmux 1#2 0x1b#8 0b0100#4 = 1#2 ∧ Stdcells.safePmux 1#2 0x1b#8 0b0101#4 = 1#2 := by decide +kernel

end TinyGarble.Props.Hdl
