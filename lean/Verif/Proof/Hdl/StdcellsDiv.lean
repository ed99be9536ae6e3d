import Verif.Proof.Hdl.Stdcells
import Mathlib.Tactic.Linarith

/-!
# Lemmas about the technology mapping: products, quotients, choices
-/

namespace TinyGarble.Proof.Hdl.Stdcells

open TinyGarble.Hdl TinyGarble.Hdl.Stdcells TinyGarble.Spec.Hdl TinyGarble.Proof.Hdl

theorem partials_eq {W : Nat} (a b : BitVec W) (i : Nat) : partials a b i = BitVec.ofNat W (a.toNat % 2 ^ (i + 1)) * b := by
  induction i with
  | zero =>
    rw [partials, BitVec.getLsbD, Nat.testBit_eq_decide_div_mod_eq, Nat.pow_zero, Nat.div_one, Nat.pow_one]
    rcases Nat.mod_two_eq_zero_or_one a.toNat with h | h
    · rw [h, if_neg (by simp)]
      exact (BitVec.zero_mul).symm
    · rw [h, if_pos (by simp)]
      exact (BitVec.one_mul b).symm
  | succ i ih =>
    rw [partials, ih, Nat.mod_pow_succ (k := i + 1), BitVec.getLsbD, Nat.testBit_eq_decide_div_mod_eq, BitVec.ofNat_add, BitVec.add_mul, BitVec.add_comm]
    congr 1
    rcases Nat.mod_two_eq_zero_or_one (a.toNat / 2 ^ (i + 1)) with h | h
    · rw [h, if_neg (by simp), Nat.mul_zero]
      exact (BitVec.zero_mul).symm
    · rw [h, if_pos (by simp), Nat.mul_one, BitVec.shiftLeft_eq_mul_twoPow, BitVec.mul_comm]
      congr 1
      apply BitVec.eq_of_toNat_eq
      rw [BitVec.toNat_twoPow, BitVec.toNat_ofNat]

theorem mul_eq {W : Nat} (hW : 0 < W) (a b : BitVec W) : partials a b (W - 1) = a * b := by
  rw [partials_eq, show W - 1 + 1 = W by omega, Nat.mod_eq_of_lt a.isLt, BitVec.ofNat_toNat, BitVec.setWidth_eq]

/-! ## Division -/

theorem divStage_eq {W : Nat} (b : BitVec W) (k : Nat) (x : BitVec W) :
    (divStage b k x).1 = decide (b.toNat * 2 ^ k ≤ x.toNat) ∧
    (divStage b k x).2.toNat = if b.toNat * 2 ^ k ≤ x.toNat then x.toNat - b.toNat * 2 ^ k else x.toNat := by
  have hd : (b ++ 0#k).toNat = b.toNat * 2 ^ k := by
    rw [BitVec.toNat_append, BitVec.toNat_ofNat, Nat.zero_mod, Nat.or_zero, Nat.shiftLeft_eq]
  unfold divStage
  simp only [hd]
  refine ⟨trivial, ?_⟩
  by_cases h : b.toNat * 2 ^ k ≤ x.toNat
  · rw [decide_eq_true h, if_pos rfl, if_pos h, BitVec.toNat_setWidth, BitVec.toNat_sub, hd, BitVec.toNat_setWidth]
    have hx := x.isLt
    have hp : 2 ^ W ≤ 2 ^ (W + k) := Nat.pow_le_pow_right (by omega) (by omega)
    rw [Nat.mod_eq_of_lt (a := x.toNat) (by omega), show 2 ^ (W + k) - b.toNat * 2 ^ k + x.toNat = (x.toNat - b.toNat * 2 ^ k) + 2 ^ (W + k) by omega,
      Nat.add_mod_right, Nat.mod_eq_of_lt (b := 2 ^ (W + k)) (by omega), Nat.mod_eq_of_lt (by omega)]
  · rw [decide_eq_false h, if_neg (by simp), if_neg h]

theorem divChain_spec {W : Nat} (a b : BitVec W) (hb : 0 < b.toNat) (i : Nat) (hi : i ≤ W) :
    (divChain a b i).toNat < b.toNat * 2 ^ (W - i) ∧
    a.toNat = b.toNat * ((divModU a b).1.toNat / 2 ^ (W - i) * 2 ^ (W - i)) + (divChain a b i).toNat := by
  induction i with
  | zero =>
    refine ⟨?_, ?_⟩
    · show a.toNat < _
      calc a.toNat < 2 ^ W := a.isLt
        _ ≤ b.toNat * 2 ^ W := Nat.le_mul_of_pos_left _ hb
    · rw [Nat.sub_zero, Nat.div_eq_of_lt (divModU a b).1.isLt]
      simp [divChain]
  | succ i ih =>
    obtain ⟨h1, h2⟩ := ih (by omega)
    obtain ⟨e1, e2⟩ := divStage_eq b (W - (i + 1)) (divChain a b i)
    have hy : (divModU a b).1.getLsbD (W - (i + 1)) = decide (b.toNat * 2 ^ (W - (i + 1)) ≤ (divChain a b i).toNat) := by
      unfold divModU
      rw [getLsbD_ofBits, decide_eq_true (by omega), Bool.true_and, show W - (W - (i + 1) + 1) = i by omega, e1]
    rw [BitVec.getLsbD, Nat.testBit_eq_decide_div_mod_eq] at hy
    have hp : 2 ^ (W - i) = 2 * 2 ^ (W - (i + 1)) := by rw [show W - i = W - (i + 1) + 1 by omega, Nat.pow_succ, Nat.mul_comm]
    have hc : (divChain a b (i + 1)).toNat = _ := e2
    rw [hc]
    generalize (divChain a b i).toNat = x at *
    generalize hq : (divModU a b).1.toNat / 2 ^ (W - (i + 1)) = q at *
    have hq2 : (divModU a b).1.toNat / 2 ^ (W - i) = q / 2 := by rw [hp, Nat.mul_comm 2, ← Nat.div_div_eq_div_mul, hq]
    rw [hq2] at h2
    rw [hp] at h1 h2
    generalize 2 ^ (W - (i + 1)) = p at *
    have hq3 : q = 2 * (q / 2) + q % 2 := by omega
    generalize b.toNat = B at *
    by_cases h : B * p ≤ x
    · rw [decide_eq_true h, decide_eq_true_iff] at hy
      rw [if_pos h]
      refine ⟨?_, ?_⟩
      · have : B * (2 * p) = B * p + B * p := by ring
        omega
      · rw [h2]
        conv_rhs => rw [hq3, hy]
        have : B * ((2 * (q / 2) + 1) * p) = B * (q / 2 * (2 * p)) + B * p := by ring
        omega
    · rw [decide_eq_false h, decide_eq_false_iff_not] at hy
      rw [if_neg h]
      refine ⟨by omega, ?_⟩
      rw [h2]
      conv_rhs => rw [hq3, show q % 2 = 0 by omega]
      have : B * ((2 * (q / 2) + 0) * p) = B * (q / 2 * (2 * p)) := by ring
      omega

theorem divModU_eq {W : Nat} (a b : BitVec W) (hb : 0 < b.toNat) :
    (divModU a b).1.toNat = a.toNat / b.toNat ∧ (divModU a b).2.toNat = a.toNat % b.toNat := by
  obtain ⟨h1, h2⟩ := divChain_spec a b hb W (le_refl _)
  rw [Nat.sub_self, Nat.pow_zero, Nat.mul_one] at h1
  rw [Nat.sub_self, Nat.pow_zero, Nat.mul_one, Nat.div_one] at h2
  show _ ∧ (divChain a b W).toNat = _
  have := (Nat.div_mod_unique hb (a := a.toNat) (c := (divChain a b W).toNat) (d := (divModU a b).1.toNat)).2 ⟨by omega, h1⟩
  exact ⟨this.1.symm, this.2.symm⟩

/-! ## Choices -/

theorem pmux_none {W S : Nat} (a : BitVec W) (b : BitVec (W * S)) : pmux a b 0 = a := by
  unfold pmux
  simp

theorem foundFirst_eq {S : Nat} (s : BitVec S) (i : Nat) : foundFirst s i = true ↔ ∃ j ≤ i, s.getLsbD j = true := by
  induction i with
  | zero => simp [foundFirst]
  | succ i ih =>
    rw [foundFirst, Bool.or_eq_true, ih]
    constructor
    · rintro (⟨j, hj, h⟩ | h)
      · exact ⟨j, by omega, h⟩
      · exact ⟨i + 1, le_refl _, h⟩
    · rintro ⟨j, hj, h⟩
      by_cases he : j = i + 1
      · exact Or.inr (he ▸ h)
      · exact Or.inl ⟨j, by omega, h⟩

end TinyGarble.Proof.Hdl.Stdcells
