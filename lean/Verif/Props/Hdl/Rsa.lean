import Verif.Model.Hdl.Rsa
import Verif.Proof.Hdl.Arith

/-!
# Modular multiplication and exponentiation (C75)
-/

namespace TinyGarble.Props.Hdl

open TinyGarble.Hdl TinyGarble.Hdl.Rsa TinyGarble.Proof.Hdl

/-- **C75**, one step of modmult.v as it is wired (modulo `2 ^ (N + 2)`): `y` is added if the bit is 0, and the modulus is subtracted when
it does not fit. The intended step is `2 z + x y`, from which `n` is subtracted when it fits. -/
theorem C75_step {N : Nat} (x : Bool) (y n : BitVec N) (z : BitVec (N + 2)) :
    ∃ z2 z3 : BitVec (N + 2), z2 = 2 * z + (if x then 0 else y.setWidth (N + 2)) ∧
      z3 = (if n.toNat ≤ z2.toNat then z2 else z2 - n.setWidth (N + 2)) ∧
      modmultStep x y n z = if n.toNat < z3.toNat then z3 else z3 - n.setWidth (N + 2) := by
  have hz1 : (z.extractLsb' 0 (N + 1) ++ 0#1).setWidth (N + 2) = 2 * z := by
    apply BitVec.eq_of_toNat_eq
    rw [BitVec.toNat_setWidth, BitVec.toNat_append, BitVec.extractLsb'_toNat, Nat.shiftRight_zero, Nat.shiftLeft_eq, BitVec.toNat_mul]
    simp only [BitVec.toNat_ofNat, Nat.zero_mod, Nat.or_zero, Nat.pow_one]
    have h2 : (2 : BitVec (N + 2)).toNat = 2 := by
      show 2 % 2 ^ (N + 2) = 2
      have : 2 ^ (N + 2) = 4 * 2 ^ N := by rw [Nat.pow_add]; omega
      have := Nat.two_pow_pos N
      exact Nat.mod_eq_of_lt (by omega)
    rw [h2, Nat.pow_succ 2 (N + 1), Nat.mul_comm 2 z.toNat, Nat.mul_mod_mul_right, Nat.mul_mod_mul_right, Nat.mod_mod]
  have hn : (n.setWidth (N + 2)).toNat = n.toNat := toNat_widen (by omega) n
  refine ⟨_, _, rfl, rfl, ?_⟩
  rw [modmultStep]
  simp only [MUX_eq, ADD_fst, SUB_fst, COMP_spec (Nat.le_refl _), hz1, hn, BitVec.setWidth_eq, decide_eq_true_eq]
  generalize h2 : (2 * z + if x = true then 0 else BitVec.setWidth (N + 2) y) = z2
  have h3 : (z2 - if n.toNat ≤ z2.toNat then 0 else BitVec.setWidth (N + 2) n) = if n.toNat ≤ z2.toNat then z2 else z2 - n.setWidth (N + 2) := by
    split <;> simp
  rw [h3]
  generalize (if n.toNat ≤ z2.toNat then z2 else z2 - n.setWidth (N + 2)) = z3
  by_cases h : n.toNat < z3.toNat
  · have h' : ¬ z3.toNat ≤ n.toNat := by omega
    simp [h, h']
  · have h' : z3.toNat ≤ n.toNat := by omega
    simp [h, h']

/-- A step with the operations on vectors. -/
def fastStep {N : Nat} (x : Bool) (y n : BitVec N) (z : BitVec (N + 2)) : BitVec (N + 2) :=
  let z2 : BitVec (N + 2) := 2 * z + (if x then 0 else y.setWidth (N + 2))
  let z3 := if n.toNat ≤ z2.toNat then z2 else z2 - n.setWidth (N + 2)
  if n.toNat < z3.toNat then z3 else z3 - n.setWidth (N + 2)

theorem modmultStep_eq {N : Nat} : modmultStep (N := N) = fastStep := by
  funext x y n z
  obtain ⟨z2, z3, rfl, rfl, h⟩ := C75_step x y n z
  exact h

def fastModexpStep {N R : Nat} (s : ExpRegs N R) (_ : Unit) : ExpRegs N R × BitVec N :=
  let y := if s.mulPow then s.creg else s.mreg
  let steps := fun (xin : BitVec N) (zin : BitVec (N + 2)) =>
    (List.range (N / R)).foldl (fun z g => fastStep (xin.getLsbD (N - 1 - g)) y s.nreg z) zin
  let mm : MulRegs N × BitVec N := if R > 1 then
      let zout := steps s.mul.xreg s.mul.zreg
      let next : MulRegs N := if s.startReg.getLsbD 0 then ⟨0, s.creg⟩ else
        ⟨zout, (s.mul.xreg.extractLsb' 0 (N - N / R) ++ 0#(N / R)).setWidth N⟩
      (next, zout.setWidth N)
    else (s.mul, (steps s.creg 0).setWidth N)
  let top := s.startReg.getLsbD (R - 1)
  let shift : BitVec R := if R > 1 then (s.startReg.extractLsb' 0 (R - 1) ++ BitVec.ofBool top).setWidth R else (BitVec.ofBool top).setWidth R
  let ebit := s.ereg.getLsbD (N - 1)
  let cregNext := if (s.firstOne && ebit && s.mulPow) || (s.firstOne && !s.mulPow) then s.creg else mm.2
  let eregNext := if s.mulPow then s.ereg else (s.ereg.extractLsb' 0 (N - 1) ++ 0#1).setWidth N
  (⟨s.firstOne || (top && ebit && s.mulPow), if top then !s.mulPow else s.mulPow, shift, eregNext, cregNext, s.mreg, s.nreg, mm.1⟩, cregNext)

theorem modexpStep_eq {N R : Nat} : modexpStep (N := N) (R := R) = fastModexpStep := by
  funext s u
  simp only [modexpStep, MUX_eq, modmult, modmultSteps, modmultStep_eq, fastModexpStep]

/-- **C75**, the claim does not hold of modmult.v. -/
theorem C75_modmult_fails : ∃ x y n : BitVec 8, x.toNat < n.toNat ∧ y.toNat < n.toNat ∧
    (modmult 1 ⟨0, 0⟩ true x y n).2.toNat ≠ x.toNat * y.toNat % n.toNat := ⟨1, 1, 13, by decide +kernel⟩

/-- **C75**, the claim does not hold of modexp_2N_NN.v, neither with the fewest nor with the most cycles. -/
theorem C75_modexp_fails : ∃ m e n : BitVec 8, m.toNat < n.toNat ∧
    (∀ o, (modexp 8 16 m e n).getLast? = some o → o.toNat ≠ m.toNat ^ e.toNat % n.toNat) ∧
    ∀ o, (modexp 8 128 m e n).getLast? = some o → o.toNat ≠ m.toNat ^ e.toNat % n.toNat := by
  refine ⟨2, 3, 13, by decide, ?_, ?_⟩
  · have h : (modexp 8 16 2 3 13).getLast? = some 0x5a := by
      simp only [modexp, modexpStep_eq]
      decide +kernel
    intro o ho
    rw [h] at ho
    obtain rfl := Option.some.inj ho
    decide
  · have h : (modexp 8 128 2 3 13).getLast? = some 0xa0 := by
      simp only [modexp, modexpStep_eq]
      decide +kernel
    intro o ho
    rw [h] at ho
    obtain rfl := Option.some.inj ho
    decide

/-! ## Examples -/

example : modmultStep true (5 : BitVec 8) 13 20 = 40 ∧ modmultStep false (5 : BitVec 8) 13 1 = 0x3fa := by decide +kernel

end TinyGarble.Props.Hdl
