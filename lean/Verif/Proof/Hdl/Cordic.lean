import Verif.Model.Hdl.Cordic
import Verif.Proof.Hdl.Arith
import Verif.Proof.Hdl.CordicReal

/-!
# The registers of CORDIC
-/

namespace TinyGarble.Proof.Hdl.Cordic

open TinyGarble.Hdl TinyGarble.Hdl.Cordic

theorem barrel_eq {N : Nat} (a : BitVec N) (shift : BitVec (clog2 N + 1)) : barrel a shift = a >>> shift.toNat := SHIFT_LEFT_eq a shift

variable {dec frac : Nat} {mod : Mod} {dir : Dir} {g : BitVec (2 * (dec + frac))} {e : BitVec (dec + frac)}

theorem iter_eq (t : Nat) : (regs dec frac mod dir g e t).iter.toNat = min t (frac + 1) := by
  have hc := clog2_spec (frac + 1)
  have hp : 2 ^ (clog2 (frac + 1) + 1) = 2 * 2 ^ clog2 (frac + 1) := by rw [Nat.pow_succ]; omega
  induction t with
  | zero => simp [regs, start]
  | succ t ih =>
    rw [regs, step]
    split
    · rename_i h
      dsimp only
      rw [BitVec.toNat_add, ih] at *
      rw [show (1 : BitVec (clog2 (frac + 1) + 1)).toNat = 1 by
        show 1 % 2 ^ _ = 1
        exact Nat.mod_eq_of_lt (by omega)]
      rw [Nat.mod_eq_of_lt (by omega)]
      omega
    · rename_i h
      rw [ih] at *
      omega

/-- After the last step nothing changes. -/
theorem regs_done (t : Nat) : regs dec frac mod dir g e (frac + 1 + t) = regs dec frac mod dir g e (frac + 1) := by
  induction t with
  | zero => rfl
  | succ t ih =>
    rw [← Nat.add_assoc, regs, ih, step, if_neg]
    rw [iter_eq]
    omega

theorem next_eq (hd : 0 < dec) (t : Nat) (ht : t ≤ frac) :
    let s := regs dec frac mod dir g e t
    let s' := regs dec frac mod dir g e (t + 1)
    let d := di dir s
    s'.x = s.x + (match mod with
      | .hyp => if d then -(s.y >>> t) else s.y >>> t
      | .lin => 0
      | .cir => if d then s.y >>> t else -(s.y >>> t))
    ∧ s'.y = s.y + (if d then -(s.x >>> t) else s.x >>> t)
    ∧ s'.z = s.z + (if d then alpha (dec + frac) mod t else -alpha (dec + frac) mod t) := by
  intro s s' d
  have hi : s.iter.toNat = t := by rw [iter_eq]; omega
  have hc := clog2_spec (frac + 1)
  have hc' := clog2_spec (dec + frac)
  have h1 : (s.iter.extractLsb' 0 (clog2 (frac + 1))).toNat = t := by
    rw [BitVec.extractLsb'_toNat, hi, Nat.shiftRight_zero, Nat.mod_eq_of_lt (by omega)]
  have h2 : (s.iter.setWidth (clog2 (dec + frac) + 1)).toNat = t := by
    have hp : 2 ^ (clog2 (dec + frac) + 1) = 2 * 2 ^ clog2 (dec + frac) := by rw [Nat.pow_succ]; omega
    rw [BitVec.toNat_setWidth, hi, Nat.mod_eq_of_lt (by omega)]
  have hs : s' = step frac mod dir s := rfl
  rw [hs, step, if_pos (by omega)]
  simp only [next, barrel_eq, h1, h2, ADD_fst]
  cases mod <;> simp [d]

/-- The words stand for the integers. -/
def Holds {L W : Nat} (s : Regs L W) (i : Int × Int × Int) : Prop :=
  s.x = BitVec.ofInt L i.1 ∧ s.y = BitVec.ofInt L i.2.1 ∧ s.z = BitVec.ofInt L i.2.2

theorem shift_ofInt {L : Nat} {X : Int} (h0 : 0 ≤ X) (h1 : X < 2 ^ L) (k : Nat) : BitVec.ofInt L X >>> k = BitVec.ofInt L (X / 2 ^ k) := by
  obtain ⟨n, rfl⟩ := Int.eq_ofNat_of_zero_le h0
  have hn : n < 2 ^ L := by exact_mod_cast h1
  apply BitVec.eq_of_toNat_eq
  rw [show ((n : Int) / 2 ^ k) = ((n / 2 ^ k : Nat) : Int) by push_cast; rfl]
  rw [BitVec.toNat_ushiftRight, BitVec.ofInt_natCast, BitVec.ofInt_natCast, BitVec.toNat_ofNat, BitVec.toNat_ofNat, Nat.shiftRight_eq_div_pow,
    Nat.mod_eq_of_lt hn, Nat.mod_eq_of_lt (Nat.lt_of_le_of_lt (Nat.div_le_self _ _) hn)]

theorem msb_ofInt {L : Nat} (hL : 0 < L) {Z : Int} (h0 : -2 ^ (L - 1) ≤ Z) (h1 : Z < 2 ^ (L - 1)) :
    (BitVec.ofInt L Z).getLsbD (L - 1) = decide (Z < 0) := by
  rw [← BitVec.msb_eq_getLsbD_last, BitVec.msb_eq_toInt, BitVec.toInt_ofInt_eq_self hL h0 h1]

theorem holds_step (hd : 0 < dec) {T : Nat → Int} (t : Nat) (ht : t ≤ frac) (hT : alpha (dec + frac) .cir t = BitVec.ofInt (dec + frac) (T t))
    {i : Int × Int × Int} (h : Holds (regs dec frac .cir .rot g e t) i) (hx0 : 0 ≤ i.1) (hx1 : i.1 < 2 ^ (dec + frac))
    (hy0 : 0 ≤ i.2.1) (hy1 : i.2.1 < 2 ^ (dec + frac)) (hz0 : -2 ^ (dec + frac - 1) ≤ i.2.2) (hz1 : i.2.2 < 2 ^ (dec + frac - 1)) :
    Holds (regs dec frac .cir .rot g e (t + 1)) (stepInt T t i) := by
  obtain ⟨e1, e2, e3⟩ := next_eq (mod := .cir) (dir := .rot) (g := g) (e := e) hd t ht
  obtain ⟨g1, g2, g3⟩ := h
  have hdi : di .rot (regs dec frac .cir .rot g e t) = decide (i.2.2 < 0) := by
    unfold di
    dsimp only
    rw [g3, msb_ofInt (by omega) hz0 hz1]
  rw [hdi] at e1 e2 e3
  unfold Holds stepInt
  by_cases hz : i.2.2 < 0
  · rw [if_pos hz]
    rw [decide_eq_true hz] at e1 e2 e3
    refine ⟨e1.trans ?_, e2.trans ?_, e3.trans ?_⟩
    · dsimp only
      rw [if_pos rfl, g1, g2, shift_ofInt hy0 hy1, BitVec.ofInt_add]
    · dsimp only
      rw [if_pos rfl, g1, g2, shift_ofInt hx0 hx1, ← BitVec.ofInt_neg, ← BitVec.ofInt_add, Int.sub_eq_add_neg]
    · dsimp only
      rw [if_pos rfl, g3, hT, BitVec.ofInt_add]
  · rw [if_neg hz]
    rw [decide_eq_false hz] at e1 e2 e3
    refine ⟨e1.trans ?_, e2.trans ?_, e3.trans ?_⟩
    · dsimp only
      rw [if_neg (by decide), g1, g2, shift_ofInt hy0 hy1, ← BitVec.ofInt_neg, ← BitVec.ofInt_add, Int.sub_eq_add_neg]
    · dsimp only
      rw [if_neg (by decide), g1, g2, shift_ofInt hx0 hx1, BitVec.ofInt_add]
    · dsimp only
      rw [if_neg (by decide), g3, hT, ← BitVec.ofInt_neg, ← BitVec.ofInt_add, Int.sub_eq_add_neg]

end TinyGarble.Proof.Hdl.Cordic
