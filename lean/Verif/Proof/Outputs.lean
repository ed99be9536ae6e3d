import Verif.Proof.Protocol

/-!
# The output numbers, bit by bit
-/

namespace TinyGarble.Proof
open TinyGarble Spec

/-- All cycles one after the other. -/
theorem forLoop_upd_testBit (os : Nat) (u : Nat → Nat → Option Bool) (m j : Nat) :
    (forLoop (fun k => applyUpd (k * os) os (u k)) m 0).testBit j
      = if j < m * os then (u (j / os) (j % os)).getD false else false := by
  induction m with
  | zero => simp [forLoop]
  | succ m ih =>
    simp only [forLoop]
    rw [applyUpd_testBit, ih]
    have hm : (m + 1) * os = m * os + os := by rw [Nat.add_mul, Nat.one_mul]
    rw [hm]
    by_cases h : m * os ≤ j ∧ j < m * os + os
    · rw [if_pos h, if_pos h.2]
      have h1 : ¬ j < m * os := by omega
      rw [if_neg h1]
      obtain ⟨r, rfl⟩ := Nat.exists_eq_add_of_le h.1
      have hr : r < os := by omega
      have e1 : (m * os + r) / os = m := by
        rw [Nat.mul_comm, Nat.mul_add_div (by omega), Nat.div_eq_of_lt hr, Nat.add_zero]
      have e2 : (m * os + r) % os = r := by
        rw [Nat.mul_comm, Nat.mul_add_mod, Nat.mod_eq_of_lt hr]
      rw [e1, e2, Nat.add_sub_cancel_left]
    · rw [if_neg h]
      by_cases h' : j < m * os
      · rw [if_pos h', if_pos (by omega)]
      · rw [if_neg h', if_neg (by omega)]

/-- The value a bit has after updates, each of which may leave it alone. -/
def held (u : Nat → Option Bool) : Nat → Bool
  | 0 => false
  | t + 1 => (u t).getD (held u t)

/-- The same place every cycle. -/
theorem forLoop_upd_last (os : Nat) (u : Nat → Nat → Option Bool) (m j : Nat) :
    (forLoop (fun k => applyUpd 0 os (u k)) m 0).testBit j = if j < os then held (fun k => u k j) m else false := by
  induction m with
  | zero => simp [forLoop, held]
  | succ m ih =>
    simp only [forLoop]
    rw [applyUpd_testBit, ih]
    by_cases h : j < os
    · rw [if_pos (by omega), if_pos h, if_pos h, Nat.sub_zero]; rfl
    · rw [if_neg (by omega), if_neg h, if_neg h]

theorem held_garbler (mask i : Nat) (sec x : Nat → Bool) (m : Nat) (hm : 0 < m) :
    held (fun k => gUpd mask i (sec k) (x k)) m = (mask.testBit i && x (m - 1)) := by
  have zero : mask.testBit i = false → ∀ m, held (fun k => gUpd mask i (sec k) (x k)) m = false := by
    intro h m
    induction m with
    | zero => rfl
    | succ m ih =>
      unfold held
      rw [ih]
      simp only [gUpd, h]
      cases sec m <;> cases x m <;> simp
  cases hb : mask.testBit i with
  | false => rw [zero hb]; simp
  | true =>
    cases m with
    | zero => omega
    | succ m =>
      simp only [held, gUpd, hb, Nat.add_sub_cancel]
      cases sec m <;> cases x m <;> simp

theorem gUpd_getD (mask i : Nat) (sec x : Bool) : (gUpd mask i sec x).getD false = (mask.testBit i && x) := by
  unfold gUpd
  cases sec <;> cases x <;> cases mask.testBit i <;> rfl

theorem eUpd_getD (mask i : Nat) (sec x old : Bool) :
    (eUpd mask i sec x).getD old
      = if i < numBits mask ∧ mask.testBit i = false ∧ sec = false ∧ x = true then old
        else if sec = false ∧ x = true ∧ mask.testBit i = true then old else (!mask.testBit i && x) := by
  unfold eUpd
  by_cases h : numBits mask ≤ i
  · have hm := numBits_testBit h
    have : ¬ i < numBits mask := by omega
    cases sec <;> cases x <;> simp [h, hm, this]
  · have : i < numBits mask := by omega
    cases sec <;> cases x <;> cases hb : mask.testBit i <;> simp [h, this]

theorem held_evaluator (mask i : Nat) (sec x : Nat → Bool) (h : Nat → Bool) (h0 : h 0 = false)
    (hs : ∀ t, h (t + 1) = if i < numBits mask ∧ mask.testBit i = false ∧ sec t = false ∧ x t = true then h t
      else (!mask.testBit i && x t)) (m : Nat) :
    held (fun k => eUpd mask i (sec k) (x k)) m = h m := by
  induction m with
  | zero => exact h0.symm
  | succ m ih =>
    unfold held
    rw [ih, eUpd_getD, hs]
    by_cases hl : i < numBits mask ∧ mask.testBit i = false ∧ sec m = false ∧ x m = true
    · rw [if_pos hl, if_pos hl]
    · rw [if_neg hl, if_neg hl]
      by_cases hm : sec m = false ∧ x m = true ∧ mask.testBit i = true
      · rw [if_pos hm, hm.2.2]
        simp only [Bool.not_true, Bool.false_and]
        have : ∀ t, h t = false := by
          intro t
          cases t with
          | zero => exact h0
          | succ t => rw [hs, hm.2.2]; simp
        exact this m
      · rw [if_neg hm]

theorem slot_div {os t i : Nat} (h : i < os) : (t * os + i) / os = t ∧ (t * os + i) % os = i := by
  rw [Nat.mul_comm]
  constructor
  · rw [Nat.mul_add_div (by omega), Nat.div_eq_of_lt h, Nat.add_zero]
  · rw [Nat.mul_add_mod, Nat.mod_eq_of_lt h]

theorem slot_lt {os t m i : Nat} (ht : t < m) (h : i < os) : t * os + i < m * os := by
  have : (t + 1) * os ≤ m * os := Nat.mul_le_mul_right _ ht
  rw [Nat.add_mul] at this
  omega

theorem offsets_last {c : Circuit} {A : Args} (h : A.useLow = true ∧ A.mode = .lastClock) : offsetsOf c A = fun _ => 0 := by
  unfold offsetsOf outputOffset
  rw [h.1, h.2]; rfl

theorem offsets_all {c : Circuit} {A : Args} (h : ¬ (A.useLow = true ∧ A.mode = .lastClock)) :
    offsetsOf c A = fun k => k * c.outputSize := by
  unfold offsetsOf outputOffset
  funext k
  cases hl : A.useLow with
  | false => rfl
  | true =>
    cases hm : A.mode with
    | lastClock => exact absurd ⟨hl, hm⟩ h
    | _ => rfl

theorem reports_garbler {S : Session} {A : Args} {v : Nat → Nat → Bool} {m : Nat} (hm : 0 < m) :
    Reports S.c A m (forLoop (updG S A.mask v (offsetsOf S.c A)) m 0)
      (fun t i => A.mask.testBit i && v t (S.c.outputs i).toNat) := by
  unfold Reports
  by_cases h : A.useLow = true ∧ A.mode = .lastClock
  · rw [if_pos h, offsets_last h]
    have key := forLoop_upd_last S.c.outputSize (fun k i =>
      gUpd A.mask i ((S.g k).val (S.c.outputs i).toNat).isSecret (v k (S.c.outputs i).toNat)) m
    constructor
    · intro i hi
      refine (key i).trans ?_
      rw [if_pos hi]
      exact held_garbler A.mask i (fun k => ((S.g k).val (S.c.outputs i).toNat).isSecret) (fun k => v k (S.c.outputs i).toNat) m hm
    · intro j hj
      refine (key j).trans ?_
      rw [if_neg (by omega)]
  · rw [if_neg h, offsets_all h]
    have key := forLoop_upd_testBit S.c.outputSize (fun k i =>
      gUpd A.mask i ((S.g k).val (S.c.outputs i).toNat).isSecret (v k (S.c.outputs i).toNat)) m
    constructor
    · intro t ht i hi
      refine (key _).trans ?_
      rw [if_pos (slot_lt ht hi), (slot_div hi).1, (slot_div hi).2]
      exact gUpd_getD ..
    · intro j hj
      refine (key j).trans ?_
      rw [if_neg (by omega)]

theorem reports_evaluator {S : Session} {A : Args} {v : Nat → Nat → Bool} {m : Nat} (hm : 0 < m) :
    Reports S.c A m (forLoop (updE S A.mask v (offsetsOf S.c A)) m 0)
      (if A.useLow = true ∧ A.mode = .lastClock then fun t i => S.storedLast A.mask v i (t + 1)
        else fun t i => S.stored A.mask v t i) := by
  unfold Reports
  by_cases h : A.useLow = true ∧ A.mode = .lastClock
  · simp only [if_pos h, offsets_last h]
    have key := forLoop_upd_last S.c.outputSize (fun k i =>
      eUpd A.mask i ((S.g k).val (S.c.outputs i).toNat).isSecret (v k (S.c.outputs i).toNat)) m
    constructor
    · intro i hi
      refine (key i).trans ?_
      rw [if_pos hi, Nat.sub_add_cancel (by omega)]
      exact held_evaluator A.mask i (fun k => ((S.g k).val (S.c.outputs i).toNat).isSecret) (fun k => v k (S.c.outputs i).toNat)
        (S.storedLast A.mask v i) rfl (fun _ => rfl) m
    · intro j hj
      refine (key j).trans ?_
      rw [if_neg (by omega)]
  · simp only [if_neg h, offsets_all h]
    have key := forLoop_upd_testBit S.c.outputSize (fun k i =>
      eUpd A.mask i ((S.g k).val (S.c.outputs i).toNat).isSecret (v k (S.c.outputs i).toNat)) m
    constructor
    · intro t ht i hi
      refine (key _).trans ?_
      rw [if_pos (slot_lt ht hi), (slot_div hi).1, (slot_div hi).2, eUpd_getD]
      unfold Session.stored
      show (if S.LostAt A.mask v t i then _ else _) = _
      by_cases hl : S.LostAt A.mask v t i
      · rw [if_pos hl, if_pos hl]
      · rw [if_neg hl, if_neg hl]
        split
        · rename_i hh; rw [hh.2.2]; rfl
        · rfl
    · intro j hj
      refine (key j).trans ?_
      rw [if_neg (by omega)]

end TinyGarble.Proof
