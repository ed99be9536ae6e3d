import Verif.Model.A23Cordic

/-!
# CORDIC over the integers
-/

namespace TinyGarble.Proof.Cordic

open A23

theorem addS_toInt {x y : Word} (h1 : -2 ^ 31 ≤ x.toInt + y.toInt) (h2 : x.toInt + y.toInt < 2 ^ 31) :
    ∃ z, addS x y = some z ∧ z.toInt = x.toInt + y.toInt := by
  have h : x.saddOverflow y = false := by
    simp only [BitVec.saddOverflow, Bool.or_eq_false_iff, decide_eq_false_iff_not]; omega
  refine ⟨x + y, by simp [addS, h], ?_⟩
  rw [BitVec.toInt_add_of_not_saddOverflow (by simp [h])]

theorem subS_toInt {x y : Word} (h1 : -2 ^ 31 ≤ x.toInt - y.toInt) (h2 : x.toInt - y.toInt < 2 ^ 31) :
    ∃ z, subS x y = some z ∧ z.toInt = x.toInt - y.toInt := by
  have h : x.ssubOverflow y = false := by
    simp only [BitVec.ssubOverflow, Bool.or_eq_false_iff, decide_eq_false_iff_not]; omega
  refine ⟨x - y, by simp [subS, h], ?_⟩
  rw [BitVec.toInt_sub_of_not_ssubOverflow (by simp [h])]

theorem sign_word (z : Word) : z.sshiftRight 31 = if z.toInt < 0 then BitVec.allOnes 32 else 0#32 := by
  apply BitVec.eq_of_toInt_eq
  rw [BitVec.toInt_sshiftRight, Int.shiftRight_eq_div_pow]
  have h1 := BitVec.toInt_lt (x := z)
  have h2 := BitVec.le_toInt z
  split
  · rw [BitVec.toInt_allOnes]; simp; omega
  · simp; omega

/-- `(v ^ d) - d` for a sign `d`. -/
theorem flip_toInt (v z : Word) (hv : -2 ^ 31 < v.toInt) :
    ∃ u, subS (v ^^^ z.sshiftRight 31) (z.sshiftRight 31) = some u ∧
      u.toInt = if z.toInt < 0 then -v.toInt else v.toInt := by
  have h1 := BitVec.toInt_lt (x := v)
  rw [sign_word]
  split
  · have hn : (v ^^^ BitVec.allOnes 32).toInt = -v.toInt - 1 := by
      rw [BitVec.xor_allOnes, BitVec.toInt_not]
      simp only [Int.bmod_def, BitVec.toInt_eq_toNat_cond] at *
      have := v.isLt
      split at hv <;> split <;> simp_all <;> omega
    have ha : (BitVec.allOnes 32).toInt = -1 := by decide
    obtain ⟨u, hu, hu'⟩ := subS_toInt (x := v ^^^ BitVec.allOnes 32) (y := BitVec.allOnes 32) (by omega) (by omega)
    exact ⟨u, hu, by omega⟩
  · obtain ⟨u, hu, hu'⟩ := subS_toInt (x := v ^^^ 0#32) (y := 0#32) (by simp; omega) (by simp; omega)
    refine ⟨u, hu, ?_⟩
    simpa using hu'

/-- The numbers of the table. -/
def tab (k : Nat) : Int := ((cordicTab[k]?).getD 0).toInt

/-- One step on integers. -/
def stepInt (k : Nat) (s : Int × Int × Int) : Int × Int × Int :=
  if s.2.2 < 0 then (s.1 + s.2.1 / 2 ^ k, s.2.1 - s.1 / 2 ^ k, s.2.2 + tab k)
  else (s.1 - s.2.1 / 2 ^ k, s.2.1 + s.1 / 2 ^ k, s.2.2 - tab k)

def runInt (theta : Int) : Nat → Int × Int × Int
  | 0 => (0x26DD3B6A, 0, theta)
  | k + 1 => stepInt k (runInt theta k)

/-- Bounds on `x` and `y` before step `k`. -/
def bound : Nat → Int
  | 0 => 0x26DD3B6A
  | k + 1 => if k = 0 then 0x26DD3B6A else bound k + bound k / 2 ^ k + 1

theorem div_bound {x B : Int} (k : Nat) (h1 : -B ≤ x) (h2 : x ≤ B) : -(B / 2 ^ k + 1) ≤ x / 2 ^ k ∧ x / 2 ^ k ≤ B / 2 ^ k := by
  have hp : (0 : Int) < 2 ^ k := Int.pow_pos (by decide)
  refine ⟨?_, Int.ediv_le_ediv hp h2⟩
  have := Int.ediv_le_ediv hp h1
  have h3 : (B / 2 ^ k + 1) * 2 ^ k ≥ B := by
    have := Int.lt_ediv_add_one_mul_self B hp
    omega
  have h4 : -(B / 2 ^ k + 1) ≤ (-B) / 2 ^ k := by
    rw [Int.le_ediv_iff_mul_le hp, Int.neg_mul]; omega
  omega

theorem bound_xy (theta : Int) (k : Nat) :
    (-bound k ≤ (runInt theta k).1 ∧ (runInt theta k).1 ≤ bound k) ∧
    (-bound k ≤ (runInt theta k).2.1 ∧ (runInt theta k).2.1 ≤ bound k) := by
  induction k with
  | zero => simp [runInt, bound]
  | succ k ih =>
    obtain ⟨hx, hy⟩ := ih
    by_cases h0 : k = 0
    · subst h0
      by_cases hn : theta < 0 <;> simp [runInt, stepInt, bound, hn]
    · have dx := div_bound k hx.1 hx.2
      have dy := div_bound k hy.1 hy.2
      simp only [runInt, stepInt, bound, if_neg h0]
      split <;> simp only <;> omega

theorem bound_small (k : Nat) (hk : k ≤ 32) : bound k + bound k / 2 ^ k + 1 < 2 ^ 31 ∨ k = 0 := by
  have : ∀ k < 33, bound k + bound k / 2 ^ k + 1 < 2 ^ 31 ∨ k = 0 := by decide +kernel
  exact this k (by omega)

theorem tab_bound (k : Nat) : 0 ≤ tab k ∧ tab k < 2 ^ 30 := by
  by_cases h : k < 32
  · have : ∀ k < 32, 0 ≤ tab k ∧ tab k < 2 ^ 30 := by decide +kernel
    exact this k h
  · have : cordicTab[k]? = none := List.getElem?_eq_none (by simp [cordicTab]; omega)
    simp [tab, this]

theorem bound_z {theta : Int} (h1 : -2 ^ 31 ≤ theta) (h2 : theta < 2 ^ 31) (k : Nat) :
    -2 ^ 31 ≤ (runInt theta k).2.2 ∧ (runInt theta k).2.2 < 2 ^ 31 := by
  induction k with
  | zero => exact ⟨h1, h2⟩
  | succ k ih =>
    have := tab_bound k
    simp only [runInt, stepInt]
    split <;> simp only <;> omega

/-- The words hold the integers. -/
def Holds (s : CState) (i : Int × Int × Int) : Prop := s.x.toInt = i.1 ∧ s.y.toInt = i.2.1 ∧ s.z.toInt = i.2.2

theorem step_holds {k : Nat} (hk : k < 32) {theta : Int} (h1 : -2 ^ 31 ≤ theta) (h2 : theta < 2 ^ 31) {s : CState}
    (h : Holds s (runInt theta k)) : ∃ s', cordicStep k s = some s' ∧ Holds s' (runInt theta (k + 1)) := by
  obtain ⟨hx, hy, hz⟩ := h
  obtain ⟨bx, by_⟩ := bound_xy theta k
  obtain ⟨bx', by'⟩ := bound_xy theta (k + 1)
  have bz := bound_z h1 h2 k
  have bz' := bound_z h1 h2 (k + 1)
  have bt := tab_bound k
  have dx := div_bound k bx.1 bx.2
  have dy := div_bound k by_.1 by_.2
  have hB : bound k < 2 ^ 31 ∧ bound (k + 1) < 2 ^ 31 ∧ bound k / 2 ^ k + 1 < 2 ^ 31 := by
    have : ∀ k < 32, bound k < 2 ^ 31 ∧ bound (k + 1) < 2 ^ 31 ∧ bound k / 2 ^ k + 1 < 2 ^ 31 := by decide +kernel
    exact this k hk
  have sx : (s.x.sshiftRight k).toInt = (runInt theta k).1 / 2 ^ k := by
    rw [BitVec.toInt_sshiftRight, Int.shiftRight_eq_div_pow, hx]; simp
  have sy : (s.y.sshiftRight k).toInt = (runInt theta k).2.1 / 2 ^ k := by
    rw [BitVec.toInt_sshiftRight, Int.shiftRight_eq_div_pow, hy]; simp
  obtain ⟨a, ha⟩ : ∃ a, cordicTab[k]? = some a := by
    rw [List.getElem?_eq_getElem (by simpa [cordicTab] using hk)]; exact ⟨_, rfl⟩
  have hat : a.toInt = tab k := by simp [tab, ha]
  obtain ⟨u, hu, hu'⟩ := flip_toInt (s.y.sshiftRight k) s.z (by omega)
  obtain ⟨v, hv, hv'⟩ := flip_toInt (s.x.sshiftRight k) s.z (by omega)
  obtain ⟨w, hw, hw'⟩ := flip_toInt a s.z (by omega)
  rw [sy, hz] at hu'
  rw [sx, hz] at hv'
  rw [hat, hz] at hw'
  simp only [runInt, stepInt] at bx' by' bz' ⊢
  have ex : ∃ t, subS s.x u = some t ∧ t.toInt = s.x.toInt - u.toInt := by
    apply subS_toInt <;> rw [hx, hu'] <;> split at bx' <;> rename_i hn <;> simp only [hn, if_true, if_false] at * <;> omega
  have ey : ∃ t, addS s.y v = some t ∧ t.toInt = s.y.toInt + v.toInt := by
    apply addS_toInt <;> rw [hy, hv'] <;> split at by' <;> rename_i hn <;> simp only [hn, if_true, if_false] at * <;> omega
  have ez : ∃ t, subS s.z w = some t ∧ t.toInt = s.z.toInt - w.toInt := by
    apply subS_toInt <;> rw [hz, hw'] <;> split at bz' <;> rename_i hn <;> simp only [hn, if_true, if_false] at * <;> omega
  obtain ⟨tx, htx, htx'⟩ := ex
  obtain ⟨ty, hty, hty'⟩ := ey
  obtain ⟨tz, htz, htz'⟩ := ez
  refine ⟨⟨tx, ty, tz⟩, by simp [cordicStep, hu, hv, ha, hw, htx, hty, htz], ?_⟩
  simp only [Holds, htx', hty', htz', hx, hy, hz, hu', hv', hw']
  split <;> refine ⟨?_, ?_, ?_⟩ <;> simp only <;> omega

theorem loop_holds (theta : Word) (k : Nat) (hk : k ≤ 32) :
    ∃ s, loop cordicStep k ⟨cordic1K, 0, theta⟩ = some s ∧ Holds s (runInt theta.toInt k) := by
  have h1 : -2 ^ 31 ≤ theta.toInt := BitVec.le_toInt theta
  have h2 : theta.toInt < 2 ^ 31 := BitVec.toInt_lt
  induction k with
  | zero => exact ⟨_, rfl, by simp [Holds, runInt, cordic1K]⟩
  | succ k ih =>
    obtain ⟨s, hs, hs'⟩ := ih (by omega)
    obtain ⟨t, ht, ht'⟩ := step_holds (by omega) h1 h2 hs'
    exact ⟨t, by rw [loop, hs]; exact ht, ht'⟩

theorem cordic_eq (theta : Word) : ∃ s c, cordic theta = some (s, c) ∧
    s.toInt = (runInt theta.toInt 32).2.1 ∧ c.toInt = (runInt theta.toInt 32).1 := by
  obtain ⟨r, hr, hr'⟩ := loop_holds theta 32 (Nat.le_refl _)
  exact ⟨r.y, r.x, by rw [cordic, hr]; rfl, hr'.2.1, hr'.1⟩

/-- What is left of the angle before step `k`. -/
def rest : Nat → Int
  | 0 => 16
  | n + 1 => rest n + tab (31 - n)

theorem residual {theta : Int} (h1 : -1871839748 ≤ theta) (h2 : theta ≤ 1871839748) (k : Nat) (hk : k ≤ 32) :
    -rest (32 - k) ≤ (runInt theta k).2.2 ∧ (runInt theta k).2.2 ≤ rest (32 - k) := by
  induction k with
  | zero =>
    have : rest 32 = 1871839748 := by decide +kernel
    simp only [Nat.sub_zero, this, runInt]; omega
  | succ k ih =>
    have ih := ih (by omega)
    have e : 32 - k = (32 - (k + 1)) + 1 := by omega
    have e' : 31 - (32 - (k + 1)) = k := by omega
    have ht : tab k ≤ rest (32 - (k + 1)) := by
      have : ∀ k < 32, tab k ≤ rest (32 - (k + 1)) := by decide +kernel
      exact this k (by omega)
    rw [e, rest, e'] at ih
    simp only [runInt, stepInt]
    split <;> simp only <;> omega

end TinyGarble.Proof.Cordic
