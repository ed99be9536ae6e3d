import Verif.Proof.Cordic
import Mathlib.Analysis.SpecialFunctions.Trigonometric.ArctanDeriv
import Mathlib.Analysis.SpecialFunctions.Trigonometric.Bounds
import Mathlib.Analysis.Real.Pi.Bounds
import Mathlib.Analysis.Calculus.Deriv.MeanValue
import Mathlib.Algebra.Order.Ring.GeomSum
import Mathlib.Tactic.IntervalCases
import Mathlib.Tactic.NormNum

/-!
# The error of CORDIC
-/

namespace TinyGarble.Proof.Cordic

open Real

/-- The first `N` terms of the series of arctan. -/
noncomputable def P (N : ℕ) (x : ℝ) : ℝ := ∑ n ∈ Finset.range N, (-1) ^ n * x ^ (2 * n + 1) / (2 * n + 1)

theorem hasDerivAt_P (N : ℕ) (x : ℝ) : HasDerivAt (P N) (∑ n ∈ Finset.range N, (-x ^ 2) ^ n) x := by
  unfold P
  apply HasDerivAt.fun_sum
  intro n _
  have h := ((hasDerivAt_pow (2 * n + 1) x).const_mul ((-1 : ℝ) ^ n)).div_const (2 * (n : ℝ) + 1)
  refine h.congr_deriv ?_
  have : (2 * (n : ℝ) + 1) ≠ 0 := by positivity
  push_cast
  rw [neg_pow (x ^ 2), ← pow_mul]
  field_simp

theorem geom_alt (N : ℕ) (x : ℝ) : 1 / (1 + x ^ 2) - ∑ n ∈ Finset.range N, (-x ^ 2) ^ n = (-1) ^ N * (x ^ (2 * N) / (1 + x ^ 2)) := by
  have h0 : (1 + x ^ 2) ≠ 0 := by positivity
  have h := geom_sum_mul_neg (-x ^ 2) N
  have e : (-x ^ 2) ^ N = (-1) ^ N * x ^ (2 * N) := by rw [neg_pow, pow_mul]
  rw [e] at h
  have h' : (∑ n ∈ Finset.range N, (-x ^ 2) ^ n) = (1 - (-1) ^ N * x ^ (2 * N)) / (1 + x ^ 2) := by
    rw [eq_div_iff h0, ← h]; ring
  rw [h']
  field_simp
  ring

theorem arctan_alt (N : ℕ) {x : ℝ} (hx : 0 ≤ x) : 0 ≤ (-1) ^ N * (arctan x - P N x) := by
  have hd : ∀ y : ℝ, HasDerivAt (fun y => (-1) ^ N * (arctan y - P N y)) (y ^ (2 * N) / (1 + y ^ 2)) y := by
    intro y
    have h := ((hasDerivAt_arctan y).sub (hasDerivAt_P N y)).const_mul ((-1 : ℝ) ^ N)
    refine HasDerivAt.congr_deriv h ?_
    rw [geom_alt, ← mul_assoc, ← mul_pow]
    norm_num
  have hm : Monotone (fun y => (-1) ^ N * (arctan y - P N y)) := by
    apply monotone_of_deriv_nonneg
    · exact fun y => (hd y).differentiableAt
    · intro y
      rw [(hd y).deriv]
      have : 0 ≤ y ^ (2 * N) := by rw [pow_mul]; positivity
      positivity
  have := hm hx
  simpa [P] using this

theorem arctan_ge {x : ℝ} (hx : 0 ≤ x) : P 14 x ≤ arctan x := by
  have := arctan_alt 14 hx
  norm_num at this
  exact this

theorem arctan_le {x : ℝ} (hx : 0 ≤ x) : arctan x ≤ P 15 x := by
  have := arctan_alt 15 hx
  norm_num at this
  exact this

def tabList : List ℤ := [
  0x3243F6A8, 0x1DAC6705, 0x0FADBAFC, 0x07F56EA6, 0x03FEAB76, 0x01FFD55B, 0x00FFFAAA, 0x007FFF55, 0x003FFFEA, 0x001FFFFD,
  0x000FFFFF, 0x0007FFFF, 0x0003FFFF, 0x0001FFFF, 0x0000FFFF, 0x00007FFF, 0x00003FFF, 0x00001FFF, 0x00000FFF, 0x000007FF,
  0x000003FF, 0x000001FF, 0x000000FF, 0x0000007F, 0x0000003F, 0x0000001F, 0x0000000F, 0x00000008, 0x00000004, 0x00000002,
  0x00000001, 0x00000000]

theorem tabVal : ∀ k < 32, tab k = tabList.getD k 0 := by decide +kernel

theorem tab_arctan (k : ℕ) (hk : k < 32) : |2 ^ 30 * arctan (1 / 2 ^ k) - (tab k : ℝ)| ≤ 1 := by
  by_cases h0 : k = 0
  · subst h0
    have h1 := pi_gt_d6
    have h2 := pi_gt_d20
    have h3 := pi_lt_d20
    have e : tab 0 = 843314856 := by decide +kernel
    rw [e, pow_zero, div_one, arctan_one, abs_le]
    constructor <;> norm_num at * <;> linarith
  · have hx : (0 : ℝ) ≤ 1 / 2 ^ k := by positivity
    have h1 := arctan_ge hx
    have h2 := arctan_le hx
    have key : -1 ≤ 2 ^ 30 * P 14 (1 / 2 ^ k) - (tab k : ℝ) ∧ 2 ^ 30 * P 15 (1 / 2 ^ k) - (tab k : ℝ) ≤ 1 := by
      clear h1 h2 hx
      interval_cases k
      · exact absurd rfl h0
      all_goals
        have hT := tabVal _ hk
        norm_num [P, Finset.sum_range_succ, Finset.sum_range_zero, tabList] at hT ⊢
        rw [hT]
        norm_num
    rw [abs_le]
    constructor <;> linarith [key.1, key.2]

/-! ## The rotation -/

/-- The sign of the rotation of step `k`. -/
noncomputable def sgn (theta : ℤ) (k : ℕ) : ℝ := if (runInt theta k).2.2 < 0 then -1 else 1

theorem sgn_sq (theta : ℤ) (k : ℕ) : sgn theta k ^ 2 = 1 := by
  unfold sgn; split <;> norm_num

theorem sgn_abs (theta : ℤ) (k : ℕ) : |sgn theta k| = 1 := by
  unfold sgn; split <;> norm_num

/-- The computed vector. -/
noncomputable def vec (theta : ℤ) (k : ℕ) : ℂ := ⟨((runInt theta k).1 : ℝ), ((runInt theta k).2.1 : ℝ)⟩

/-- The vector without rounding. -/
noncomputable def ideal (theta : ℤ) : ℕ → ℂ
  | 0 => 652032874
  | k + 1 => ideal theta k * ⟨1, sgn theta k / 2 ^ k⟩

noncomputable def angle (theta : ℤ) : ℕ → ℝ
  | 0 => 0
  | k + 1 => angle theta k + sgn theta k * arctan (1 / 2 ^ k)

noncomputable def gain (k : ℕ) : ℝ := ∏ j ∈ Finset.range k, √(1 + (1 / 2 ^ j) ^ 2)

theorem rotation (x : ℝ) : (⟨1, x⟩ : ℂ) = (√(1 + x ^ 2) : ℝ) * Complex.exp ((arctan x : ℝ) * Complex.I) := by
  have h0 : √(1 + x ^ 2) ≠ 0 := by positivity
  apply Complex.ext
  · rw [Complex.re_ofReal_mul, Complex.exp_ofReal_mul_I_re, cos_arctan]
    field_simp
  · rw [Complex.im_ofReal_mul, Complex.exp_ofReal_mul_I_im, sin_arctan]
    field_simp

theorem ideal_eq (theta : ℤ) (k : ℕ) :
    ideal theta k = (652032874 * gain k : ℝ) * Complex.exp ((angle theta k : ℝ) * Complex.I) := by
  induction k with
  | zero => simp [ideal, gain, angle]
  | succ k ih =>
    have e1 : (sgn theta k / 2 ^ k) ^ 2 = (1 / 2 ^ k) ^ 2 := by
      rw [div_pow, sgn_sq, div_pow, one_pow]
    have e2 : arctan (sgn theta k / 2 ^ k) = sgn theta k * arctan (1 / 2 ^ k) := by
      unfold sgn
      split
      · rw [neg_div, arctan_neg]; ring
      · ring
    have e3 : gain (k + 1) = gain k * √(1 + (1 / 2 ^ k) ^ 2) := Finset.prod_range_succ _ _
    rw [ideal, ih, rotation, e1, e2, e3, angle]
    push_cast
    rw [add_mul, Complex.exp_add]
    ring

theorem norm_factor (theta : ℤ) (k : ℕ) : ‖(⟨1, sgn theta k / 2 ^ k⟩ : ℂ)‖ ≤ 1 + (1 / 2 ^ k) ^ 2 / 2 := by
  rw [rotation, norm_mul, Complex.norm_exp_ofReal_mul_I, mul_one, Complex.norm_real, norm_of_nonneg (by positivity),
    div_pow, sgn_sq]
  apply Real.sqrt_le_iff.mpr
  constructor
  · positivity
  · have : (0 : ℝ) ≤ (1 / 2 ^ k) ^ 2 := by positivity
    rw [div_pow, one_pow] at *
    nlinarith

theorem floor_error (y : ℤ) (k : ℕ) : |(y : ℝ) / 2 ^ k - ((y / 2 ^ k : ℤ) : ℝ)| ≤ 1 := by
  have hp : (0 : ℤ) < 2 ^ k := by positivity
  have hp' : (0 : ℝ) < 2 ^ k := by positivity
  have h1 := Int.emod_nonneg y hp.ne'
  have h2 := Int.emod_lt_of_pos y hp
  have h3 : y = 2 ^ k * (y / 2 ^ k) + y % 2 ^ k := (Int.mul_ediv_add_emod y (2 ^ k)).symm
  have h3' : (y : ℝ) = 2 ^ k * ((y / 2 ^ k : ℤ) : ℝ) + ((y % 2 ^ k : ℤ) : ℝ) := by exact_mod_cast h3
  have h1' : (0 : ℝ) ≤ ((y % 2 ^ k : ℤ) : ℝ) := by exact_mod_cast h1
  have h2' : ((y % 2 ^ k : ℤ) : ℝ) ≤ 2 ^ k := by exact_mod_cast h2.le
  have e : (y : ℝ) / 2 ^ k - ((y / 2 ^ k : ℤ) : ℝ) = ((y % 2 ^ k : ℤ) : ℝ) / 2 ^ k := by
    rw [eq_div_iff hp'.ne', sub_mul, div_mul_cancel₀ _ hp'.ne']
    linarith
  rw [e, abs_le]
  constructor
  · have : 0 ≤ ((y % 2 ^ k : ℤ) : ℝ) / 2 ^ k := by positivity
    linarith
  · exact (div_le_one hp').mpr h2'

theorem rounding (theta : ℤ) (k : ℕ) : ‖vec theta (k + 1) - vec theta k * ⟨1, sgn theta k / 2 ^ k⟩‖ ≤ 1.4143 := by
  obtain ⟨a1, a2⟩ := abs_le.mp (floor_error (runInt theta k).1 k)
  obtain ⟨b1, b2⟩ := abs_le.mp (floor_error (runInt theta k).2.1 k)
  rw [← abs_of_nonneg (norm_nonneg _), ← abs_of_nonneg (show (0 : ℝ) ≤ 1.4143 by norm_num)]
  apply sq_le_sq.mp
  rw [← Complex.normSq_eq_norm_sq, Complex.normSq_apply]
  set a := ((runInt theta k).1 : ℝ) / 2 ^ k - (((runInt theta k).1 / 2 ^ k : ℤ) : ℝ) with ha
  set b := ((runInt theta k).2.1 : ℝ) / 2 ^ k - (((runInt theta k).2.1 / 2 ^ k : ℤ) : ℝ) with hb
  by_cases h : (runInt theta k).2.2 < 0
  · have e1 : (vec theta (k + 1) - vec theta k * ⟨1, sgn theta k / 2 ^ k⟩).re = -b := by
      simp only [vec, runInt, stepInt, sgn, if_pos h, Complex.sub_re, Complex.mul_re, hb]
      push_cast; ring
    have e2 : (vec theta (k + 1) - vec theta k * ⟨1, sgn theta k / 2 ^ k⟩).im = a := by
      simp only [vec, runInt, stepInt, sgn, if_pos h, Complex.sub_im, Complex.mul_im, ha]
      push_cast; ring
    rw [e1, e2]; nlinarith
  · have e1 : (vec theta (k + 1) - vec theta k * ⟨1, sgn theta k / 2 ^ k⟩).re = b := by
      simp only [vec, runInt, stepInt, sgn, if_neg h, Complex.sub_re, Complex.mul_re, hb]
      push_cast; ring
    have e2 : (vec theta (k + 1) - vec theta k * ⟨1, sgn theta k / 2 ^ k⟩).im = -a := by
      simp only [vec, runInt, stepInt, sgn, if_neg h, Complex.sub_im, Complex.mul_im, ha]
      push_cast; ring
    rw [e1, e2]; nlinarith

theorem first_exact (theta : ℤ) : vec theta 1 = ideal theta 1 := by
  by_cases h : theta < 0 <;>
  simp [vec, ideal, runInt, stepInt, sgn, h, Complex.ext_iff]

theorem small_factor (k : ℕ) : (k : ℝ) * (1 / 2 ^ (k + 1)) ^ 2 ≤ 1 / 16 := by
  rw [div_pow, one_pow, mul_one_div, div_le_div_iff₀ (by positivity) (by norm_num), ← pow_mul]
  have : k * 16 ≤ 2 ^ ((k + 1) * 2) := by
    induction k with
    | zero => simp
    | succ k ih =>
      by_cases h0 : k = 0
      · subst h0; norm_num
      · have : 2 ^ ((k + 1 + 1) * 2) = 4 * 2 ^ ((k + 1) * 2) := by ring
        omega
  have : ((k * 16 : ℕ) : ℝ) ≤ ((2 ^ ((k + 1) * 2) : ℕ) : ℝ) := by exact_mod_cast this
  push_cast at this
  linarith

theorem error (theta : ℤ) (k : ℕ) : ‖vec theta (k + 1) - ideal theta (k + 1)‖ ≤ 1.5 * k := by
  induction k with
  | zero => rw [first_exact]; simp
  | succ k ih =>
    have e : vec theta (k + 1 + 1) - ideal theta (k + 1 + 1) =
        (vec theta (k + 1 + 1) - vec theta (k + 1) * ⟨1, sgn theta (k + 1) / 2 ^ (k + 1)⟩) +
        (vec theta (k + 1) - ideal theta (k + 1)) * ⟨1, sgn theta (k + 1) / 2 ^ (k + 1)⟩ := by
      rw [ideal]; ring
    rw [e]
    refine (norm_add_le _ _).trans ?_
    rw [norm_mul]
    have h1 := rounding theta (k + 1)
    have h2 := norm_factor theta (k + 1)
    have h3 := mul_le_mul ih h2 (norm_nonneg _) (by positivity)
    have h4 := small_factor k
    push_cast
    nlinarith

theorem angle_error (theta : ℤ) (k : ℕ) (hk : k ≤ 32) :
    |2 ^ 30 * angle theta k - ((theta : ℝ) - ((runInt theta k).2.2 : ℝ))| ≤ (k : ℝ) := by
  induction k with
  | zero => simp [angle, runInt]
  | succ k ih =>
    have ih := ih (by omega)
    have ht := tab_arctan k (by omega)
    have e : 2 ^ 30 * angle theta (k + 1) - ((theta : ℝ) - ((runInt theta (k + 1)).2.2 : ℝ)) =
        (2 ^ 30 * angle theta k - ((theta : ℝ) - ((runInt theta k).2.2 : ℝ))) +
        sgn theta k * (2 ^ 30 * arctan (1 / 2 ^ k) - (tab k : ℝ)) := by
      by_cases h : (runInt theta k).2.2 < 0
      · simp only [angle, runInt, stepInt, sgn, if_pos h]; push_cast; ring
      · simp only [angle, runInt, stepInt, sgn, if_neg h]; push_cast; ring
    rw [e]
    refine (abs_add_le _ _).trans ?_
    rw [abs_mul, sgn_abs, one_mul, Nat.cast_add, Nat.cast_one]
    exact add_le_add ih ht

theorem gain_eq : |652032874 * gain 32 - 2 ^ 30| ≤ 1 := by
  have hg : gain 32 ^ 2 = ∏ j ∈ Finset.range 32, (1 + (1 / 2 ^ j : ℝ) ^ 2) := by
    rw [gain, ← Finset.prod_pow]
    apply Finset.prod_congr rfl
    intro j _
    exact Real.sq_sqrt (by positivity)
  have h0 : 0 ≤ gain 32 := Finset.prod_nonneg fun _ _ => Real.sqrt_nonneg _
  have h1 : (2 ^ 30 - 1) ^ 2 ≤ (652032874 * gain 32) ^ 2 := by
    rw [mul_pow, hg]
    norm_num [Finset.prod_range_succ]
  have h2 : (652032874 * gain 32) ^ 2 ≤ (2 ^ 30 + 1) ^ 2 := by
    rw [mul_pow, hg]
    norm_num [Finset.prod_range_succ]
  have h3 := abs_le_of_sq_le_sq' h2 (by norm_num)
  have h4 := abs_le_of_sq_le_sq' h1 (by positivity)
  rw [abs_le]
  constructor <;> linarith [h3.2, h4.2]

theorem exp_sub (a b : ℝ) : ‖Complex.exp (a * Complex.I) - Complex.exp (b * Complex.I)‖ ≤ |a - b| := by
  have e : Complex.exp (a * Complex.I) - Complex.exp (b * Complex.I) =
      Complex.exp (b * Complex.I) * (Complex.exp (Complex.I * ((a - b : ℝ) : ℂ)) - 1) := by
    rw [mul_sub, ← Complex.exp_add, mul_one]
    congr 2
    push_cast; ring
  rw [e, norm_mul, Complex.norm_exp_ofReal_mul_I, one_mul]
  exact Real.norm_exp_I_mul_ofReal_sub_one_le

theorem total_error (theta : ℤ) (h1 : -1871839748 ≤ theta) (h2 : theta ≤ 1871839748) :
    ‖vec theta 32 - (2 ^ 30 : ℝ) * Complex.exp (((theta : ℝ) / 2 ^ 30 : ℝ) * Complex.I)‖ ≤ 96 := by
  have a1 := error theta 31
  have a2 := angle_error theta 32 (le_refl _)
  have a3 := gain_eq
  obtain ⟨r1, r2⟩ := residual h1 h2 32 (le_refl _)
  have hr : rest (32 - 32) = 16 := rfl
  rw [hr] at r1 r2
  have r1' : (-16 : ℝ) ≤ ((runInt theta 32).2.2 : ℝ) := by exact_mod_cast r1
  have r2' : ((runInt theta 32).2.2 : ℝ) ≤ 16 := by exact_mod_cast r2
  have a4 : |angle theta 32 - (theta : ℝ) / 2 ^ 30| ≤ 48 / 2 ^ 30 := by
    obtain ⟨b1, b2⟩ := abs_le.mp a2
    push_cast at b1 b2
    rw [abs_le]
    constructor
    · rw [neg_le_sub_iff_le_add, ← sub_le_iff_le_add, ← sub_div, div_le_iff₀ (by norm_num)]; linarith
    · rw [sub_le_iff_le_add, ← add_div, le_div_iff₀ (by norm_num)]; linarith
  have e : vec theta 32 - (2 ^ 30 : ℝ) * Complex.exp (((theta : ℝ) / 2 ^ 30 : ℝ) * Complex.I) =
      (vec theta 32 - ideal theta 32) +
      ((652032874 * gain 32 - 2 ^ 30 : ℝ) * Complex.exp ((angle theta 32 : ℝ) * Complex.I) +
       (2 ^ 30 : ℝ) * (Complex.exp ((angle theta 32 : ℝ) * Complex.I) - Complex.exp (((theta : ℝ) / 2 ^ 30 : ℝ) * Complex.I))) := by
    rw [ideal_eq]; push_cast; ring
  rw [e]
  refine (norm_add_le _ _).trans ?_
  have n2 : ‖((652032874 * gain 32 - 2 ^ 30 : ℝ) : ℂ) * Complex.exp ((angle theta 32 : ℝ) * Complex.I)‖ ≤ 1 := by
    rw [norm_mul, Complex.norm_exp_ofReal_mul_I, mul_one, Complex.norm_real]
    exact a3
  have n3 : ‖((2 ^ 30 : ℝ) : ℂ) * (Complex.exp ((angle theta 32 : ℝ) * Complex.I) -
      Complex.exp (((theta : ℝ) / 2 ^ 30 : ℝ) * Complex.I))‖ ≤ 48 := by
    rw [norm_mul, Complex.norm_real, norm_of_nonneg (by positivity)]
    have := (exp_sub (angle theta 32) ((theta : ℝ) / 2 ^ 30)).trans a4
    calc (2 ^ 30 : ℝ) * _ ≤ 2 ^ 30 * (48 / 2 ^ 30) := mul_le_mul_of_nonneg_left this (by positivity)
      _ = 48 := by norm_num
  have := (norm_add_le _ _).trans (add_le_add n2 n3)
  norm_num at a1
  linarith

theorem cos_error (theta : ℤ) (h1 : -1871839748 ≤ theta) (h2 : theta ≤ 1871839748) :
    |((runInt theta 32).1 : ℝ) - 2 ^ 30 * cos ((theta : ℝ) / 2 ^ 30)| ≤ 96 := by
  have h := (Complex.abs_re_le_norm _).trans (total_error theta h1 h2)
  rwa [Complex.sub_re, Complex.re_ofReal_mul, Complex.exp_ofReal_mul_I_re] at h

theorem sin_error (theta : ℤ) (h1 : -1871839748 ≤ theta) (h2 : theta ≤ 1871839748) :
    |((runInt theta 32).2.1 : ℝ) - 2 ^ 30 * sin ((theta : ℝ) / 2 ^ 30)| ≤ 96 := by
  have h := (Complex.abs_im_le_norm _).trans (total_error theta h1 h2)
  rwa [Complex.sub_im, Complex.im_ofReal_mul, Complex.exp_ofReal_mul_I_im] at h

end TinyGarble.Proof.Cordic
