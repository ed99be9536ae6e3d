import Verif.Proof.CordicReal

/-!
# The error of CORDIC with any table and any start
-/

namespace TinyGarble.Proof.Hdl.Cordic

open Real
open TinyGarble.Proof.Cordic (gain rotation floor_error small_factor)

/-- One step on integers, with the table `T`. -/
def stepInt (T : ℕ → ℤ) (k : ℕ) (s : ℤ × ℤ × ℤ) : ℤ × ℤ × ℤ :=
  if s.2.2 < 0 then (s.1 + s.2.1 / 2 ^ k, s.2.1 - s.1 / 2 ^ k, s.2.2 + T k)
  else (s.1 - s.2.1 / 2 ^ k, s.2.1 + s.1 / 2 ^ k, s.2.2 - T k)

def runInt (T : ℕ → ℤ) (s : ℤ × ℤ × ℤ) : ℕ → ℤ × ℤ × ℤ
  | 0 => s
  | k + 1 => stepInt T k (runInt T s k)

variable (T : ℕ → ℤ) (s : ℤ × ℤ × ℤ)

noncomputable def sgn (k : ℕ) : ℝ := if (runInt T s k).2.2 < 0 then -1 else 1

theorem sgn_sq (k : ℕ) : sgn T s k ^ 2 = 1 := by
  unfold sgn; split <;> norm_num

theorem sgn_abs (k : ℕ) : |sgn T s k| = 1 := by
  unfold sgn; split <;> norm_num

noncomputable def vec (k : ℕ) : ℂ := ⟨((runInt T s k).1 : ℝ), ((runInt T s k).2.1 : ℝ)⟩

noncomputable def ideal : ℕ → ℂ
  | 0 => vec T s 0
  | k + 1 => ideal k * ⟨1, sgn T s k / 2 ^ k⟩

noncomputable def angle : ℕ → ℝ
  | 0 => 0
  | k + 1 => angle k + sgn T s k * arctan (1 / 2 ^ k)

theorem ideal_eq (k : ℕ) : ideal T s k = vec T s 0 * ((gain k : ℝ) * Complex.exp ((angle T s k : ℝ) * Complex.I)) := by
  induction k with
  | zero => simp [ideal, gain, angle]
  | succ k ih =>
    have e1 : (sgn T s k / 2 ^ k) ^ 2 = (1 / 2 ^ k) ^ 2 := by
      rw [div_pow, sgn_sq, div_pow, one_pow]
    have e2 : arctan (sgn T s k / 2 ^ k) = sgn T s k * arctan (1 / 2 ^ k) := by
      unfold sgn
      split
      · rw [neg_div, arctan_neg]; ring
      · ring
    have e3 : gain (k + 1) = gain k * √(1 + (1 / 2 ^ k) ^ 2) := Finset.prod_range_succ _ _
    rw [ideal, ih, rotation, e1, e2, e3, angle]
    push_cast
    rw [add_mul, Complex.exp_add]
    ring

theorem norm_factor (k : ℕ) : ‖(⟨1, sgn T s k / 2 ^ k⟩ : ℂ)‖ ≤ 1 + (1 / 2 ^ k) ^ 2 / 2 := by
  rw [rotation, norm_mul, Complex.norm_exp_ofReal_mul_I, mul_one, Complex.norm_real, norm_of_nonneg (by positivity),
    div_pow, sgn_sq]
  apply Real.sqrt_le_iff.mpr
  constructor
  · positivity
  · have : (0 : ℝ) ≤ (1 / 2 ^ k) ^ 2 := by positivity
    rw [div_pow, one_pow] at *
    nlinarith

theorem rounding (k : ℕ) : ‖vec T s (k + 1) - vec T s k * ⟨1, sgn T s k / 2 ^ k⟩‖ ≤ 1.4143 := by
  obtain ⟨a1, a2⟩ := abs_le.mp (floor_error (runInt T s k).1 k)
  obtain ⟨b1, b2⟩ := abs_le.mp (floor_error (runInt T s k).2.1 k)
  rw [← abs_of_nonneg (norm_nonneg _), ← abs_of_nonneg (show (0 : ℝ) ≤ 1.4143 by norm_num)]
  apply sq_le_sq.mp
  rw [← Complex.normSq_eq_norm_sq, Complex.normSq_apply]
  set a := ((runInt T s k).1 : ℝ) / 2 ^ k - (((runInt T s k).1 / 2 ^ k : ℤ) : ℝ) with ha
  set b := ((runInt T s k).2.1 : ℝ) / 2 ^ k - (((runInt T s k).2.1 / 2 ^ k : ℤ) : ℝ) with hb
  by_cases h : (runInt T s k).2.2 < 0
  · have e1 : (vec T s (k + 1) - vec T s k * ⟨1, sgn T s k / 2 ^ k⟩).re = -b := by
      simp only [vec, runInt, stepInt, sgn, if_pos h, Complex.sub_re, Complex.mul_re, hb]
      push_cast; ring
    have e2 : (vec T s (k + 1) - vec T s k * ⟨1, sgn T s k / 2 ^ k⟩).im = a := by
      simp only [vec, runInt, stepInt, sgn, if_pos h, Complex.sub_im, Complex.mul_im, ha]
      push_cast; ring
    rw [e1, e2]; nlinarith
  · have e1 : (vec T s (k + 1) - vec T s k * ⟨1, sgn T s k / 2 ^ k⟩).re = b := by
      simp only [vec, runInt, stepInt, sgn, if_neg h, Complex.sub_re, Complex.mul_re, hb]
      push_cast; ring
    have e2 : (vec T s (k + 1) - vec T s k * ⟨1, sgn T s k / 2 ^ k⟩).im = -a := by
      simp only [vec, runInt, stepInt, sgn, if_neg h, Complex.sub_im, Complex.mul_im, ha]
      push_cast; ring
    rw [e1, e2]; nlinarith

theorem first_exact : vec T s 1 = ideal T s 1 := by
  apply Complex.ext
  · by_cases h : s.2.2 < 0 <;> simp [vec, ideal, runInt, stepInt, sgn, h]
  · by_cases h : s.2.2 < 0 <;> simp [vec, ideal, runInt, stepInt, sgn, h] <;> ring

theorem error (k : ℕ) : ‖vec T s (k + 1) - ideal T s (k + 1)‖ ≤ 1.5 * k := by
  induction k with
  | zero => rw [first_exact]; simp
  | succ k ih =>
    have e : vec T s (k + 1 + 1) - ideal T s (k + 1 + 1) =
        (vec T s (k + 1 + 1) - vec T s (k + 1) * ⟨1, sgn T s (k + 1) / 2 ^ (k + 1)⟩) +
        (vec T s (k + 1) - ideal T s (k + 1)) * ⟨1, sgn T s (k + 1) / 2 ^ (k + 1)⟩ := by
      rw [ideal]; ring
    rw [e]
    refine (norm_add_le _ _).trans ?_
    rw [norm_mul]
    have h1 := rounding T s (k + 1)
    have h2 := norm_factor T s (k + 1)
    have h3 := mul_le_mul ih h2 (norm_nonneg _) (by positivity)
    have h4 := small_factor k
    push_cast
    nlinarith

/-- The table holds the angles, with `F` fractional bits. -/
def Good (F N : ℕ) : Prop := ∀ k < N, |2 ^ F * arctan (1 / 2 ^ k) - (T k : ℝ)| ≤ 1

theorem angle_error {F N : ℕ} (hT : Good T F N) (k : ℕ) (hk : k ≤ N) :
    |2 ^ F * angle T s k - ((s.2.2 : ℝ) - ((runInt T s k).2.2 : ℝ))| ≤ (k : ℝ) := by
  induction k with
  | zero => simp [angle, runInt]
  | succ k ih =>
    have ih := ih (by omega)
    have ht := hT k (by omega)
    have e : 2 ^ F * angle T s (k + 1) - ((s.2.2 : ℝ) - ((runInt T s (k + 1)).2.2 : ℝ)) =
        (2 ^ F * angle T s k - ((s.2.2 : ℝ) - ((runInt T s k).2.2 : ℝ))) +
        sgn T s k * (2 ^ F * arctan (1 / 2 ^ k) - (T k : ℝ)) := by
      by_cases h : (runInt T s k).2.2 < 0
      · simp only [angle, runInt, stepInt, sgn, if_pos h]; push_cast; ring
      · simp only [angle, runInt, stepInt, sgn, if_neg h]; push_cast; ring
    rw [e]
    refine (abs_add_le _ _).trans ?_
    rw [abs_mul, sgn_abs, one_mul, Nat.cast_add, Nat.cast_one]
    exact add_le_add ih ht

/-- The sum of the entries `N - n`, ..., `N - 1` of the table, and `c`. -/
def rest (N : ℕ) (c : ℤ) : ℕ → ℤ
  | 0 => c
  | n + 1 => rest N c n + T (N - 1 - n)

theorem residual {N : ℕ} {c : ℤ} (hr : ∀ k < N, T k ≤ rest T N c (N - (k + 1))) (h1 : |s.2.2| ≤ rest T N c N) (k : ℕ) (hk : k ≤ N) :
    |(runInt T s k).2.2| ≤ rest T N c (N - k) := by
  induction k with
  | zero => exact h1
  | succ k ih =>
    have ih := ih (by omega)
    have e : N - k = (N - (k + 1)) + 1 := by omega
    have e' : N - 1 - (N - (k + 1)) = k := by omega
    have ht := hr k (by omega)
    rw [e, rest, e'] at ih
    obtain ⟨i1, i2⟩ := abs_le.mp ih
    rw [abs_le]
    simp only [runInt, stepInt]
    split <;> simp only <;> omega

theorem total_error {F N : ℕ} {c : ℤ} (hT : Good T F (N + 1)) (hr : ∀ k < N + 1, T k ≤ rest T (N + 1) c (N + 1 - (k + 1)))
    (h1 : |s.2.2| ≤ rest T (N + 1) c (N + 1)) :
    ‖vec T s (N + 1) - vec T s 0 * ((gain (N + 1) : ℝ) * Complex.exp (((s.2.2 : ℝ) / 2 ^ F : ℝ) * Complex.I))‖
      ≤ 1.5 * N + ‖vec T s 0‖ * gain (N + 1) * ((N + 1 + c) / 2 ^ F) := by
  have a1 := error T s N
  have a2 := angle_error T s hT (N + 1) (le_refl _)
  have r := residual T s hr h1 (N + 1) (le_refl _)
  rw [Nat.sub_self, rest] at r
  obtain ⟨r1, r2⟩ := abs_le.mp r
  have r1' : (-c : ℝ) ≤ ((runInt T s (N + 1)).2.2 : ℝ) := by exact_mod_cast r1
  have r2' : ((runInt T s (N + 1)).2.2 : ℝ) ≤ c := by exact_mod_cast r2
  have hp : (0 : ℝ) < 2 ^ F := by positivity
  have a4 : |angle T s (N + 1) - (s.2.2 : ℝ) / 2 ^ F| ≤ (N + 1 + c) / 2 ^ F := by
    obtain ⟨b1, b2⟩ := abs_le.mp a2
    push_cast at b1 b2
    have e : angle T s (N + 1) - (s.2.2 : ℝ) / 2 ^ F = (2 ^ F * angle T s (N + 1) - s.2.2) / 2 ^ F := by
      field_simp
    rw [e, abs_div, abs_of_pos hp]
    apply div_le_div_of_nonneg_right _ hp.le
    rw [abs_le]
    constructor <;> linarith
  have e : vec T s (N + 1) - vec T s 0 * ((gain (N + 1) : ℝ) * Complex.exp (((s.2.2 : ℝ) / 2 ^ F : ℝ) * Complex.I)) =
      (vec T s (N + 1) - ideal T s (N + 1)) +
      vec T s 0 * ((gain (N + 1) : ℝ) * (Complex.exp ((angle T s (N + 1) : ℝ) * Complex.I) - Complex.exp (((s.2.2 : ℝ) / 2 ^ F : ℝ) * Complex.I))) := by
    rw [ideal_eq]; push_cast; ring
  rw [e]
  refine (norm_add_le _ _).trans (add_le_add a1 ?_)
  have hg : 0 ≤ gain (N + 1) := Finset.prod_nonneg fun _ _ => Real.sqrt_nonneg _
  rw [norm_mul, norm_mul, Complex.norm_real, norm_of_nonneg hg, ← mul_assoc]
  exact mul_le_mul_of_nonneg_left ((TinyGarble.Proof.Cordic.exp_sub _ _).trans a4) (mul_nonneg (norm_nonneg _) hg)

end TinyGarble.Proof.Hdl.Cordic
