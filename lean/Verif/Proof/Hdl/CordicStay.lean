import Verif.Proof.Hdl.Cordic

/-!
# Where the registers of CORDIC stay positive
-/

namespace TinyGarble.Proof.Hdl.Cordic

open Real
open TinyGarble.Proof.Cordic (gain gain_eq)

theorem one_le_gain (k : ℕ) : 1 ≤ gain k := by
  unfold gain
  induction k with
  | zero => simp
  | succ k ih =>
    rw [Finset.prod_range_succ]
    have : (1 : ℝ) ≤ √(1 + (1 / 2 ^ k) ^ 2) := by
      rw [Real.one_le_sqrt]
      have : (0 : ℝ) ≤ (1 / 2 ^ k) ^ 2 := by positivity
      linarith
    nlinarith

theorem gain_mono {j k : ℕ} (h : j ≤ k) : gain j ≤ gain k := by
  induction k, h using Nat.le_induction with
  | base => exact le_refl _
  | succ k _ ih =>
    refine ih.trans ?_
    have e : gain (k + 1) = gain k * √(1 + (1 / 2 ^ k) ^ 2) := Finset.prod_range_succ _ _
    have h1 := one_le_gain k
    have : (1 : ℝ) ≤ √(1 + (1 / 2 ^ k) ^ 2) := by
      rw [Real.one_le_sqrt]
      have : (0 : ℝ) ≤ (1 / 2 ^ k) ^ 2 := by positivity
      linarith
    rw [e]
    nlinarith

theorem gain_le {k : ℕ} (h : k ≤ 32) : gain k ≤ 1.6468 := by
  refine (gain_mono h).trans ?_
  have := (abs_le.mp gain_eq).2
  norm_num at *
  linarith

variable (T : ℕ → ℤ)

/-- The angles of the intermediate vectors. -/
theorem angle_between {F N : ℕ} {c R z0 : ℤ} {x0 : ℤ} {m : ℝ} (hT : Good T F (N + 1)) (hr : ∀ k < N + 1, T k ≤ rest T (N + 1) c (N + 1 - (k + 1)))
    (hz : |z0| ≤ rest T (N + 1) c (N + 1)) (hR : ∀ k ≤ N + 1, 4 ≤ k → rest T (N + 1) c (N + 1 - k) ≤ R)
    (hm : m ≤ arctan (1 / 2 ^ 0) - arctan (1 / 2 ^ 1) - arctan (1 / 2 ^ 2)) (hm' : arctan (1 / 2 ^ 0) + arctan (1 / 2 ^ 1) + arctan (1 / 2 ^ 2) ≤ π / 2 - m)
    (h0 : 0 ≤ z0) (hlow : 2 ^ F * m ≤ z0 - R - (N + 1)) (hhigh : z0 + R + (N + 1) ≤ 2 ^ F * (π / 2 - m)) (k : ℕ) (hk1 : 1 ≤ k) (hk : k ≤ N + 1) :
    m ≤ angle T (x0, 0, z0) k ∧ angle T (x0, 0, z0) k ≤ π / 2 - m := by
  have p1 : 0 < arctan (1 / 2 ^ 1) := arctan_pos.2 (by norm_num)
  have p2 : 0 < arctan (1 / 2 ^ 2) := arctan_pos.2 (by norm_num)
  have s0 : sgn T (x0, 0, z0) 0 = 1 := by
    unfold sgn
    rw [if_neg]
    show ¬ z0 < 0
    omega
  have a1 : angle T (x0, 0, z0) 1 = arctan (1 / 2 ^ 0) := by
    rw [angle, s0, angle]
    ring
  have a2 : angle T (x0, 0, z0) 2 = arctan (1 / 2 ^ 0) + sgn T (x0, 0, z0) 1 * arctan (1 / 2 ^ 1) := by
    rw [angle, a1]
  have a3 : angle T (x0, 0, z0) 3 = arctan (1 / 2 ^ 0) + sgn T (x0, 0, z0) 1 * arctan (1 / 2 ^ 1) + sgn T (x0, 0, z0) 2 * arctan (1 / 2 ^ 2) := by
    rw [angle, a2]
  have hs : ∀ k, sgn T (x0, 0, z0) k = 1 ∨ sgn T (x0, 0, z0) k = -1 := by
    intro k
    unfold sgn
    split <;> simp
  by_cases h4 : 4 ≤ k
  · have h5 := angle_error T (x0, 0, z0) hT k hk
    have h6 := (residual T (x0, 0, z0) hr hz k hk).trans (hR k hk h4)
    obtain ⟨b1, b2⟩ := abs_le.mp h5
    obtain ⟨r1, r2⟩ := abs_le.mp h6
    have r1' : (-R : ℝ) ≤ ((runInt T (x0, 0, z0) k).2.2 : ℝ) := by exact_mod_cast r1
    have r2' : ((runInt T (x0, 0, z0) k).2.2 : ℝ) ≤ R := by exact_mod_cast r2
    have hk' : (k : ℝ) ≤ N + 1 := by exact_mod_cast hk
    have hp : (0 : ℝ) < 2 ^ F := by positivity
    dsimp only at b1 b2
    constructor
    · exact le_of_mul_le_mul_left (by linarith) hp
    · exact le_of_mul_le_mul_left (by linarith) hp
  · have : k = 1 ∨ k = 2 ∨ k = 3 := by omega
    rcases this with rfl | rfl | rfl
    · rw [a1]
      constructor <;> linarith
    · rw [a2]
      rcases hs 1 with h | h <;> rw [h] <;> constructor <;> linarith
    · rw [a3]
      rcases hs 1 with h | h <;> rcases hs 2 with h' | h' <;> rw [h, h'] <;> constructor <;> linarith

theorem stay {N : ℕ} (hN : N + 1 ≤ 32) {x0 z0 : ℤ} {m : ℝ} (hm0 : 0 ≤ m)
    (hb : ∀ k, 1 ≤ k → k ≤ N + 1 → m ≤ angle T (x0, 0, z0) k ∧ angle T (x0, 0, z0) k ≤ π / 2 - m)
    (hx0 : 0 ≤ x0) (hx : 1.5 * N ≤ x0 * (0.63 * m)) (k : ℕ) (hk : k ≤ N + 1) :
    0 ≤ (runInt T (x0, 0, z0) k).1 ∧ 0 ≤ (runInt T (x0, 0, z0) k).2.1
    ∧ ((runInt T (x0, 0, z0) k).1 : ℝ) ≤ x0 * 1.6468 + 1.5 * N ∧ ((runInt T (x0, 0, z0) k).2.1 : ℝ) ≤ x0 * 1.6468 + 1.5 * N := by
  have hx0' : (0 : ℝ) ≤ x0 := by exact_mod_cast hx0
  have hN0 : (0 : ℝ) ≤ N := Nat.cast_nonneg N
  rcases k with _ | k
  · refine ⟨hx0, le_refl _, ?_, ?_⟩
    · show (x0 : ℝ) ≤ _
      linarith
    · show ((0 : ℤ) : ℝ) ≤ _
      push_cast
      linarith
  · obtain ⟨b1, b2⟩ := hb (k + 1) (by omega) hk
    have he := error T (x0, 0, z0) k
    have hkN : (k : ℝ) ≤ N := by
      have : k ≤ N := by omega
      exact_mod_cast this
    have hv0 : vec T (x0, 0, z0) 0 = ((x0 : ℝ) : ℂ) := by
      apply Complex.ext <;> simp [vec, runInt]
    have hi : ideal T (x0, 0, z0) (k + 1) = ((x0 * gain (k + 1) : ℝ) : ℂ) * Complex.exp ((angle T (x0, 0, z0) (k + 1) : ℝ) * Complex.I) := by
      rw [ideal_eq, hv0]
      push_cast
      ring
    have g1 := one_le_gain (k + 1)
    have g2 : gain (k + 1) ≤ 1.6468 := gain_le (by omega)
    have hre := (Complex.abs_re_le_norm _).trans he
    have him := (Complex.abs_im_le_norm _).trans he
    rw [hi, Complex.sub_re, Complex.re_ofReal_mul, Complex.exp_ofReal_mul_I_re] at hre
    rw [hi, Complex.sub_im, Complex.im_ofReal_mul, Complex.exp_ofReal_mul_I_im] at him
    have vre : (vec T (x0, 0, z0) (k + 1)).re = ((runInt T (x0, 0, z0) (k + 1)).1 : ℝ) := rfl
    have vim : (vec T (x0, 0, z0) (k + 1)).im = ((runInt T (x0, 0, z0) (k + 1)).2.1 : ℝ) := rfl
    rw [vre] at hre
    rw [vim] at him
    obtain ⟨r1, r2⟩ := abs_le.mp hre
    obtain ⟨i1, i2⟩ := abs_le.mp him
    set θ := angle T (x0, 0, z0) (k + 1) with hθ
    have hpi : (0.63 : ℝ) ≤ 2 / π := by
      rw [le_div_iff₀ Real.pi_pos]
      have := Real.pi_lt_d2
      norm_num at *
      linarith
    have hsin : 0.63 * m ≤ sin θ := by
      have h1 := Real.mul_le_sin (x := θ) (by linarith) (by linarith)
      have h2 : (0.63 : ℝ) * m ≤ 2 / π * θ := mul_le_mul hpi b1 hm0 (by positivity)
      linarith
    have hcos : 0.63 * m ≤ cos θ := by
      have h1 := Real.mul_le_sin (x := π / 2 - θ) (by linarith) (by linarith)
      have h2 : (0.63 : ℝ) * m ≤ 2 / π * (π / 2 - θ) := mul_le_mul hpi (by linarith) hm0 (by positivity)
      rw [Real.sin_pi_div_two_sub] at h1
      linarith
    have hm1 : 0 ≤ 0.63 * m := by positivity
    have k1 : ∀ u : ℝ, 0.63 * m ≤ u → (x0 : ℝ) * (0.63 * m) ≤ x0 * gain (k + 1) * u := by
      intro u hu
      have : (x0 : ℝ) * (0.63 * m) ≤ x0 * u := mul_le_mul_of_nonneg_left hu hx0'
      have h' : (x0 : ℝ) * u ≤ x0 * gain (k + 1) * u := by
        have hu0 : 0 ≤ u := hm1.trans hu
        have : (x0 : ℝ) ≤ x0 * gain (k + 1) := by nlinarith
        exact mul_le_mul_of_nonneg_right this hu0
      linarith
    have k2 : ∀ u : ℝ, u ≤ 1 → (x0 : ℝ) * gain (k + 1) * u ≤ x0 * 1.6468 := by
      intro u hu
      have h1 : (x0 : ℝ) * gain (k + 1) ≤ x0 * 1.6468 := mul_le_mul_of_nonneg_left g2 hx0'
      have h2 : (x0 : ℝ) * gain (k + 1) * u ≤ x0 * gain (k + 1) * 1 := mul_le_mul_of_nonneg_left hu (by positivity)
      linarith
    have c1 := k1 _ hcos
    have c2 := k1 _ hsin
    have d1 := k2 _ (Real.cos_le_one θ)
    have d2 := k2 _ (Real.sin_le_one θ)
    refine ⟨?_, ?_, by linarith, by linarith⟩
    · have : (0 : ℝ) ≤ ((runInt T (x0, 0, z0) (k + 1)).1 : ℝ) := by linarith
      exact_mod_cast this
    · have : (0 : ℝ) ≤ ((runInt T (x0, 0, z0) (k + 1)).2.1 : ℝ) := by linarith
      exact_mod_cast this

end TinyGarble.Proof.Hdl.Cordic
