import Verif.Proof.CordicReal

/-!
# CORDIC (C66)
-/

namespace TinyGarble.Props

open A23 Proof.Cordic

/-- The number that a word stands for: `1.0` is 2^30 (cordic.c:10). -/
noncomputable def fixed (w : Word) : ℝ := (w.toInt : ℝ) / 2 ^ 30

theorem cordicMain_eq (x y : Word) (o0 : List Word) (ho : o0.length = 2) : ∃ s c, cordicMain [x] [y] o0 = some [s, c] ∧
    s.toInt = (runInt (x ^^^ y).toInt 32).2.1 ∧ c.toInt = (runInt (x ^^^ y).toInt 32).1 := by
  obtain ⟨s, c, h, hs, hc⟩ := cordic_eq (x ^^^ y)
  obtain ⟨a, b, rfl⟩ : ∃ a b, o0 = [a, b] := by
    match o0, ho with
    | [a, b], _ => exact ⟨a, b, rfl⟩
  exact ⟨s, c, by simp [cordicMain, h, store], hs, hc⟩

/-- **C66**, defined: the program has no signed overflow and no access outside of an array, whatever the two inputs are, also for angles
outside of the range in which it is meant to be used. -/
theorem C66_defined (x y : Word) (o0 : List Word) (ho : o0.length = 2) : ∃ s c, cordicMain [x] [y] o0 = some [s, c] := by
  obtain ⟨s, c, h, _⟩ := cordicMain_eq x y o0 ho
  exact ⟨s, c, h⟩

/-- **C66**: if the two inputs are shares of an angle of at most 1.743 (more than π/2), the outputs are its sine and its cosine with an
error of at most 96/2^30. -/
theorem C66_cordic (x y : Word) (o0 : List Word) (ho : o0.length = 2) (h : |fixed (x ^^^ y)| ≤ 1.743) :
    ∃ s c, cordicMain [x] [y] o0 = some [s, c] ∧
      |fixed s - Real.sin (fixed (x ^^^ y))| ≤ 96 / 2 ^ 30 ∧ |fixed c - Real.cos (fixed (x ^^^ y))| ≤ 96 / 2 ^ 30 := by
  obtain ⟨s, c, hm, hs, hc⟩ := cordicMain_eq x y o0 ho
  have hb : |((x ^^^ y).toInt : ℝ)| ≤ 1871839748 := by
    rw [fixed, abs_div, abs_of_pos (show (0 : ℝ) < 2 ^ 30 by norm_num), div_le_iff₀ (by norm_num)] at h
    refine h.trans ?_
    norm_num
  obtain ⟨h1, h2⟩ := abs_le.mp hb
  have h1' : -1871839748 ≤ (x ^^^ y).toInt := by exact_mod_cast h1
  have h2' : (x ^^^ y).toInt ≤ 1871839748 := by exact_mod_cast h2
  have scale : ∀ (a : ℤ) (t : ℝ), |(a : ℝ) - 2 ^ 30 * t| ≤ 96 → |(a : ℝ) / 2 ^ 30 - t| ≤ 96 / 2 ^ 30 := by
    intro a t h
    have e : (a : ℝ) / 2 ^ 30 - t = ((a : ℝ) - 2 ^ 30 * t) / 2 ^ 30 := by field_simp
    rw [e, abs_div, abs_of_pos (show (0 : ℝ) < 2 ^ 30 by norm_num)]
    exact div_le_div_of_nonneg_right h (by norm_num)
  refine ⟨s, c, hm, ?_, ?_⟩
  · rw [fixed, hs]; exact scale _ _ (sin_error _ h1' h2')
  · rw [fixed, hc]; exact scale _ _ (cos_error _ h1' h2')

/-- In particular for every angle from -π/2 to π/2, the range named in the comment of the program (cordic.c:7). -/
theorem C66_half_pi (x y : Word) (o0 : List Word) (ho : o0.length = 2) (h : |fixed (x ^^^ y)| ≤ Real.pi / 2) :
    ∃ s c, cordicMain [x] [y] o0 = some [s, c] ∧
      |fixed s - Real.sin (fixed (x ^^^ y))| ≤ 96 / 2 ^ 30 ∧ |fixed c - Real.cos (fixed (x ^^^ y))| ≤ 96 / 2 ^ 30 := by
  refine C66_cordic x y o0 ho (h.trans ?_)
  have := Real.pi_lt_d2
  norm_num at *
  linarith

/-- The bound on the angle is needed: for the largest word, which stands for almost 2, the second output is more than 0.1 off. -/
theorem C66_outside : ∃ s c, cordicMain [0x7fffffff] [0] [0, 0] = some [s, c] ∧ 0.1 < |fixed c - Real.cos (fixed 0x7fffffff)| := by
  have h : ∃ s c : Word, cordicMain [0x7fffffff] [0] [0, 0] = some [s, c] ∧ -190000000 ≤ c.toInt := by
    have e : cordicMain [0x7fffffff] [0] [0, 0] = some [(cordic 0x7fffffff).get!.1, (cordic 0x7fffffff).get!.2] := by decide +kernel
    exact ⟨_, _, e, by decide +kernel⟩
  obtain ⟨s, c, hm, hc⟩ := h
  refine ⟨s, c, hm, ?_⟩
  have h1 : (-0.19 : ℝ) ≤ fixed c := by
    have : (-190000000 : ℝ) ≤ (c.toInt : ℝ) := by exact_mod_cast hc
    rw [fixed, le_div_iff₀ (by norm_num)]
    norm_num
    linarith
  have h2 : Real.cos (fixed 0x7fffffff) ≤ -0.3 := by
    have e : fixed 0x7fffffff = 2 - 1 / 2 ^ 30 := by
      have : (0x7fffffff : Word).toInt = 2147483647 := by decide
      rw [fixed, this]; norm_num
    have c1 := Real.cos_one_le
    have c0 := Real.cos_one_pos
    have c2 : Real.cos 2 = 2 * Real.cos 1 ^ 2 - 1 := by
      rw [← Real.cos_two_mul]; norm_num
    have c3 := Real.abs_cos_sub_cos_le (2 - 1 / 2 ^ 30) 2
    rw [e]
    have c4 := (abs_le.mp c3).2
    have c5 : |(2 - 1 / 2 ^ 30 : ℝ) - 2| = 1 / 2 ^ 30 := by norm_num
    rw [c5] at c4
    norm_num at *
    nlinarith
  rw [lt_abs]
  left
  norm_num at *
  linarith

/-- The hypotheses are met, and the outputs are not trivial: the angle 1 (shares 3 and 2^30 + 3) gives 0.8414709… and 0.5403023…. -/
example : |fixed (3 ^^^ 0x40000003)| ≤ 1.743 ∧ cordicMain [3] [0x40000003] [0, 0] = some [903522590, 580145183] := by
  refine ⟨?_, by decide +kernel⟩
  have : (3 ^^^ 0x40000003 : Word).toInt = 2 ^ 30 := by decide
  rw [fixed, this]; norm_num

end TinyGarble.Props
