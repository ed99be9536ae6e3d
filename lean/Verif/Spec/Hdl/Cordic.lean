import Mathlib.Analysis.Real.Sqrt
import Mathlib.Algebra.BigOperators.Group.Finset.Basic

/-!
# Numbers of CORDIC
-/

namespace TinyGarble.Spec.Hdl

/-- The number that a word stands for, with `F` fractional bits. -/
noncomputable def fixedPoint {L : ℕ} (F : ℕ) (w : BitVec L) : ℝ := (w.toInt : ℝ) / 2 ^ F

/-- The factor by which `n` steps of CORDIC lengthen a vector. -/
noncomputable def lengthening (n : ℕ) : ℝ := ∏ j ∈ Finset.range n, √(1 + 1 / 4 ^ j)

end TinyGarble.Spec.Hdl
