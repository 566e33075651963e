import Mathlib.Analysis.SpecialFunctions.Sqrt

/-! # The exact scores of DMF for given representations -/

namespace DRec.Spec

/-- The length of a vector, at least 1e-6. -/
noncomputable def vecLen (x : List ℝ) : ℝ := max (Real.sqrt (x.map fun a => a ^ 2).sum) (1 / 10 ^ 6)

/-- The cosine of two vectors (up to the bound of the lengths), at least 1e-6. -/
noncomputable def exactScore (x y : List ℝ) : ℝ := max (1 / 10 ^ 6) ((List.zipWith (· * ·) x y).sum / (vecLen x * vecLen y))

/-- How far a score may be off for representations of size `n`. -/
noncomputable def scoreError (n : Nat) : ℝ := (3 * n + 16) / 2 ^ 24

end DRec.Spec
