import Verif.Model.FloatMetrics

/-! # Notions used in the statements about metrics in double precision -/

namespace DRec.Spec

open DRec.Metrics

/-- Functions of a C library with errors of at most two units of 2^-53, exact at 0. -/
structure AccurateLibm (F : Libm) : Prop where
  log2 : ∀ n : ℕ, 2 ≤ n → |(F.log2 n : ℝ) - Real.logb 2 n| ≤ Real.logb 2 n / 2 ^ 52
  exp2 : ∀ x : ℚ, 0 ≤ x → |(F.exp2 x : ℝ) - (2 : ℝ) ^ (x : ℝ)| ≤ (2 : ℝ) ^ (x : ℝ) / 2 ^ 52
  exp2_zero : F.exp2 0 = 1

/-- Relevancies as real numbers. -/
noncomputable def exactRels {α : Type} (rels : List (α × ℚ)) : List (α × ℝ) := rels.map fun p => (p.1, (p.2 : ℝ))

end DRec.Spec
