import Mathlib.Analysis.Real.Sqrt
import Mathlib.Algebra.BigOperators.Group.List.Basic

/-! # Notions the properties of the cosine of whole rows in floating point are stated with -/

namespace DRec.Spec

/-- Cosine of two rows with values in the columns `ci` and `cj`, the columns `cs` in common: the product over the common
columns, each norm over all columns of the row; zero when a norm is zero. -/
noncomputable def cosRows (ci cj cs : List Nat) (f g : Nat → ℝ) : ℝ :=
  (cs.map fun c => f c * g c).sum / (√(ci.map fun c => f c ^ 2).sum * √(cj.map fun c => g c ^ 2).sum)

end DRec.Spec
