import Verif.Model.Knn
import Verif.Model.Float

/-! # Notions the properties of nearest neighbour recommenders in floating point are stated with -/

namespace DRec.Spec

open DRec

/-- Interactions are whole multiples of `2 ^ e`, at most `B * 2 ^ e` large (1 to 5, or half points from 0.5 to 5). -/
def OnGrid (e : ℤ) (B : ℕ) (rs : List Rating) : Prop := ∀ r ∈ rs, ∃ z : ℤ, |z| ≤ B ∧ r.x = z * 2 ^ e

/-- The same list with every score rounded to a double. -/
def rounded (l : List (ℚ × Nat)) : List (ℚ × Nat) := l.map fun p => (toFloat p.1, p.2)

end DRec.Spec
