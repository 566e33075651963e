import Verif.Model.FloatKnn

/-!
# Cosine similarity of whole rows in floating point (`DRecPy/Recommender/Baseline/similarity.py:9-15`, `61-70`, `212-230`)

`cosine_similarity` of scikit-learn on sparse matrices: every row is divided by its norm (`inplace_csr_row_normalize_l2`),
then the matrix is multiplied with its transpose (`csr_matmat`).  Both add up in the order of the columns, one after the
other.  Simplifications as in `Model/FloatKnn`: exponents are unbounded, whole numbers are handled as doubles, and the cells
of a pair with several records are added up exactly.
-/

namespace DRec

/-- Norm of a row (`similarity.py:15`, `70`): rows whose squares add up to zero are left as they are. -/
noncomputable def rowNormFloat (a : SRow ℝ) : ℝ :=
  if sumFloat (a.map fun e => toFloat (e.2 ^ 2)) = 0 then 1 else toFloat √(sumFloat (a.map fun e => toFloat (e.2 ^ 2)))

/-- A row divided by its norm (`similarity.py:15`, `70`). -/
noncomputable def unitRowFloat (a : SRow ℝ) : SRow ℝ := a.map fun e => (e.1, toFloat (e.2 / rowNormFloat a))

/-- One cell of the product of a matrix with the transpose of another (`similarity.py:15`, `70`): only the columns stored in
both rows are visited. -/
noncomputable def dotFloat (a b : SRow ℝ) : ℝ :=
  sumFloat ((a.filter fun e => b.any fun e' => e.1 == e'.1).map fun e => toFloat (e.2 * (b.lookup e.1).getD 0))

/-- One pair of rows of `cosine_similarity` (`similarity.py:15`, `70`). -/
noncomputable def cosineRowFloat (a b : SRow ℝ) : Option ℝ :=
  if share a b then some (dotFloat (unitRowFloat a) (unitRowFloat b)) else none

/-- `cosine_sim` (`similarity.py:9-15`). -/
noncomputable def cosineFloat (es : List (Nat × Nat × ℝ)) : List (Nat × Nat × ℝ) := fullLoop cosineRowFloat (csrRows es)

/-- `_subtract_row_mean` (`similarity.py:212-230`) for one row; the difference of sparse matrices stores no zeros. -/
noncomputable def subtractMeanFloat (a : SRow ℝ) : SRow ℝ :=
  (a.map fun e => (e.1, toFloat (e.2 - toFloat (sumFloat (a.map (·.2)) / a.length)))).filter fun e => e.2 ≠ 0

/-- `adjusted_cosine_sim` (`similarity.py:61-70`). -/
noncomputable def adjustedFloat (es : List (Nat × Nat × ℝ)) : List (Nat × Nat × ℝ) :=
  fullLoop cosineRowFloat ((csrRows es).map subtractMeanFloat)

end DRec
