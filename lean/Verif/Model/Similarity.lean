import Mathlib.Data.List.Sort
import Mathlib.Data.List.Dedup
import Mathlib.Analysis.Real.Sqrt
import Mathlib.Algebra.BigOperators.Group.List.Basic

/-!
# Similarity metrics (`DRecPy/Recommender/Baseline/similarity.py`)

A sparse matrix is the list of its rows, a row the list of its stored cells (column and value).  Stored
zeros are cells.  Arithmetic is exact.  `NaN` (a division by zero in numpy) is no entry: `_compute_neighbours`
drops it because `nan > 0` is false.
-/

namespace DRec

/-- The stored cells of one row: `matrix.rows[i]` and `matrix.data[i]` zipped. -/
abbrev SRow (K : Type) := List (Nat × K)

/-- `csr_matrix((values, (rows, cols)))` (`user_knn.py:37`, `item_knn.py:37`): as many rows as the largest row
index asks for, columns in order, the values of a repeated cell added up. -/
def csrRows {K : Type} [AddCommMonoid K] (es : List (Nat × Nat × K)) : List (SRow K) :=
  (List.range ((es.map fun e => e.1 + 1).foldr max 0)).map fun i =>
    (((es.filter fun e => e.1 = i).map fun e => e.2.1).dedup.insertionSort (· ≤ ·)).map fun c =>
      (c, ((es.filter fun e => e.1 = i ∧ e.2.1 = c).map fun e => e.2.2).sum)

/-- `matrix.shape[1]`. -/
def csrCols {K : Type} (es : List (Nat × Nat × K)) : Nat := (es.map fun e => e.2.1 + 1).foldr max 0

/-- `sorted([(item, idx) for idx, item in enumerate(matrix.rows[i])])` (`similarity.py:31`, `129`, `183`). -/
def userItems {K : Type} (row : SRow K) : List (Nat × Nat) :=
  (row.zipIdx.map fun p => (p.1.1, p.2)).insertionSort fun p q => p.1 < q.1 ∨ p.1 = q.1 ∧ p.2 ≤ q.2

/-- The walk while the first pointer stays on `x`; `next` is the walk after it moves. -/
def walkStep {α β : Type} (x : Nat × α) (next : List (Nat × β) → List (α × β)) : List (Nat × β) → List (α × β)
  | [] => []
  | y :: ys =>
    if x.1 > y.1 then walkStep x next ys
    else if x.1 < y.1 then next (y :: ys)
    else (x.2, y.2) :: next ys

/-- The two pointer loop (`similarity.py:38-51`, `98-107`, `137-150`, `190-202`): what it visits, in order.  The lists
are what is left after the two counters. -/
def walk {α β : Type} : List (Nat × α) → List (Nat × β) → List (α × β)
  | [], _ => []
  | x :: xs, ys => walkStep x (walk xs) ys

/-- `i_ratings[i_idx], j_ratings[j_idx]` for every visit (`similarity.py:45-47`, `144-146`, `197-199`). -/
def pairsOf {K : Type} [Zero K] (a b : SRow K) : List (K × K) :=
  (walk (userItems a) (userItems b)).map fun p => ((a.map (·.2)).getD p.1 0, (b.map (·.2)).getD p.2 0)

/-- `for i in range(n): for j in range(i, n)` with the value in both cells (`similarity.py:33-56`, `93-112`, `131-167`,
`185-207`). -/
def upperLoop {K : Type} (f : SRow K → SRow K → Option K) (rows : List (SRow K)) : List (Nat × Nat × K) :=
  (List.range rows.length).flatMap fun i => (List.range' i (rows.length - i)).flatMap fun j =>
    match f (rows.getD i []) (rows.getD j []) with
    | none => []
    | some s => if i ≠ j then [(i, j, s), (j, i, s)] else [(i, j, s)]

/-- All cells of a sparse matrix product or quotient. -/
def fullLoop {K : Type} (f : SRow K → SRow K → Option K) (rows : List (SRow K)) : List (Nat × Nat × K) :=
  (List.range rows.length).flatMap fun i => (List.range rows.length).flatMap fun j =>
    match f (rows.getD i []) (rows.getD j []) with
    | none => []
    | some s => [(i, j, s)]

/-! ## Metrics with a walk -/

/-- `sum_numerator / (math.sqrt(sum_denominator_i) * math.sqrt(sum_denominator_j))` (`similarity.py:54`, `165`). -/
noncomputable def cosOf (l : List (ℝ × ℝ)) : ℝ :=
  (l.map fun p => p.1 * p.2).sum / (√(l.map fun p => p.1 ^ 2).sum * √(l.map fun p => p.2 ^ 2).sum)

/-- One pair of rows of `cosine_sim_cf` (`similarity.py:36-55`). -/
noncomputable def cosineCf (a b : SRow ℝ) : Option ℝ :=
  if ((pairsOf a b).map fun p => p.1 * p.2).sum = 0 then none else some (cosOf (pairsOf a b))

/-- `common_ratings` minus the averages (`similarity.py:154-156`). -/
noncomputable def centred (l : List (ℝ × ℝ)) : List (ℝ × ℝ) :=
  l.map fun p => (p.1 - (l.map (·.1)).sum / l.length, p.2 - (l.map (·.2)).sum / l.length)

/-- One pair of rows of `pearson_corr` (`similarity.py:134-166`). -/
noncomputable def pearson (a b : SRow ℝ) : Option ℝ :=
  if (pairsOf a b).length = 0 then none
  else if ((centred (pairsOf a b)).map fun p => p.1 ^ 2).sum = 0 ∨ ((centred (pairsOf a b)).map fun p => p.2 ^ 2).sum = 0
  then none
  else some (cosOf (centred (pairsOf a b)))

/-- All values of a matrix: an implicit zero counts when not every cell is stored (`matrix.max()`, `matrix.min()`). -/
def allValues {K : Type} [Zero K] (rows : List (SRow K)) (ncols : Nat) : List K :=
  let stored := rows.flatten.map (·.2)
  if stored.length < rows.length * ncols then 0 :: stored else stored

/-- `max_diff` (`similarity.py:176`); zero instead of the exception for a matrix without cells. -/
def maxDiff {K : Type} [Field K] [LinearOrder K] (rows : List (SRow K)) (ncols : Nat) : K :=
  match allValues rows ncols with
  | [] => 0
  | v :: vs => vs.foldl max v - vs.foldl min v

/-- One pair of rows of `msd` (`similarity.py:188-206`). -/
def msd {K : Type} [Field K] [DecidableEq K] (maxDiff : K) (a b : SRow K) : Option K :=
  let l := pairsOf a b
  if l.length = 0 then none
  else if maxDiff = 0 then none
  else some (1 - (l.map fun p => ((p.1 - p.2) / maxDiff) ^ 2).sum / l.length)

/-- `sorted(matrix.rows[i])` (`similarity.py:91`). -/
def sortedCols {K : Type} (row : SRow K) : List (Nat × Unit) :=
  ((row.map (·.1)).insertionSort (· ≤ ·)).map fun c => (c, ())

/-- One pair of rows of `iterative_jacc` (`similarity.py:96-112`). -/
def jaccIter {K : Type} [Field K] (a b : SRow K) : Option K :=
  let common := (walk (sortedCols a) (sortedCols b)).length
  if common = 0 then none else some ((common : K) / ((a.length : K) + b.length - common))

/-! ## Metrics with matrix products -/

/-- Whether the product of the matrix with its transpose has a cell for the two rows. -/
def share {K : Type} (a b : SRow K) : Bool := a.any fun e => b.any fun e' => e.1 == e'.1

/-- One cell of the product of a matrix with the transpose of another. -/
def dot {K : Type} [Semiring K] (a b : SRow K) : K := (a.map fun e => e.2 * (b.lookup e.1).getD 0).sum

/-- `matrix.astype(bool).astype(int)` (`similarity.py:81`). -/
def indicator {K : Type} [Field K] [DecidableEq K] (a : SRow K) : SRow K := a.map fun e => (e.1, if e.2 = 0 then 0 else 1)

/-- One pair of rows of `matrix_jacc` (`similarity.py:80-85`). -/
def jaccMatrix {K : Type} [Field K] [DecidableEq K] (a b : SRow K) : Option K :=
  let x := indicator a
  let y := indicator b
  if share a b then
    if dot x x + dot y y - dot x y = 0 then none else some (dot x y / (dot x x + dot y y - dot x y))
  else none

/-- Euclidean norm of a row, one for a zero row (`sklearn.preprocessing.normalize`). -/
noncomputable def rowNorm (a : SRow ℝ) : ℝ :=
  if √(a.map fun e => e.2 ^ 2).sum = 0 then 1 else √(a.map fun e => e.2 ^ 2).sum

/-- One pair of rows of `cosine_similarity` (`similarity.py:15`, `70`). -/
noncomputable def cosine (a b : SRow ℝ) : Option ℝ :=
  if share a b then
    some (dot (a.map fun e => (e.1, e.2 / rowNorm a)) (b.map fun e => (e.1, e.2 / rowNorm b)))
  else none

/-- `_subtract_row_mean` (`similarity.py:212-230`) for one row; the difference of sparse matrices stores no zeros. -/
noncomputable def subtractMean (a : SRow ℝ) : SRow ℝ :=
  (a.map fun e => (e.1, e.2 - (a.map (·.2)).sum / a.length)).filter fun e => e.2 ≠ 0

/-! ## The functions on matrices -/

/-- `cosine_sim` (`similarity.py:9-15`). -/
noncomputable def cosineSim (es : List (Nat × Nat × ℝ)) : List (Nat × Nat × ℝ) := fullLoop cosine (csrRows es)

/-- `cosine_sim_cf` (`similarity.py:18-58`). -/
noncomputable def cosineSimCf (es : List (Nat × Nat × ℝ)) : List (Nat × Nat × ℝ) := upperLoop cosineCf (csrRows es)

/-- `adjusted_cosine_sim` (`similarity.py:61-70`). -/
noncomputable def adjustedCosineSim (es : List (Nat × Nat × ℝ)) : List (Nat × Nat × ℝ) :=
  fullLoop cosine ((csrRows es).map subtractMean)

/-- `jaccard_sim` (`similarity.py:73-119`); `memoryError` tells which of the two implementations runs. -/
def jaccardSim {K : Type} [Field K] [DecidableEq K] (memoryError : Bool) (es : List (Nat × Nat × K)) :
    List (Nat × Nat × K) :=
  if memoryError then upperLoop jaccIter (csrRows es) else fullLoop jaccMatrix (csrRows es)

/-- `pearson_corr` (`similarity.py:122-169`). -/
noncomputable def pearsonCorr (es : List (Nat × Nat × ℝ)) : List (Nat × Nat × ℝ) := upperLoop pearson (csrRows es)

/-- `msd` (`similarity.py:172-209`). -/
def msdSim {K : Type} [Field K] [LinearOrder K] (es : List (Nat × Nat × K)) : List (Nat × Nat × K) :=
  upperLoop (msd (maxDiff (csrRows es) (csrCols es))) (csrRows es)

end DRec
