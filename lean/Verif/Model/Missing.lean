import Verif.Model.Knn
import Verif.Model.Similarity
import Verif.Model.Metrics
import Mathlib.Algebra.Order.Monoid.WithTop

/-!
# Missing interactions in memory

An empty cell of a column of numbers is NaN after `pd.read_csv` (`mem_dataset.py:37-38`; only columns of texts are filled,
`mem_dataset.py:72-75`), and NaN passes through the functions below.  Everything else about them is as in the models of the
same functions without missing values (`Model/Mem`, `Model/Knn`, `Model/Similarity`, `Model/Metrics`).
-/

namespace DRec.Miss

open DRec.Metrics

/-- A number that may be NaN, written `⊤`.  Of the structure of `WithTop` only the addition is used: a sum with NaN is NaN
(`float`, `numpy.float64`). -/
abbrev Num (K : Type) := WithTop K

/-- The number, if it is one. -/
def val? {K : Type} (x : Num K) : Option K := WithTop.recTopCoe (C := fun _ => Option K) none some x

/-- A record of a dataset with internal ids. -/
structure Rec where
  uid : Nat
  iid : Nat
  x : Num ℚ

/-! ## Datasets -/

/-- `values > value` and the like (`mem_dataset.py:438-467`) for one cell: with NaN only `!=` is true. -/
def cmp (op : Op) (x : Num ℚ) (v : ℚ) : Bool :=
  WithTop.recTopCoe (C := fun _ => Bool) (decide (op = .ne)) (fun q => op.onRat q v) x

/-- `select(f'interaction {op} {v}')` (`mem_dataset.py:385-478`). -/
def selectX (op : Op) (v : ℚ) (rs : List Rec) : List Rec := rs.filter fun r => cmp op r.x v

/-- `max('interaction')` (`mem_dataset.py:232-235`): pandas skips NaN; NaN if there is nothing else. -/
def maxX (rs : List Rec) : Num ℚ :=
  match rs.filterMap fun r => val? r.x with
  | [] => ⊤
  | v :: vs => ((vs.foldl max v : ℚ) : Num ℚ)

/-- `min('interaction')` (`mem_dataset.py:237-240`). -/
def minX (rs : List Rec) : Num ℚ :=
  match rs.filterMap fun r => val? r.x with
  | [] => ⊤
  | v :: vs => ((vs.foldl min v : ℚ) : Num ℚ)

/-- `min_interaction` after `fit` (`recommender_abc.py:140-141`). -/
def minInteraction (rs : List Rec) : Num ℚ := if minX rs = 1 then 0 else minX rs

/-- One cell of the interaction matrix (`mem_dataset.py:480-496`): `csr_matrix` adds up the values of a pair. -/
def entry (rs : List Rec) (u i : Nat) : Num ℚ := ((rs.filter fun r => r.uid = u ∧ r.iid = i).map (·.x)).sum

/-! ## Similarities -/

/-- A function of a number; NaN gives NaN. -/
def lift {K : Type} (f : K → K) : Num K → Num K := WithTop.map f

/-- A function of two numbers; NaN gives NaN. -/
def lift₂ {K : Type} (f : K → K → K) : Num K → Num K → Num K := WithTop.map₂ f

/-- `sum_numerator / (math.sqrt(sum_denominator_i) * math.sqrt(sum_denominator_j))` (`similarity.py:54`, `165`). -/
noncomputable def cosOfM (l : List (Num ℝ × Num ℝ)) : Num ℝ :=
  lift₂ (· / ·) (l.map fun p => lift₂ (· * ·) p.1 p.2).sum
    (lift₂ (· * ·) (lift Real.sqrt (l.map fun p => lift (· ^ 2) p.1).sum) (lift Real.sqrt (l.map fun p => lift (· ^ 2) p.2).sum))

open Classical in
/-- One pair of rows of `cosine_sim_cf` (`similarity.py:36-55`). -/
noncomputable def cosineCfM (a b : SRow (Num ℝ)) : Option (Num ℝ) :=
  if ((pairsOf a b).map fun p => lift₂ (· * ·) p.1 p.2).sum = 0 then none else some (cosOfM (pairsOf a b))

/-- `common_ratings` minus the averages (`similarity.py:154-156`). -/
noncomputable def centredM (l : List (Num ℝ × Num ℝ)) : List (Num ℝ × Num ℝ) :=
  l.map fun p => (lift₂ (· - ·) p.1 (lift (· / l.length) (l.map (·.1)).sum),
    lift₂ (· - ·) p.2 (lift (· / l.length) (l.map (·.2)).sum))

open Classical in
/-- One pair of rows of `pearson_corr` (`similarity.py:134-166`). -/
noncomputable def pearsonM (a b : SRow (Num ℝ)) : Option (Num ℝ) :=
  if (pairsOf a b).length = 0 then none
  else if ((centredM (pairsOf a b)).map fun p => lift (· ^ 2) p.1).sum = 0 ∨
    ((centredM (pairsOf a b)).map fun p => lift (· ^ 2) p.2).sum = 0 then none
  else some (cosOfM (centredM (pairsOf a b)))

/-- `max_diff` (`similarity.py:176`): `matrix.max()` and `matrix.min()` reduce with `np.maximum` and `np.minimum`, which pass
NaN on. -/
def maxDiffM {K : Type} [Field K] [LinearOrder K] (rows : List (SRow (Num K))) (ncols : Nat) : Num K :=
  match allValues rows ncols with
  | [] => 0
  | v :: vs => lift₂ (· - ·) (vs.foldl (lift₂ max) v) (vs.foldl (lift₂ min) v)

/-- One pair of rows of `msd` (`similarity.py:188-206`). -/
def msdM {K : Type} [Field K] [DecidableEq K] (maxDiff : Num K) (a b : SRow (Num K)) : Option (Num K) :=
  let l := pairsOf a b
  if l.length = 0 then none
  else if maxDiff = 0 then none
  else some (lift (1 - ·) (lift (· / l.length)
    (l.map fun p => lift (· ^ 2) (lift₂ (· / ·) (lift₂ (· - ·) p.1 p.2) maxDiff)).sum))

/-- `msd` (`similarity.py:172-209`). -/
def msdSimM {K : Type} [Field K] [LinearOrder K] (es : List (Nat × Nat × Num K)) : List (Nat × Nat × Num K) :=
  upperLoop (msdM (maxDiffM (csrRows es) (csrCols es))) (csrRows es)

/-! ## Nearest neighbour recommenders -/

/-- `_get_sim` (`base_knn.py:125-131`). -/
def simM (sims : Nat × Nat → Option (Num ℚ)) (a b : Nat) : Num ℚ := (sims (max a b, min a b)).getD 0

/-- The neighbours of one id (`user_knn.py:53-58`, `item_knn.py:53-58`): `x[0] > 0` is false for NaN. -/
def neighboursM (k n : Nat) (sims : Nat × Nat → Option (Num ℚ)) (a : Nat) : List (ℚ × Nat) :=
  nlargest k (((List.range n).filter fun b => b ≠ a).filterMap fun b =>
    (val? (simM sims a b)).bind fun s => if 0 < s then some (s, b) else none)

/-- `_get_interaction` (`user_knn.py:60-62`): the interaction of the first record of the pair. -/
def interactionM (rs : List Rec) (u i : Nat) : Option (Num ℚ) := (rs.find? fun r => r.uid = u ∧ r.iid = i).map (·.x)

/-- Interactions and similarities of the neighbours (`base_knn.py:97-102`) of a user. -/
def usedM (rs : List Rec) (nbrs : List (ℚ × Nat)) (i : Nat) : List (Num ℚ × ℚ) :=
  nbrs.filterMap fun p => (interactionM rs p.2 i).map fun x => (x, p.1)

/-- `mean` and `weighted_mean` (`aggregation.py:1-25`). -/
def aggM : Agg → List (Num ℚ × ℚ) → Option (Num ℚ)
  | .mean, l => if 0 < l.length then some (lift (· / (l.length : ℚ)) (l.map (·.1)).sum) else none
  | .weighted, l =>
    if 0 < (l.map (·.2)).sum then some (lift (· / (l.map (·.2)).sum) (l.map fun p => lift (p.2 * ·) p.1).sum) else none

/-- `_predict` of `UserKNN` (`base_knn.py:94-107`) with the neighbours of the user, without averages. -/
def predictM (agg : Agg) (rs : List Rec) (nbrs : List (ℚ × Nat)) (i : Nat) : Option (Num ℚ) := aggM agg (usedM rs nbrs i)

/-! ## Evaluation -/

/-- `mean_squared_error` (`regression.py:22-25`): scikit-learn raises `ValueError` when one of the numbers is NaN. -/
def mseM (yt yp : List (Num ℚ)) : Except Err ℚ :=
  if ⊤ ∈ yt ∨ ⊤ ∈ yp then .error .badValue else mse (yt.filterMap val?) (yp.filterMap val?)

/-- The loop of `predictive_evaluation` (`predictive_evaluation.py:48-60`) over all test records. -/
def evalPairsM (predict : Nat → Nat → Option (Num ℚ)) (countNone : Bool) (test : List Rec) : List (Num ℚ × Num ℚ) :=
  test.filterMap fun r => match predict r.uid r.iid with
    | none => if countNone then some (r.x, 0) else none
    | some y => some (r.x, y)

/-- `predictive_evaluation` with the metric `MSE` (`predictive_evaluation.py:27-65`), before rounding. -/
def predictiveM (predict : Nat → Nat → Option (Num ℚ)) (countNone : Bool) (test : List Rec) : Except Err ℚ :=
  if test.length = 0 then .error .assertion
  else mseM ((evalPairsM predict countNone test).map (·.1)) ((evalPairsM predict countNone test).map (·.2))

/-- The relevant items of a user (`recommendation_evaluation.py:141-146`). -/
def relevantM (thr : ℚ) (test : List Rec) (u : Nat) : List Nat :=
  (selectX .ge thr (test.filter fun r => r.uid = u)).map (·.iid)

/-- `relevancies` (`recommendation_evaluation.py:166-167`): the interaction of the first record, 0 without a record; NaN counts
as true in `or`. -/
def relevancyM (test : List Rec) (u i : Nat) : Num ℚ := (interactionM test u i).getD 0

/-- The loop of `DCG.__call__` (`ranking.py:47-56`) from position `i`. -/
noncomputable def dcgM (strong : Bool) (rel : Nat → Num ℝ) : List Nat → Nat → Num ℝ
  | [], _ => 0
  | r :: rs, i => lift (fun x => gain strong x / Real.logb 2 (2 + i)) (rel r) + dcgM strong rel rs (i + 1)

open Classical in
/-- `NDCG.__call__` (`ranking.py:71-91`) for the items recommended.  `order` is what `sorted` leaves (with NaN among the keys
the order is not determined by the values). -/
noncomputable def ndcgM (strong : Bool) (rel : Nat → Num ℝ) (k : Nat) (recs order : List Nat) : Except Err (Num ℝ) :=
  if dcgM strong rel (order.take k) 0 = 0 then .error .zeroDiv
  else .ok (lift₂ (· / ·) (dcgM strong rel (recs.take k) 0) (dcgM strong rel (order.take k) 0))

/-- The reported value (`recommendation_evaluation.py:119-120`, `186-189`): the mean of the users whose metric did not
raise. -/
def reportedM {K : Type} [Field K] (vs : List (Except Err (Num K))) : Num K :=
  let l := vs.filterMap Except.toOption
  if l.length = 0 then 0 else lift (· / (l.length : K)) l.sum

end DRec.Miss
