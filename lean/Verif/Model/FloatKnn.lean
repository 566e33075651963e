import Verif.Model.Float
import Verif.Model.Knn
import Verif.Model.Similarity

/-!
# Nearest neighbour recommenders in floating point (`DRecPy/Recommender/Baseline/`)

The functions of `Model/Similarity` and `Model/Knn` that compute with numbers, with the result of every operation rounded to
a double.  Simplifications: exponents are unbounded, whole numbers are handled as doubles (they are exact below 2^53), the
cells of a pair with several records are added up exactly, `x ** 2` is rounded to nearest, and `sum` adds one by one (as
before Python 3.12).
-/

namespace DRec

variable {K : Type} [Field K] [LinearOrder K] [FloorRing K]

/-! ## Aggregation -/

/-- Adding up numbers one after the other, every sum rounded (`aggregation.py:7-9`, `20-22`, `similarity.py:47-49`). -/
def sumFloat (l : List K) : K := l.foldl (fun s x => toFloat (s + x)) 0

/-- `mean` (`aggregation.py:1-11`) of pairs of interaction and similarity. -/
def meanFloat (l : List (K × K)) : Option K :=
  if 0 < l.length then some (toFloat (sumFloat (l.map (·.1)) / (l.length : K))) else none

/-- `weighted_mean` (`aggregation.py:14-25`). -/
def weightedFloat (l : List (K × K)) : Option K :=
  if 0 < sumFloat (l.map (·.2)) then
    some (toFloat (sumFloat (l.map fun p => toFloat (p.2 * p.1)) / sumFloat (l.map (·.2))))
  else none

/-- The aggregation (`base_knn.py:59-64`). -/
def Agg.runFloat : Agg → List (K × K) → Option K
  | .mean, l => meanFloat l
  | .weighted, l => weightedFloat l

/-! ## Similarity metrics -/

/-- `jaccard_sim` (`similarity.py:73-119`): the counts are exact, the quotient is rounded. -/
def jaccardFloat (memoryError : Bool) (es : List (Nat × Nat × K)) : List (Nat × Nat × K) :=
  if memoryError then upperLoop (fun a b => (jaccIter a b).map toFloat) (csrRows es)
  else fullLoop (fun a b => (jaccMatrix a b).map toFloat) (csrRows es)

/-- One pair of rows of `msd` (`similarity.py:188-206`). -/
def msdRowFloat (maxDiff : K) (a b : SRow K) : Option K :=
  let l := pairsOf a b
  if l.length = 0 then none
  else if maxDiff = 0 then none
  else
    let d : K × K → K := fun p => toFloat (toFloat (p.1 - p.2) / maxDiff)
    some (toFloat (1 - toFloat (sumFloat (l.map fun p => toFloat (d p ^ 2)) / l.length)))

/-- `msd` (`similarity.py:172-209`). -/
def msdFloat (es : List (Nat × Nat × K)) : List (Nat × Nat × K) :=
  upperLoop (msdRowFloat (toFloat (maxDiff (csrRows es) (csrCols es)))) (csrRows es)

/-- `sum_numerator / (math.sqrt(sum_denominator_i) * math.sqrt(sum_denominator_j))` (`similarity.py:46-54`, `157-165`). -/
noncomputable def cosFloat (l : List (ℝ × ℝ)) : ℝ :=
  toFloat (sumFloat (l.map fun p => toFloat (p.1 * p.2)) /
    toFloat (toFloat √(sumFloat (l.map fun p => toFloat (p.1 ^ 2))) *
      toFloat √(sumFloat (l.map fun p => toFloat (p.2 ^ 2)))))

/-- One pair of rows of `cosine_sim_cf` (`similarity.py:36-55`). -/
noncomputable def cosineCfRowFloat (a b : SRow ℝ) : Option ℝ :=
  if sumFloat ((pairsOf a b).map fun p => toFloat (p.1 * p.2)) = 0 then none else some (cosFloat (pairsOf a b))

/-- `cosine_sim_cf` (`similarity.py:18-58`). -/
noncomputable def cosineCfFloat (es : List (Nat × Nat × ℝ)) : List (Nat × Nat × ℝ) :=
  upperLoop cosineCfRowFloat (csrRows es)

/-- `common_ratings` minus the averages (`similarity.py:154-156`). -/
noncomputable def centredFloat (l : List (ℝ × ℝ)) : List (ℝ × ℝ) :=
  l.map fun p => (toFloat (p.1 - toFloat (sumFloat (l.map (·.1)) / l.length)),
    toFloat (p.2 - toFloat (sumFloat (l.map (·.2)) / l.length)))

/-- One pair of rows of `pearson_corr` (`similarity.py:134-166`). -/
noncomputable def pearsonRowFloat (a b : SRow ℝ) : Option ℝ :=
  if (pairsOf a b).length = 0 then none
  else if sumFloat ((centredFloat (pairsOf a b)).map fun p => toFloat (p.1 ^ 2)) = 0 ∨
      sumFloat ((centredFloat (pairsOf a b)).map fun p => toFloat (p.2 ^ 2)) = 0 then none
  else some (cosFloat (centredFloat (pairsOf a b)))

/-- `pearson_corr` (`similarity.py:122-169`). -/
noncomputable def pearsonFloat (es : List (Nat × Nat × ℝ)) : List (Nat × Nat × ℝ) := upperLoop pearsonRowFloat (csrRows es)

/-! ## Fitting -/

/-- Shrinkage (`user_knn.py:50-51`). -/
def shrinkFloat (sh : Option ℚ) (c : Nat) (s : ℚ) : ℚ :=
  match sh with
  | none => s
  | some z => toFloat (s * toFloat ((c : ℚ) / toFloat (toFloat ((c : ℚ) + z) + toFloat (1 / 1000000))))

/-- One pass of the loop over the similarity matrix (`user_knn.py:39-51`, `item_knn.py:39-51`). -/
def addSimFloat (cfg : KnnCfg) (rs : List Rating) (sims : Nat × Nat → Option ℚ) (e : Nat × Nat × ℚ) :
    Nat × Nat → Option ℚ :=
  if e.1 ≤ e.2.1 then sims
  else if 0 < cfg.m ∧ coRated cfg.kind rs e.1 e.2.1 < cfg.m then sims
  else fun p => if p = (e.1, e.2.1) then some (shrinkFloat cfg.shrinkage (coRated cfg.kind rs e.1 e.2.1) e.2.2)
    else sims p

/-- `_pre_fit` (`base_knn.py:75-80`): `cfg.metric` gives doubles. -/
def fitFloat (cfg : KnnCfg) (rs : List Rating) (M : Knn) : Knn :=
  let sims := (cfg.metric (matrixEntries cfg.kind rs)).foldl (addSimFloat cfg rs) M.sims
  ⟨sims, computeNbrs cfg rs sims M.nbrs⟩

/-! ## Predicting and ranking -/

/-- `_predict_default` (`user_knn.py:64-67`, `item_knn.py:64-67`). -/
def defaultFloat (K : KKind) (rs : List Rating) (other : Nat) : Except Err (Option ℚ) :=
  let l := rs.filter fun r => K.other r = other
  if l.length = 0 then .error .zeroDiv else .ok (some (toFloat (sumFloat (l.map (·.x)) / (l.length : ℚ))))

/-- The end of `_predict` (`base_knn.py:104-107`), also used in ranking (`item_knn.py:88-91`). -/
def finishFloat (cfg : KnnCfg) (rs : List Rating) (l : List (ℚ × ℚ)) (other : Nat) : Except Err (Option ℚ) :=
  if l.length = 0 ∧ cfg.useAverages = true then defaultFloat cfg.kind rs other else .ok (cfg.agg.runFloat l)

/-- `_predict` (`base_knn.py:94-107`) for the own and other id. -/
def predictOwnFloat (cfg : KnnCfg) (rs : List Rating) (M : Knn) (own other : Nat) : Except Err (Option ℚ) :=
  match M.nbrs own with
  | none => .error .keyError
  | some nb => finishFloat cfg rs (usedPairs cfg.kind rs nb other) other

/-- `_predict` (`base_knn.py:94-107`). -/
def predictFloat (cfg : KnnCfg) (rs : List Rating) (M : Knn) : PredictFn ℚ
  | none, _ => .ok none
  | _, none => .ok none
  | some u, some i =>
    match cfg.kind with
    | .user => predictOwnFloat cfg rs M u i
    | .item => predictOwnFloat cfg rs M i u

/-- Score of one item (`user_knn.py:85-95`, `item_knn.py:88-96`). -/
def scoredFloat (cfg : KnnCfg) (rs : List Rating) (l : List (ℚ × ℚ)) (other i : Nat) : Except Err (Option (ℚ × Nat)) :=
  (finishFloat cfg rs l other).map fun p => p.map fun s => (s, i)

/-- `UserKNN._rank` (`user_knn.py:69-95`). -/
def userRankFloat (cfg : KnnCfg) (rs : List Rating) (M : Knn) : RankFn := fun uid iids n novelty =>
  let keep := knnItems rs uid iids novelty
  match M.nbrs uid with
  | none => .error .keyError
  | some nb =>
    let ts := neighbourTriples rs nb keep
    (((ts.map (·.1)).dedup.mapM fun i => scoredFloat cfg rs ((ts.filter fun t => t.1 = i).map (·.2)) i i)).map
      fun preds => nlargest n (preds.filterMap id)

/-- One item of `ItemKNN._rank` (`item_knn.py:79-94`). -/
def itemScoredFloat (cfg : KnnCfg) (rs : List Rating) (M : Knn) (uid i : Nat) : Except Err (Option (ℚ × Nat)) :=
  match M.nbrs i with
  | none => .error .keyError
  | some nb =>
    let own := rs.filter fun r => r.uid = uid
    scoredFloat cfg rs (nb.filterMap fun p =>
      if p.2 ∈ own.map (·.iid) then (own.find? fun r => r.iid = p.2).map fun r => (r.x, p.1) else none) uid i

/-- `ItemKNN._rank` (`item_knn.py:69-96`). -/
def itemRankFloat (cfg : KnnCfg) (rs : List Rating) (M : Knn) : RankFn := fun uid iids n novelty =>
  ((knnItems rs uid iids novelty).mapM (itemScoredFloat cfg rs M uid)).map fun preds => nlargest n (preds.filterMap id)

end DRec
