import Verif.Model.Recommender
import Verif.Model.Evaluation

/-!
# A fitted recommender as the model of an evaluation

The evaluation processes call `rank` and `recommend` of the recommender
(`ranking_evaluation.py:222`, `recommendation_evaluation.py:164-165`).
-/

namespace DRec

/-- The Python value of an id cell that is passed on to the recommender (`recommendation_evaluation.py:164`,
`ranking_evaluation.py:222`).  Simplification: numbers are whole, as in integer id columns. -/
def idLit : Val → Lit
  | .num q => .int q.floor
  | .str s => .str s
  | .null => .str "None"

/-- The lists returned by `recommend` and `rank` (`recommender_abc.py:411,452`); unknown internal ids, which
do not occur, would be `None`. -/
def rawPairs (l : List (ℚ × Option Val)) : List (ℚ × Val) := l.map fun p => (p.1, p.2.getD .null)

/-- A recommender fitted on a dataset with internal ids, with `_rank` of the base class
(`recommender_abc.py:391-462`), as it is used by `ranking_evaluation.py:222` and
`recommendation_evaluation.py:164-165`. -/
def fittedModel (m : Mem) (f : PredictFn ℚ) : EvalModel where
  train := m
  nItems := nItemsOf m
  rank u items novelty := (rank m (baseRank m f) (idLit u) (items.map idLit) novelty true none).map rawPairs
  recommend u n novelty low := (recommend m (baseRank m f) (idLit u) (some n) novelty low).map rawPairs

end DRec
