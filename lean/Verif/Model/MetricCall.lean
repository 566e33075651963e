import Verif.Model.Evaluation
import Verif.Model.Metrics

/-!
# How the evaluation processes call a metric

`ranking_evaluation.py:228-246` and `recommendation_evaluation.py:171-189`: the arguments are chosen by
looking at `m.__call__.__code__.co_varnames`, the names of *all* local variables of the method, and any
exception of the call is swallowed.
-/

namespace DRec

/-- The keyword arguments of a call; `none` where nothing is passed.  (`best_item` may itself be
`None`.) -/
structure MArgs where
  recommendations : Option (List Val)
  relevantRecs : Option (List Val)
  relevantRec : Option (Option Val)
  relevancies : Option (List (Val × ℚ))
  k : Option Nat

/-- `params = dict()` (`ranking_evaluation.py:231`). -/
def MArgs.none : MArgs := ⟨.none, .none, .none, .none, .none⟩

/-- One round of the loop over the names (`ranking_evaluation.py:232-242`). -/
def MArgs.put (d : EvalData) (k : Nat) (a : MArgs) (x : String) : MArgs :=
  if x = "recommendations" then { a with recommendations := some d.recs }
  else if x = "relevant_recommendations" then { a with relevantRecs := some d.relevant }
  else if x = "relevant_recommendation" then { a with relevantRec := some d.best }
  else if x = "relevancies" then { a with relevancies := some d.relevancies }
  else if x = "k" then { a with k := some k }
  else a

/-- The names the loop reacts to. -/
def knownParams : List String :=
  ["recommendations", "relevant_recommendations", "relevant_recommendation", "relevancies", "k"]

/-- A metric instance as Python sees it: class name, declared parameters of `__call__` (without `self`),
its further local variables and its body.  `**kwargs` parameters are not modelled. -/
structure PyMetric (K : Type) where
  name : String
  params : List String
  locals : List String
  body : MArgs → Except Err K

/-- `m.__call__.__code__.co_varnames` (`ranking_evaluation.py:230`): parameters, then other locals. -/
def PyMetric.varnames {K : Type} (m : PyMetric K) : List String := "self" :: m.params ++ m.locals

/-- `m(**params)` (`ranking_evaluation.py:230-244`): an argument that is not a parameter raises. -/
def PyMetric.call {K : Type} (m : PyMetric K) (d : EvalData) (k : Nat) : Except Err K :=
  if ∀ x ∈ m.varnames, x ∈ knownParams → x ∈ m.params then
    m.body (m.varnames.foldl (MArgs.put d k) MArgs.none)
  else .error .typeError

/-- The metric as the evaluation uses it. -/
def PyMetric.toEval {K : Type} (m : PyMetric K) : EvalMetric K := ⟨m.name, m.call⟩

/-- A parameter without a default value. -/
def required {α β : Type} (x : Option α) (f : α → Except Err β) : Except Err β :=
  match x with
  | none => .error .typeError
  | some a => f a

/-! ## The metrics of the library (`Metrics/ranking.py`) -/

/-- `Precision` (`ranking.py:160-178`). -/
def precisionPy : PyMetric ℚ where
  name := "Precision"
  params := ["recommendations", "k", "relevant_recommendations"]
  locals := ["in_common"]
  body a := required a.recommendations fun recs => Metrics.precision recs a.k a.relevantRecs

/-- `Recall` (`ranking.py:139-157`). -/
def recallPy : PyMetric ℚ where
  name := "Recall"
  params := ["recommendations", "k", "relevant_recommendations"]
  locals := ["in_common"]
  body a := required a.recommendations fun recs => Metrics.recall recs a.k a.relevantRecs

/-- `HitRatio` (`ranking.py:94-114`); ids are compared by their text. -/
def hitRatioPy : PyMetric ℚ where
  name := "HitRatio"
  params := ["recommendations", "k", "relevant_recommendations"]
  locals := ["item"]
  body a := required a.recommendations fun recs => Metrics.hitRatio cellText recs a.k a.relevantRecs

/-- `ReciprocalRank` (`ranking.py:117-136`). -/
def reciprocalRankPy : PyMetric ℚ where
  name := "ReciprocalRank"
  params := ["recommendations", "k", "relevant_recommendation"]
  locals := []
  body a := required a.recommendations fun recs => .ok (Metrics.reciprocalRank recs a.k a.relevantRec.join)

/-- `FScore(beta)` (`ranking.py:181-212`). -/
def fscorePy (beta : ℚ) : PyMetric ℚ where
  name := "FScore"
  params := ["recommendations", "k", "relevant_recommendations"]
  locals := ["p", "r"]
  body a := required a.recommendations fun recs => Metrics.fscore beta recs a.k a.relevantRecs

/-- `AveragePrecision` (`ranking.py:215-245`). -/
def averagePrecisionPy : PyMetric ℚ where
  name := "AveragePrecision"
  params := ["recommendations", "k", "relevant_recommendations"]
  locals := ["_sum", "r", "i"]
  body a := required a.recommendations fun recs => Metrics.averagePrecision recs a.k a.relevantRecs

/-- The relevancies as real numbers (`float(relevancies[r])`, `ranking.py:49`). -/
def realRels (l : List (Val × ℚ)) : List (Val × ℝ) := l.map fun p => (p.1, (p.2 : ℝ))

/-- `DCG` (`ranking.py:20-56`). -/
noncomputable def dcgPy (strong : Bool) : PyMetric ℝ where
  name := "DCG"
  params := ["recommendations", "k", "relevancies"]
  locals := ["curr_dcg", "i", "r", "rel"]
  body a := required a.recommendations fun recs =>
    match a.relevancies with
    | none => .ok 0
    | some rels => Metrics.dcg strong recs a.k (realRels rels)

/-- `NDCG` (`ranking.py:59-91`). -/
noncomputable def ndcgPy (strong : Bool) : PyMetric ℝ where
  name := "NDCG"
  params := ["recommendations", "k", "relevancies"]
  locals := ["curr_dcg", "best_recommendations", "best_dcg"]
  body a := required a.recommendations fun recs => Metrics.ndcg strong recs a.k (a.relevancies.map realRels)

end DRec
