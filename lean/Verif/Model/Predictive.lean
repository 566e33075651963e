import Verif.Model.DbSplits
import Verif.Model.Evaluation
import Verif.Model.Recommender
import Verif.Model.KnnMem

/-!
# Predictive evaluation of datasets (`DRecPy/Evaluation/Processes/predictive_evaluation.py`)

Simplification: predictions have no effect on the test dataset, so its records are read at once.
-/

namespace DRec

variable {K : Type} [Field K] [LinearOrder K] [FloorRing K]

/-- `user, item, interaction` of a record (`predictive_evaluation.py:48`). -/
def predictiveRec (r : Rec) : Val × Val × ℚ :=
  ((Conc.recRow r).get "user", (Conc.recRow r).get "item", sortKey "interaction" (Conc.recRow r))

/-- `predictive_evaluation` of a dataset in memory (`predictive_evaluation.py:27-65`). -/
def predictiveMem (predict : Val → Val → Except Err (Option ℚ)) (countNone : Bool) (n : Option Nat)
    (metric : List ℚ → List ℚ → Except Err K) (ds : Mem) : Except Err K :=
  if n.getD ds.len = 0 then .error .assertion
  else match ds.values (some ["user", "item", "interaction"]) with
    | .error e => .error e
    | .ok rs => predictiveEval predict countNone n metric (rs.map predictiveRec)

/-- `predictive_evaluation` of database dataset `i` (`predictive_evaluation.py:27-65`). -/
def predictiveDb (predict : Val → Val → Except Err (Option ℚ)) (countNone : Bool) (n : Option Nat)
    (metric : List ℚ → List ℚ → Except Err K) (w : World) (i : Nat) : Except Err K :=
  match w.len i with
  | none => .error .crash
  | some l =>
    if n.getD l = 0 then .error .assertion
    else match (w.read i (.values (some ["user", "item", "interaction"]))).2 with
      | .error e => .error e
      | .ok (.recs rs) => predictiveEval predict countNone n metric (rs.map predictiveRec)
      | .ok _ => .error .crash

/-- `model.predict(user, item, skip_errors)` of a nearest neighbour recommender fitted on `train`
(`predictive_evaluation.py:51`, `recommender_abc.py:354-383`); `lit` is the Python value of a cell. -/
def knnModel (cfg : KnnCfg) (train : Mem) (lit : Val → Lit) (skip : Bool) : Val → Val → Except Err (Option ℚ) :=
  fun u i => predict train true (knnPredict cfg (ratingsOf train) (fitKnn cfg (ratingsOf train) Knn.init)) (lit u) (lit i) skip

end DRec
