import Verif.Model.MetricCall

/-! # What a metric should be called with and what its mean should count -/

namespace DRec.Spec

/-- A metric that declares these parameters should get exactly these arguments. -/
def declaredArgs (params : List String) (d : EvalData) (k : Nat) : MArgs where
  recommendations := if "recommendations" ∈ params then some d.recs else none
  relevantRecs := if "relevant_recommendations" ∈ params then some d.relevant else none
  relevantRec := if "relevant_recommendation" ∈ params then some d.best else none
  relevancies := if "relevancies" ∈ params then some d.relevancies else none
  k := if "k" ∈ params then some k else none

/-- The value of a metric for a user, 0 for a user it cannot be computed for. -/
def valueOrZero {K : Type} [Zero K] (m : EvalMetric K) (k : Nat) (d : EvalData) : K :=
  (m.call d k).toOption.getD 0

/-- The mean over all given users, rounded. -/
def fullMean {K : Type} [Field K] [LinearOrder K] [FloorRing K] (m : EvalMetric K) (k : Nat)
    (users : List EvalData) : K :=
  if users = [] then 0 else round4 ((users.map (valueOrZero m k)).sum / (users.length : K))

end DRec.Spec
