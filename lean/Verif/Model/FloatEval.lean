import Verif.Model.Evaluation
import Verif.Model.MetricCall

/-!
# Evaluation with sums in floating point (`DRecPy/Evaluation/Processes/`)

The part of `Model/Evaluation` that adds up metric values, with every sum and quotient rounded to a double.
-/

namespace DRec

variable {K : Type} [Field K] [LinearOrder K] [FloorRing K]

/-- One metric and one `k`: `metric_sums[…][0] += m(**params)`, or nothing when the metric raises
(`ranking_evaluation.py:243-246`). -/
def addMetricFloat (d : EvalData) (s : Sums K) (p : EvalMetric K × Nat) : Sums K :=
  match p.1.call d p.2 with
  | .error _ => s
  | .ok v => Function.update s (p.1.name, p.2) (toFloat ((s (p.1.name, p.2)).1 + v), (s (p.1.name, p.2)).2 + 1)

/-- The section under `metric_lock` (`ranking_evaluation.py:227-246`). -/
def addMetricsFloat (metrics : List (EvalMetric K)) (ks : List Nat) (d : EvalData) (s : Sums K) : Sums K :=
  (metricPairs metrics ks).foldl (addMetricFloat d) s

/-- Effect of a critical section (`ranking_evaluation.py:157-160,227-246`). -/
def EAct.secFloat (metrics : List (EvalMetric K)) (ks : List Nat) : EAct → Sec (EVar.Ty K)
  | .metrics d => ⟨.sums, addMetricsFloat metrics ks d⟩
  | .count => ⟨.done, fun n => n + 1⟩

/-- All tasks submitted to the pool (`ranking_evaluation.py:107-116`). -/
def floatStart (metrics : List (EvalMetric K)) (ks : List Nat) (tasks : List (List EAct)) : Cfg (EVar.Ty K) :=
  Cfg.init evalInit (tasks.map (List.map (EAct.secFloat metrics ks)))

/-- One entry of the results (`ranking_evaluation.py:132-133`): a quotient, then `round(…, 4)`, which gives the double
nearest to the rounded decimal number. -/
def resultFloat (p : K × Nat) : K := if p.2 > 0 then toFloat (round4 (toFloat (p.1 / (p.2 : K)))) else 0

/-- The returned dictionary (`ranking_evaluation.py:132-133`). -/
def evalResultsFloat (metrics : List (EvalMetric K)) (ks : List Nat) (s : Sums K) : List ((String × Nat) × K) :=
  ((metricPairs metrics ks).map fun p => (p.1.name, p.2)).dedup.map fun key => (key, resultFloat (s key))

/-- A metric that ends with one quotient, as `Precision` and `Recall` (`ranking.py:157,178`). -/
def EvalMetric.rounded (m : EvalMetric K) : EvalMetric K := ⟨m.name, fun d k => (m.call d k).map toFloat⟩

end DRec
