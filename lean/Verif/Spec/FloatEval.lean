import Verif.Model.FloatEval
import Verif.Spec.Evaluation
import Verif.Spec.Float

/-! # Notions used in the statements about evaluation in floating point -/

namespace DRec.Spec

variable {K : Type} [Field K] [LinearOrder K] [FloorRing K]

/-- Adding up numbers one after the other, every sum rounded. -/
def floatSum (xs : List K) : K := xs.foldl (fun s x => toFloat (s + x)) 0

/-- The rounded mean of numbers added up in this order, 0 without numbers. -/
def floatReported (xs : List K) : K :=
  if xs = [] then 0 else toFloat (round4 (toFloat (floatSum xs / (xs.length : K))))

/-- All tasks have run to their end in some interleaving, leaving these shared variables. -/
def FloatRun (metrics : List (EvalMetric K)) (ks : List Nat) (tasks : List (List EAct))
    (m : (v : EVar) → v.Ty K) : Prop :=
  ∃ n c, Steps n (floatStart metrics ks tasks) c ∧ c.Complete ∧ c.mem = m

/-- The mean is further than `eps` away from the numbers halfway between two four-digit decimal numbers. -/
def NoTie (eps mean : K) : Prop := ∀ j : Int, eps < |mean - (2 * j + 1) / 20000|

end DRec.Spec
