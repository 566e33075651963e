import Verif.Spec.Mem

/-! # What a thread that asks for an interaction vector should get -/

namespace DRec.Conc

open Spec

/-- The answer to a request: the totals of the interactions, or the exception for an unknown id. -/
def VecAnswer (m : Mem) (q : VecReq) (r : Except Err (List ℚ)) : Prop :=
  (q.Known m → r = .ok (vecSpec m q)) ∧ (¬ q.Known m → r = .error .notFound)

end DRec.Conc
