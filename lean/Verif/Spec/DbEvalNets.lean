import Verif.Model.DbEvalNets
import Verif.Spec.DbCache

/-! # Evaluations with recommenders that use the dictionaries of vectors -/

namespace DRec.Spec

open Conc

/-- Runs of a pool of evaluation tasks that share the dictionaries: in each step one of the tasks makes its next access. -/
inductive HRuns {α : Type} (lim : KKind → Nat) :
    World → VecStore → List (HProg α) → World → VecStore → List (HProg α) → Prop
  | refl (w : World) (D : VecStore) (ps : List (HProg α)) : HRuns lim w D ps w D ps
  | step {w : World} {D : VecStore} {ps : List (HProg α)} {t : Nat} {p : HProg α} {w' : World} {D' : VecStore}
      {ps' : List (HProg α)} : ps[t]? = some p →
      HRuns lim (p.step lim w D).1 (p.step lim w D).2.1 (ps.set t (p.step lim w D).2.2) w' D' ps' → HRuns lim w D ps w' D' ps'

/-- For some interleaving of the tasks, these are their results, in the order of the users: the users of the test set
are listed first (`ranking_evaluation.py:95-116`, `recommendation_evaluation.py:81-105`). -/
def HEvaluation (lim : KKind → Nat) (w : World) (D : VecStore) (test : Nat) (n : Option Nat)
    (task : Val → Nat → HProg (Outcome EvalData)) (outs : List (Except Err (Outcome EvalData))) : Prop :=
  ∃ w1 j us w' D', dbUnique w test "user" = (w1, .ok (j, us)) ∧
    HRuns lim w1 D ((us.take (n.getD us.length)).zipIdx.map fun p => task p.1 p.2) w' D' (outs.map .ret)

/-- Every result is the expected one or `KeyError`. -/
def RightOrMissing {α : Type} (outs res : List (Except Err α)) : Prop :=
  outs.length = res.length ∧ ∀ (t : Nat) o r, outs[t]? = some o → res[t]? = some r → o = r ∨ o = .error .keyError

end DRec.Spec
