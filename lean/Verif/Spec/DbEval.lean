import Verif.Model.DbEval
import Verif.Spec.DbSplits
import Verif.Spec.Evaluation

/-! # Evaluation of database datasets -/

namespace DRec.Spec

open Conc

/-- Programs run as threads: again and again one of them makes its next step. -/
inductive ProgRuns {α : Type} : World → List (DbProg α) → World → List (DbProg α) → Prop
  | refl (w : World) (ps : List (DbProg α)) : ProgRuns w ps w ps
  | step {w : World} {ps : List (DbProg α)} {t : Nat} {p : DbProg α} {w' : World} {ps' : List (DbProg α)} :
      ps[t]? = some p → ProgRuns (p.step w).1 (ps.set t (p.step w).2) w' ps' → ProgRuns w ps w' ps'

/-- For some interleaving of the tasks, these are their results, in the order of the users: the users of the test set
are listed first (`ranking_evaluation.py:95-116`, `recommendation_evaluation.py:81-105`). -/
def DbEvaluation (w : World) (test : Nat) (n : Option Nat) (task : Val → Nat → DbProg (Outcome EvalData))
    (outs : List (Except Err (Outcome EvalData))) : Prop :=
  ∃ w1 j us w', dbUnique w test "user" = (w1, .ok (j, us)) ∧
    ProgRuns w1 ((us.take (n.getD us.length)).zipIdx.map fun p => task p.1 p.2) w' (outs.map .ret)

/-- Integer users and items, number interactions. -/
structure Evaluable (m : Mem) : Prop where
  users : IntUsers m
  items : IntItems m
  numbers : ∀ r ∈ m.rows, ∃ q, r.get "interaction" = .num q

/-- The same as column types of a database dataset. -/
def EvalTypes (x : Inst) : Prop :=
  ∀ ty, x.types = some ty → ty "user" = .int ∧ ty "item" = .int ∧ ty "interaction" ≠ .obj

/-- The threshold is printed as a decimal number. -/
def Prints (thr : List Char) (t : ℚ) : Prop := ∃ lit : SLit, lit.Writable ∧ lit.text = thr ∧ lit.value = .num t

/-- No negative items have to be generated. -/
def NoGeneration (a : EvalArgs) : Prop := a.nNeg = none ∨ a.generate = false

end DRec.Spec
