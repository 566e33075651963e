import Verif.Model.EvalCall

/-!
# Arguments of an evaluation that make sense
-/

namespace DRec.Spec

/-- Numbers of users, positive interactions and recommendations that make sense. -/
def Sensible (c : EvalCall) : Prop :=
  (∀ n, c.nUsers = some n → 0 < n) ∧ (∀ n, c.nPos = some n → 0 < n) ∧ ∀ k ∈ c.ks, 0 < k

/-- A number of negatives that makes sense: positive, and given when negatives are to be generated. -/
def SensibleNeg (c : EvalCall) : Prop :=
  (∀ n, c.nNeg = some (.int n) → 0 < n) ∧ (∀ q, c.nNeg = some (.float q) → 0 < q) ∧
    (c.generate = true → c.nNeg ≠ none)

/-- `a` is what the tasks should be started with: the numbers of the call, and the threshold of the model unless
another one is given. -/
structure Passes (c : EvalCall) (thr : ℚ) (a : EvalArgs) : Prop where
  given : ∀ t, c.threshold = some t → a.threshold = t
  default : c.threshold = none → a.threshold = thr
  allPos : c.nPos = none → a.nPos = none
  pos : ∀ n : Nat, c.nPos = some n → a.nPos = some n
  allNeg : c.nNeg = none → a.nNeg = none
  neg : ∀ n : Nat, c.nNeg = some (.int n) → a.nNeg = some (.count n)
  ratio : ∀ q, c.nNeg = some (.float q) → a.nNeg = some (.ratio q)
  generate : a.generate = c.generate
  novelty : a.novelty = c.novelty

end DRec.Spec
