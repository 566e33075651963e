import Verif.Model.Evaluation

/-!
# Calls of the evaluation processes (`DRecPy/Evaluation/Processes/`)

The part of `ranking_evaluation` and `recommendation_evaluation` before the first task: checks of the arguments,
the test set, the threshold and the number of users.  Numbers are given as Python numbers, so that they can be
zero or negative.  Simplifications: the metrics are a list of ranking metrics (`ranking_evaluation.py:86-90`), the
progress bars and the graph are left out.
-/

namespace DRec

/-- `n_neg_interactions` as given: an integer or a float. -/
inductive NegIn where
  | int (n : Int)
  | float (q : ℚ)

/-- The argument `ds_test`: left out, the training set object itself, or another object. -/
inductive TestSet where
  | omitted
  | train
  | other (ds : Mem)

/-- Arguments of a call; `k` is `[k]` when it was no list (`ranking_evaluation.py:76`). -/
structure EvalCall where
  test : TestSet
  nUsers : Option Int
  ks : List Int
  nPos : Option Int
  nNeg : Option NegIn
  generate : Bool
  novelty : Bool
  threshold : Option ℚ
  low : Option ℚ

/-- `x is None or x > 0`. -/
def noneOrPos : Option Int → Bool
  | none => true
  | some n => decide (0 < n)

/-- `n_neg_interactions is None or n_neg_interactions > 0` (`ranking_evaluation.py:66-67`). -/
def NegIn.positive : NegIn → Bool
  | .int n => decide (0 < n)
  | .float q => decide (0 < q)

/-- The assertions of `ranking_evaluation` in their order (`ranking_evaluation.py:63-77`). -/
def EvalCall.checkRanking (c : EvalCall) : Except Err Unit :=
  if !noneOrPos c.nUsers then .error .assertion
  else if !noneOrPos c.nPos then .error .assertion
  else if !(match c.nNeg with | none => true | some n => n.positive) then .error .assertion
  else if c.generate && c.nNeg.isNone then .error .crash
  else if !c.ks.all (fun k => decide (0 < k)) then .error .assertion
  else .ok ()

/-- The assertions of `recommendation_evaluation` (`recommendation_evaluation.py:58-65`). -/
def EvalCall.checkRecommendation (c : EvalCall) : Except Err Unit :=
  if !noneOrPos c.nUsers then .error .assertion
  else if !noneOrPos c.nPos then .error .assertion
  else if !c.ks.all (fun k => decide (0 < k)) then .error .assertion
  else .ok ()

/-- The dataset the users are taken from (`ranking_evaluation.py:79-82`, `recommendation_evaluation.py:67-68`). -/
def TestSet.dataset (model : EvalModel) : TestSet → Mem
  | .omitted => model.train
  | .train => model.train
  | .other ds => ds

/-- `train_evaluation` (`ranking_evaluation.py:79-82`): `==` on datasets compares the objects. -/
def TestSet.isTrain : TestSet → Bool
  | .omitted => true
  | .train => true
  | .other _ => false

/-- `n_neg_interactions` after the check. -/
def NegIn.toArg : NegIn → NegArg
  | .int n => .count n.toNat
  | .float q => .ratio q

/-- What the tasks are started with (`ranking_evaluation.py:74,112-114`); `thr` is `model.interaction_threshold`. -/
def EvalCall.args (c : EvalCall) (thr : ℚ) : EvalArgs where
  threshold := c.threshold.getD thr
  nPos := c.nPos.map Int.toNat
  nNeg := c.nNeg.map NegIn.toArg
  generate := c.generate
  trainEval := c.test.isTrain
  novelty := c.novelty

/-- A call of `ranking_evaluation` up to the tasks (`ranking_evaluation.py:63-116`). -/
def rankingCall (model : EvalModel) (thr : ℚ) (c : EvalCall) (rngs : Nat → EvalRng) : Except Err (List (List EAct)) :=
  c.checkRanking.bind fun _ =>
    rankingTasks model (c.test.dataset model) (c.args thr) (c.nUsers.map Int.toNat) rngs

/-- A call of `recommendation_evaluation` up to the tasks (`recommendation_evaluation.py:58-105`). -/
def recommendationCall (model : EvalModel) (thr : ℚ) (c : EvalCall) (rngs : Nat → EvalRng) :
    Except Err (List (List EAct)) :=
  c.checkRecommendation.bind fun _ =>
    recommendationTasks model (c.test.dataset model) (c.args thr) (c.ks.map Int.toNat) c.low (c.nUsers.map Int.toNat) rngs

end DRec
