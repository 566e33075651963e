import Verif.Model.Splits
import Mathlib.Algebra.Order.Floor.Ring
import Mathlib.Data.Rat.Floor
import Mathlib.Data.List.Dedup

/-!
# Evaluation processes (`DRecPy/Evaluation/Processes/`)

Over in-memory datasets; the model under evaluation is given by its train set and arbitrary `rank` and
`recommend` functions.  Simplifications: interaction values are numbers, the threshold query
`interaction >= t` is a filter (its text form is covered by C02), sums and quotients are exact (see
`Model/FloatEval` for rounding).
-/

namespace DRec

/-! ## Data of one user -/

/-- What the metrics are called with (`ranking_evaluation.py:222-242`). -/
structure EvalData where
  recs : List Val
  relevant : List Val
  best : Option Val
  relevancies : List (Val × ℚ)

/-- The model under evaluation: train set, number of items, `rank(user, items, novelty)` and
`recommend(user, n, novelty, threshold)`. -/
structure EvalModel where
  train : Mem
  nItems : Nat
  rank : Val → List Val → Bool → Except Err (List (ℚ × Val))
  recommend : Val → Nat → Bool → Option ℚ → Except Err (List (ℚ × Val))

/-- `n_neg_interactions`: a count or a share of the positives. -/
inductive NegArg where
  | count (n : Nat)
  | ratio (q : ℚ)

/-- Number of negatives asked for (`ranking_evaluation.py:187-188`). -/
def NegArg.wanted : NegArg → Nat → Nat
  | .count n, _ => n
  | .ratio q, npos => shareOf npos q

/-- Arguments of an evaluation that concern a single user. -/
structure EvalArgs where
  threshold : ℚ
  nPos : Option Nat
  nNeg : Option NegArg
  generate : Bool
  trainEval : Bool
  novelty : Bool

/-- Random outcomes of one user's task (`random.Random(seed)`). -/
structure EvalRng where
  pos : Nat → Nat
  neg : Nat → Nat
  items : List Nat
  shuffle : Nat → Nat

/-- `ds_test.select(f'user == {user}')` (`ranking_evaluation.py:167`). -/
def userDs (ds : Mem) (user : Val) : Except Err Mem := ds.select ("user == ".toList ++ cellText user)

/-- The sampled positives (`ranking_evaluation.py:169-176`, `recommendation_evaluation.py:143-152`);
`none` when the user is skipped. -/
def samplePos (pos : List Row) (nPos : Option Nat) (rng : Nat → Nat) : Option (List Row) :=
  match nPos with
  | none => some pos
  | some n => if pos.length < n then none else some (pySample pos n rng)

/-- Python `max(xs, key=f)`: the first element with the largest key. -/
def pyMaxBy {α : Type} (f : α → ℚ) : List α → Option α
  | [] => none
  | x :: xs => some (xs.foldl (fun b y => if f b < f y then y else b) x)

/-- `best_item` (`ranking_evaluation.py:178-179`): the key is the *negated* interaction, as in the code. -/
def bestItem (sampled : List Row) : Option Val :=
  (pyMaxBy (fun r => -sortKey "interaction" r) sampled).map (·.get "item")

/-- The rejection loop (`ranking_evaluation.py:210-213`), `none` when the given draws do not suffice. -/
def genLoop (nItems : Nat) (black : List Val) (wanted : Nat) : List Val → List Nat → Option (List Val)
  | cur, [] => if cur.length < wanted then none else some cur
  | cur, d :: ds =>
    if cur.length < wanted then
      let x : Val := .num (randint0 (nItems - 1) d : ℕ)
      if x ∉ black ∧ x ∉ cur then genLoop nItems black wanted (cur ++ [x]) ds
      else genLoop nItems black wanted cur ds
    else some cur

/-- Outcome of a part of a task: the user is skipped, more random draws are needed, or a value. -/
inductive Outcome (α : Type) where
  | skip
  | more
  | done (x : α)

/-- Items the user rated positively in the train set (`ranking_evaluation.py:193-199`).  The query has
two conditions; it is the selection by user followed by the threshold filter (C03). -/
def trainPositives (model : EvalModel) (user : Val) (t : ℚ) : Except Err (List Val) :=
  (userRows model.train user).map fun rows => (thresholdRows (some t) rows).map (·.get "item")

/-- `item_blacklist` (`ranking_evaluation.py:193-202`), as a list without repetitions. -/
def blacklist (model : EvalModel) (a : EvalArgs) (user : Val) (testPos : List Row) :
    Except Err (List Val) :=
  if a.trainEval then .ok (distinctVals (testPos.map (·.get "item")))
  else (trainPositives model user a.threshold).map fun tr =>
    distinctVals (tr ++ testPos.map (·.get "item"))

/-- The negatives of a user (`ranking_evaluation.py:182-213`): `testPos` are all positive test records,
`nSampled` the number of sampled ones, `neg` the negative test records. -/
def negativesOf (model : EvalModel) (a : EvalArgs) (user : Val) (testPos : List Row) (nSampled : Nat)
    (neg : List Row) (rng : EvalRng) : Except Err (Outcome (List Val)) :=
  match a.nNeg with
  | none => .ok (.done (neg.map (·.get "item")))
  | some n =>
    let first := pySample (neg.map (·.get "item")) (min (n.wanted nSampled) neg.length) rng.neg
    if first.length < n.wanted nSampled ∧ a.generate then
      match blacklist model a user testPos with
      | .error e => .error e
      | .ok black =>
        if (model.nItems : Int) - black.length < n.wanted nSampled then .ok .skip
        else match genLoop model.nItems black (n.wanted nSampled) first rng.items with
          | none => .ok .more
          | some l => .ok (.done l)
    else .ok (.done first)

/-- Number in a cell that may be missing: `x or 0`. -/
def cellOrZero : Option Row → ℚ
  | none => 0
  | some r => sortKey "interaction" r

/-- `user_ds.select_one(f'item == {item}', ['interaction'], to_list=True) or 0` for every item, as a
dictionary (`ranking_evaluation.py:223-224`). -/
def relevanciesOf (user : Mem) (items : List Val) : Except Err (List (Val × ℚ)) :=
  (distinctVals items).mapM fun item =>
    (user.applyQuery ("item == ".toList ++ cellText item)).map fun rows => (item, cellOrZero rows.head?)

/-- Ranking and relevancies of the joined and shuffled items (`ranking_evaluation.py:215-224`). -/
def rankData (model : EvalModel) (a : EvalArgs) (user : Val) (uds : Mem) (sampled : List Row)
    (neg : List Val) (rng : EvalRng) : Except Err (Outcome EvalData) :=
  let all := sampled.map (·.get "item") ++ neg
  if all.length = 0 then .ok .skip
  else
    match model.rank user (pySample all all.length rng.shuffle) a.novelty with
    | .error e => .error e
    | .ok ranked =>
      match relevanciesOf uds (pySample all all.length rng.shuffle) with
      | .error e => .error e
      | .ok rels => .ok (.done ⟨ranked.map (·.2), sampled.map (·.get "item"), bestItem sampled, rels⟩)

/-- `__ranking_evaluation_user` up to the metrics (`ranking_evaluation.py:163-224`). -/
def rankingUser (model : EvalModel) (ds : Mem) (a : EvalArgs) (user : Val) (rng : EvalRng) :
    Except Err (Outcome EvalData) :=
  match userDs ds user with
  | .error e => .error e
  | .ok uds =>
    match samplePos (thresholdRows (some a.threshold) uds.rows) a.nPos rng.pos with
    | none => .ok .skip
    | some sampled =>
      match negativesOf model a user (thresholdRows (some a.threshold) uds.rows) sampled.length
          (belowThreshold a.threshold uds.rows) rng with
      | .error e => .error e
      | .ok .skip => .ok .skip
      | .ok .more => .ok .more
      | .ok (.done neg) => rankData model a user uds sampled neg rng

/-- `_recommendation_evaluation_user` up to the metrics (`recommendation_evaluation.py:136-167`); `n` is
`max(k)`, which raises for an empty list, `low` the threshold for predictions. -/
def recommendationUser (model : EvalModel) (ds : Mem) (a : EvalArgs) (n : Option Nat) (low : Option ℚ)
    (user : Val) (rng : EvalRng) : Except Err (Outcome EvalData) :=
  match userDs ds user with
  | .error e => .error e
  | .ok uds =>
    match samplePos (thresholdRows (some a.threshold) uds.rows) a.nPos rng.pos with
    | none => .ok .skip
    | some sampled =>
      if sampled.length = 0 then .ok .skip
      else
        match n with
        | none => .error .badValue
        | some n =>
          match model.recommend user n a.novelty low with
          | .error e => .error e
          | .ok recs =>
            match relevanciesOf uds (sampled.map (·.get "item") ++ recs.map (·.2)) with
            | .error e => .error e
            | .ok rels =>
              .ok (.done ⟨recs.map (·.2), sampled.map (·.get "item"), bestItem sampled, rels⟩)

/-! ## Metrics, tasks and results -/

variable {K : Type} [Field K] [LinearOrder K] [FloorRing K]

/-- A metric instance: its name and its `__call__` with the parameters it declares
(`ranking_evaluation.py:229-242`). -/
structure EvalMetric (K : Type) where
  name : String
  call : EvalData → Nat → Except Err K

/-- `metric_sums`: per (metric name, k) the sum and the count (`ranking_evaluation.py:92`). -/
abbrev Sums (K : Type) := String × Nat → K × Nat

/-- One metric and one `k`: add value and count, or nothing when the metric raises
(`ranking_evaluation.py:243-246`). -/
def addMetric (d : EvalData) (s : Sums K) (p : EvalMetric K × Nat) : Sums K :=
  match p.1.call d p.2 with
  | .error _ => s
  | .ok v => Function.update s (p.1.name, p.2) ((s (p.1.name, p.2)).1 + v, (s (p.1.name, p.2)).2 + 1)

/-- All metrics for all `k` in the order of the two loops. -/
def metricPairs (metrics : List (EvalMetric K)) (ks : List Nat) : List (EvalMetric K × Nat) :=
  metrics.flatMap fun m => ks.map fun k => (m, k)

/-- The section under `metric_lock` (`ranking_evaluation.py:227-246`). -/
def addMetrics (metrics : List (EvalMetric K)) (ks : List Nat) (d : EvalData) (s : Sums K) : Sums K :=
  (metricPairs metrics ks).foldl (addMetric d) s

/-- Shared variables: the sums and the task counter. -/
inductive EVar where
  | sums | done
  deriving DecidableEq

/-- Their types. -/
abbrev EVar.Ty (K : Type) : EVar → Type
  | .sums => Sums K
  | .done => Nat

/-- The critical sections of a task. -/
inductive EAct where
  | metrics (d : EvalData)
  | count

/-- Effect of a critical section. -/
def EAct.sec (metrics : List (EvalMetric K)) (ks : List Nat) : EAct → Sec (EVar.Ty K)
  | .metrics d => ⟨.sums, addMetrics metrics ks d⟩
  | .count => ⟨.done, fun n => n + 1⟩

/-- `_ranking_evaluation_user` (`ranking_evaluation.py:149-160`): the `finally` block counts the task in
any case.  (A task still waiting for random draws does not occur in a finished run.) -/
def rankingTask : Except Err (Outcome EvalData) → List EAct
  | .ok (.done d) => [.metrics d, .count]
  | _ => [.count]

/-- `_recommendation_evaluation_user` (`recommendation_evaluation.py:136-192`): an exception leaves the
task uncounted. -/
def recommendationTask : Except Err (Outcome EvalData) → List EAct
  | .ok (.done d) => [.metrics d, .count]
  | .ok _ => [.count]
  | .error _ => []

/-- Initial values (`ranking_evaluation.py:92,105`). -/
def evalInit : (v : EVar) → v.Ty K
  | .sums => fun _ => (0, 0)
  | .done => (0 : Nat)

/-- All tasks submitted to the pool. -/
def evalStart (metrics : List (EvalMetric K)) (ks : List Nat) (tasks : List (List EAct)) :
    Cfg (EVar.Ty K) :=
  Cfg.init evalInit (tasks.map (List.map (EAct.sec metrics ks)))

/-- One entry of the results (`ranking_evaluation.py:132-133`). -/
def resultOf (p : K × Nat) : K := if p.2 > 0 then round4 (p.1 / (p.2 : K)) else 0

/-- The returned dictionary (`ranking_evaluation.py:132-133`): one entry per key of `metric_sums`. -/
def evalResults (metrics : List (EvalMetric K)) (ks : List Nat) (s : Sums K) : List ((String × Nat) × K) :=
  ((metricPairs metrics ks).map fun p => (p.1.name, p.2)).dedup.map fun key => (key, resultOf (s key))

/-- The users to evaluate: the first `n_test_users` distinct ones (`ranking_evaluation.py:95-116`). -/
def evalUsers (ds : Mem) (n : Option Nat) : Except Err (List Val) :=
  (uniqueVals ds "user").map fun us => us.take (n.getD us.length)

/-- The tasks of `ranking_evaluation` (`ranking_evaluation.py:95-116`). -/
def rankingTasks (model : EvalModel) (ds : Mem) (a : EvalArgs) (n : Option Nat) (rngs : Nat → EvalRng) :
    Except Err (List (List EAct)) :=
  (evalUsers ds n).map fun us =>
    us.zipIdx.map fun p => rankingTask (rankingUser model ds a p.1 (rngs p.2))

/-- The tasks of `recommendation_evaluation` (`recommendation_evaluation.py:81-105`). -/
def recommendationTasks (model : EvalModel) (ds : Mem) (a : EvalArgs) (ks : List Nat) (low : Option ℚ)
    (n : Option Nat) (rngs : Nat → EvalRng) : Except Err (List (List EAct)) :=
  (evalUsers ds n).map fun us =>
    us.zipIdx.map fun p =>
      recommendationTask (recommendationUser model ds a ks.max? low p.1 (rngs p.2))

/-! ## predictive_evaluation -/

/-- The loop over the test records (`predictive_evaluation.py:46-60`): `left` predictions are still
wanted; the result pairs the true with the predicted value. -/
def predictLoop (predict : Val → Val → Except Err (Option ℚ)) (countNone : Bool) :
    Nat → List (Val × Val × ℚ) → Except Err (List (ℚ × ℚ))
  | _, [] => .ok []
  | left, (u, i, x) :: rest =>
    if left = 0 then .ok []
    else match predict u i with
      | .error e => .error e
      | .ok none =>
        if countNone then (predictLoop predict countNone (left - 1) rest).map ((x, 0) :: ·)
        else predictLoop predict countNone left rest
      | .ok (some y) => (predictLoop predict countNone (left - 1) rest).map ((x, y) :: ·)

/-- `predictive_evaluation` (`predictive_evaluation.py:26-65`) for one metric on the collected lists;
`n` is `n_test_predictions`. -/
def predictiveEval (predict : Val → Val → Except Err (Option ℚ)) (countNone : Bool) (n : Option Nat)
    (metric : List ℚ → List ℚ → Except Err K) (recs : List (Val × Val × ℚ)) : Except Err K :=
  if n.getD recs.length = 0 then .error .assertion
  else match predictLoop predict countNone (min (n.getD recs.length) recs.length) recs with
    | .error e => .error e
    | .ok ps => (metric (ps.map (·.1)) (ps.map (·.2))).map round4

end DRec
