import Verif.Model.Evaluation
import Verif.Spec.Splits

/-! # Notions used in the statements about evaluation processes -/

namespace DRec.Spec

variable {K : Type} [Field K] [LinearOrder K] [FloorRing K]

/-- The values of a metric at `k` for those users for whom it can be computed. -/
def computed (m : EvalMetric K) (k : Nat) (users : List EvalData) : List K :=
  users.filterMap fun d => (m.call d k).toOption

/-- What should be reported: the rounded mean, 0 without values. -/
def reported (xs : List K) : K := if xs = [] then 0 else round4 (xs.sum / (xs.length : K))

/-- All tasks have run to their end in some interleaving, leaving these shared variables. -/
def EvalRun (metrics : List (EvalMetric K)) (ks : List Nat) (tasks : List (List EAct))
    (m : (v : EVar) → v.Ty K) : Prop :=
  ∃ n c, Steps n (evalStart metrics ks tasks) c ∧ c.Complete ∧ c.mem = m

/-- The users whose evaluation got as far as the metrics. -/
def evaluated (outcomes : List (Except Err (Outcome EvalData))) : List EvalData :=
  outcomes.filterMap fun o => match o with
    | .ok (.done d) => some d
    | _ => none

/-- The outcomes of all users in a ranking evaluation. -/
def rankingOutcomes (model : EvalModel) (ds : Mem) (a : EvalArgs) (users : List Val)
    (rngs : Nat → EvalRng) : List (Except Err (Outcome EvalData)) :=
  users.zipIdx.map fun p => rankingUser model ds a p.1 (rngs p.2)

/-- The outcomes of all users in a recommendation evaluation. -/
def recommendationOutcomes (model : EvalModel) (ds : Mem) (a : EvalArgs) (ks : List Nat) (low : Option ℚ)
    (users : List Val) (rngs : Nat → EvalRng) : List (Except Err (Outcome EvalData)) :=
  users.zipIdx.map fun p => recommendationUser model ds a ks.max? low p.1 (rngs p.2)

/-- The item of a record. -/
def itemOf (r : Row) : Val := r.get "item"

/-- Positive records: interaction at or above the threshold. -/
def IsPositive (t : ℚ) (r : Row) : Prop := ∃ q, r.get "interaction" = .num q ∧ t ≤ q

/-- Negative records: interaction below the threshold. -/
def IsNegative (t : ℚ) (r : Row) : Prop := ∃ q, r.get "interaction" = .num q ∧ q < t

/-- A dataset with integer item ids. -/
structure IntItems (ds : Mem) : Prop where
  hasItem : "item" ∈ ds.cols
  int : ds.dtype "item" = .int
  whole : ∀ r ∈ ds.rows, ∃ n : Int, r.get "item" = .num n

open Classical in
/-- The positive records of a user, in the order of the dataset. -/
noncomputable def positivesOf (t : ℚ) (ds : Mem) (user : Val) : List Row :=
  (recordsOf ds.rows user).filter fun r => IsPositive t r

open Classical in
/-- The negative records of a user, in the order of the dataset. -/
noncomputable def negativeRecords (t : ℚ) (ds : Mem) (user : Val) : List Row :=
  (recordsOf ds.rows user).filter fun r => IsNegative t r

/-- `m` is the number of negatives asked for: the count, or the share of `npos` (the product in
floating point) rounded down. -/
def Asked : NegArg → Nat → Nat → Prop
  | .count n, _, m => m = n
  | .ratio q, npos, m => (m : ℚ) ≤ toFloat (npos * q) ∧ toFloat (npos * q) < m + 1

/-- Positive count or share (checked by the evaluations before anything else). -/
def NegArg.Positive : NegArg → Prop
  | .count n => 0 < n
  | .ratio q => 0 < q

/-- `sampled` are `n` of the records in `all`, or all of them when no number is given. -/
def SampledFrom (all : List Row) (n : Option Nat) (sampled : List Row) : Prop :=
  sampled.Subperm all ∧ (n = none → sampled = all) ∧ ∀ k, n = some k → sampled.length = k

/-- The interaction of the user's first record about an item, 0 if there is none. -/
def firstInteraction (ds : Mem) (user item : Val) : ℚ :=
  match (recordsOf ds.rows user).find? fun r => itemOf r = item with
  | none => 0
  | some r => match r.get "interaction" with
    | .num q => q
    | _ => 0

/-- The dictionary has exactly the given items as keys, each with its first interaction. -/
def RelevanciesOf (ds : Mem) (user : Val) (items : List Val) (rel : List (Val × ℚ)) : Prop :=
  (rel.map (·.1)).Nodup ∧ (∀ x, x ∈ rel.map (·.1) ↔ x ∈ items) ∧
    ∀ p ∈ rel, p.2 = firstInteraction ds user p.1

end DRec.Spec
