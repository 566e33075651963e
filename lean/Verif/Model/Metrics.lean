import Verif.Model.Core
import Mathlib.Data.Finset.Card
import Mathlib.Data.List.Sort
import Mathlib.Analysis.SpecialFunctions.Log.Base
import Mathlib.Analysis.SpecialFunctions.Pow.Real

/-!
# Evaluation metrics

`DRecPy/Evaluation/Metrics/ranking.py` and `regression.py`.  Simplifications: floating point numbers are
exact (rationals, reals where `log2`, powers or roots occur); `k` is a natural number (Python would slice
from the end for a negative one).
-/

namespace DRec.Metrics

variable {α : Type} [DecidableEq α]

/-- `recommendations[:k]` when `k` is given (`ranking.py:45,109,132,154,175,236`). -/
def trunc (k : Option Nat) (recs : List α) : List α :=
  match k with
  | none => recs
  | some k => recs.take k

/-- `a / b` of Python. -/
def pyDiv (a b : ℚ) : Except Err ℚ := if b = 0 then .error .zeroDiv else .ok (a / b)

/-- `len(set(a).intersection(set(b)))`. -/
def common (a b : List α) : Nat := (a.toFinset ∩ b.toFinset).card

/-- `Precision.__call__` (`ranking.py:160-178`). -/
def precision (recs : List α) (k : Option Nat) (rel : Option (List α)) : Except Err ℚ :=
  match rel with
  | none => .ok 0
  | some rel => pyDiv (common (trunc k recs) rel) (trunc k recs).length

/-- `Recall.__call__` (`ranking.py:139-157`). -/
def recall (recs : List α) (k : Option Nat) (rel : Option (List α)) : Except Err ℚ :=
  match rel with
  | none => .ok 0
  | some rel => pyDiv (common (trunc k recs) rel) rel.length

/-- `HitRatio.__call__` (`ranking.py:94-114`): identifiers are compared by their text `str`. -/
def hitRatio {β : Type} [DecidableEq β] (str : α → β) (recs : List α) (k : Option Nat)
    (rel : Option (List α)) : Except Err ℚ :=
  match rel with
  | none => .ok 0
  | some rel =>
    pyDiv (common ((trunc k recs).map str) (rel.map str)) (rel.map str).toFinset.card

/-- `ReciprocalRank.__call__` (`ranking.py:117-136`). -/
def reciprocalRank (recs : List α) (k : Option Nat) (rel : Option α) : ℚ :=
  match rel with
  | none => 0
  | some x => if x ∈ trunc k recs then 1 / ((trunc k recs).idxOf x + 1 : ℕ) else 0

/-- `FScore.__call__` (`ranking.py:195-212`). -/
def fscore (beta : ℚ) (recs : List α) (k : Option Nat) (rel : Option (List α)) : Except Err ℚ :=
  match rel with
  | none => .ok 0
  | some rel => do
    let p ← precision recs k (some rel)
    let r ← recall recs k (some rel)
    pyDiv ((1 + beta ^ 2) * p * r) (beta ^ 2 * p + r)

/-- The loop of `AveragePrecision.__call__` (`ranking.py:238-242`), `i` counting from 1. -/
def apLoop (recs rel : List α) : List (α × Nat) → ℚ → Except Err ℚ
  | [], acc => .ok acc
  | (r, i) :: rest, acc =>
    if r ∈ rel ∧ r ∉ recs.take (i - 1) then
      match precision recs (some i) (some rel) with
      | .error e => .error e
      | .ok p => apLoop recs rel rest (acc + p)
    else apLoop recs rel rest acc

/-- `AveragePrecision.__call__` (`ranking.py:215-245`). -/
def averagePrecision (recs : List α) (k : Option Nat) (rel : Option (List α)) : Except Err ℚ :=
  match rel with
  | none => .ok 0
  | some rel =>
    let recs := trunc k recs
    match apLoop recs rel (recs.zipIdx 1) 0 with
    | .error e => .error e
    | .ok s =>
      match k with
      | none => pyDiv s rel.length
      | some k => pyDiv s (min rel.length k : ℕ)

/-! ## Discounted cumulative gain -/

/-- Gain of a relevancy (`ranking.py:51-54`). -/
noncomputable def gain (strong : Bool) (rel : ℝ) : ℝ := if strong then (2 : ℝ) ^ rel - 1 else rel

/-- `relevancies[r]`: a dictionary as a list of pairs with distinct keys. -/
def lookupRel {β : Type} (rels : List (α × β)) (r : α) : Option β :=
  (rels.find? fun p => p.1 = r).map (·.2)

/-- The loop of `DCG.__call__` (`ranking.py:47-56`) from position `i`; a missing key raises. -/
noncomputable def dcgLoop (strong : Bool) (rels : List (α × ℝ)) : List α → Nat → ℝ → Except Err ℝ
  | [], _, acc => .ok acc
  | r :: rs, i, acc =>
    match lookupRel rels r with
    | none => .error .keyError
    | some rel => dcgLoop strong rels rs (i + 1) (acc + gain strong rel / Real.logb 2 (2 + i))

/-- `DCG.__call__` with relevancies given (`ranking.py:32-56`). -/
noncomputable def dcg (strong : Bool) (recs : List α) (k : Option Nat) (rels : List (α × ℝ)) :
    Except Err ℝ :=
  dcgLoop strong rels (trunc k recs) 0 0

/-- `sorted(relevancies.keys(), key=lambda x: -relevancies[x])` (`ranking.py:88`), stable. -/
noncomputable def idealOrder (rels : List (α × ℝ)) : List α :=
  (rels.insertionSort fun a b => -a.2 ≤ -b.2).map (·.1)

/-- `NDCG.__call__` (`ranking.py:71-91`). -/
noncomputable def ndcg (strong : Bool) (recs : List α) (k : Option Nat)
    (rels : Option (List (α × ℝ))) : Except Err ℝ :=
  match rels with
  | none => .ok 0
  | some rels =>
    match dcg strong recs k rels with
    | .error e => .error e
    | .ok cur =>
      match dcg strong (idealOrder rels) k rels with
      | .error e => .error e
      | .ok best => open Classical in if best = 0 then .error .zeroDiv else .ok (cur / best)

/-! ## Error metrics -/

/-- `sklearn.metrics.mean_squared_error` with default arguments; raises for lists of different length
or without elements. -/
def mse (yt yp : List ℚ) : Except Err ℚ :=
  if yt.length = yp.length ∧ yt ≠ [] then
    .ok ((List.zipWith (fun a b => (a - b) ^ 2) yt yp).sum / yt.length)
  else .error .badValue

/-- `sklearn.metrics.mean_absolute_error` with default arguments. -/
def mae (yt yp : List ℚ) : Except Err ℚ :=
  if yt.length = yp.length ∧ yt ≠ [] then
    .ok ((List.zipWith (fun a b => |a - b|) yt yp).sum / yt.length)
  else .error .badValue

/-- `RMSE.__call__` (`regression.py:28-31`). -/
noncomputable def rmse (yt yp : List ℚ) : Except Err ℝ := (mse yt yp).map fun q => Real.sqrt q

end DRec.Metrics
