import Verif.Model.Metrics
import Verif.Model.Float

/-!
# Metrics in double precision (`DRecPy/Evaluation/Metrics/`)

The metrics of `Model/Metrics` with every operation on floats rounded to a double.  The quotient of two integers is rounded once, as in
Python.  `math.log2` and `2 ** x` are functions of the C library and left open, as is the order in which numpy adds up (so the error
metrics are relations).  Simplification: `k` is a natural number; `beta` is a float or an integer below 2^26 (so that its square is exact).
-/

namespace DRec.Metrics

variable {α : Type} [DecidableEq α]

/-- `a / b` of Python, rounded. -/
def pyDivF (a b : ℚ) : Except Err ℚ := if b = 0 then .error .zeroDiv else .ok (toFloat (a / b))

/-- `Precision.__call__` (`ranking.py:160-178`). -/
def precisionF (recs : List α) (k : Option Nat) (rel : Option (List α)) : Except Err ℚ :=
  match rel with
  | none => .ok 0
  | some rel => pyDivF (common (trunc k recs) rel) (trunc k recs).length

/-- `Recall.__call__` (`ranking.py:139-157`). -/
def recallF (recs : List α) (k : Option Nat) (rel : Option (List α)) : Except Err ℚ :=
  match rel with
  | none => .ok 0
  | some rel => pyDivF (common (trunc k recs) rel) rel.length

/-- `HitRatio.__call__` (`ranking.py:94-114`). -/
def hitRatioF {β : Type} [DecidableEq β] (str : α → β) (recs : List α) (k : Option Nat) (rel : Option (List α)) : Except Err ℚ :=
  match rel with
  | none => .ok 0
  | some rel => pyDivF (common ((trunc k recs).map str) (rel.map str)) (rel.map str).toFinset.card

/-- `ReciprocalRank.__call__` (`ranking.py:117-136`). -/
def reciprocalRankF (recs : List α) (k : Option Nat) (rel : Option α) : ℚ :=
  match rel with
  | none => 0
  | some x => if x ∈ trunc k recs then toFloat (1 / ((trunc k recs).idxOf x + 1 : ℕ)) else 0

/-- `FScore.__call__` (`ranking.py:195-212`). -/
def fscoreF (beta : ℚ) (recs : List α) (k : Option Nat) (rel : Option (List α)) : Except Err ℚ :=
  match rel with
  | none => .ok 0
  | some rel => do
    let p ← precisionF recs k (some rel)
    let r ← recallF recs k (some rel)
    let b := toFloat (beta ^ 2)
    pyDivF (toFloat (toFloat (toFloat (1 + b) * p) * r)) (toFloat (toFloat (b * p) + r))

/-- The loop of `AveragePrecision.__call__` (`ranking.py:238-242`). -/
def apLoopF (recs rel : List α) : List (α × Nat) → ℚ → Except Err ℚ
  | [], acc => .ok acc
  | (r, i) :: rest, acc =>
    if r ∈ rel ∧ r ∉ recs.take (i - 1) then
      match precisionF recs (some i) (some rel) with
      | .error e => .error e
      | .ok p => apLoopF recs rel rest (toFloat (acc + p))
    else apLoopF recs rel rest acc

/-- `AveragePrecision.__call__` (`ranking.py:215-245`). -/
def averagePrecisionF (recs : List α) (k : Option Nat) (rel : Option (List α)) : Except Err ℚ :=
  match rel with
  | none => .ok 0
  | some rel =>
    let recs := trunc k recs
    match apLoopF recs rel (recs.zipIdx 1) 0 with
    | .error e => .error e
    | .ok s =>
      match k with
      | none => pyDivF s rel.length
      | some k => pyDivF s (min rel.length k : ℕ)

/-- The functions of the C library that `ranking.py:52,54` call: `math.log2(n)` and `2 ** x`. -/
structure Libm where
  log2 : Nat → ℚ
  exp2 : ℚ → ℚ

/-- Gain of a relevancy (`ranking.py:51-54`). -/
def gainF (F : Libm) (strong : Bool) (rel : ℚ) : ℚ := if strong then toFloat (F.exp2 rel - 1) else rel

/-- The loop of `DCG.__call__` (`ranking.py:47-56`) from position `i`; a missing key raises. -/
def dcgLoopF (F : Libm) (strong : Bool) (rels : List (α × ℚ)) : List α → Nat → ℚ → Except Err ℚ
  | [], _, acc => .ok acc
  | r :: rs, i, acc =>
    match lookupRel rels r with
    | none => .error .keyError
    | some rel => dcgLoopF F strong rels rs (i + 1) (toFloat (acc + toFloat (gainF F strong rel / F.log2 (2 + i))))

/-- `DCG.__call__` with relevancies given (`ranking.py:32-56`). -/
def dcgF (F : Libm) (strong : Bool) (recs : List α) (k : Option Nat) (rels : List (α × ℚ)) : Except Err ℚ :=
  dcgLoopF F strong rels (trunc k recs) 0 0

/-- `sorted(relevancies.keys(), key=lambda x: -relevancies[x])` (`ranking.py:88`), stable. -/
def idealOrderF (rels : List (α × ℚ)) : List α := (rels.insertionSort fun a b => -a.2 ≤ -b.2).map (·.1)

/-- `NDCG.__call__` (`ranking.py:71-91`). -/
def ndcgF (F : Libm) (strong : Bool) (recs : List α) (k : Option Nat) (rels : Option (List (α × ℚ))) : Except Err ℚ :=
  match rels with
  | none => .ok 0
  | some rels =>
    match dcgF F strong recs k rels with
    | .error e => .error e
    | .ok cur =>
      match dcgF F strong (idealOrderF rels) k rels with
      | .error e => .error e
      | .ok best => pyDivF cur best

/-! ## Error metrics -/

/-- A sum computed by numpy (`sklearn` called at `regression.py:25,31,37`): the parts are added up in any order and grouping, every
sum is rounded. -/
inductive AddedUp : List ℚ → ℚ → Prop
  | one (x : ℚ) : AddedUp [x] x
  | add {a b l : List ℚ} {s t : ℚ} : AddedUp a s → AddedUp b t → l.Perm (a ++ b) → AddedUp l (toFloat (s + t))

/-- `MSE.__call__` (`regression.py:22-25`) returns `v`. -/
def MseF (yt yp : List ℚ) (v : ℚ) : Prop :=
  yt.length = yp.length ∧ ∃ s, AddedUp (List.zipWith (fun a b => toFloat (toFloat (a - b) ^ 2)) yt yp) s ∧ v = toFloat (s / yt.length)

/-- `MAE.__call__` (`regression.py:34-37`) returns `v`. -/
def MaeF (yt yp : List ℚ) (v : ℚ) : Prop :=
  yt.length = yp.length ∧ ∃ s, AddedUp (List.zipWith (fun a b => |toFloat (a - b)|) yt yp) s ∧ v = toFloat (s / yt.length)

/-- `RMSE.__call__` (`regression.py:28-31`) returns `v`: the root is rounded to a double. -/
noncomputable def RmseF (yt yp : List ℚ) (v : ℝ) : Prop := ∃ m, MseF yt yp m ∧ v = toFloat (Real.sqrt m)

end DRec.Metrics
