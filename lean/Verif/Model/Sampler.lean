import Verif.Model.Mem
import Verif.Model.Random
import Mathlib.Data.List.Sort

/-!
# Random record and pair generators, PointSampler and ListSampler

Random sources are lists of raw draws consumed from the front; `none` means that the generator is
still looking when the given draws are used up.
-/

namespace DRec

/-! ## Random records -/

/-- `self.max(c)` of an id column as a number; `none` when the column holds no id
(`mem_dataset.py:117,148-149`, `db_dataset.py:176,217-218`). -/
def maxId (c : String) (rows : List Row) : Option Nat :=
  (foldNum Max.max (rows.map (·.get c))).bind fun q => Val.toNat? (.num q)

/-- One `next` of `_select_random_generator` (`mem_dataset.py:119-129`, `db_dataset.py:177-195`): draw a
uid in `0..max_uid`, retry when it has no record among `rows`, else draw one of its records. -/
def nextRecord (maxUid : Nat) (rows : List Row) : List Nat → Option (Row × List Nat)
  | [] => none
  | d :: ds =>
    let seg := rowsWith "uid" (randint0 maxUid d) rows
    if seg.length = 0 then nextRecord maxUid rows ds
    else match ds with
      | [] => none
      | e :: ds' => (seg[randint0 (seg.length - 1) e]?).map fun r => (r, ds')

/-- A started generator: the largest uid and the rows it samples from. -/
structure RecGen where
  maxUid : Nat
  rows : List Row

/-- The records a query selects, all of them without query (`mem_dataset.py:105-109`). -/
def Mem.queryRows (ds : Mem) : Option (List Char) → Except Err (List Row)
  | none => .ok ds.rows
  | some q => ds.applyQuery q

/-- `select_random_generator(query)` of the in-memory dataset (`mem_dataset.py:101-118`): the assertions
(raised at the call or at the first `next`) and the rows sampled from.  The largest uid is that of the
whole dataset. -/
def Mem.randomGen (ds : Mem) (q : Option (List Char)) : Except Err RecGen :=
  if ds.hasIds then
    if ds.len = 0 then .error .empty
    else match ds.queryRows q with
      | .error e => .error e
      | .ok rows =>
        if rows.length = 0 then .error .empty
        else match maxId "uid" ds.rows with
          | some m => .ok ⟨m, rows⟩
          | none => .error .crash
  else .error .noIds

/-- `next` on a started generator. -/
def RecGen.next (g : RecGen) (draws : List Nat) : Option (Row × List Nat) :=
  nextRecord g.maxUid g.rows draws

/-! ## Pairs without interaction -/

/-- Is there a record for that pair (`mem_dataset.py:161`, `db_dataset.py:229-231`)? -/
def pairFound (rows : List Row) (u i : Nat) : Bool :=
  rows.any fun r => r.get "uid" = .num (u : ℚ) ∧ r.get "iid" = .num (i : ℚ)

/-- One `next` of the in-memory `null_interaction_pair_generator` (`mem_dataset.py:131-163`).  The
branch for existing below-threshold records is never taken: `select_random_generator` is called with a
dataframe as query, its printed form is rejected by the query parser and the bare `except` sets the
generator to `None` (`mem_dataset.py:141-146`). -/
def nextNullMem (rows : List Row) (maxUid maxIid : Nat) : List Nat → Option ((Nat × Nat) × List Nat)
  | d :: e :: ds =>
    if pairFound rows (randint0 maxUid d) (randint0 maxIid e) then nextNullMem rows maxUid maxIid ds
    else some ((randint0 maxUid d, randint0 maxIid e), ds)
  | _ => none

/-- A started pair generator: all records and the largest ids. -/
structure NullGen where
  rows : List Row
  maxUid : Nat
  maxIid : Nat

/-- `null_interaction_pair_generator` of the in-memory dataset (`mem_dataset.py:131-153`): the threshold
has no influence. -/
def Mem.nullGen (ds : Mem) (_threshold : Option ℚ) : Except Err NullGen :=
  if ds.hasIds then
    if ds.len = 0 then .error .empty
    else match maxId "uid" ds.rows, maxId "iid" ds.rows with
      | some u, some i => .ok ⟨ds.rows, u, i⟩
      | _, _ => .error .crash
  else .error .noIds

/-- `next` on the in-memory pair generator. -/
def NullGen.next (g : NullGen) (draws : List Nat) : Option ((Nat × Nat) × List Nat) :=
  nextNullMem g.rows g.maxUid g.maxIid draws

/-- Records below the threshold (`db_dataset.py:208-211`). -/
def belowThreshold (t : ℚ) (rows : List Row) : List Row :=
  rows.filter fun r => match r.get "interaction" with
    | .num q => q < t
    | _ => false

/-- Records the existing-pair generator samples from (`db_dataset.py:204-215`); none without threshold. -/
def negRows (rows : List Row) : Option ℚ → List Row
  | none => []
  | some t => belowThreshold t rows

/-- One `next` of the database `null_interaction_pair_generator` when there are below-threshold records
`neg` (`db_dataset.py:221-232`): first draw whether to return one of them.  The existing-pair generator
has its own stream `eds`.  Result: the pair and both remaining streams. -/
def nextNullMixed (rows neg : List Row) (maxUid maxIid negMaxUid : Nat) :
    List Nat → List Nat → Option ((Nat × Nat) × List Nat × List Nat)
  | d :: ds, eds =>
    if randint0 (maxUid * maxIid + neg.length) d ≥ maxUid * maxIid then
      match nextRecord negMaxUid neg eds with
      | none => none
      | some (r, eds') =>
        match (r.get "uid").toNat?, (r.get "iid").toNat? with
        | some u, some i => some ((u, i), ds, eds')
        | _, _ => none
    else match ds with
      | e :: f :: ds' =>
        if pairFound rows (randint0 maxUid e) (randint0 maxIid f) then
          nextNullMixed rows neg maxUid maxIid negMaxUid ds' eds
        else some ((randint0 maxUid e, randint0 maxIid f), ds', eds)
      | _ => none
  | [], _ => none

/-- `null_interaction_pair_generator` of the database dataset over its records `rows`
(`db_dataset.py:197-232`); without threshold or without records below it the existing-pair generator is
`None`. -/
def nextNullDb (rows : List Row) (threshold : Option ℚ) (draws eds : List Nat) :
    Option ((Nat × Nat) × List Nat × List Nat) :=
  let neg := negRows rows threshold
  match maxId "uid" rows, maxId "iid" rows, maxId "uid" neg with
  | some mu, some mi, some nu => nextNullMixed rows neg mu mi nu draws eds
  | some mu, some mi, none => (nextNullMem rows mu mi draws).map fun p => (p.1, p.2, eds)
  | _, _, _ => none

/-! ## PointSampler -/

/-- A sampled triple: uid, iid, interaction value; and whether it was drawn as a negative. -/
structure Triple where
  uid : Val
  iid : Val
  value : Val
  negative : Bool
  deriving DecidableEq

/-- `PointSampler.sample(n)` (`point_sampler.py:44-96`).  Each element of `choices` is one
`rng.uniform(0, neg_ratio + 1)`; `pos` and `neg` are `next` of the two generators, each with its own
random state. -/
def pointSample {σ τ : Type} (pos : σ → Option (Row × σ)) (neg : τ → Option ((Nat × Nat) × τ)) :
    Nat → List ℚ → σ → τ → Option (List Triple)
  | 0, _, _, _ => some []
  | _ + 1, [], _, _ => none
  | n + 1, x :: xs, ps, ns =>
    if x > 1 then
      match neg ns with
      | none => none
      | some ((u, i), ns') =>
        (pointSample pos neg n xs ps ns').map (⟨.num u, .num i, .num 0, true⟩ :: ·)
    else
      match pos ps with
      | none => none
      | some (r, ps') =>
        (pointSample pos neg n xs ps' ns).map
          (⟨r.get "uid", r.get "iid", r.get "interaction", false⟩ :: ·)

/-- `str(n)` of an integer. -/
def pyIntText (n : Int) : List Char :=
  if n < 0 then '-' :: Nat.toDigits 10 n.natAbs else Nat.toDigits 10 n.natAbs

/-- A threshold: an integer, or a float by its sign, whole part and digits after the point.  Floats that
Python prints with an exponent (below 0.0001 or from 1e16 on) are left out. -/
inductive PyNum where
  | int (n : Int)
  | dec (neg : Bool) (whole : Nat) (frac : List Nat)

/-- Its value. -/
def PyNum.value : PyNum → ℚ
  | .int n => n
  | .dec neg w f =>
    let q := (w : ℚ) + f.foldr (fun (d : ℕ) (x : ℚ) => ((d : ℚ) + x) / 10) 0
    if neg then -q else q

/-- How it is printed. -/
def PyNum.text : PyNum → List Char
  | .int n => pyIntText n
  | .dec neg w f => (if neg then ['-'] else []) ++ Nat.toDigits 10 w ++ '.' :: f.map Nat.digitChar

/-- The query of the positive generator (`point_sampler.py:37-42`). -/
def positiveQuery (threshold : Option PyNum) : Option (List Char) :=
  threshold.map fun t => "interaction >= ".toList ++ t.text

/-- `PointSampler(dataset, neg_ratio, threshold)` over an in-memory dataset
(`point_sampler.py:19-42`): the two generators. -/
def Mem.pointSampler (ds : Mem) (threshold : Option PyNum) : Except Err (RecGen × NullGen) :=
  match ds.nullGen (threshold.map PyNum.value) with
  | .error e => .error e
  | .ok neg =>
    match ds.randomGen (positiveQuery threshold) with
    | .error e => .error e
    | .ok pos => .ok (pos, neg)

/-- `next` of the positive generator of a database dataset with records `rows`
(`db_dataset.py:157-195`): the largest uid is that of the selected records. -/
def nextPositiveDb (rows : List Row) (threshold : Option ℚ) (draws : List Nat) :
    Option (Row × List Nat) :=
  let pos := match threshold with
    | none => rows
    | some t => rows.filter fun r => match r.get "interaction" with
      | .num q => t ≤ q
      | _ => false
  match maxId "uid" pos with
  | none => none
  | some m => nextRecord m pos draws

/-! ## ListSampler -/

/-- Parameters of a `ListSampler` over the rows of a dataset (`list_sampler.py:33-72`).
Simplifications: the group values and the sort column are numbers (a text group value makes the query
raise), `unique_groups` and `unique_negative_ids` are the distinct keys in order. -/
structure LSampler where
  rows : List Row
  groupCols : List String
  negRatio : Nat
  nTargets : Option Nat
  negCol : String
  threshold : Option ℚ
  sortCol : Option String
  minPos : Nat
  maxPos : Option Nat

/-- Number in a cell used for sorting. -/
def sortKey (c : String) (r : Row) : ℚ := match r.get c with
  | .num q => q
  | _ => 0

/-- `unique_groups` (`list_sampler.py:70`). -/
def LSampler.groups (S : LSampler) : List (List Val) :=
  (dedupGo (keyOn S.groupCols) S.rows []).map (keyOn S.groupCols)

/-- `unique_negative_ids` (`list_sampler.py:72`). -/
def LSampler.negIds (S : LSampler) : List Val := distinctVals (S.rows.map (·.get S.negCol))

/-- `select(f'interaction >= {threshold}')`, or everything (`list_sampler.py:100-103`). -/
def thresholdRows : Option ℚ → List Row → List Row
  | none, rs => rs
  | some t, rs => rs.filter fun r => match r.get "interaction" with
    | .num q => t ≤ q
    | _ => false

/-- Sorting by a column, if given (`list_sampler.py:114-115`).  Python's sort is
stable and so is insertion sort. -/
def sortRows : Option String → List Row → List Row
  | none, rs => rs
  | some c, rs => rs.insertionSort fun a b => sortKey c a ≤ sortKey c b

/-- Records of a group at or above the threshold, sorted (`list_sampler.py:97-103,113-115`). -/
def LSampler.positives (S : LSampler) (g : List Val) : List Row :=
  sortRows S.sortCol (thresholdRows S.threshold (S.rows.filter fun r => keyOn S.groupCols r = g))

/-- The padding and the window length, `none` without cap (`list_sampler.py:118-124`); `randint` of an
empty range raises.  `extra` is `n_targets` or 0. -/
def windowOf (maxPos : Option Nat) (n extra pad : Nat) : Except Err (Option (Nat × Nat)) :=
  match maxPos with
  | none => .ok none
  | some m =>
    if n > m then
      if n < m + extra then .error .badValue
      else .ok (some (randint0 (n - m - extra) pad, m))
    else .ok none

/-- The windowed records (`list_sampler.py:124`). -/
def cutRows : Option (Nat × Nat) → List Row → List Row
  | none, all => all
  | some (k, m), all => (all.drop k).take m

/-- Positives and targets (`list_sampler.py:131-135`). -/
def splitTargets (t : Nat) : Option (Nat × Nat) → List Row → List Row × List Row
  | none, all => (all.take t, all.drop t)
  | some (k, m), all => ((all.drop k).take m, (all.drop (k + m)).take t)

/-- A returned element: a plain sequence, or positives, targets and negative ids. -/
structure Sampled where
  group : List Val
  positives : List Row
  targets : List Row
  negatives : List Val

/-- Outcome of one pass through the `while True` body. -/
inductive Attempt where
  | retry
  | done (s : Sampled)

/-- One pass (`list_sampler.py:94-149`): `g` is the chosen group, `pad` the padding draw, `s` the stream
of `rng.sample`. -/
def LSampler.attempt (S : LSampler) (g : List Val) (pad : Nat) (s : Nat → Nat) : Except Err Attempt :=
  let all := S.positives g
  if all.length < S.minPos ∨ all.length < S.minPos + S.nTargets.getD 0 then .ok .retry
  else
    match windowOf S.maxPos all.length (S.nTargets.getD 0) pad with
    | .error e => .error e
    | .ok p =>
      match S.nTargets with
      | none => .ok (.done ⟨g, cutRows p all, [], []⟩)
      | some t =>
        let eligible := S.negIds.filter fun v => v ∉ all.map (·.get S.negCol)
        let parts := splitTargets t p all
        if eligible.length < S.negRatio * parts.2.length then .ok .retry
        else .ok (.done ⟨g, parts.1, parts.2, pySample eligible (S.negRatio * parts.2.length) s⟩)

/-- Draws of one pass: group index, padding, negative sample. -/
structure LDraw where
  group : Nat
  pad : Nat
  sample : Nat → Nat

/-- The `while True` loop for one element (`list_sampler.py:90-149`): at most 21 passes. -/
def LSampler.one (S : LSampler) : Nat → List LDraw → Except Err (Option (Sampled × List LDraw))
  | _, [] => .ok none
  | tries, d :: ds =>
    match S.groups[d.group % S.groups.length]? with
    | none => .error .outOfRange
    | some g =>
      match S.attempt g d.pad d.sample with
      | .error e => .error e
      | .ok (.done s) => .ok (some (s, ds))
      | .ok .retry => if tries + 1 > 20 then .error .assertion else S.one (tries + 1) ds

/-- `sample_group_records(n)` (`list_sampler.py:74-151`). -/
def LSampler.sample (S : LSampler) : Nat → List LDraw → Except Err (Option (List Sampled))
  | 0, _ => .ok (some [])
  | n + 1, ds =>
    match S.one 0 ds with
    | .error e => .error e
    | .ok none => .ok none
    | .ok (some (s, ds')) =>
      match S.sample n ds' with
      | .error e => .error e
      | .ok none => .ok none
      | .ok (some l) => .ok (some (s :: l))

end DRec
