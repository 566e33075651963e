import Verif.Model.Splits
import Mathlib.Data.List.Sort
import Mathlib.Data.List.Dedup

/-!
# Predicting, recommending and ranking (`DRecPy/Recommender/recommender_abc.py:354-469`)

Over an in-memory dataset with internal ids.  The model is given by its `_predict` function, arbitrary
and possibly raising.  Scores are exact rationals.
-/

namespace DRec

/-- Python's order on `(score, id)` tuples, larger first. -/
def pairGe (a b : ℚ × Nat) : Prop := b.1 < a.1 ∨ (b.1 = a.1 ∧ b.2 ≤ a.2)

instance : DecidableRel pairGe := fun a b => by unfold pairGe; infer_instance

/-- `heapq.nlargest(n, xs)`: documented as `sorted(xs, reverse=True)[:n]`. -/
def nlargest (n : Nat) (l : List (ℚ × Nat)) : List (ℚ × Nat) := (l.insertionSort pairGe).take n

/-- `_predict` of a model: `None` ids are passed on as they are; the result may be `None` or an
exception. -/
abbrev PredictFn (α : Type) := Option Nat → Option Nat → Except Err (Option α)

/-- The `try` block of `predict` (`recommender_abc.py:375-379`). -/
def tryPredict {α : Type} (ds : Mem) (f : PredictFn α) (user item : Lit) : Except Err α :=
  match ds.userToUid user with
  | .error e => .error e
  | .ok u =>
    match ds.itemToIid item with
    | .error e => .error e
    | .ok i =>
      match f u i with
      | .error e => .error e
      | .ok none => .error .crash
      | .ok (some x) => .ok x

/-- `assert skip_errors or … is not None` (`recommender_abc.py:369-370`). -/
def assertKnown (r : Except Err (Option Nat)) : Except Err Unit :=
  match r with
  | .error e => .error e
  | .ok none => .error .notFound
  | .ok (some _) => .ok ()

/-- `predict` (`recommender_abc.py:354-383`). -/
def predict {α : Type} (ds : Mem) (fitted : Bool) (f : PredictFn α) (user item : Lit) (skip : Bool) :
    Except Err (Option α) :=
  if fitted = false then .error .assertion
  else if skip then .ok (tryPredict ds f user item).toOption
  else
    match assertKnown (ds.userToUid user) with
    | .error e => .error e
    | .ok _ =>
      match assertKnown (ds.itemToIid item) with
      | .error e => .error e
      | .ok _ => (tryPredict ds f user item).map some

/-- `select(f'uid == {uid}')` (`recommender_abc.py:457`). -/
def uidRows (ds : Mem) (uid : Nat) : Except Err Mem := ds.select ("uid == ".toList ++ cellText (.num (uid : ℚ)))

/-- `select(f'uid == {uid}').values_list('iid', to_list=True)` (`recommender_abc.py:457`). -/
def ratedIids (ds : Mem) (uid : Nat) : Except Err (List Val) :=
  match uidRows ds uid with
  | .error e => .error e
  | .ok s => s.valuesOf "iid"

/-- `set(iids).difference(rated)`; the order of the set does not matter because the pairs made from it
are sorted afterwards. -/
def novelIids (iids : List Nat) (rated : List Val) : List Nat :=
  iids.dedup.filter fun i => .num (i : ℚ) ∉ rated

/-- The items to score (`recommender_abc.py:456-458`). -/
def candidates (ds : Mem) (uid : Nat) (iids : List Nat) (novelty : Bool) : Except Err (List Nat) :=
  if novelty then (ratedIids ds uid).map (novelIids iids) else .ok iids

/-- One element of the list comprehension in `_rank` (`recommender_abc.py:460`). -/
def scored (f : PredictFn ℚ) (uid i : Nat) : Except Err (Option (ℚ × Nat)) :=
  (f (some uid) (some i)).map fun p => p.map fun s => (s, i)

/-- `RecommenderABC._rank` (`recommender_abc.py:454-461`). -/
def baseRank (ds : Mem) (f : PredictFn ℚ) (uid : Nat) (iids : List Nat) (n : Nat) (novelty : Bool) :
    Except Err (List (ℚ × Nat)) :=
  match candidates ds uid iids novelty with
  | .error e => .error e
  | .ok cand =>
    match cand.mapM (scored f uid) with
    | .error e => .error e
    | .ok preds => .ok (nlargest n (preds.filterMap id))

/-- A `_rank` method: user, items, how many, novelty. -/
abbrev RankFn := Nat → List Nat → Nat → Bool → Except Err (List (ℚ × Nat))

/-- Conversion of the internal ids of the result (`recommender_abc.py:411,452`); `None` for an unknown
id. -/
def toRaw (ds : Mem) (l : List (ℚ × Nat)) : Except Err (List (ℚ × Option Val)) :=
  l.mapM fun p => (ds.iidToItem p.2).map fun v => (p.1, v)

/-- `n_items` as set by `fit` (`recommender_abc.py:145`). -/
def nItemsOf (ds : Mem) : Nat := countDistinct "iid" ds.rows

/-- `_recommend` (`recommender_abc.py:413-419`). -/
def recommendIids (nItems : Nat) (rank : RankFn) (uid n : Nat) (novelty : Bool) (threshold : Option ℚ) :
    Except Err (List (ℚ × Nat)) :=
  (rank uid (List.range nItems) n novelty).map fun l =>
    match threshold with
    | none => l
    | some t => l.filter fun p => t ≤ p.1

/-- `recommend` (`recommender_abc.py:391-411`) for a fitted model. -/
def recommend (ds : Mem) (rank : RankFn) (user : Lit) (n : Option Nat) (novelty : Bool)
    (threshold : Option ℚ) : Except Err (List (ℚ × Option Val)) :=
  match ds.userToUid user with
  | .error e => .error e
  | .ok none => .error .notFound
  | .ok (some uid) =>
    match recommendIids (nItemsOf ds) rank uid (n.getD (nItemsOf ds)) novelty threshold with
    | .error e => .error e
    | .ok l => toRaw ds l

/-- The loop of `rank` over the given items (`recommender_abc.py:439-445`). -/
def knownIids (ds : Mem) (skip : Bool) : List Lit → Except Err (List Nat)
  | [] => .ok []
  | x :: xs =>
    match ds.itemToIid x with
    | .error e => .error e
    | .ok none => if skip then knownIids ds skip xs else .error .notFound
    | .ok (some i) => (knownIids ds skip xs).map (i :: ·)

/-- `rank` (`recommender_abc.py:421-452`) for a fitted model. -/
def rank (ds : Mem) (rankFn : RankFn) (user : Lit) (items : List Lit) (novelty skip : Bool)
    (n : Option Nat) : Except Err (List (ℚ × Option Val)) :=
  match ds.userToUid user with
  | .error e => .error e
  | .ok none => .error .notFound
  | .ok (some uid) =>
    match knownIids ds skip items with
    | .error e => .error e
    | .ok iids =>
      if iids.length < n.getD iids.length then .error .assertion
      else
        match rankFn uid iids (n.getD iids.length) novelty with
        | .error e => .error e
        | .ok l => toRaw ds l

/-! ## Model specific ranking -/

/-- Result of `CDAE._predict`: one number, or the whole vector when no item is given. -/
inductive CdaeOut where
  | num (q : ℚ)
  | vec (l : List ℚ)

/-- `CDAE._predict` (`cdae.py:84-88`); `recon` is `_reconstruct_for_predictions`. -/
def cdaePredict (recon : Nat → List ℚ) : PredictFn CdaeOut
  | none, _ => .ok none
  | some u, none => .ok (some (.vec (recon u)))
  | some u, some i =>
    match (recon u)[i]? with
    | some q => .ok (some (.num q))
    | none => .error .outOfRange

/-- `user_ds.exists(f'iid == {iid}')` (`cdae.py:98`). -/
def ownsIid (uds : Mem) (i : Nat) : Except Err Bool := uds.exists_ ("iid == ".toList ++ cellText (.num (i : ℚ)))

/-- The items kept by `CDAE._rank` (`cdae.py:93-100`): set difference or one query per item, depending
on which is shorter. -/
def cdaeItems (ds : Mem) (uid : Nat) (iids : List Nat) (novelty : Bool) : Except Err (List Nat) :=
  if novelty then
    match uidRows ds uid with
    | .error e => .error e
    | .ok uds =>
      if uds.rows.length < iids.length then (uds.valuesOf "iid").map (novelIids iids)
      else (iids.mapM fun i => (ownsIid uds i).map fun b => (i, b)).map fun l =>
        (l.filterMap fun p => if p.2 then none else some p.1).dedup
  else .ok iids.dedup

/-- `CDAE._rank` (`cdae.py:90-103`): `preds` are the predictions for all items. -/
def cdaeRank (ds : Mem) (preds : Nat → List ℚ) : RankFn := fun uid iids n novelty =>
  (cdaeItems ds uid iids novelty).map fun keep =>
    nlargest n ((preds uid).zipIdx.filter fun p => p.2 ∈ keep)

/-- `Caser._rank` (`caser.py:128-146`): with `novelty=False` the given items are not looked at. -/
def caserRank (ds : Mem) (preds : Nat → List ℚ) : RankFn := fun uid iids n novelty =>
  match ratedIids ds uid with
  | .error e => .error e
  | .ok own =>
    if novelty then
      .ok (nlargest n ((preds uid).zipIdx.filter fun p =>
        p.2 ∈ iids.filter fun i => .num (i : ℚ) ∉ own))
    else .ok (nlargest n (preds uid).zipIdx)

/-! ## Standardising -/

/-- Smallest and largest interaction as used by `fit` (`recommender_abc.py:140-142`): a minimum of 1
counts as 0. -/
def interactionRange (ds : Mem) : Except Err (Option ℚ × Option ℚ) :=
  match ds.min "interaction" with
  | .error e => .error e
  | .ok lo => (ds.max "interaction").map fun hi => (if lo = some 1 then some 0 else lo, hi)

/-- `_standardize_value` (`recommender_abc.py:463-465`).  Simplification: division by zero is an error
(numpy numbers give nan or inf instead). -/
def standardize (lo hi x : ℚ) : Except Err ℚ :=
  if hi - lo = 0 then .error .zeroDiv else .ok ((x - lo) / (hi - lo))

/-- `_rescale_value` (`recommender_abc.py:467-469`). -/
def rescale (lo hi x : ℚ) : ℚ := lo + (hi - lo) * x

/-! ## fit(copy_dataset=True) -/

/-- Methods of the dataset classes (`dataset_abc.py:6-350` and the overriding definitions in
`mem_dataset.py` and `db_dataset.py`) that copy an instance: only `copy`. -/
def datasetMethods : List String :=
  ["__init__", "__len__", "select", "select_random_generator", "null_interaction_pair_generator",
   "select_one", "select_user_interaction_vec", "select_item_interaction_vec", "exists", "unique",
   "count_unique", "max", "min", "values", "values_list", "drop", "assign_internal_ids",
   "remove_internal_ids", "user_to_uid", "uid_to_user", "item_to_iid", "iid_to_item", "apply", "save",
   "copy", "__str__", "__repr__", "__del__", "_validate_column", "_handle_columns", "_log"]

/-- Calling a copying method by name. -/
def callCopy (name : String) (ds : Mem) : Except Err Mem :=
  if name ∈ datasetMethods then .ok ds.copy else .error .crash

/-- First part of `fit` (`recommender_abc.py:134-138`): the dataset passed in afterwards, and the one
the model works with or the exception. -/
def fitDataset (copyDataset : Bool) (ds : Mem) : Mem × Except Err Mem :=
  if copyDataset then
    match callCopy "__copy__" ds with
    | .error e => (ds, .error e)
    | .ok c => match c.assignIds with
      | (c', none) => (ds, .ok c')
      | (_, some e) => (ds, .error e)
  else
    match ds.assignIds with
    | (ds', none) => (ds', .ok ds')
    | (ds', some e) => (ds', .error e)

end DRec
