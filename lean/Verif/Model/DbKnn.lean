import Verif.Model.DbEval
import Verif.Model.KnnMem
import Verif.Model.Fitted

/-!
# Recommenders fitted on a database dataset (`recommender_abc.py`, `DRecPy/Recommender/Baseline/*_knn.py`)

What fitted recommenders ask the dataset, as programs of dataset operations (`Model/DbEval`).  What they compute from
the answers is in `Model/Knn` and `Model/Recommender`.  Simplifications: sets of items are gone through in the order of a
list, a dataset is closed when the pass that made it ends, and the datasets of a call that raised stay open.
-/

namespace DRec.Conc

/-! ## Nearest neighbours -/

/-- The user and the item of a pair of own and other id (`base_knn.py:99`, `user_knn.py:60`, `item_knn.py:60`). -/
def pairIds (K : KKind) (own other : Nat) : Nat × Nat :=
  match K with
  | .user => (own, other)
  | .item => (other, own)

/-- `None if record is None else record['interaction']` (`user_knn.py:62`, `item_knn.py:62`), and the cell given by
`select_one(…, 'interaction', to_list=True)` (`item_knn.py:83`). -/
def foundCell : ReadRes → Option ℚ
  | .one (some r) => some (ratCell ((r.lookup "interaction").getD .null))
  | _ => none

/-- `f'{column} == {id}'` (`user_knn.py:66,72,78`, `item_knn.py:66,72,76,83`, `recommender_abc.py:457`). -/
def idQuery (c : String) (n : Nat) : List Char := c.toList ++ " == ".toList ++ cellText (.num (n : ℚ))

/-- Interactions and similarities of the neighbours, one `_get_interaction` each (`base_knn.py:97-102`). -/
def dbPairs {α : Type} (K : KKind) (ds other : Nat) (k : List (ℚ × ℚ) → DbProg α) :
    List (ℚ × Nat) → List (ℚ × ℚ) → DbProg α
  | [], acc => k acc
  | p :: ps, acc => .read ds (.selectOne (pairQuery (pairIds K p.2 other).1 (pairIds K p.2 other).2) none) fun res =>
      match foundCell res with
      | none => dbPairs K ds other k ps acc
      | some x => dbPairs K ds other k ps (acc ++ [(x, p.1)])

/-- `_predict_default` (`user_knn.py:64-67`, `item_knn.py:64-67`). -/
def dbDefault {α : Type} (K : KKind) (ds other : Nat) (k : Option ℚ → DbProg α) : DbProg α :=
  .select ds (idQuery K.otherCol other) fun d =>
  .read d (.values (some ["interaction"])) fun res =>
  .len d fun n =>
  if n = 0 then .ret (.error .zeroDiv)
  else .close d (k (some (((columnOf "interaction" res).map ratCell).sum / (n : ℚ))))

/-- The end of `_predict` (`base_knn.py:104-107`), also used in ranking (`user_knn.py:87-90`, `item_knn.py:88-91`). -/
def dbKnnEnd {α : Type} (cfg : KnnCfg) (ds : Nat) (l : List (ℚ × ℚ)) (other : Nat) (k : Option ℚ → DbProg α) : DbProg α :=
  if l.length = 0 ∧ cfg.useAverages = true then dbDefault cfg.kind ds other k else k (cfg.agg.run l)

/-- `_predict` (`base_knn.py:94-107`) for the own and other id. -/
def dbPredictOwn {α : Type} (cfg : KnnCfg) (ds : Nat) (M : Knn) (own other : Nat) (k : Option ℚ → DbProg α) : DbProg α :=
  match M.nbrs own with
  | none => .ret (.error .keyError)
  | some nb => dbPairs cfg.kind ds other (fun l => dbKnnEnd cfg ds l other k) nb []

/-- `_predict` (`base_knn.py:94-107`). -/
def dbKnnPredict {α : Type} (cfg : KnnCfg) (ds : Nat) (M : Knn) :
    Option Nat → Option Nat → (Option ℚ → DbProg α) → DbProg α
  | none, _, k => k none
  | _, none, k => k none
  | some u, some i, k =>
    match cfg.kind with
    | .user => dbPredictOwn cfg ds M u i k
    | .item => dbPredictOwn cfg ds M i u k

/-- `select(f'uid == {uid}').values_list('iid', to_list=True)` (`user_knn.py:72`, `item_knn.py:72`,
`recommender_abc.py:457`). -/
def dbRated {α : Type} (ds uid : Nat) (k : List Val → DbProg α) : DbProg α :=
  .select ds (idQuery "uid" uid) fun d => .read d (.values (some ["iid"])) fun res => .close d (k (columnOf "iid" res))

/-- The items to rank (`user_knn.py:70-73`, `item_knn.py:70-73`). -/
def dbKnnItems {α : Type} (ds uid : Nat) (iids : List Nat) (novelty : Bool) (k : List Nat → DbProg α) : DbProg α :=
  if novelty then dbRated ds uid fun rated => k (novelIids iids rated) else k iids.dedup

/-- Item and interaction of the records read. -/
def itemPairs (res : ReadRes) : List (Nat × ℚ) :=
  (recsOf res).map fun r => (idCell ((r.lookup "iid").getD .null), ratCell ((r.lookup "interaction").getD .null))

/-- The triples collected by `UserKNN._rank` (`user_knn.py:77-83`): item, interaction, similarity. -/
def dbTriples {α : Type} (ds : Nat) (keep : List Nat) (k : List (Nat × ℚ × ℚ) → DbProg α) :
    List (ℚ × Nat) → List (Nat × ℚ × ℚ) → DbProg α
  | [], acc => k acc
  | p :: ps, acc => .select ds (idQuery "uid" p.2) fun d => .read d (.values (some ["iid", "interaction"])) fun res =>
      .close d (dbTriples ds keep k ps
        (acc ++ ((itemPairs res).filter fun q => q.1 ∈ keep).map fun q => (q.1, q.2, p.1)))

/-- Scores of several items (`user_knn.py:85-95`, `item_knn.py:79-96`); `f` gives what there is for one item. -/
def dbScores {α : Type} (score : Nat → (Option (ℚ × Nat) → DbProg α) → DbProg α) (k : List (Option (ℚ × Nat)) → DbProg α) :
    List Nat → List (Option (ℚ × Nat)) → DbProg α
  | [], acc => k acc
  | i :: is, acc => score i fun p => dbScores score k is (acc ++ [p])

/-- `UserKNN._rank` (`user_knn.py:69-95`). -/
def dbUserRank {α : Type} (cfg : KnnCfg) (ds : Nat) (M : Knn) (uid : Nat) (iids : List Nat) (n : Nat) (novelty : Bool)
    (k : List (ℚ × Nat) → DbProg α) : DbProg α :=
  dbKnnItems ds uid iids novelty fun keep =>
  match M.nbrs uid with
  | none => .ret (.error .keyError)
  | some nb => dbTriples ds keep (fun ts =>
      dbScores (fun i k => dbKnnEnd cfg ds ((ts.filter fun t => t.1 = i).map (·.2)) i fun p => k (p.map fun s => (s, i)))
        (fun preds => k (nlargest n (preds.filterMap id))) (ts.map (·.1)).dedup []) nb []

/-- Interactions of the user with the neighbours of an item (`item_knn.py:81-86`); `uds` has the records of the user,
`own` the items in them. -/
def dbOwnPairs {α : Type} (uds : Nat) (own : List Val) (k : List (ℚ × ℚ) → DbProg α) :
    List (ℚ × Nat) → List (ℚ × ℚ) → DbProg α
  | [], acc => k acc
  | p :: ps, acc =>
    if .num (p.2 : ℚ) ∈ own then
      .read uds (.selectOne (idQuery "iid" p.2) (some ["interaction"])) fun res =>
      match foundCell res with
      | none => dbOwnPairs uds own k ps acc
      | some x => dbOwnPairs uds own k ps (acc ++ [(x, p.1)])
    else dbOwnPairs uds own k ps acc

/-- `ItemKNN._rank` (`item_knn.py:69-96`). -/
def dbItemRank {α : Type} (cfg : KnnCfg) (ds : Nat) (M : Knn) (uid : Nat) (iids : List Nat) (n : Nat) (novelty : Bool)
    (k : List (ℚ × Nat) → DbProg α) : DbProg α :=
  dbKnnItems ds uid iids novelty fun keep =>
  .select ds (idQuery "uid" uid) fun uds =>
  .read uds (.values (some ["iid"])) fun own =>
  dbScores (fun i k =>
      match M.nbrs i with
      | none => .ret (.error .keyError)
      | some nb => dbOwnPairs uds (columnOf "iid" own)
          (fun l => dbKnnEnd cfg ds l uid fun p => k (p.map fun s => (s, i))) nb [])
    (fun preds => .close uds (k (nlargest n (preds.filterMap id)))) keep []

/-- `_rank` of the two classes (`user_knn.py:69-95`, `item_knn.py:69-96`). -/
def dbKnnRank {α : Type} (cfg : KnnCfg) (ds : Nat) (M : Knn) (uid : Nat) (iids : List Nat) (n : Nat) (novelty : Bool)
    (k : List (ℚ × Nat) → DbProg α) : DbProg α :=
  match cfg.kind with
  | .user => dbUserRank cfg ds M uid iids n novelty k
  | .item => dbItemRank cfg ds M uid iids n novelty k

/-- `RecommenderABC._rank` (`recommender_abc.py:454-461`) of a model whose `_predict` asks the dataset nothing. -/
def dbBaseRank {α : Type} (ds : Nat) (f : PredictFn ℚ) (uid : Nat) (iids : List Nat) (n : Nat) (novelty : Bool)
    (k : List (ℚ × Nat) → DbProg α) : DbProg α :=
  let go : List Nat → DbProg α := fun cand =>
    withResult (cand.mapM (scored f uid)) fun preds => k (nlargest n (preds.filterMap id))
  if novelty then dbRated ds uid fun rated => go (novelIids iids rated) else go iids

/-! ## Fitting -/

/-- The id column of an own id. -/
def ownCol : KKind → String
  | .user => "uid"
  | .item => "iid"

/-- The number given by `count_unique`. -/
def countOf : ReadRes → Nat
  | .count n => n
  | _ => 0

/-- A record as it is collected by `_compute_similarities` (`user_knn.py:25-29`, `item_knn.py:25-29`). -/
def recRating (r : Rec) : Rating :=
  ⟨idCell ((r.lookup "uid").getD .null), idCell ((r.lookup "iid").getD .null), ratCell ((r.lookup "interaction").getD .null)⟩

/-- `set`, in the order of the records (`user_knn.py:54`, `item_knn.py:54`): the distinct ids in a column. -/
def readUnique {α : Type} (ds : Nat) (c : String) (k : List Val → DbProg α) : DbProg α :=
  .unique ds c fun d => .read d (.values (some [c])) fun res => .close d (k (columnOf c res))

/-- `_compute_neighbours` (`user_knn.py:53-58`, `item_knn.py:53-58`) for the ids read and the number of ids. -/
def setNbrs (cfg : KnnCfg) (ids : List Nat) (n : Nat) (sims : Nat × Nat → Option ℚ)
    (old : Nat → Option (List (ℚ × Nat))) : Nat → Option (List (ℚ × Nat)) :=
  ids.foldl (fun f a x => if x = a then some (neighboursOf cfg n sims a) else f x) old

/-- `fit` after `assign_internal_ids` (`recommender_abc.py:140-156`) with `_pre_fit` of the nearest neighbour recommenders
(`base_knn.py:75-80`, `user_knn.py:21-58`, `item_knn.py:21-58`): the fitted model and `n_items`.  Simplification: the
extreme interactions and the number of records are read but only logged. -/
def dbFit {α : Type} (cfg : KnnCfg) (ds : Nat) (M : Knn) (k : Knn × Nat → DbProg α) : DbProg α :=
  .read ds (.min "interaction") fun _ =>
  .read ds (.max "interaction") fun _ =>
  .read ds (.countUnique (some ["uid"])) fun nUsers =>
  .read ds (.countUnique (some ["iid"])) fun nItems =>
  .len ds fun _ =>
  .read ds (.values none) fun res =>
  let sims := computeSims cfg ((recsOf res).map recRating) M.sims
  readUnique ds (ownCol cfg.kind) fun ids =>
  k (⟨sims, setNbrs cfg (ids.map idCell) (match cfg.kind with | .user => countOf nUsers | .item => countOf nItems) sims
    M.nbrs⟩, countOf nItems)

/-! ## Raw ids -/

/-- `assert self.interaction_dataset.user_to_uid(user_id) is not None`, then `user_to_uid` again
(`recommender_abc.py:406-410,435-437`). -/
def dbUser {α : Type} (ds : Nat) (user : Lit) (k : Nat → DbProg α) : DbProg α :=
  .toId ds "user" "uid" user fun v =>
  match v with
  | none => .ret (.error .notFound)
  | some _ => .toId ds "user" "uid" user fun v =>
    match v with
    | none => .ret (.error .crash)
    | some v => k (idCell v)

/-- The loop of `rank` over the given items (`recommender_abc.py:439-445`). -/
def dbKnown {α : Type} (ds : Nat) (skip : Bool) (k : List Nat → DbProg α) : List Lit → List Nat → DbProg α
  | [], acc => k acc
  | x :: xs, acc => .toId ds "item" "iid" x fun v =>
      match v with
      | none => if skip then dbKnown ds skip k xs acc else .ret (.error .notFound)
      | some v => dbKnown ds skip k xs (acc ++ [idCell v])

/-- Conversion of the internal ids of the result (`recommender_abc.py:411,452`). -/
def dbToRaw {α : Type} (ds : Nat) (k : List (ℚ × Option Val) → DbProg α) :
    List (ℚ × Nat) → List (ℚ × Option Val) → DbProg α
  | [], acc => k acc
  | p :: ps, acc => .toRaw ds "item" "iid" p.2 fun v => dbToRaw ds k ps (acc ++ [(p.1, v)])

/-- A `_rank` method that asks the dataset. -/
abbrev DbRankFn (α : Type) := Nat → List Nat → Nat → Bool → (List (ℚ × Nat) → DbProg α) → DbProg α

/-- `rank` (`recommender_abc.py:421-452`) for a fitted model. -/
def dbRankRaw {α : Type} (ds : Nat) (rk : DbRankFn α) (user : Lit) (items : List Lit) (novelty skip : Bool)
    (n : Option Nat) (k : List (ℚ × Option Val) → DbProg α) : DbProg α :=
  dbUser ds user fun uid =>
  dbKnown ds skip (fun iids =>
    if iids.length < n.getD iids.length then .ret (.error .assertion)
    else rk uid iids (n.getD iids.length) novelty fun l => dbToRaw ds k l []) items []

/-- `recommend` with `_recommend` (`recommender_abc.py:391-419`) for a fitted model. -/
def dbRecommendRaw {α : Type} (ds nItems : Nat) (rk : DbRankFn α) (user : Lit) (n : Option Nat) (novelty : Bool)
    (threshold : Option ℚ) (k : List (ℚ × Option Val) → DbProg α) : DbProg α :=
  dbUser ds user fun uid =>
  rk uid (List.range nItems) (n.getD nItems) novelty fun l =>
  dbToRaw ds k (match threshold with | none => l | some t => l.filter fun p => t ≤ p.1) []

/-- `predict` without `skip_errors` (`recommender_abc.py:354-383`): both ids are looked up twice. -/
def dbPredictRaw {α : Type} (ds : Nat) (f : Option Nat → Option Nat → (Option ℚ → DbProg α) → DbProg α) (user item : Lit)
    (k : ℚ → DbProg α) : DbProg α :=
  .toId ds "user" "uid" user fun v =>
  if v = none then .ret (.error .notFound)
  else .toId ds "item" "iid" item fun v =>
    if v = none then .ret (.error .notFound)
    else .toId ds "user" "uid" user fun u => .toId ds "item" "iid" item fun i =>
      f (u.map idCell) (i.map idCell) fun p =>
        match p with
        | none => .ret (.error .crash)
        | some x => k x

/-- A call of a fitted recommender: `predict` without `skip_errors`, `rank` or `recommend`
(`recommender_abc.py:354-452`). -/
inductive Request
  | predict (user item : Lit)
  | rank (user : Lit) (items : List Lit) (novelty skip : Bool) (n : Option Nat)
  | recommend (user : Lit) (n : Option Nat) (novelty : Bool) (threshold : Option ℚ)

/-- What a call returns. -/
inductive Reply
  | score (x : ℚ)
  | ranking (l : List (ℚ × Option Val))
  deriving DecidableEq

/-- A call of a nearest neighbour recommender fitted on a database dataset (`recommender_abc.py:354-452`,
`base_knn.py:94-107`, `user_knn.py:69-95`, `item_knn.py:69-96`): `p` is what `dbFit` gave. -/
def dbServe (cfg : KnnCfg) (ds : Nat) (p : Knn × Nat) : Request → DbProg Reply
  | .predict user item => dbPredictRaw ds (dbKnnPredict cfg ds p.1) user item fun x => .ret (.ok (.score x))
  | .rank user items novelty skip n =>
      dbRankRaw ds (dbKnnRank cfg ds p.1) user items novelty skip n fun l => .ret (.ok (.ranking l))
  | .recommend user n novelty threshold =>
      dbRecommendRaw ds p.2 (dbKnnRank cfg ds p.1) user n novelty threshold fun l => .ret (.ok (.ranking l))

/-- A recommender fitted on a database dataset as the model of an evaluation (`ranking_evaluation.py:222`,
`recommendation_evaluation.py:164-165`). -/
def dbFitted (ds nItems : Nat) (rk : DbRankFn (Outcome EvalData)) : DbModel where
  nItems := nItems
  rank u items novelty k := dbRankRaw ds rk (idLit u) (items.map idLit) novelty true none fun l => k (rawPairs l)
  recommend u n novelty low k := dbRecommendRaw ds nItems rk (idLit u) (some n) novelty low fun l => k (rawPairs l)

end DRec.Conc

namespace DRec

/-- A recommender with its own `_rank` fitted on an in-memory dataset, as the model of an evaluation
(`ranking_evaluation.py:222`, `recommendation_evaluation.py:164-165`). -/
def rankedModel (m : Mem) (rk : RankFn) : EvalModel where
  train := m
  nItems := nItemsOf m
  rank u items novelty := (rank m rk (idLit u) (items.map idLit) novelty true none).map rawPairs
  recommend u n novelty low := (recommend m rk (idLit u) (some n) novelty low).map rawPairs

end DRec
