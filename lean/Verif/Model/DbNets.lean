import Verif.Model.DbKnn
import Verif.Model.DbVec

/-!
# CDAE and DMF on a database dataset

`DRecPy/Recommender/cdae.py` and `dmf.py` as programs of dataset operations (`Model/DbEval`).  Simplifications: the
dictionaries of computed vectors are left out (C24 and C128 are about them), a dataset is closed when the pass that made
it ends, and the datasets of a call that raised stay open.  The networks are arbitrary.
-/

namespace DRec.Conc

/-- The value given by `max`. -/
def valOf : ReadRes → Val
  | .val v => v
  | _ => .null

/-- `select_user_interaction_vec` and `select_item_interaction_vec` (`db_dataset.py:105-155`). -/
def dbVec {α : Type} (ds : Nat) (s : Side) (n : Nat) (k : List ℚ → DbProg α) : DbProg α :=
  .toRaw ds s.raw s.own n fun v =>
  if v.getD .null = .null then .ret (.error .notFound)
  else .read ds (.max s.other) fun m =>
    .select ds (idQuery s.own n) fun d => .read d (.values (some [s.other, "interaction"])) fun res =>
    .close d (withResult (toVec s.other (valOf m) (.ok res)) k)

/-- The vectors of several ids (`dmf.py:76-77`, `cdae.py:52-53`). -/
def dbVecs {α : Type} (ds : Nat) (s : Side) (k : List (List ℚ) → DbProg α) : List Nat → List (List ℚ) → DbProg α
  | [], acc => k acc
  | n :: ns, acc => dbVec ds s n fun v => dbVecs ds s k ns (acc ++ [v])

/-! ## CDAE -/

/-- `desired_vector` (`cdae.py:61-62,69-70`). -/
def liked (t : ℚ) (v : List ℚ) : List ℚ := v.map fun x => if t ≤ x then 1 else 0

/-- `_reconstruct_for_predictions` (`cdae.py:67-71`): `net` gives the scores of all items for a user and a vector, or
raises. -/
def dbCdaeScores {α : Type} (t : ℚ) (net : Nat → List ℚ → Except Err (List ℚ)) (ds uid : Nat) (k : List ℚ → DbProg α) :
    DbProg α :=
  dbVec ds Side.user uid fun v => withResult (net uid (liked t v)) k

/-- `CDAE._predict` (`cdae.py:84-88`).  Simplification: without an item it raises (the vector is no score). -/
def dbCdaePredict {α : Type} (t : ℚ) (net : Nat → List ℚ → Except Err (List ℚ)) (ds : Nat) :
    Option Nat → Option Nat → (Option ℚ → DbProg α) → DbProg α
  | none, _, k => k none
  | some u, i, k => dbCdaeScores t net ds u fun preds =>
    match i with
    | none => .ret (.error .crash)
    | some i => withResult (match preds[i]? with | some q => .ok (some q) | none => .error .outOfRange) k

/-- `[iid for iid in iids if not user_ds.exists(f'iid == {iid}')]` (`cdae.py:98`). -/
def dbMissing {α : Type} (uds : Nat) (k : List Nat → DbProg α) : List Nat → List Nat → DbProg α
  | [], acc => k acc
  | i :: is, acc => .read uds (.selectOne (idQuery "iid" i) none) fun res =>
      match res with
      | .one (some _) => dbMissing uds k is acc
      | _ => dbMissing uds k is (acc ++ [i])

/-- The items kept by `CDAE._rank` (`cdae.py:93-100`). -/
def dbCdaeItems {α : Type} (ds uid : Nat) (iids : List Nat) (novelty : Bool) (k : List Nat → DbProg α) : DbProg α :=
  if novelty then
    .select ds (idQuery "uid" uid) fun d => .len d fun n =>
    if n < iids.length then .read d (.values (some ["iid"])) fun res => .close d (k (novelIids iids (columnOf "iid" res)))
    else dbMissing d (fun l => .close d (k l.dedup)) iids []
  else k iids.dedup

/-- `CDAE._rank` (`cdae.py:90-103`). -/
def dbCdaeRank {α : Type} (t : ℚ) (net : Nat → List ℚ → Except Err (List ℚ)) (ds uid : Nat) (iids : List Nat) (n : Nat)
    (novelty : Bool) (k : List (ℚ × Nat) → DbProg α) : DbProg α :=
  dbCdaeScores t net ds uid fun preds =>
  dbCdaeItems ds uid iids novelty fun keep => k (nlargest n (preds.zipIdx.filter fun p => p.2 ∈ keep))

/-! ## DMF -/

/-- `DMF._predict` (`dmf.py:101-106`): `net` gives the score of a pair of vectors, or raises.  Simplification: without a
user or item it raises `notFound` (the vector of `None` is asked for). -/
def dbDmfPredict {α : Type} (net : List ℚ → List ℚ → Except Err ℚ) (ds : Nat) :
    Option Nat → Option Nat → (Option ℚ → DbProg α) → DbProg α
  | some u, some i, k => dbVec ds Side.user u fun a => dbVec ds Side.item i fun b => withResult (net a b) fun x => k (some x)
  | _, _, _ => .ret (.error .notFound)

/-- `RecommenderABC._rank` (`recommender_abc.py:454-461`) of a model whose `_predict` asks the dataset. -/
def dbBaseRankBy {α : Type} (ds : Nat) (f : Option Nat → Option Nat → (Option ℚ → DbProg α) → DbProg α) (uid : Nat)
    (iids : List Nat) (n : Nat) (novelty : Bool) (k : List (ℚ × Nat) → DbProg α) : DbProg α :=
  let go : List Nat → DbProg α := fun cand =>
    dbScores (fun i k => f (some uid) (some i) fun p => k (p.map fun s => (s, i)))
      (fun preds => k (nlargest n (preds.filterMap id))) cand []
  if novelty then dbRated ds uid fun rated => go (novelIids iids rated) else go iids

/-! ## Calls -/

/-- A call of a recommender with these methods, fitted on a database dataset (`recommender_abc.py:354-452`). -/
def dbServeBy (ds nItems : Nat) (f : Option Nat → Option Nat → (Option ℚ → DbProg Reply) → DbProg Reply)
    (rk : DbRankFn Reply) : Request → DbProg Reply
  | .predict user item => dbPredictRaw ds f user item fun x => .ret (.ok (.score x))
  | .rank user items novelty skip n => dbRankRaw ds rk user items novelty skip n fun l => .ret (.ok (.ranking l))
  | .recommend user n novelty threshold =>
      dbRecommendRaw ds nItems rk user n novelty threshold fun l => .ret (.ok (.ranking l))

/-- A call of CDAE (`cdae.py:84-103`). -/
def dbCdaeServe (t : ℚ) (net : Nat → List ℚ → Except Err (List ℚ)) (ds nItems : Nat) : Request → DbProg Reply :=
  dbServeBy ds nItems (dbCdaePredict t net ds) (dbCdaeRank t net ds)

/-- A call of DMF (`dmf.py:101-106`, `recommender_abc.py:454-461`). -/
def dbDmfServe (net : List ℚ → List ℚ → Except Err ℚ) (ds nItems : Nat) : Request → DbProg Reply :=
  dbServeBy ds nItems (dbDmfPredict net ds) (dbBaseRankBy ds (dbDmfPredict net ds))

/-- The vectors of a training batch of DMF (`dmf.py:64-77`), of CDAE without items (`cdae.py:50-57`). -/
def dbBatch (ds : Nat) (users items : List Nat) : DbProg (List (List ℚ) × List (List ℚ)) :=
  dbVecs ds Side.user (fun us => dbVecs ds Side.item (fun is => .ret (.ok (us, is))) items []) users []

end DRec.Conc
