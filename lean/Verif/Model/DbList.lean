import Verif.Model.DbKnn
import Verif.Model.Nets

/-!
# ListSampler and Caser on a database dataset

`DRecPy/Sampler/list_sampler.py` and `DRecPy/Recommender/caser.py` as programs of dataset operations (`Model/DbEval`).
Simplifications: one group column, a dataset is closed when the pass that made it ends, and the datasets of a call that
raised stay open.  The networks of Caser are arbitrary.
-/

namespace DRec.Conc

/-! ## ListSampler -/

/-- The arguments of a `ListSampler` (`list_sampler.py:33-36`) with one group column; the threshold as it is printed
into queries. -/
structure ListCfg where
  groupCol : String
  negRatio : Nat
  nTargets : Option Nat
  negCol : String
  threshold : Option PyNum
  sortCol : Option String
  minPos : Nat
  maxPos : Option Nat

/-- The assertions of the constructor (`list_sampler.py:42-62`): `hasIds` and `cols` are attributes of the dataset. -/
def ListCfg.check (cfg : ListCfg) (hasIds : Bool) (cols : List String) : Except Err Unit :=
  if hasIds = false then .error .assertion
  else if cfg.nTargets = some 0 then .error .assertion
  else if cfg.nTargets ≠ none ∧ cfg.negCol ∉ cols then .error .assertion
  else if ∃ s ∈ cfg.sortCol, s ∉ cols then .error .assertion
  else if ∃ m ∈ cfg.maxPos, m < cfg.minPos then .error .assertion
  else .ok ()

/-- `f'{group_col} == {chosen_group}'` (`list_sampler.py:97-98`). -/
def ListCfg.query (cfg : ListCfg) (g : Val) : List Char := cfg.groupCol.toList ++ " == ".toList ++ cellText g

/-- Are there too few positive records (`list_sampler.py:105-106`)? -/
def ListCfg.short (cfg : ListCfg) (n : Nat) : Prop :=
  n < cfg.minPos ∨ (cfg.nTargets ≠ none ∧ n < cfg.minPos + cfg.nTargets.getD 0)

instance (cfg : ListCfg) (n : Nat) : Decidable (cfg.short n) := by unfold ListCfg.short; infer_instance

/-- The rest of a pass once the records have been read (`list_sampler.py:114-149`). -/
def ListCfg.finish (cfg : ListCfg) (negIds : List Val) (g : Val) (recs : List Row) (pad : Nat) (s : Nat → Nat) :
    Except Err Attempt :=
  let all := sortRows cfg.sortCol recs
  match windowOf cfg.maxPos all.length (cfg.nTargets.getD 0) pad with
  | .error e => .error e
  | .ok p =>
    match cfg.nTargets with
    | none => .ok (.done ⟨[g], cutRows p all, [], []⟩)
    | some t =>
      let eligible := negIds.filter fun v => v ∉ all.map (·.get cfg.negCol)
      let parts := splitTargets t p all
      if eligible.length < cfg.negRatio * parts.2.length then .ok .retry
      else .ok (.done ⟨[g], parts.1, parts.2, pySample eligible (cfg.negRatio * parts.2.length) s⟩)

/-- A pass with the positive records in dataset `p` (`list_sampler.py:105-149`). -/
def dbTail {α : Type} (cfg : ListCfg) (negIds : List Val) (p : Nat) (g : Val) (d : LDraw) (k : Attempt → DbProg α) :
    DbProg α :=
  .len p fun n =>
  if cfg.short n then k .retry
  else .read p (.values none) fun res => withResult (cfg.finish negIds g ((recsOf res).map recRow) d.pad d.sample) k

/-- One pass for group `g` (`list_sampler.py:97-149`). -/
def dbAttempt {α : Type} (cfg : ListCfg) (ds : Nat) (negIds : List Val) (g : Val) (d : LDraw) (k : Attempt → DbProg α) :
    DbProg α :=
  .select ds (cfg.query g) fun j =>
  match cfg.threshold with
  | none => dbTail cfg negIds j g d fun a => .close j (k a)
  | some t => .select j (boundQuery ">=" t.text) fun p => dbTail cfg negIds p g d fun a => .close p (.close j (k a))

/-- The `while True` loop for one element (`list_sampler.py:90-149`). -/
def dbOne {α : Type} (cfg : ListCfg) (ds : Nat) (groups negIds : List Val)
    (k : Option (Sampled × List LDraw) → DbProg α) : Nat → List LDraw → DbProg α
  | _, [] => k none
  | tries, d :: draws =>
    match groups[d.group % groups.length]? with
    | none => .ret (.error .outOfRange)
    | some g => dbAttempt cfg ds negIds g d fun a =>
      match a with
      | .done s => k (some (s, draws))
      | .retry => if tries + 1 > 20 then .ret (.error .assertion) else dbOne cfg ds groups negIds k (tries + 1) draws

/-- `sample_group_records(n)` (`list_sampler.py:74-151`) with the elements sampled so far. -/
def dbSample {α : Type} (cfg : ListCfg) (ds : Nat) (groups negIds : List Val) (k : Option (List Sampled) → DbProg α) :
    Nat → List LDraw → List Sampled → DbProg α
  | 0, _, acc => k (some acc)
  | n + 1, draws, acc => dbOne cfg ds groups negIds (fun o =>
      match o with
      | none => k none
      | some (s, rest) => dbSample cfg ds groups negIds k n rest (acc ++ [s])) 0 draws

/-- The constructor (`list_sampler.py:33-72`): the groups and the ids for negative samples.  `x` is the object of the
dataset. -/
def dbListSampler {α : Type} (cfg : ListCfg) (ds : Nat) (x : Inst) (k : List Val → List Val → DbProg α) : DbProg α :=
  withResult (cfg.check x.hasIds x.columns) fun _ =>
  readUnique ds cfg.groupCol fun groups =>
  readUnique ds cfg.negCol fun ids => k groups (distinctVals ids)

/-- Calls of `sample_group_records`, one after the other; `f` is what is made of each answer. -/
def dbCalls {α β : Type} (cfg : ListCfg) (ds : Nat) (groups negIds : List Val) (f : Option (List Sampled) → Except Err β)
    (k : List β → DbProg α) : List (Nat × List LDraw) → List β → DbProg α
  | [], acc => k acc
  | c :: cs, acc => dbSample cfg ds groups negIds (fun o => withResult (f o) fun b =>
      dbCalls cfg ds groups negIds f k cs (acc ++ [b])) c.1 c.2 []

/-- A sampler and its calls, each with its number of elements and its draws (`list_sampler.py:33-151`). -/
def dbSampling (cfg : ListCfg) (ds : Nat) (x : Inst) (calls : List (Nat × List LDraw)) :
    DbProg (List (Option (List Sampled))) :=
  dbListSampler cfg ds x fun groups negIds => dbCalls cfg ds groups negIds .ok (fun l => .ret (.ok l)) calls []

/-! ## Caser -/

/-- The sampler of Caser (`caser.py:72-75`). -/
def caserList (c : Caser) (negRatio : Nat) (threshold : PyNum) (sortCol : Option String) : ListCfg :=
  ⟨"uid", negRatio, some c.T, "iid", some threshold, sortCol, c.L, some c.L⟩

/-- The examples of one batch (`caser.py:77-93`). -/
noncomputable def caserBatch (c : Caser) (negRatio : Nat) : Option (List Sampled) → Except Err (Option (List CaserExample))
  | none => .ok none
  | some l => (l.mapM (c.example negRatio)).map some

/-- The sampling of Caser's training: the sampler made by `_pre_fit` and one `_sample_batch` per epoch
(`caser.py:72-93`, `recommender_abc.py:189-190`). -/
noncomputable def dbCaserTraining (c : Caser) (negRatio : Nat) (threshold : PyNum) (sortCol : Option String) (ds : Nat) (x : Inst)
    (epochs : List (Nat × List LDraw)) : DbProg (List (Option (List CaserExample))) :=
  dbListSampler (caserList c negRatio threshold sortCol) ds x fun groups negIds =>
  dbCalls (caserList c negRatio threshold sortCol) ds groups negIds (caserBatch c negRatio) (fun l => .ret (.ok l)) epochs []

/-- `Caser._rank` (`caser.py:128-146`): `cols` are the columns of the dataset, `net` gives the scores of all items for a
user and a sequence of items, or raises. -/
def dbCaserRank {α : Type} (c : Caser) (ds : Nat) (cols : List String) (sortCol : Option String)
    (net : Nat → List Val → Except Err (List ℚ)) (uid : Nat) (iids : List Nat) (n : Nat) (novelty : Bool)
    (k : List (ℚ × Nat) → DbProg α) : DbProg α :=
  .select ds (idQuery "uid" uid) fun d => .read d (.values none) fun res => .close d (
    let own := (sortRows (sortCol.filter (· ∈ cols)) ((recsOf res).map recRow)).map (·.get "iid")
    withResult (net uid (lastOf c.L own)) fun preds =>
    if novelty then
      k (nlargest n (preds.zipIdx.filter fun p => p.2 ∈ iids.filter fun i => .num (i : ℚ) ∉ own))
    else k (nlargest n preds.zipIdx))

/-- A call of a Caser fitted on a database dataset (`recommender_abc.py:354-452`, `caser.py:125-146`); `predict` raises
`NotImplementedError` once the ids are found. -/
def dbCaserServe (c : Caser) (ds nItems : Nat) (cols : List String) (sortCol : Option String)
    (net : Nat → List Val → Except Err (List ℚ)) : Request → DbProg Reply
  | .predict user item => dbPredictRaw ds (fun _ _ _ => .ret (.error .crash)) user item fun x => .ret (.ok (.score x))
  | .rank user items novelty skip n =>
      dbRankRaw ds (dbCaserRank c ds cols sortCol net) user items novelty skip n fun l => .ret (.ok (.ranking l))
  | .recommend user n novelty threshold =>
      dbRecommendRaw ds nItems (dbCaserRank c ds cols sortCol net) user n novelty threshold fun l => .ret (.ok (.ranking l))

end DRec.Conc
