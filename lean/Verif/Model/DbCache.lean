import Verif.Model.DbNets

/-!
# Interaction vectors asked for by several threads

`select_user_interaction_vec` and `select_item_interaction_vec` of a database dataset (`db_dataset.py:105-155`) with their
dictionaries, one access to a dictionary or one dataset operation per step.
-/

namespace DRec.Conc

/-- The dictionaries of computed vectors, `_user_interaction_vec_cache` and `_item_interaction_vec_cache`
(`db_dataset.py:45-46`). -/
abbrev VecStore := KKind → VecCache

/-- `cache[k] = v` -/
def VecStore.put (D : VecStore) (s : KKind) (n : Nat) (v : List ℚ) : VecStore :=
  fun t => if t = s then (n, v) :: (D s).filter (·.1 ≠ n) else D t

/-- `cache.clear()` -/
def VecStore.clear (D : VecStore) (s : KKind) : VecStore := fun t => if t = s then [] else D t

/-- The functions of a side (`db_dataset.py:105,131`). -/
def sideOf (s : KKind) : Side :=
  match s with
  | .user => Side.user
  | .item => Side.item

/-- A task that uses dictionaries: dataset operations (`run`) and accesses to the dictionaries, ending with a result. -/
inductive CProg (α : Type) : Type 1 where
  | ret (r : Except Err α)
  | run {γ : Type} (p : DbProg γ) (k : γ → CProg α)
  | look (s : KKind) (n : Nat) (k : Option (List ℚ) → CProg α)
  | full (s : KKind) (k : Bool → CProg α)
  | clear (s : KKind) (k : CProg α)
  | put (s : KKind) (n : Nat) (v : List ℚ) (k : CProg α)

/-- One step; `lim` are `_user_vec_cache_limit` and `_item_vec_cache_limit` (`db_dataset.py:47-53`). -/
def CProg.step {α : Type} (lim : KKind → Nat) (w : World) (D : VecStore) : CProg α → World × VecStore × CProg α
  | .ret r => (w, D, .ret r)
  | .run (.ret (.ok x)) k => (w, D, k x)
  | .run (.ret (.error e)) _ => (w, D, .ret (.error e))
  | .run p k => ((p.step w).1, D, .run (p.step w).2 k)
  | .look s n k => (w, D, k ((D s).lookup n))
  | .full s k => (w, D, k (decide (lim s < (D s).length)))
  | .clear s k => (w, D.clear s, k)
  | .put s n v k => (w, D.put s n v, k)

/-- A program that ends with a value. -/
def done {α : Type} (x : α) : DbProg α := .ret (.ok x)

/-- Go on with a result, or end with the exception. -/
def cResult {α β : Type} (r : Except Err α) (k : α → CProg β) : CProg β :=
  match r with
  | .error e => .ret (.error e)
  | .ok x => k x

/-- `cache[k]` (`db_dataset.py:110,129,136,155`): a key that is not there raises. -/
def cFetch {α : Type} (s : KKind) (n : Nat) (k : List ℚ → CProg α) : CProg α :=
  .look s n fun o =>
  match o with
  | none => .ret (.error .keyError)
  | some v => k v

/-- `select_user_interaction_vec`, `select_item_interaction_vec` (`db_dataset.py:105-155`).  `oom` tells whether building
the matrix runs out of memory. -/
def cVec {α : Type} (oom : Bool) (ds : Nat) (s : KKind) (n : Nat) (k : List ℚ → CProg α) : CProg α :=
  .run (.toRaw ds (sideOf s).raw (sideOf s).own n done) fun v =>
  if v.getD .null = .null then .ret (.error .notFound)
  else .look s n fun o =>
    match o with
    | some _ => cFetch s n k
    | none => .full s fun big =>
      let rest : CProg α := .run (.read ds (.max (sideOf s).other) fun m =>
          .select ds (idQuery (sideOf s).own n) fun d => .read d (.values (some [(sideOf s).other, "interaction"])) fun res =>
          .close d (withResult (toVec (sideOf s).other (valOf m) (.ok res)) done)) fun v =>
        if oom then .clear s (cFetch s n k) else .put s n v (cFetch s n k)
      if big then .clear s rest else rest

/-- The vectors of several ids, each with or without enough memory (`dmf.py:76-77`, `cdae.py:52-53`). -/
def cVecs {α : Type} (ds : Nat) (k : List (List ℚ) → CProg α) : List (KKind × Nat × Bool) → List (List ℚ) → CProg α
  | [], acc => k acc
  | q :: qs, acc => cVec q.2.2 ds q.1 q.2.1 fun v => cVecs ds k qs (acc ++ [v])

/-- A thread that asks for the vectors of these ids (`db_dataset.py:105-155`). -/
def vecTask (i : Nat) (qs : List (KKind × Nat × Bool)) : CProg (List (List ℚ)) := cVecs i (fun l => .ret (.ok l)) qs []

/-! ## CDAE -/

/-- `_reconstruct_for_predictions` (`cdae.py:67-71`). -/
def cCdaeScores {α : Type} (t : ℚ) (net : Nat → List ℚ → Except Err (List ℚ)) (ds uid : Nat) (k : List ℚ → CProg α) :
    CProg α :=
  cVec false ds .user uid fun v => cResult (net uid (liked t v)) k

/-- `CDAE._predict` (`cdae.py:84-88`).  Simplification: without an item it raises (the vector is no score). -/
def cCdaePredict {α : Type} (t : ℚ) (net : Nat → List ℚ → Except Err (List ℚ)) (ds : Nat) :
    Option Nat → Option Nat → (Option ℚ → CProg α) → CProg α
  | none, _, k => k none
  | some u, i, k => cCdaeScores t net ds u fun preds =>
    match i with
    | none => .ret (.error .crash)
    | some i => cResult (match preds[i]? with | some q => .ok (some q) | none => .error .outOfRange) k

/-- `CDAE._rank` (`cdae.py:90-103`). -/
def cCdaeRank {α : Type} (t : ℚ) (net : Nat → List ℚ → Except Err (List ℚ)) (ds uid : Nat) (iids : List Nat) (n : Nat)
    (novelty : Bool) (k : List (ℚ × Nat) → CProg α) : CProg α :=
  cCdaeScores t net ds uid fun preds =>
  .run (dbCdaeItems ds uid iids novelty done) fun keep => k (nlargest n (preds.zipIdx.filter fun p => p.2 ∈ keep))

/-! ## DMF -/

/-- `DMF._predict` (`dmf.py:101-106`).  Simplification: without a user or item it raises `notFound`. -/
def cDmfPredict {α : Type} (net : List ℚ → List ℚ → Except Err ℚ) (ds : Nat) :
    Option Nat → Option Nat → (Option ℚ → CProg α) → CProg α
  | some u, some i, k => cVec false ds .user u fun a => cVec false ds .item i fun b => cResult (net a b) fun x => k (some x)
  | _, _, _ => .ret (.error .notFound)

/-- The list comprehension in `_rank` (`recommender_abc.py:460`). -/
def cScores {α : Type} (f : Nat → (Option (ℚ × Nat) → CProg α) → CProg α) (k : List (Option (ℚ × Nat)) → CProg α) :
    List Nat → List (Option (ℚ × Nat)) → CProg α
  | [], acc => k acc
  | i :: is, acc => f i fun p => cScores f k is (acc ++ [p])

/-- `RecommenderABC._rank` (`recommender_abc.py:454-461`) of a model whose `_predict` asks the dataset. -/
def cBaseRank {α : Type} (ds : Nat) (f : Option Nat → Option Nat → (Option ℚ → CProg α) → CProg α) (uid : Nat)
    (iids : List Nat) (n : Nat) (novelty : Bool) (k : List (ℚ × Nat) → CProg α) : CProg α :=
  let go : List Nat → CProg α := fun cand =>
    cScores (fun i k => f (some uid) (some i) fun p => k (p.map fun s => (s, i)))
      (fun preds => k (nlargest n (preds.filterMap id))) cand []
  if novelty then .run (dbRated ds uid done) fun rated => go (novelIids iids rated) else go iids

/-! ## Calls -/

/-- A `_rank` method that uses the dictionaries. -/
abbrev CRankFn (α : Type) := Nat → List Nat → Nat → Bool → (List (ℚ × Nat) → CProg α) → CProg α

/-- The lookups of `predict` (`recommender_abc.py:367-377`). -/
def dbBoth (ds : Nat) (user item : Lit) : DbProg (Option Nat × Option Nat) :=
  .toId ds "user" "uid" user fun v =>
  if v = none then .ret (.error .notFound)
  else .toId ds "item" "iid" item fun v =>
    if v = none then .ret (.error .notFound)
    else .toId ds "user" "uid" user fun u => .toId ds "item" "iid" item fun i => done (u.map idCell, i.map idCell)

/-- A call of a recommender with these methods, fitted on a database dataset (`recommender_abc.py:354-452`). -/
def cServe (ds nItems : Nat) (f : Option Nat → Option Nat → (Option ℚ → CProg Reply) → CProg Reply) (rk : CRankFn Reply) :
    Request → CProg Reply
  | .predict user item => .run (dbBoth ds user item) fun p => f p.1 p.2 fun x =>
      match x with
      | none => .ret (.error .crash)
      | some x => .ret (.ok (.score x))
  | .rank user items novelty skip n => .run (dbUser ds user done) fun uid => .run (dbKnown ds skip done items []) fun iids =>
      if iids.length < n.getD iids.length then .ret (.error .assertion)
      else rk uid iids (n.getD iids.length) novelty fun l => .run (dbToRaw ds done l []) fun l => .ret (.ok (.ranking l))
  | .recommend user n novelty threshold => .run (dbUser ds user done) fun uid =>
      rk uid (List.range nItems) (n.getD nItems) novelty fun l =>
      .run (dbToRaw ds done (match threshold with | none => l | some t => l.filter fun p => t ≤ p.1) []) fun l =>
      .ret (.ok (.ranking l))

/-- A call of CDAE (`cdae.py:84-103`). -/
def cCdaeServe (t : ℚ) (net : Nat → List ℚ → Except Err (List ℚ)) (ds nItems : Nat) : Request → CProg Reply :=
  cServe ds nItems (cCdaePredict t net ds) (cCdaeRank t net ds)

/-- A call of DMF (`dmf.py:101-106`, `recommender_abc.py:454-461`). -/
def cDmfServe (net : List ℚ → List ℚ → Except Err ℚ) (ds nItems : Nat) : Request → CProg Reply :=
  cServe ds nItems (cDmfPredict net ds) (cBaseRank ds (cDmfPredict net ds))

end DRec.Conc
