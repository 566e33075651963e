import Verif.Model.Recommender

/-!
# Nearest neighbour recommenders (`DRecPy/Recommender/Baseline/*_knn.py`, `aggregation.py`)

Over the records of a dataset with internal ids, in order, as triples of user id, item id and interaction.
`select(f'uid == {uid}')` and the like are filters on that list; `Props/KnnMem.lean` has the link to the
queries of the dataset model.  Similarity values and interactions are exact rationals; the similarity
metric is an arbitrary function from the entries of the rating matrix to the entries of the similarity
matrix.
-/

namespace DRec

/-- A record of the fitted dataset. -/
structure Rating where
  uid : Nat
  iid : Nat
  x : ℚ
  deriving DecidableEq, Repr

/-- `self.type` (`user_knn.py:19`, `item_knn.py:19`). -/
inductive KKind where
  | user
  | item
  deriving DecidableEq

/-- The id neighbourhoods are made of. -/
def KKind.own : KKind → Rating → Nat
  | .user, r => r.uid
  | .item, r => r.iid

/-- The other id. -/
def KKind.other : KKind → Rating → Nat
  | .user, r => r.iid
  | .item, r => r.uid

/-- `self.aggregation_fn` (`base_knn.py:59-64`). -/
inductive Agg where
  | mean
  | weighted

/-- Constructor arguments (`base_knn.py:40-73`). -/
structure KnnCfg where
  kind : KKind
  k : Nat
  m : Nat
  shrinkage : Option ℚ
  metric : List (Nat × Nat × ℚ) → List (Nat × Nat × ℚ)
  agg : Agg
  useAverages : Bool

/-- `_similarities` and `_neighbours` (`base_knn.py:72-73`). -/
structure Knn where
  sims : Nat × Nat → Option ℚ
  nbrs : Nat → Option (List (ℚ × Nat))

/-- A new model. -/
def Knn.init : Knn := ⟨fun _ => none, fun _ => none⟩

/-- `user_rated_items[u]` (`user_knn.py:23-34`, `item_knn.py:23-34`); empty instead of `KeyError` for an unknown id. -/
def ratedBy (K : KKind) (rs : List Rating) (a : Nat) : List Nat :=
  ((rs.filter fun r => K.own r = a).map K.other).dedup

/-- `len(co_ratings)` (`user_knn.py:43`). -/
def coRated (K : KKind) (rs : List Rating) (a b : Nat) : Nat :=
  ((ratedBy K rs a).filter fun i => i ∈ ratedBy K rs b).length

/-- Entries handed to `csr_matrix` (`user_knn.py:37`, `item_knn.py:37`). -/
def matrixEntries (K : KKind) (rs : List Rating) : List (Nat × Nat × ℚ) :=
  rs.map fun r => (K.own r, K.other r, r.x)

/-- Shrinkage (`user_knn.py:50-51`). -/
def shrink (sh : Option ℚ) (c : Nat) (s : ℚ) : ℚ :=
  match sh with
  | none => s
  | some z => s * ((c : ℚ) / ((c : ℚ) + z + 1 / 1000000))

/-- One pass of the loop over the similarity matrix (`user_knn.py:39-51`, `item_knn.py:39-51`). -/
def addSim (cfg : KnnCfg) (rs : List Rating) (sims : Nat × Nat → Option ℚ) (e : Nat × Nat × ℚ) :
    Nat × Nat → Option ℚ :=
  if e.1 ≤ e.2.1 then sims
  else if 0 < cfg.m ∧ coRated cfg.kind rs e.1 e.2.1 < cfg.m then sims
  else fun p => if p = (e.1, e.2.1) then some (shrink cfg.shrinkage (coRated cfg.kind rs e.1 e.2.1) e.2.2)
    else sims p

/-- `_compute_similarities` (`user_knn.py:21-51`, `item_knn.py:21-51`). -/
def computeSims (cfg : KnnCfg) (rs : List Rating) (old : Nat × Nat → Option ℚ) : Nat × Nat → Option ℚ :=
  (cfg.metric (matrixEntries cfg.kind rs)).foldl (addSim cfg rs) old

/-- `_get_sim` (`base_knn.py:125-131`). -/
def getSim (sims : Nat × Nat → Option ℚ) (a b : Nat) : ℚ := (sims (max a b, min a b)).getD 0

/-- `n_users`, `n_items` (`recommender_abc.py:144-145`). -/
def ownIds (K : KKind) (rs : List Rating) : List Nat := (rs.map K.own).dedup

/-- The neighbours of one id (`user_knn.py:55-58`). -/
def neighboursOf (cfg : KnnCfg) (n : Nat) (sims : Nat × Nat → Option ℚ) (a : Nat) : List (ℚ × Nat) :=
  nlargest cfg.k ((((List.range n).filter fun b => b ≠ a).map fun b => (getSim sims a b, b)).filter
    fun p => 0 < p.1)

/-- `_compute_neighbours` (`user_knn.py:53-58`, `item_knn.py:53-58`). -/
def computeNbrs (cfg : KnnCfg) (rs : List Rating) (sims : Nat × Nat → Option ℚ)
    (old : Nat → Option (List (ℚ × Nat))) : Nat → Option (List (ℚ × Nat)) :=
  (ownIds cfg.kind rs).foldl
    (fun f a x => if x = a then some (neighboursOf cfg (ownIds cfg.kind rs).length sims a) else f x) old

/-- `_pre_fit` (`base_knn.py:75-80`). -/
def fitKnn (cfg : KnnCfg) (rs : List Rating) (M : Knn) : Knn :=
  let sims := computeSims cfg rs M.sims
  ⟨sims, computeNbrs cfg rs sims M.nbrs⟩

/-! ## Predicting -/

/-- `mean` (`aggregation.py:1-11`). -/
def aggMean (l : List (ℚ × ℚ)) : Option ℚ :=
  if 0 < l.length then some ((l.map (·.1)).sum / (l.length : ℚ)) else none

/-- `weighted_mean` (`aggregation.py:14-25`). -/
def aggWeighted (l : List (ℚ × ℚ)) : Option ℚ :=
  if 0 < (l.map (·.2)).sum then some ((l.map fun p => p.2 * p.1).sum / (l.map (·.2)).sum) else none

/-- The aggregation over pairs of interaction and similarity. -/
def Agg.run : Agg → List (ℚ × ℚ) → Option ℚ
  | .mean, l => aggMean l
  | .weighted, l => aggWeighted l

/-- `_get_interaction` (`user_knn.py:60-62`, `item_knn.py:60-62`): the first record of the pair. -/
def interactionOf (K : KKind) (rs : List Rating) (own other : Nat) : Option ℚ :=
  (rs.find? fun r => decide (K.own r = own) && decide (K.other r = other)).map (·.x)

/-- `_predict_default` (`user_knn.py:64-67`, `item_knn.py:64-67`). -/
def predictDefault (K : KKind) (rs : List Rating) (other : Nat) : Except Err (Option ℚ) :=
  let l := rs.filter fun r => K.other r = other
  if l.length = 0 then .error .zeroDiv else .ok (some ((l.map (·.x)).sum / (l.length : ℚ)))

/-- Interactions and similarities of the neighbours (`base_knn.py:97-102`). -/
def usedPairs (K : KKind) (rs : List Rating) (nbrs : List (ℚ × Nat)) (other : Nat) : List (ℚ × ℚ) :=
  nbrs.filterMap fun p => (interactionOf K rs p.2 other).map fun x => (x, p.1)

/-- The end of `_predict` (`base_knn.py:104-107`), also used in ranking (`item_knn.py:88-91`). -/
def finishPred (cfg : KnnCfg) (rs : List Rating) (l : List (ℚ × ℚ)) (other : Nat) : Except Err (Option ℚ) :=
  if l.length = 0 ∧ cfg.useAverages = true then predictDefault cfg.kind rs other else .ok (cfg.agg.run l)

/-- `_predict` (`base_knn.py:94-107`) for the own and other id. -/
def predictOwn (cfg : KnnCfg) (rs : List Rating) (M : Knn) (own other : Nat) : Except Err (Option ℚ) :=
  match M.nbrs own with
  | none => .error .keyError
  | some nb => finishPred cfg rs (usedPairs cfg.kind rs nb other) other

/-- `_predict` (`base_knn.py:94-107`). -/
def knnPredict (cfg : KnnCfg) (rs : List Rating) (M : Knn) : PredictFn ℚ
  | none, _ => .ok none
  | _, none => .ok none
  | some u, some i =>
    match cfg.kind with
    | .user => predictOwn cfg rs M u i
    | .item => predictOwn cfg rs M i u

/-! ## Ranking -/

/-- The items to rank (`user_knn.py:70-73`, `item_knn.py:70-73`). -/
def knnItems (rs : List Rating) (uid : Nat) (iids : List Nat) (novelty : Bool) : List Nat :=
  if novelty then iids.dedup.filter fun i => i ∉ (rs.filter fun r => r.uid = uid).map (·.iid) else iids.dedup

/-- The triples collected by `UserKNN._rank` (`user_knn.py:77-83`): item, interaction, similarity. -/
def neighbourTriples (rs : List Rating) (nbrs : List (ℚ × Nat)) (keep : List Nat) : List (Nat × ℚ × ℚ) :=
  nbrs.flatMap fun p => (rs.filter fun r => decide (r.uid = p.2) && decide (r.iid ∈ keep)).map fun r =>
    (r.iid, r.x, p.1)

/-- Score of one item (`user_knn.py:85-95`, `item_knn.py:88-96`). -/
def knnScored (cfg : KnnCfg) (rs : List Rating) (l : List (ℚ × ℚ)) (other i : Nat) :
    Except Err (Option (ℚ × Nat)) :=
  (finishPred cfg rs l other).map fun p => p.map fun s => (s, i)

/-- `UserKNN._rank` (`user_knn.py:69-95`). -/
def userRank (cfg : KnnCfg) (rs : List Rating) (M : Knn) : RankFn := fun uid iids n novelty =>
  let keep := knnItems rs uid iids novelty
  match M.nbrs uid with
  | none => .error .keyError
  | some nb =>
    let ts := neighbourTriples rs nb keep
    (((ts.map (·.1)).dedup.mapM fun i => knnScored cfg rs ((ts.filter fun t => t.1 = i).map (·.2)) i i)).map
      fun preds => nlargest n (preds.filterMap id)

/-- One item of `ItemKNN._rank` (`item_knn.py:79-94`). -/
def itemScored (cfg : KnnCfg) (rs : List Rating) (M : Knn) (uid i : Nat) : Except Err (Option (ℚ × Nat)) :=
  match M.nbrs i with
  | none => .error .keyError
  | some nb =>
    let own := rs.filter fun r => r.uid = uid
    knnScored cfg rs (nb.filterMap fun p =>
      if p.2 ∈ own.map (·.iid) then (own.find? fun r => r.iid = p.2).map fun r => (r.x, p.1) else none) uid i

/-- `ItemKNN._rank` (`item_knn.py:69-96`). -/
def itemRank (cfg : KnnCfg) (rs : List Rating) (M : Knn) : RankFn := fun uid iids n novelty =>
  ((knnItems rs uid iids novelty).mapM (itemScored cfg rs M uid)).map fun preds => nlargest n (preds.filterMap id)

end DRec
