import Verif.Spec.Transpose
import Verif.Spec.Recommender

/-!
# Renaming users and items (C119)
-/

namespace DRec.Spec

/-- The same records in the same order under other names: users renamed by `ρ`, items by `σ`, different names staying
different.  The columns may change their types, as when texts are replaced by numbers. -/
structure Renamed (ρ σ : Val → Val) (m m' : Mem) : Prop where
  rows : m'.rows.map rawTriple = (m.rows.map rawTriple).map fun t => (ρ t.1, σ t.2.1, t.2.2)
  users : ∀ r ∈ m.rows, ∀ s ∈ m.rows, ρ (r.get "user") = ρ (s.get "user") → r.get "user" = s.get "user"
  items : ∀ r ∈ m.rows, ∀ s ∈ m.rows, σ (r.get "item") = σ (s.get "item") → r.get "item" = s.get "item"

/-- What the caller writes for a user of the first dataset and for the same user of the second one; or for a user
neither of them has. -/
def SameUser (ρ : Val → Val) (d d' : Mem) (x x' : Lit) : Prop :=
  (∃ u u' user, NamesUser d x u user ∧ NamesUser d' x' u' (ρ user)) ∨
    (d.userToUid x = .ok none ∧ d'.userToUid x' = .ok none)

/-- The same for items. -/
def SameItem (σ : Val → Val) (d d' : Mem) (y y' : Lit) : Prop :=
  (∃ item, NamesItem d y item ∧ NamesItem d' y' (σ item)) ∨ (d.itemToIid y = .ok none ∧ d'.itemToIid y' = .ok none)

/-- The internal ids and the interaction of a record. -/
def idTriple (r : Row) : Val × Val × Val := (r.get "uid", r.get "iid", r.get "interaction")

/-- The same recommender fitted on the two datasets: a nearest neighbour recommender with the same arguments, or a
recommender with the ranking of the base class, CDAE or Caser whose scores depend on the internal ids alone. -/
inductive SameRecommender (d d' : Mem) : RankFn → RankFn → Prop
  | knn (cfg : KnnCfg) : SameRecommender d d' (knnRank cfg (ratingsOf d) (fitKnn cfg (ratingsOf d) Knn.init))
      (knnRank cfg (ratingsOf d') (fitKnn cfg (ratingsOf d') Knn.init))
  | base (f : PredictFn ℚ) : SameRecommender d d' (baseRank d f) (baseRank d' f)
  | cdae (p : Nat → List ℚ) : SameRecommender d d' (cdaeRank d p) (cdaeRank d' p)
  | caser (p : Nat → List ℚ) : SameRecommender d d' (caserRank d p) (caserRank d' p)

/-- Recommendations with the items renamed. -/
def renameItems (σ : Val → Val) (r : Except Err (List (ℚ × Option Val))) : Except Err (List (ℚ × Option Val)) :=
  r.map (·.map fun p => (p.1, p.2.map σ))

end DRec.Spec
