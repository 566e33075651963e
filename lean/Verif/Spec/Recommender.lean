import Verif.Model.Recommender
import Verif.Spec.Splits
import Verif.Spec.Mem

/-! # Notions used in the statements about recommenders -/

namespace DRec.Spec

/-- The model's value for a user (internal id) and a raw item: `_predict` on the item's internal id. -/
def HasScore (ds : Mem) (f : PredictFn ℚ) (uid : Nat) (item : Val) (s : ℚ) : Prop :=
  ∃ i, ds.iidToItem i = .ok (some item) ∧ f (some uid) (some i) = .ok (some s)

/-- The user has a record with the item. -/
def Owns (ds : Mem) (user item : Val) : Prop :=
  ∃ r ∈ ds.rows, r.get "user" = user ∧ r.get "item" = item

/-- Items that may be recommended with a score: known, scored, new to the user when novelty is on, at or
above the threshold. -/
structure Eligible (ds : Mem) (f : PredictFn ℚ) (uid : Nat) (user : Val) (novelty : Bool)
    (threshold : Option ℚ) (item : Val) (s : ℚ) : Prop where
  known : ∃ r ∈ ds.rows, r.get "item" = item
  score : HasScore ds f uid item s
  new : novelty = true → ¬ Owns ds user item
  above : ∀ t, threshold = some t → t ≤ s

/-- The caller's id names this user. -/
def NamesUser (ds : Mem) (x : Lit) (uid : Nat) (user : Val) : Prop :=
  ds.userToUid x = .ok (some uid) ∧ ds.uidToUser uid = .ok (some user)

/-- The model never raises for known ids. -/
def Scores (ds : Mem) (f : PredictFn ℚ) (uid : Nat) : Prop :=
  ∀ i item, ds.iidToItem i = .ok (some item) → ∃ p, f (some uid) (some i) = .ok p

/-- Raw items named by the caller's ids. -/
def NamesItem (ds : Mem) (x : Lit) (item : Val) : Prop :=
  ∃ i, ds.itemToIid x = .ok (some i) ∧ ds.iidToItem i = .ok (some item)

/-- The id can be looked up at all: for integer columns it must read as an integer. -/
def Readable (ds : Mem) (x : Lit) : Prop := ∃ o, ds.itemToIid x = .ok o

end DRec.Spec
