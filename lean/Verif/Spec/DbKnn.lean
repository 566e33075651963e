import Verif.Model.DbKnn
import Verif.Spec.DbEval
import Verif.Spec.Mem

/-! # Nearest neighbour recommenders on a database dataset -/

namespace DRec.Spec

open Conc

/-- The same call of the recommender fitted on an in-memory dataset. -/
def memServe (cfg : KnnCfg) (m : Mem) (M : Knn) : Request → Except Err Reply
  | .predict user item =>
    match predict m true (knnPredict cfg (ratingsOf m) M) user item false with
    | .error e => .error e
    | .ok none => .error .crash
    | .ok (some x) => .ok (.score x)
  | .rank user items novelty skip n => (rank m (knnRank cfg (ratingsOf m) M) user items novelty skip n).map .ranking
  | .recommend user n novelty threshold =>
    (recommend m (knnRank cfg (ratingsOf m) M) user n novelty threshold).map .ranking

/-- Column types of a database dataset: ids are integers or texts, of the type they have in memory, and the interactions
are not texts. -/
def TrainTypes (x : Inst) (m : Mem) : Prop :=
  ∀ ty, x.types = some ty → ty "user" = m.dtype "user" ∧ ty "item" = m.dtype "item" ∧ ty "user" ≠ .float ∧
    ty "item" ≠ .float ∧ ty "interaction" ≠ .obj

/-- Database dataset `i` can be trained on: users and items are there, interactions are numbers, and nobody else reads
internal ids from its table. -/
structure Trainable (w : World) (i : Nat) (x : Inst) (m : Mem) : Prop where
  same : SameData w i x m
  raw : ∀ r ∈ m.rows, r.get "user" ≠ .null ∧ r.get "item" ≠ .null
  numbers : ∀ r ∈ m.rows, ∃ q, r.get "interaction" = .num q
  types : TrainTypes x m
  safe : IdSafe w i

/-- The internal ids of database dataset `i` have been assigned. -/
structure Ready (w : World) (i : Nat) (x : Inst) (m : Mem) : Prop where
  same : SameData w i x m
  fresh : Fresh m
  types : TrainTypes x m
  typed : ∃ ty, x.types = some ty ∧ ty "uid" = .int ∧ ty "iid" = .int
  table : x.state = .table
  few : x.queries < 2

/-- The program that fits a nearest neighbour recommender returns this, and leaves this behind. -/
def FitReturns (w : World) (cfg : KnnCfg) (i : Nat) (M : Knn) (w' : World) (r : Except Err (Knn × Nat)) : Prop :=
  ProgRuns w [dbFit cfg i M fun p => .ret (.ok p)] w' [.ret r]

end DRec.Spec
