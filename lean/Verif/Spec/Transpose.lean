import Verif.Model.KnnMem
import Verif.Spec.RowOrder

/-! # Exchanging users and items -/

namespace DRec.Spec

/-- A dataset without internal ids that has users, items and number interactions. -/
structure RawSet (m : Mem) : Prop where
  user : "user" ∈ m.cols
  item : "item" ∈ m.cols
  inter : "interaction" ∈ m.cols
  numbers : ∀ r ∈ m.rows, ∃ q, r.get "interaction" = .num q

/-- The same records in the same order, users and items exchanged. -/
structure Transposed (m m' : Mem) : Prop where
  rows : m'.rows.map rawTriple = (m.rows.map rawTriple).map fun t => (t.2.1, t.1, t.2.2)
  users : m'.dtype "user" = m.dtype "item"
  items : m'.dtype "item" = m.dtype "user"

/-- The other class of nearest neighbour recommender with the same arguments. -/
def otherClass (cfg : KnnCfg) : KnnCfg :=
  { cfg with kind := match cfg.kind with | .user => .item | .item => .user }

end DRec.Spec
