import Mathlib.Logic.Relation
import Mathlib.Data.List.Basic

/-! # Improving a ranking by exchanging two of its items -/

namespace DRec.Spec

variable {α : Type}

/-- `l'` is `l` with an item `a` exchanged for an item `b` that stood further down, where `ok b a` says
that `b` may be put in the place of `a`. -/
def Promotion (ok : α → α → Prop) (l l' : List α) : Prop :=
  ∃ pre a mid b post, l = pre ++ a :: (mid ++ b :: post) ∧ l' = pre ++ b :: (mid ++ a :: post) ∧ ok b a

/-- Any number of such exchanges, one after the other. -/
def Promotions (ok : α → α → Prop) : List α → List α → Prop := Relation.ReflTransGen (Promotion ok)

end DRec.Spec
