import Verif.Spec.Mem

/-! # What samplers promise -/

namespace DRec.Spec

open DRec

/-- The record belongs to that pair of internal ids. -/
def OfPair (r : Row) (u i : Nat) : Prop := r.get "uid" = .num (u : ℚ) ∧ r.get "iid" = .num (i : ℚ)

/-- The interaction of a record reaches the threshold (always, when there is none). -/
def Reaches (t : Option ℚ) (r : Row) : Prop := ∀ x ∈ t, x ≤ numCell (r.get "interaction")

/-- A positive pair: some record of the pair reaches the threshold. -/
def PositivePair (rows : List Row) (t : Option ℚ) (u i : Nat) : Prop :=
  ∃ r ∈ rows, OfPair r u i ∧ Reaches t r

/-- A pair of known ids that is not positive. -/
def NegativePair (ds : Mem) (t : Option ℚ) (u i : Nat) : Prop :=
  u < ds.userMap.length ∧ i < ds.itemMap.length ∧ ¬ PositivePair ds.rows t u i

/-- At most one record per pair. -/
def OnePerPair (rows : List Row) : Prop :=
  ∀ r ∈ rows, ∀ r' ∈ rows, ∀ u i, OfPair r u i → OfPair r' u i → r = r'

instance (t : Option ℚ) (r : Row) : Decidable (Reaches t r) := by
  unfold Reaches
  cases t with
  | none => exact isTrue (by simp)
  | some x => exact decidable_of_iff (x ≤ numCell (r.get "interaction")) (by simp)

/-- The records of a group that reach the threshold. -/
def groupPositives (rows : List Row) (cols : List String) (t : Option ℚ) (g : List Val) : List Row :=
  rows.filter fun r => cols.map r.get = g ∧ Reaches t r

/-- Sorted by the column, if there is one. -/
def SortedBy (c : Option String) (l : List Row) : Prop :=
  ∀ col ∈ c, l.Pairwise fun a b => numCell (a.get col) ≤ numCell (b.get col)

/-- `a` directly followed by `b` in a sorted arrangement of the whole list `all`. -/
def Consecutive (c : Option String) (a b all : List Row) : Prop :=
  ∃ pre post, (pre ++ a ++ b ++ post).Perm all ∧ SortedBy c (pre ++ a ++ b ++ post)

end DRec.Spec
