import Verif.Model.Core
import Mathlib.Data.List.Dedup

/-! # What the metrics count -/

namespace DRec.Spec

variable {α : Type} [DecidableEq α]

/-- The first `k` elements (all of them without `k`). -/
def firstK : Option Nat → List α → List α
  | none, l => l
  | some k, l => l.take k

/-- Number of different relevant items in a list. -/
def hits (l rel : List α) : Nat := (l.dedup.filter (· ∈ rel)).length

end DRec.Spec
