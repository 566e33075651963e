import Verif.Spec.Knn
import Verif.Spec.Similarity
import Verif.Spec.Mem

/-!
# Notions for the statement that the order of the records does not matter
-/

namespace DRec.Spec

open DRec

/-- The row has a value. -/
def HasRow {K : Type} (es : List (Nat × Nat × K)) (i : Nat) : Prop := ∃ c, HasCell es i c

/-- The column has a value. -/
def HasCol {K : Type} (es : List (Nat × Nat × K)) (c : Nat) : Prop := ∃ i, HasCell es i c

/-- Rows and columns are numbered without gaps. -/
def Gapless {K : Type} (es : List (Nat × Nat × K)) : Prop :=
  (∀ i j, i ≤ j → HasRow es j → HasRow es i) ∧ ∀ c d, c ≤ d → HasCol es d → HasCol es c

/-- The entries `es'` are those of `es` in any order, with rows and columns renumbered by `π` and `σ`. -/
structure Relabel {K : Type} (π σ : Nat → Nat) (es es' : List (Nat × Nat × K)) : Prop where
  perm : es'.Perm (es.map fun e => (π e.1, σ e.2.1, e.2.2))
  rowInj : ∀ i j, HasRow es i → HasRow es j → π i = π j → i = j
  colInj : ∀ c d, HasCol es c → HasCol es d → σ c = σ d → c = d
  gapless : Gapless es
  gapless' : Gapless es'

/-- A similarity metric that gives two rows the same value however rows, columns and entries are ordered. -/
def OrderFree {K : Type} (metric : List (Nat × Nat × K) → List (Nat × Nat × K)) : Prop :=
  ∀ π σ es es', Relabel π σ es es' → ∀ i j s, HasRow es i → HasRow es j →
    ((i, j, s) ∈ metric es ↔ (π i, π j, s) ∈ metric es')

/-- Which neighbours are used does not hang on a tie: either everybody else fits among the `k` neighbours or no
two candidates are equally similar. -/
def Decided (cfg : KnnCfg) (rs : List Rating) (a : Nat) : Prop :=
  (∀ b, Known cfg.kind rs b → b ≤ cfg.k) ∨
    ∀ b c s, Candidate cfg rs a b s → Candidate cfg rs a c s → b = c

/-- User, item and interaction of a record. -/
def rawTriple (r : Row) : Val × Val × Val := (r.get "user", r.get "item", r.get "interaction")

/-- Two datasets with the same records in any order. -/
structure SameRecords (ds ds' : Mem) : Prop where
  perm : (ds'.rows.map rawTriple).Perm (ds.rows.map rawTriple)
  users : ds'.dtype "user" = ds.dtype "user"
  items : ds'.dtype "item" = ds.dtype "item"

/-- No user has two records with the same item. -/
def OncePerPair (ds : Mem) : Prop := (ds.rows.map fun r => (r.get "user", r.get "item")).Nodup

end DRec.Spec
