import Verif.Model.Similarity

/-!
# Notions the properties of the similarity metrics are stated with
-/

namespace DRec.Spec

open DRec

/-- Row `i` has a value in column `c`. -/
def HasCell {K : Type} (es : List (Nat × Nat × K)) (i c : Nat) : Prop := ∃ v, (i, c, v) ∈ es

/-- The value of a cell: all values given for it added up, zero when there is none. -/
def cell {K : Type} [AddCommMonoid K] (es : List (Nat × Nat × K)) (i c : Nat) : K :=
  ((es.filter fun e => e.1 = i ∧ e.2.1 = c).map fun e => e.2.2).sum

/-- `cs` lists exactly the columns both rows have a value in, each once. -/
def Common {K : Type} (es : List (Nat × Nat × K)) (i j : Nat) (cs : List Nat) : Prop :=
  cs.Nodup ∧ ∀ c, c ∈ cs ↔ HasCell es i c ∧ HasCell es j c

/-- `cs` lists exactly the columns the row has a value in, each once. -/
def Columns {K : Type} (es : List (Nat × Nat × K)) (i : Nat) (cs : List Nat) : Prop :=
  cs.Nodup ∧ ∀ c, c ∈ cs ↔ HasCell es i c

/-- Cosine of two functions over some columns. -/
noncomputable def cos (cs : List Nat) (f g : Nat → ℝ) : ℝ :=
  (cs.map fun c => f c * g c).sum / (√(cs.map fun c => f c ^ 2).sum * √(cs.map fun c => g c ^ 2).sum)

/-- Mean of a function over some columns. -/
noncomputable def meanOver (cs : List Nat) (f : Nat → ℝ) : ℝ := (cs.map f).sum / cs.length

/-- A value of the matrix, including the zeros of cells without a value: rows and columns go up to the largest index. -/
def Value {K : Type} [AddCommMonoid K] (es : List (Nat × Nat × K)) (v : K) : Prop :=
  ∃ i c, (∃ i' c', i ≤ i' ∧ HasCell es i' c') ∧ (∃ i' c', c ≤ c' ∧ HasCell es i' c') ∧ v = cell es i c

/-- The largest difference of two values of the matrix. -/
def MaxDiff {K : Type} [Field K] [LinearOrder K] (es : List (Nat × Nat × K)) (D : K) : Prop :=
  (∃ v w, Value es v ∧ Value es w ∧ D = v - w) ∧ ∀ v w, Value es v → Value es w → v - w ≤ D

/-- A similarity matrix is symmetric and has one value per cell. -/
structure Symmetric {K : Type} (S : List (Nat × Nat × K)) : Prop where
  symm : ∀ i j s, (i, j, s) ∈ S → (j, i, s) ∈ S
  one : ∀ i j s s', (i, j, s) ∈ S → (i, j, s') ∈ S → s = s'

end DRec.Spec
