import Verif.Model.DmfNet
import Mathlib.Algebra.BigOperators.Group.Finset.Basic
import Mathlib.Algebra.BigOperators.Ring.Finset

/-! # The scores of the DMF paper (Xue et al., 2017, section 3) -/

namespace DRec.Spec

open DRec.Dm

/-- The representation that a network of ReLU layers gives to a vector `x` of size `n`. -/
noncomputable def repOf : Nat → List Layer → (Nat → ℝ) → Nat → ℝ
  | _, [], x => x
  | n, l :: ls, x => repOf l.units ls fun k => max 0 (∑ j ∈ Finset.range n, x j * l.W j k + l.b k)

/-- Its size. -/
def repSize : Nat → List Layer → Nat
  | n, [] => n
  | _, l :: ls => repSize l.units ls

/-- The length of a vector of size `n`, at least 1e-6. -/
noncomputable def normOf (n : Nat) (x : Nat → ℝ) : ℝ := max (Real.sqrt (∑ k ∈ Finset.range n, x k ^ 2)) (1 / 10 ^ 6)

/-- Cosine of two vectors of size `n` (up to the bound of the lengths). -/
noncomputable def cosineOf (n : Nat) (x y : Nat → ℝ) : ℝ := (∑ k ∈ Finset.range n, x k * y k) / (normOf n x * normOf n y)

/-- An interaction vector of size `n` as the networks get it. -/
noncomputable def inputOf (l2Norm : Bool) (n : Nat) (v : List ℚ) (j : Nat) : ℝ :=
  if l2Norm then (v.getD j 0 : ℚ) / normOf n (fun k => ((v.getD k 0 : ℚ) : ℝ)) else ((v.getD j 0 : ℚ) : ℝ)

/-- The cosine of the representations of a user and an item. -/
noncomputable def dmfCosine (m : Net) (u i : List ℚ) : ℝ :=
  cosineOf (repSize m.items m.userNN) (repOf m.items m.userNN (inputOf m.l2Norm m.items u))
    (repOf m.users m.itemNN (inputOf m.l2Norm m.users i))

/-- There are layers, and both networks end in the same size. -/
def Sizes (m : Net) : Prop :=
  m.userNN ≠ [] ∧ m.itemNN ≠ [] ∧ repSize m.items m.userNN = repSize m.users m.itemNN

/-- All biases are 0. -/
def NoBias (ls : List Layer) : Prop := ∀ l ∈ ls, ∀ k, l.b k = 0

/-- The claim that scores do not depend on the scale of a user's interactions, for a network. -/
def ScaleFree (m : Net) : Prop :=
  ∀ (c : ℚ) (u i : List ℚ), 0 < c → u.length = m.items → i.length = m.users → (∃ x ∈ u, 1 / 10 ^ 6 ≤ |x|) →
    (∃ x ∈ u, 1 / 10 ^ 6 ≤ |c * x|) → m.forward [u.map (c * ·)] [i] = m.forward [u] [i]

end DRec.Spec
