import Verif.Model.DmfTower

/-!
# CDAE's scores in single precision (`DRecPy/Recommender/cdae.py:67-76`)

Every operation rounds to 24 binary digits; as in `Model/DmfTower` the order of the sums is left open, so the results are relations.
Simplification: exponents are unbounded.
-/

namespace DRec.Cd

open Dm (Dotted)

noncomputable section

/-- `tf.sigmoid` (`cdae.py:74,76`): at most four times the relative error of a rounded operation. -/
def SigF (x y : ℝ) : Prop := |y - sigmoid x| ≤ 4 / 2 ^ 24 * sigmoid x

/-- `tf.sigmoid` (`cdae.py:74,76`) when it rounds like the other operations. -/
def SigBest (x y : ℝ) : Prop := y = single (sigmoid x)

/-- `hidden_layer` (`cdae.py:74-75`) with a sigmoid `S`: product, user embedding, bias. -/
def HiddenF (S : ℝ → ℝ → Prop) (m : Cdae) (uid : Nat) (x h : List ℝ) : Prop :=
  h.length = m.hidden ∧ ∀ k, k < m.hidden → ∃ d : ℝ, Dotted (x.zipIdx.map fun p => (p.1, m.W p.2 k)) d ∧
    S (single (single (d + m.V uid k) + m.b k)) (h.getD k 0)

/-- The output layer (`cdae.py:76`). -/
def OutputF (S : ℝ → ℝ → Prop) (m : Cdae) (h y : List ℝ) : Prop :=
  y.length = m.items ∧ ∀ j, j < m.items → ∃ d : ℝ, Dotted (h.zipIdx.map fun p => (p.1, m.W' p.2 j)) d ∧
    S (single (d + m.b' j)) (y.getD j 0)

/-- `_reconstruct` (`cdae.py:73-76`) of an input of numbers in single precision, for a known user. -/
def ReconstructF (S : ℝ → ℝ → Prop) (m : Cdae) (uid : Nat) (x y : List ℝ) : Prop :=
  uid < m.users ∧ x.length = m.items ∧ ∃ h, HiddenF S m uid x h ∧ OutputF S m h y

end

end DRec.Cd
