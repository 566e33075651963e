import Verif.Model.CaserNet
import Mathlib.Algebra.BigOperators.Group.Finset.Basic
import Mathlib.Algebra.BigOperators.Ring.Finset

/-! # The network of the Caser paper (Tang and Wang, 2018, section 3) -/

namespace DRec.Spec

open DRec.Cas

/-- Horizontal filter `f` of height `h` at position `t` of the item sequence. -/
noncomputable def horizontalAt (m : Net) (seq : List Nat) (h f t : Nat) : ℝ :=
  m.actH (∑ j ∈ Finset.range h, ∑ c ∈ Finset.range m.cfg.d, m.E (seq.getD (t + j) 0) c * m.Kh (h - 1) j c f + m.bh (h - 1) f)

/-- A weighted sum of all numbers of the item embeddings. -/
noncomputable def weighted (m : Net) (seq : List Nat) (f : Nat) : ℝ :=
  ∑ j ∈ Finset.range m.cfg.L, ∑ c ∈ Finset.range m.cfg.d, m.E (seq.getD j 0) c * m.Kv j c f + m.bv f

/-- A vertical filter as in the paper: a weighted sum of the embeddings of the items, one number for every latent dimension `c`. -/
noncomputable def verticalAt (m : Net) (F : Nat → ℝ) (seq : List Nat) (c : Nat) : ℝ :=
  ∑ j ∈ Finset.range m.cfg.L, F j * m.E (seq.getD j 0) c

/-- The score of an item from the features of a sequence: a dense layer, then the product with the vector of the item. -/
noncomputable def caserScore (m : Net) (feats : List ℝ) (uid iid : Nat) : ℝ :=
  ∑ k ∈ Finset.range m.cfg.d,
      m.actMlp (∑ i ∈ Finset.range feats.length, feats.getD i 0 * m.D i k + m.bd k) * m.W iid k +
    ∑ k ∈ Finset.range m.cfg.d, m.U uid k * m.W iid (m.cfg.d + k) + m.b iid

/-- The ids of an example are known to the network. -/
def KnownIds (m : Net) (e : Nat × List Nat × List Nat) : Prop :=
  e.1 < m.users ∧ (∀ i ∈ e.2.1, i < m.items) ∧ ∀ i ∈ e.2.2, i < m.items

end DRec.Spec
