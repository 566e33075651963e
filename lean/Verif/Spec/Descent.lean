import Verif.Model.Training

/-!
# Where the loss of DMF has a derivative

`relu`, the bounds inside `l2_normalize`, `maximum` and crossentropy have none at one point each.
-/

namespace DRec.Spec

open DRec.Trn

/-- No unit of the network is exactly at the kink of `relu`. -/
def NoKink : Nat → List Dm.Layer → Dm.Rows → Prop
  | _, [], _ => True
  | n, l :: ls, x => (∀ r ∈ x, ∀ k, k < l.units → (r.zipIdx.map fun p => p.1 * l.W p.2 k).sum + l.b k ≠ 0) ∧
      ∀ y, Dm.dense n l x = some y → NoKink l.units ls y

/-- No value that DMF computes for the batch is exactly at a bound. -/
structure DmfSmooth (m : Dm.Net) (b : DmfBatch) : Prop where
  user : ∀ u, Dm.stack b.users = some u → NoKink m.items m.userNN (m.input u)
  item : ∀ i, Dm.stack b.items = some i → NoKink m.users m.itemNN (m.input i)
  userNorm : ∀ u r, Dm.stack b.users = some u → Dm.tower m.items m.userNN (m.input u) = some r → ∀ x ∈ r, (x.map fun y => y ^ 2).sum ≠ 1 / 10 ^ 12
  itemNorm : ∀ i r, Dm.stack b.items = some i → Dm.tower m.users m.itemNN (m.input i) = some r → ∀ x ∈ r, (x.map fun y => y ^ 2).sum ≠ 1 / 10 ^ 12
  cosine : ∀ u i ur ir p, Dm.stack b.users = some u → Dm.stack b.items = some i → Dm.tower m.items m.userNN (m.input u) = some ur →
    Dm.tower m.users m.itemNN (m.input i) = some ir → Dm.multiply (ur.map l2Normalize) (ir.map l2Normalize) = some p →
    ∀ r ∈ p, r.sum ≠ 1 / 10 ^ 6 ∧ r.sum ≠ 1 - kEps

end DRec.Spec
