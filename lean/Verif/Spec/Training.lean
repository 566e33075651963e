import Verif.Model.Training
import Verif.Spec.Mem

/-! # Renumbering users and items -/

namespace DRec.Spec

open DRec.Trn DRec.Opt

/-- `π` renumbers 0, …, n - 1. -/
structure Renumbers (π : Nat → Nat) (n : Nat) : Prop where
  inj : Function.Injective π
  lt : ∀ i, π i < n ↔ i < n

/-- Where the elements go when the rows (of `width` elements) are renumbered. -/
def byRow (π : Nat → Nat) (width i : Nat) : Nat := π (i / width) * width + i % width

/-- Where the elements go when the columns are renumbered. -/
def byCol (π : Nat → Nat) (width i : Nat) : Nat := i / width * width + π (i % width)

/-- The values of `w` are found in `w'` at the places `ι`. -/
def Moved {α : Type} (ι : Addr → Nat → Nat) (w w' : Addr → Nat → α) : Prop := ∀ a i, w' a (ι a i) = w a i

/-- The same for everything the optimizer works with. -/
structure MovedSt {S : Type} (ι : Addr → Nat → Nat) (s s' : St S) : Prop where
  w : Moved ι s.w s'.w
  slots : Moved ι s.slots s'.slots
  iterations : s'.iterations = s.iterations

/-- Both computations raise the same error, or both return related results. -/
def SameUpTo {α β : Type} (r : α → β → Prop) : Except Err α → Except Err β → Prop
  | .ok x, .ok y => r x y
  | .error e, .error e' => e = e'
  | _, _ => False

/-- `v'` is the vector `v` with its places renumbered. -/
def Permuted {α : Type} (π : Nat → Nat) (v v' : List α) : Prop := v'.length = v.length ∧ ∀ i, v'[π i]? = v[i]?

end DRec.Spec

namespace DRec.Spec

open DRec.Trn

/-- The places of the weights of CDAE (registered from `a` on) after renumbering items by `σ` and users by `τ`. -/
def cdaePlaces (σ τ : Nat → Nat) (items hidden a : Nat) (x : Addr) : Nat → Nat :=
  if x = a then byRow σ hidden
  else if x = a + 1 then byCol σ items
  else if x = a + 2 then byRow τ hidden
  else if x = a + 4 then σ
  else id

/-- The same sample after renumbering. -/
structure SameSample (σ τ : Nat → Nat) (s s' : CdaeSample) : Prop where
  uid : s'.uid = τ s.uid
  input : Permuted σ s.input s'.input
  wanted : Permuted σ s.wanted s'.wanted

/-- The places of the weights of DMF. -/
def dmfPlaces (σ τ : Nat → Nat) (f : List Nat × List Nat) (a : Nat) (x : Addr) : Nat → Nat :=
  if x = a then byRow σ (f.1.getD 0 0) else if x = a + 2 * f.1.length then byRow τ (f.2.getD 0 0) else id

/-- The same batch after renumbering. -/
structure SameBatch (σ τ : Nat → Nat) (b b' : DmfBatch) : Prop where
  users : List.Forall₂ (Permuted σ) b.users b'.users
  items : List.Forall₂ (Permuted τ) b.items b'.items
  wanted : b'.wanted = b.wanted

/-- The places of the weights of Caser. -/
def caserPlaces (σ τ : Nat → Nat) (d a : Nat) (x : Addr) : Nat → Nat :=
  if x = a then byRow τ d else if x = a + 1 then byRow σ d else if x = a + 6 then byRow σ (2 * d) else if x = a + 7 then σ else id

/-- A batch of Caser with other numbers. -/
def CaserBatch.renumber (σ τ : Nat → Nat) (b : CaserBatch) : CaserBatch :=
  { b with uids := b.uids.map τ, befores := b.befores.map (List.map σ), afters := b.afters.map (List.map σ) }

/-- The same request with other numbers. -/
def VecReq.renumber (σ τ : Nat → Nat) : VecReq → VecReq
  | .user u => .user (τ u)
  | .item i => .item (σ i)

/-- A sample of DMF with other numbers. -/
def renumberSample (σ τ : Nat → Nat) (s : Nat × Nat × ℚ) : Nat × Nat × ℚ := (τ s.1, σ s.2.1, s.2.2)

end DRec.Spec
