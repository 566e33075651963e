import Verif.Model.Fit

/-!
# Notions the properties of training and early stopping are stated with
-/

namespace DRec.Spec

open DRec

/-- The weights at the end of epoch `e`. -/
def weightsAt {α : Type} (train : Nat → (Addr → α) → Addr → α) (heap : Addr → α) : Nat → Addr → α
  | 0 => heap
  | e + 1 => train (e + 1) (weightsAt train heap e)

/-- A requested metric `m` is the reported metric `n`: the same name, or `n` is `m@…` and `m` has no `@`. -/
def Names (m n : MName) : Prop := n = m ∨ ('@' ∉ m ∧ ∃ rest, n = m ++ '@' :: rest)

/-- The value reported for a metric. -/
def valueOf (rs : Results) (n : MName) : Option ℚ := (rs.find? fun p => p.1 = n).map (·.2)

/-- Every callback result is a dictionary: no name twice. -/
def IsDict (rs : Results) : Prop := (rs.map (·.1)).Nodup

/-- `b` is the first of the epochs with the largest value. -/
def FirstMax (epochs : List Nat) (val : Nat → ℚ) (b : Nat) : Prop :=
  b ∈ epochs ∧ ∀ e ∈ epochs, val e ≤ val b ∧ (e < b → val e < val b)

/-- The tracker after a history of callback results. -/
def replay (H : List (Nat × Results)) : Tracker := H.foldl (fun t h => t.addResults h.2 h.1) Tracker.init

/-- The epochs at which `fit` calls the callback: every `freq` epochs, and epoch 0 when verbose. -/
def validated {α : Type} (c : FitCfg α) : List Nat :=
  (List.range (c.epochs + 1)).filter fun e => decide (e % c.cbFreq = 0 ∧ (e = 0 → c.verbose = true))

/-- Operations on a loss tracker. -/
inductive TOp where
  | loss (x : ℚ)
  | reset
  | result (m : MName) (v : ℚ) (e : Nat)

/-- Running one. -/
def TOp.run (t : Tracker) : TOp → Tracker
  | .loss x => t.addLoss x
  | .reset => t.reset
  | .result m v e => t.addResult m v e

/-- The losses since the last reset. -/
def lossesSince : List TOp → List ℚ → List ℚ
  | [], acc => acc
  | .loss x :: ops, acc => lossesSince ops (acc ++ [x])
  | .reset :: ops, _ => lossesSince ops []
  | .result .. :: ops, acc => lossesSince ops acc

/-- Arithmetic mean, 0 for no value. -/
def mean (l : List ℚ) : ℚ := l.sum / l.length

end DRec.Spec
