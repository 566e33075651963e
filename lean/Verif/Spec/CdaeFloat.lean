import Verif.Spec.DmfTower

/-! # How far rounding may take CDAE's scores -/

namespace DRec.Spec

open DRec

/-- A hidden unit's input if nothing cancelled. -/
noncomputable def hiddenReach (m : Cdae) (uid : Nat) (x : List ℝ) (k : Nat) : ℝ :=
  ∑ j ∈ Finset.range m.items, |x.getD j 0| * |m.W j k| + |m.V uid k| + |m.b k|

/-- How far a hidden unit may be off: a sigmoid changes by at most a quarter of its argument. -/
noncomputable def hiddenError (m : Cdae) (uid : Nat) (x : List ℝ) (k : Nat) : ℝ :=
  stepError (m.items + 2) * hiddenReach m uid x k / 4 + 4 / 2 ^ 24

/-- How far a score may be off. -/
noncomputable def cdaeError (m : Cdae) (uid : Nat) (x : List ℝ) (j : Nat) : ℝ :=
  (∑ k ∈ Finset.range m.hidden, hiddenError m uid x k * |m.W' k j| +
    stepError (m.hidden + 1) * ((1 + 4 / 2 ^ 24) * ∑ k ∈ Finset.range m.hidden, |m.W' k j| + |m.b' j|)) / 4 + 4 / 2 ^ 24

end DRec.Spec
