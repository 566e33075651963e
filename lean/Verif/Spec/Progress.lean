import Verif.Model.Progress

/-!
# Schedules of calls that share a counter (C130)
-/

namespace DRec.Prog

/-- Every thread gets its turn again and again. -/
def Fair {N : Nat} (n : Fin N → Nat) (sched : Nat → Agent N) : Prop :=
  (∀ i t, ∃ u, t ≤ u ∧ sched u = .main i) ∧ ∀ i j, j < n i → ∀ t, ∃ u, t ≤ u ∧ sched u = .task i j

/-- Call `i` is the last one that begins: when it begins all the others have begun. -/
def BeginsLast {N : Nat} (n : Fin N → Nat) (verbose : Fin N → Bool) (sched : Nat → Agent N) (i : Fin N) : Prop :=
  ∃ t, sched t = .main i ∧ (run n verbose sched t).main i = .start ∧
    ∀ j, j ≠ i → (run n verbose sched t).main j ≠ .start

/-- The schedule begins with the given turns. -/
def StartsWith {N : Nat} (l : List (Agent N)) (sched : Nat → Agent N) : Prop :=
  ∀ t, (h : t < l.length) → sched t = l[t]

end DRec.Prog
