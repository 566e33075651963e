import Verif.Model.DbLocks

/-!
# Calls that should not meet locks
-/

namespace DRec.Lock

/-- Calls the claim is about: no random generators, functions that do not raise, no changes of the data while a
value generator is suspended. -/
def Allowed (l : Locks) : Call → Prop
  | .openRand => False
  | .assign _ _ => l.vals = []
  | .applySame _ _ _ ok => ok = true ∧ l.vals = []
  | .applyNew _ _ ok => ok = true ∧ l.vals = []
  | _ => True

/-- All calls of a history are allowed when their turn comes. -/
def AllowedAll : Locks → List (Nat × Call) → Prop
  | _, [] => True
  | l, p :: ps => Allowed l p.2 ∧ AllowedAll (runCall p.1 p.2 l).1 ps

/-- Calls that do not change data and leave no random generator suspended. -/
def ReadsOnly : Call → Prop
  | .read _ | .openVal _ | .closeVal | .closeRand | .close _ => True
  | _ => False

end DRec.Lock
