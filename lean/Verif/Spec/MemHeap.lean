import Verif.Model.MemHeap

/-!
# Datasets as independent values

What operations on several datasets mean when nothing is shared.
-/

namespace DRec.Spec

open DRec

/-- Append the result, or nothing when the call raised. -/
def appendOk {ε : Type} (ms : List Mem) : Except ε Mem → List Mem
  | .ok m => ms ++ [m]
  | .error _ => ms

/-- Replace element `i`, or nothing when the call raised. -/
def setOk {ε : Type} (ms : List Mem) (i : Nat) : Except ε Mem → List Mem
  | .ok m => ms.set i m
  | .error _ => ms

/-- One operation called on value `m` of a list of separate dataset values: it appends a new value or
replaces the one it was called on. -/
def stepValuesOn (ms : List Mem) (m : Mem) : HOp → List Mem
  | .copy _ => ms ++ [m.copy]
  | .select _ q true => appendOk ms (m.select q)
  | .select i q false => setOk ms i (m.selectInPlace q)
  | .drop _ ids keep true => ms ++ [m.drop ids keep]
  | .drop i ids keep false => ms.set i (m.dropInPlace ids keep)
  | .unique _ cs true => appendOk ms (m.unique cs)
  | .unique i cs false => setOk ms i (m.uniqueInPlace cs)
  | .apply i c f => ms.set i (m.apply c f).1
  | .assign i => ms.set i m.assignIds.1
  | .remove i => ms.set i m.removeIds.1
  | .userVec i u => ms.set i (m.userVec u).1
  | .itemVec i k => ms.set i (m.itemVec k).1

/-- One operation on a list of separate dataset values. -/
def stepValues (ms : List Mem) (op : HOp) : List Mem :=
  match ms[op.target]? with
  | none => ms
  | some m => stepValuesOn ms m op

end DRec.Spec
