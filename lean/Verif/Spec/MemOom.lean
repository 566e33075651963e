import Verif.Model.MemOom
import Verif.Spec.Mem

/-! # Running out of memory -/

namespace DRec.Spec

/-- A request for a vector, or a change of all interactions. -/
inductive VecOp where
  | vec (q : VecReq)
  | change (f : Val → Option Val)

/-- One operation; `oom` says whether building the matrix would run out of memory now. -/
def VecOp.run (oom : Bool) (ds : Mem) : VecOp → Mem
  | .vec (.user u) => (ds.userVecM oom u).1
  | .vec (.item i) => (ds.itemVecM oom i).1
  | .change f => (ds.applyM oom "interaction" f).1

/-- A history. -/
def runVecOps (ds : Mem) : List (Bool × VecOp) → Mem
  | [] => ds
  | p :: ps => runVecOps (p.2.run p.1 ds) ps

/-- Functions that turn numbers into numbers. -/
def VecOp.Numeric : VecOp → Prop
  | .vec _ => True
  | .change f => ∀ q, ∃ q', f (.num q) = some (.num q')

/-- All interactions of an item, added up. -/
def itemTotal (rows : List Row) (i : Nat) : ℚ :=
  ((rows.filter fun r => r.get "iid" = .num (i : ℚ)).map fun r => numCell (r.get "interaction")).sum

end DRec.Spec
