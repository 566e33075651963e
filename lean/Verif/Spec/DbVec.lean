import Verif.Model.DbVec
import Verif.Spec.Db

/-! # Requests for interaction vectors in the database dataset -/

namespace DRec.Spec

/-- Total of the interactions of the records of a pair of ids. -/
def entryTotal (p : Plain) (s : Side) (k j : Nat) : ℚ :=
  ((p.recs.filter fun r => cellOf r s.own = .num (k : ℚ) ∧ cellOf r s.other = .num (j : ℚ)).map
    fun r => numCell (cellOf r "interaction")).sum

/-- The vector of an id: as long as the greatest position plus one, with the totals as entries. -/
def IsVec (p : Plain) (s : Side) (k : Nat) (v : List ℚ) : Prop :=
  ∃ m : Nat, Extreme SqlLess (p.recs.map (cellOf · s.other)) (.num (m : ℚ)) ∧
    v = (List.range (m + 1)).map (entryTotal p s k)

/-- What happens to one dataset with its two dictionaries: requests (with or without enough memory) and
operations on this or other datasets. -/
inductive VecEv where
  | user (k : Nat) (oom : Bool)
  | item (k : Nat) (oom : Bool)
  | op (o : DbOp)

/-- The file and the two dictionaries of one dataset. -/
structure VecState where
  w : World
  users : VecCache
  items : VecCache

/-- One event; requests have an answer. -/
def vecStep (limU limI i : Nat) (s : VecState) : VecEv → VecState × Option (Except Err (List ℚ))
  | .user k oom =>
    let p := s.w.vec s.users limU oom i Side.user k
    (⟨p.1, p.2.1, s.items⟩, some p.2.2)
  | .item k oom =>
    let p := s.w.vec s.items limI oom i Side.item k
    (⟨p.1, s.users, p.2.1⟩, some p.2.2)
  | .op o => (⟨(runOp s.w o).1, s.users, s.items⟩, none)

/-- A sequence of events. -/
def vecRun (limU limI i : Nat) (s : VecState) : List VecEv → VecState
  | [] => s
  | e :: es => vecRun limU limI i (vecStep limU limI i s e).1 es

/-- Only admissible operations that do not change what the dataset shows. -/
def Undisturbed (names : List String) (limU limI i : Nat) : VecState → List VecEv → Prop
  | _, [] => True
  | s, e :: es =>
    (∀ o, e = .op o → Admissible names s.w o ∧ plainOf (runOp s.w o).1 i = plainOf s.w i) ∧
      Undisturbed names limU limI i (vecStep limU limI i s e).1 es

end DRec.Spec
