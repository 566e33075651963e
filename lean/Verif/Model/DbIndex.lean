import Verif.Spec.Db

/-!
# The id indexes of the database dataset

`Model/Db` leaves indexes out.  Here every table also has its indexes on `uid` and on `iid`, which
`assign_internal_ids` drops before the numbering and makes again afterwards (`db_dataset.py:444-486,928-951`); a `DROP INDEX`
raises when the index is not there, a `CREATE INDEX` when it is.  The indexes on `rid`, `user` and `item` are never
dropped.
-/

namespace DRec

open Spec

/-- Which tables have an index on `uid`, and which on `iid`. -/
structure Ix where
  uid : Nat → Bool
  iid : Nat → Bool

/-- Indexes are made with their table (`_build_indexes` after `_build_table`, `db_dataset.py:533,553,701,836-841`, where the columns
are known to have users and items) and go with it (`DROP TABLE`, `db_dataset.py:588`). -/
def Ix.follow (ix : Ix) (w w' : World) : Ix where
  uid n := (w'.tables n).isSome && ((w.tables n).isNone || ix.uid n)
  iid n := (w'.tables n).isSome && ((w.tables n).isNone || ix.iid n)

/-- `DROP INDEX uid_idx_…`, `CREATE INDEX uid_idx_…` (`db_dataset.py:939-951`). -/
def Ix.setUid (ix : Ix) (n : Nat) (b : Bool) : Except Err Ix :=
  if ix.uid n = b then .error .crash else .ok { ix with uid := fun m => if m = n then b else ix.uid m }

/-- `DROP INDEX iid_idx_…`, `CREATE INDEX iid_idx_…` (`db_dataset.py:939-951`). -/
def Ix.setIid (ix : Ix) (n : Nat) (b : Bool) : Except Err Ix :=
  if ix.iid n = b then .error .crash else .ok { ix with iid := fun m => if m = n then b else ix.iid m }

/-- `_drop_internal_id_indexes` (`b = false`, `db_dataset.py:946-951`) and `_create_internal_id_indexes` (`b = true`,
`db_dataset.py:939-944`): the indexes afterwards and the exception. -/
def Ix.setBoth (ix : Ix) (cols : List String) (n : Nat) (b : Bool) : Ix × Option Err :=
  match if "user" ∈ cols then ix.setUid n b else .ok ix with
  | .error e => (ix, some e)
  | .ok ix1 =>
    match if "item" ∈ cols then ix1.setIid n b else .ok ix1 with
    | .error e => (ix1, some e)
    | .ok ix2 => (ix2, none)

/-- `assign_internal_ids` (`db_dataset.py:444-486`) with its indexes. -/
def World.assignIx (w : World) (ix : Ix) (i : Nat) : (World × Ix) × Option Err :=
  match w.optimize i true with
  | (w1, some e) => ((w1, ix.follow w w1), some e)
  | (w1, none) =>
    let ix1 := ix.follow w w1
    match w1.insts i with
    | none => ((w1, ix1), some .crash)
    | some x =>
      match ix1.setBoth x.columns x.table false with
      | (ix2, some e) => ((w1, ix2), some e)
      | (ix2, none) =>
        match x.types, w1.tables x.table with
        | some ty, some t =>
          let y : Inst := { x with columns := addCol (addCol x.columns "uid") "iid" }
          let w2 := w1.putT x.table (some ⟨t.cols, numberBy "item" "iid" (numberBy "user" "uid" t.rows)⟩)
          let ty' : String → DType := fun c => if c = "uid" ∨ c = "iid" then .int else ty c
          match ix2.setBoth y.columns y.table true with
          | (ix3, some e) => ((w2.put i { y with types := some ty' }, ix3), some e)
          | (ix3, none) => ((w2.put i { y with hasIds := true, types := some ty' }, ix3), none)
        | _, _ => ((w1.put i { x with columns := addCol x.columns "uid" }, ix2), some .typeError)

/-- An operation of a history, with indexes. -/
def runOpIx (s : World × Ix) : DbOp → (World × Ix) × Except Err Nat
  | .assign i =>
    let p := s.1.assignIx s.2 i
    (p.1, match p.2 with | none => .ok i | some e => .error e)
  | op => (((runOp s.1 op).1, s.2.follow s.1 (runOp s.1 op).1), (runOp s.1 op).2)

/-- A history, with indexes. -/
def runOpsIx (s : World × Ix) : List DbOp → World × Ix
  | [] => s
  | op :: ops => runOpsIx (runOpIx s op).1 ops

end DRec
