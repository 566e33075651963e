import Verif.Model.Db

/-!
# Saving a database dataset as a SQLite file: what is written

The steps on the file system are in `Model/Files`; here is the content of the new file.  Simplification: storing a
value in a column of the type it already has does not change it.
-/

namespace DRec

/-- A record as inserted: the values of its columns and a new record id (`db_dataset.py:882-888`). -/
def savedRow (cols : List String) (k : Nat) (r : Rec) : Row :=
  ⟨k, fun c => if c ∈ cols ∧ c ≠ "rid" then (r.lookup c).getD .null else .null⟩

/-- The loop of `_copy_to_new_db` (`db_dataset.py:884-893`): `n` records have been seen, `waiting` are not inserted
yet, `table` is inserted. -/
def copyRecords (size : Nat) (cols : List String) : List Rec → Nat → List Row → List Row → Except Err (List Row)
  | [], _, waiting, table => .ok (if 0 < waiting.length then table ++ waiting else table)
  | r :: rs, n, waiting, table =>
    if size = 0 then .error .zeroDiv
    else if (n + 1) % size = 0 then copyRecords size cols rs (n + 1) [] (table ++ (waiting ++ [savedRow cols n r]))
    else copyRecords size cols rs (n + 1) (waiting ++ [savedRow cols n r]) table

/-- The table of the new file (`db_dataset.py:409-419,872-893`): `_build_table`, then the records of `values` with the
record id as the last column.  `size` is the chunk size. -/
def World.saveTable (w : World) (i : Nat) (size : Nat) : World × Except Err Table :=
  match w.insts i with
  | none => (w, .error .crash)
  | some x =>
    match x.buildTable with
    | .error e => (w, .error e)
    | .ok cols =>
      match w.read i (.values (some (x.columns.erase "rid" ++ ["rid"]))) with
      | (w1, .ok (.recs l)) => (w1, (copyRecords size x.columns l 0 [] []).map fun rows => ⟨cols, rows⟩)
      | (w1, .ok _) => (w1, .error .crash)
      | (w1, .error e) => (w1, .error e)

/-- `save()` without a path (`db_dataset.py:399-427`): refused for temporary files and when other objects use the file;
otherwise the file gets the new table only, and the object keeps its state. -/
def World.saveOwn (w : World) (i : Nat) (size : Nat) : World × Option Err :=
  if w.temp then (w, some .assertion)
  else if 1 < (w.live.getD []).length then (w, some .assertion)
  else
    match w.saveTable i size with
    | (w1, .error e) => (w1, some e)
    | (w1, .ok t) => ({ w1 with tables := fun n => if n = 0 then some t else none }, none)

end DRec
