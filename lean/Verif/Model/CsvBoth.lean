import Verif.Model.Csv
import Verif.Model.Db

/-!
# From a csv file to a dataset

The datasets that `MemoryInteractionDataset(path, columns + ['rid'])` and `DatabaseInteractionDataset(path, columns +
['rid'])` start with (`dataset_factory.py:24-37`), from the text of the file.  Simplifications: comma as delimiter, every
column has a name; the encoding is that of the text.
-/

namespace DRec

/-- The lines after the header (`mem_dataset.py:36-39`, `db_dataset.py:672-675,686-687`). -/
def dataLines (header : Bool) (text : List Char) : List (List Char) :=
  if header then (fileLines text).drop 1 else fileLines text

/-- The dtype `pd.read_csv` gives a column (`mem_dataset.py:38-39`): integers when every text is one, floats for other
numbers and for missing ones, objects otherwise.  Truth values are neither integers nor objects and count as floats. -/
def pdDType (k : PdConv) (isInt : List Char → Bool) (texts : List (List Char)) : DType :=
  if texts.all (fun s => (k.number s).isSome || k.na s) then
    if texts.all fun s => isInt s && !k.na s then .int else .float
  else if texts.all (fun s => (k.bool s).isSome) then .float
  else .obj

/-- The dataframe and the attributes after `__init__` (`mem_dataset.py:11-77`); the index counts the records. -/
def memOfCsv (k : PdConv) (isInt : List Char → Bool) (header : Bool) (cols : List String) (text : List Char) :
    Option Mem :=
  match pdRows cols.length (dataLines header text), memLoadCsv k header cols text with
  | some rows, some vals =>
    some ⟨cols ++ ["rid"],
      fun c => pdDType k isInt (rows.map fun r => ((cols.zip r).lookup c).getD []),
      (List.range rows.length).map fun i => ⟨i, fun c => (((cols.zip vals).lookup c).bind (·[i]?)).getD .null⟩,
      false, [], [], none, none⟩
  | _, _ => none

/-- Column types by name (`db_dataset.py:614-623,681`). -/
def ColType.dtype : ColType → DType
  | .int => .int
  | .float => .float
  | .text => .obj

/-- `_col_types` (`db_dataset.py:614-623,668-681`), from the first data line. -/
def csvTypes (k : Conv) (header : Bool) (cols : List String) (text : List Char) (c : String) : DType :=
  match dataLines header text with
  | [] => .obj
  | l :: _ =>
    match csvRows ',' [l] .fresh with
    | some (first :: _) => if c = "rid" then .int else ((colTypes k first (cols.map some) c).map ColType.dtype).getD .obj
    | _ => .obj

/-- The temporary database and the object after `__init__` (`db_dataset.py:29-72,612-704`). -/
def worldOfCsv (k : Conv) (size : Nat) (header : Bool) (cols : List String) (text : List Char) : Option World :=
  (loadCsv k [','] size header (cols.map some) text).map fun recs =>
    World.ofCsv (cols ++ ["rid"]) (csvTypes k header cols text)
      (recs.map fun r => ⟨r.2, fun c => ((cols.zip r.1).lookup c).getD .null⟩)

end DRec
