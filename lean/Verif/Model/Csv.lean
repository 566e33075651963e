import Verif.Model.Files
import Verif.Model.Mem

/-!
# Csv files: reading into the database backend, writing from both backends

`db_dataset.py:432-442,612-721`, `mem_dataset.py:30-41,298-307`, and the parts of Python's `csv` module they use.
Texts are lists of characters after newline translation (`open(path, 'r')` turns every line end into `\n`).
An exception is `none`: its kind and what is left behind in the temporary database do not matter here.
-/

namespace DRec

/-! ## `csv.reader` with the default dialect

The state machine of Python's `Modules/_csv.c` (`parse_process_char`, `Reader_iternext`) for quote character `"` with
doubled quotes, no escape character, not strict.  -/

/-- Parser states. -/
inductive CsvSt where
  | startRecord
  | startField
  | inField
  | inQuoted
  | quoteInQuoted
  | eatCrnl
  deriving DecidableEq, Repr

/-- The parser: state, the field being read, the fields read. -/
structure CsvP where
  st : CsvSt
  field : List Char
  fields : List (List Char)
  deriving DecidableEq, Repr

/-- The parser before a record. -/
def CsvP.fresh : CsvP := ⟨.startRecord, [], []⟩

/-- `parse_save_field` and the next state. -/
def CsvP.save (p : CsvP) (st : CsvSt) : CsvP := ⟨st, [], p.fields ++ [p.field]⟩

/-- `parse_add_char` and the next state. -/
def CsvP.add (p : CsvP) (c : Char) (st : CsvSt) : CsvP := ⟨st, p.field ++ [c], p.fields⟩

/-- The case `START_FIELD`. -/
def CsvP.atField (d : Char) (p : CsvP) (c : Char) : CsvP :=
  if c = '\n' then p.save .eatCrnl
  else if c = '"' then { p with st := .inQuoted }
  else if c = d then p.save .startField
  else p.add c .inField

/-- One character (`parse_process_char`); `none` for a character after a line end outside quotes. -/
def CsvP.char (d : Char) (p : CsvP) (c : Char) : Option CsvP :=
  match p.st with
  | .startRecord => some (if c = '\n' then { p with st := .eatCrnl } else p.atField d c)
  | .startField => some (p.atField d c)
  | .inField =>
    some (if c = '\n' then p.save .eatCrnl else if c = d then p.save .startField else p.add c .inField)
  | .inQuoted => some (if c = '"' then { p with st := .quoteInQuoted } else p.add c .inQuoted)
  | .quoteInQuoted =>
    some (if c = '"' then p.add c .inQuoted else if c = d then p.save .startField
      else if c = '\n' then p.save .eatCrnl else p.add c .inField)
  | .eatCrnl => if c = '\n' then some p else none

/-- The end of a line (`parse_process_char` with the end marker). -/
def CsvP.eol (p : CsvP) : CsvP :=
  match p.st with
  | .startRecord => p
  | .startField => p.save .startRecord
  | .inField => p.save .startRecord
  | .inQuoted => p
  | .quoteInQuoted => p.save .startRecord
  | .eatCrnl => { p with st := .startRecord }

/-- One line of input. -/
def CsvP.line (d : Char) (p : CsvP) (l : List Char) : Option CsvP := (l.foldlM (CsvP.char d) p).map CsvP.eol

/-- The rows `csv.reader(lines, delimiter=d)` gives (`Reader_iternext`), from a parser state: a record may go on over
several lines, and the end of the lines closes an open quoted field. -/
def csvRows (d : Char) : List (List Char) → CsvP → Option (List (List (List Char)))
  | [], p => some (if p.field ≠ [] ∨ p.st = .inQuoted then [p.fields ++ [p.field]] else [])
  | l :: ls, p =>
    match p.line d l with
    | none => none
    | some p' =>
      if p'.st = .startRecord then (csvRows d ls .fresh).map (p'.fields :: ·) else csvRows d ls p'

/-! ## Loading into the database backend -/

/-- The conversions of texts to numbers, left open: `int(text)` succeeds, `float(text)`, and the number SQLite stores
for a text put into a numeric column. -/
structure Conv where
  isInt : List Char → Bool
  toFloat : List Char → Option ℚ
  affinity : List Char → Option ℚ

/-- Column types. -/
inductive ColType where
  | int
  | float
  | text
  deriving DecidableEq, Repr

/-- `_infer_value_type` (`db_dataset.py:706-721`). -/
def inferType (k : Conv) (v : List Char) : ColType :=
  if '.' ∉ v ∧ k.isInt v = true then .int
  else if (k.toFloat v).isSome then .float
  else .text

/-- A value handed to SQLite. -/
inductive RawCell where
  | text (s : List Char)
  | num (q : ℚ)
  deriving DecidableEq, Repr

/-- What is stored in a column of a type (SQLite type affinity): a numeric column turns numeric texts into numbers, a
text column turns numbers into texts. -/
def RawCell.store (k : Conv) (t : ColType) : RawCell → Val
  | .text s =>
    match t with
    | .text => .str (String.ofList s)
    | _ =>
      match k.affinity s with
      | some q => .num q
      | none => .str (String.ofList s)
  | .num q =>
    match t with
    | .text => .str (Lit.flt q).pyStr
    | _ => .num q

/-- One value of a row (`db_dataset.py:636-641`): skipped columns give nothing, `interaction` is converted. -/
def rawCell (k : Conv) (col : Option String) (v : List Char) : Option (Option RawCell) :=
  match col with
  | none => some none
  | some c => if c = "interaction" then (k.toFloat v).map fun q => some (.num q) else some (some (.text v))

/-- The values of a row (`db_dataset.py:634-641`): `zip(row, projected_cols)`. -/
def rowCells (k : Conv) (cols : List (Option String)) (row : List (List Char)) : Option (List RawCell) :=
  ((row.zip cols).mapM fun vc => rawCell k vc.2 vc.1).map fun l => l.filterMap id

/-- One record of the `INSERT` (`db_dataset.py:642,650-655`): the number of values must be the number of columns. -/
def insertable (cols : List (Option String)) (cells : List RawCell) : Option (List RawCell) :=
  if cells.length = (cols.filterMap id).length then some cells else none

/-- A record: values of the columns that are kept, in order, and the record id. -/
abbrev CsvRec := List RawCell × Nat

/-- `process_segment` (`db_dataset.py:625-656`): the records of a chunk are appended to the table, numbered on from
the number of records so far. -/
def segment (k : Conv) (d : Char) (cols : List (Option String)) (chunk : List (List Char)) (table : List CsvRec) :
    Option (List CsvRec) :=
  match csvRows d chunk .fresh with
  | none => none
  | some rows =>
    (rows.mapM fun r => (rowCells k cols r).bind (insertable cols)).map fun recs => table ++ recs.zipIdx table.length

/-- The import loop (`db_dataset.py:686-700`): lines are collected and processed when the chunk is full, the rest at
the end. -/
def importLoop (k : Conv) (d : Char) (cols : List (Option String)) (size : Nat) :
    List (List Char) → List (List Char) → List CsvRec → Option (List CsvRec)
  | [], chunk, table => if chunk.length > 0 then segment k d cols chunk table else some table
  | l :: ls, chunk, table =>
    if (chunk ++ [l]).length = size then
      match segment k d cols (chunk ++ [l]) table with
      | none => none
      | some table' => importLoop k d cols size ls [] table'
    else importLoop k d cols size ls (chunk ++ [l]) table

/-- Python `text.replace(pat, new)` for a non-empty pattern. -/
def pyReplace (pat new : List Char) (s : List Char) : List Char :=
  match s with
  | [] => []
  | c :: cs =>
    if pat.isPrefixOf (c :: cs) ∧ pat ≠ [] then new ++ pyReplace pat new ((c :: cs).drop pat.length)
    else c :: pyReplace pat new cs
termination_by s.length
decreasing_by
  · next h =>
    have : 0 < pat.length := List.length_pos_iff.2 h.2
    simp only [List.length_drop, List.length_cons]
    omega
  · simp

/-- The delimiter given to `csv.reader` (`db_dataset.py:660-666`): a longer delimiter is replaced by a comma. -/
def newDelimiter : List Char → Char
  | [c] => c
  | _ => ','

/-- The lines as handed to `csv.reader` (`db_dataset.py:674,693`). -/
def prepLine (delim : List Char) (l : List Char) : List Char :=
  if delim.length > 1 then pyReplace delim [','] l else l

/-- Column types from the first data line (`db_dataset.py:614-623`): `dict` of `zip(first_line, cols)`; of equal names
the last one counts. -/
def colTypes (k : Conv) (first : List (List Char)) (cols : List (Option String)) (c : String) : Option ColType :=
  (((first.zip cols).filter fun vc => vc.2 = some c).getLast?).map fun vc => inferType k vc.1

/-- The columns a table must have besides `rid` (`db_dataset.py:910`). -/
def requiredCols : List String := ["user", "item", "interaction"]

/-- `_load_from_csv` (`db_dataset.py:612-704`): the records with the stored values.  `cols` are the given columns
without `rid`.  Simplifications: column names are distinct valid SQL names, both passes use the same encoding. -/
def loadCsv (k : Conv) (delim : List Char) (size : Nat) (header : Bool) (cols : List (Option String))
    (text : List Char) : Option (List (List Val × Nat)) :=
  let lines := (if header then (fileLines text).drop 1 else fileLines text).map (prepLine delim)
  match lines with
  | [] => none
  | l :: _ =>
    match csvRows (newDelimiter delim) [l] .fresh with
    | none => none
    | some rows =>
      match rows with
      | [] => none
      | first :: _ =>
        if (requiredCols.all fun c => decide (some c ∈ cols)) = true ∧
            ((cols.filterMap id).all fun c => (colTypes k first cols c).isSome) = true then
          (importLoop k (newDelimiter delim) cols size lines [] []).map fun recs =>
            recs.map fun r => ((cols.filterMap id).zipWith
              (fun c v => v.store k ((colTypes k first cols c).getD .text)) r.1, r.2)
        else none

/-! ## Saving from the database backend (`db_dataset.py:431-442`) -/

/-- `str(value)`, empty for `None` (`db_dataset.py:441`); how floats are printed is left open. -/
def litText (flt : ℚ → List Char) : Lit → List Char
  | .int n => (toString n).toList
  | .flt q => flt q
  | .str s => s.toList
  | .none => []

/-- `','.join(texts)`. -/
def joinWith (d : List Char) : List (List Char) → List Char
  | [] => []
  | [x] => x
  | x :: y :: l => x ++ d ++ joinWith d (y :: l)

/-- The three `remove` calls (`db_dataset.py:433-435`, `mem_dataset.py:304-306`). -/
def withoutIds (cols : List String) : List String := ((cols.erase "rid").erase "uid").erase "iid"

/-- One written row (`db_dataset.py:440-442,851-857`): with one column `to_list` gives the bare value, and iterating
over it gives its characters, or raises for a number. -/
def dbRowText (flt : ℚ → List Char) (projected : List String) (row : String → Lit) : Option (List Char) :=
  match projected with
  | [c] =>
    match row c with
    | .str s => some (joinWith [','] (s.toList.map fun x => [x]))
    | _ => none
  | _ => some (joinWith [','] (projected.map fun c => litText flt (row c)))

/-- `DatabaseInteractionDataset.save` to a csv file: the text. -/
def dbSaveCsv (flt : ℚ → List Char) (cols : List String) (columns : Option (List String)) (header : Bool)
    (rows : List (String → Lit)) : Option (List Char) :=
  match handleColumns cols columns with
  | .error _ => none
  | .ok cs =>
    (rows.mapM (dbRowText flt (withoutIds cs))).map fun ls =>
      ((if header then [joinWith [','] ((withoutIds cs).map String.toList)] else []) ++ ls).flatMap fun l => l ++ ['\n']

/-- The caller's column list after `save`: `_handle_columns` returns the very list it was given, and the identifiers
are removed from it (`dataset_abc.py:341-348`, `db_dataset.py:432-435`). -/
def dbSaveArg (columns : List String) : List String := withoutIds columns

/-! ## Saving from the in-memory backend (`mem_dataset.py:298-307`) -/

/-- Does `csv.writer` quote a field (`QUOTE_MINIMAL`)? -/
def needsQuotes (s : List Char) : Bool := s.any fun c => c = ',' || c = '"' || c = '\n' || c = '\r'

/-- A field as written by `csv.writer`: quotes are doubled in a quoted field. -/
def quoteField (s : List Char) : List Char :=
  if needsQuotes s then '"' :: (s.flatMap fun c => if c = '"' then ['"', '"'] else [c]) ++ ['"'] else s

/-- `MemoryInteractionDataset.save`: `to_csv` of all columns but the identifiers; `columns` is not used. -/
def memSaveCsv (flt : ℚ → List Char) (cols : List String) (_columns : Option (List String)) (header : Bool)
    (rows : List (String → Lit)) : List Char :=
  ((if header then [joinWith [','] ((withoutIds cols).map fun c => quoteField c.toList)] else []) ++
    rows.map fun r => joinWith [','] ((withoutIds cols).map fun c => quoteField (litText flt (r c)))).flatMap
      fun l => l ++ ['\n']

/-! ## Loading into memory (`mem_dataset.py:29-51,72-75`)

`pd.read_csv` splits the text by the same rules as `csv.reader` (blank lines are skipped) and then decides a type for
every whole column. -/

/-- The text conversions of pandas, left open: numbers, missing value tokens, truth values. -/
structure PdConv where
  number : List Char → Option ℚ
  na : List Char → Bool
  bool : List Char → Option Bool

/-- A whole column: numbers if every text is a number or missing; truth values if every text is one; otherwise texts,
with missing ones filled by the empty text (`mem_dataset.py:72-75`).  Truth values compare equal to 1 and 0. -/
def pdColumn (k : PdConv) (texts : List (List Char)) : List Val :=
  if texts.all (fun s => (k.number s).isSome || k.na s) then
    texts.map fun s => if k.na s then .null else
      match k.number s with
      | some q => .num q
      | none => .null
  else if texts.all (fun s => (k.bool s).isSome) then
    texts.map fun s => .num (if k.bool s = some true then 1 else 0)
  else texts.map fun s => .str (if k.na s then "" else String.ofList s)

/-- The rows of a csv text without blank lines; no rows at all are an error; rows that do not have a value for each
column are outside the model. -/
def pdRows (n : Nat) (lines : List (List Char)) : Option (List (List (List Char))) :=
  match csvRows ',' lines .fresh with
  | none => none
  | some rows =>
    if rows.filter (· ≠ []) ≠ [] ∧ (rows.filter (· ≠ [])).all (fun r => r.length = n) = true then
      some (rows.filter (· ≠ []))
    else none

/-- Loading a csv text with named columns: one list of values for each column.  A missing `user`, `item` or
`interaction` column raises (`mem_dataset.py:43-51`). -/
def memLoadCsv (k : PdConv) (header : Bool) (cols : List String) (text : List Char) : Option (List (List Val)) :=
  if (requiredCols.all fun c => decide (c ∈ cols)) = true then
    (pdRows cols.length (if header then (fileLines text).drop 1 else fileLines text)).map fun rows =>
      (List.range cols.length).map fun j => pdColumn k (rows.map fun r => (r[j]?).getD [])
  else none

end DRec
