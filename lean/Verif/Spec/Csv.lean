import Verif.Model.Csv

/-!
# Notions the properties about csv files are stated with
-/

namespace DRec.Spec

open DRec

/-- A text that can be written between delimiters as it is. -/
structure Clean (d : Char) (s : List Char) : Prop where
  delim : d ∉ s
  line : '\n' ∉ s
  quote : s.head? ≠ some '"'

/-- The csv text of rows of fields: the delimiter between fields, a line end after each row. -/
def csvText (d : List Char) (rows : List (List (List Char))) : List Char :=
  rows.flatMap fun r => d.intercalate r ++ ['\n']

/-- The named fields of a row: skipped columns do not appear. -/
def named (cols : List (Option String)) (row : List (List Char)) : List (String × List Char) :=
  (cols.zip row).filterMap fun cv => cv.1.map fun c => (c, cv.2)

/-- Does the text decide for a numeric column? -/
def numericText (k : Conv) (v : List Char) : Bool := (k.isInt v && !v.contains '.') || (k.toFloat v).isSome

/-- The value stored for a text: interactions are numbers; other texts become numbers only in a numeric column. -/
def importVal (k : Conv) (numeric : Bool) (c : String) (v : List Char) : Val :=
  if c = "interaction" then .num ((k.toFloat v).getD 0)
  else if numeric then (k.affinity v).elim (.str (String.ofList v)) .num
  else .str (String.ofList v)

/-- Is a column numeric, judged by the first row? -/
def numericCol (k : Conv) (cols : List (Option String)) (rows : List (List (List Char))) (c : String) : Bool :=
  match rows with
  | [] => false
  | r :: _ => ((named cols r).lookup c).elim false (numericText k)

/-- Rows that can be imported: every row has a field for every column, clean fields, and a number as interaction; a
row is not a blank line. -/
structure Importable (k : Conv) (d : Char) (cols : List (Option String)) (rows : List (List (List Char))) : Prop where
  wide : ∀ r ∈ rows, cols.length ≤ r.length
  clean : ∀ r ∈ rows, ∀ v ∈ r, Clean d v
  number : ∀ r ∈ rows, ∀ v, ("interaction", v) ∈ named cols r → (k.toFloat v).isSome
  blank : ∀ r ∈ rows, r ≠ [] ∧ r ≠ [[]]

/-- The columns of an import: distinct names, the required ones among them. -/
structure ColsOk (cols : List (Option String)) : Prop where
  distinct : (cols.filterMap id).Nodup
  user : some "user" ∈ cols
  item : some "item" ∈ cols
  interaction : some "interaction" ∈ cols

/-- The line ends inside no quoted field. -/
def Closed (d : Char) (l : List Char) : Prop := ∃ p, CsvP.line d .fresh l = some p ∧ p.st = .startRecord

/-- The columns that are not internal identifiers. -/
def plainCols (cols : List String) : List String := cols.filter fun c => c ≠ "rid" ∧ c ≠ "uid" ∧ c ≠ "iid"

/-- The columns asked for: all when none are given. -/
def asked (cols : List String) (columns : Option (List String)) : List String := columns.getD cols

/-- The fields of a saved file: the header if wanted, then the texts of each row. -/
def savedFields (flt : ℚ → List Char) (plain : List String) (header : Bool) (rows : List (String → Lit)) :
    List (List (List Char)) :=
  (if header then [plain.map String.toList] else []) ++ rows.map fun r => plain.map fun c => litText flt (r c)

/-- A number as a literal. -/
def IsNum : Lit → Prop
  | .int _ => True
  | .flt _ => True
  | _ => False

/-- The number of a literal. -/
def litNum : Lit → ℚ
  | .int n => n
  | .flt q => q
  | _ => 0

/-- A table whose csv text can be read back: texts can be written as they are, numbers are printed so that they read
as the same number, interactions are numbers, and every column holds only numbers or only texts, the first of
which does not look like a number. -/
structure Savable (k : Conv) (flt : ℚ → List Char) (plain : List String) (rows : List (String → Lit)) : Prop where
  clean : ∀ r ∈ rows, ∀ c ∈ plain, Clean ',' (litText flt (r c))
  numbers : ∀ r ∈ rows, ∀ c ∈ plain, IsNum (r c) →
    k.toFloat (litText flt (r c)) = some (litNum (r c)) ∧ k.affinity (litText flt (r c)) = some (litNum (r c))
  interaction : ∀ r ∈ rows, IsNum (r "interaction")
  columns : ∀ c ∈ plain, (∀ r ∈ rows, IsNum (r c)) ∨
    ((∀ r ∈ rows, ∃ s, r c = .str s) ∧ ∀ r ∈ rows.head?, numericText k (litText flt (r c)) = false)

/-- The same for the in-memory backend: only numbers, printed so that they read back, and missing values, or only
texts, not all of them numbers, truth values or missing value tokens, and no missing value tokens but the empty
text. -/
structure MemSavable (k : PdConv) (flt : ℚ → List Char) (plain : List String) (rows : List (String → Lit)) : Prop where
  columns : ∀ c ∈ plain,
    (∀ r ∈ rows, (IsNum (r c) ∧ k.number (litText flt (r c)) = some (litNum (r c)) ∧ k.na (litText flt (r c)) = false) ∨
      (r c = .none ∧ k.na [] = true)) ∨
    ((∀ r ∈ rows, ∃ s, r c = .str s ∧ (k.na s.toList = true → s = "")) ∧
      ∃ r ∈ rows, k.number (litText flt (r c)) = none ∧ k.na (litText flt (r c)) = false ∧
        k.bool (litText flt (r c)) = none)

end DRec.Spec
