import Verif.Spec.Csv

/-!
# Csv files that mean the same to pandas and to the database import
-/

namespace DRec.Spec

open DRec

/-- The text of a csv file with a header line or without. -/
def csvFile (hdr : Option (List Char)) (rows : List (List (List Char))) : List Char :=
  (hdr.elim [] fun h => h ++ ['\n']) ++ csvText [','] rows

/-- A column of numbers that all readers understand in the same way, none of them a missing value token. -/
def NumberCol (k : Conv) (pk : PdConv) (texts : List (List Char)) : Prop :=
  ∀ v ∈ texts, pk.na v = false ∧
    ∃ q, k.toFloat v = some q ∧ k.affinity v = some q ∧ pk.number v = some q

/-- A column of texts: no missing value tokens, not all of them truth values, and the first one does not look like a
number. -/
def TextCol (k : Conv) (pk : PdConv) (texts : List (List Char)) : Prop :=
  (∀ v ∈ texts, pk.na v = false) ∧ (∃ v ∈ texts, pk.bool v = none) ∧
    ∀ v ∈ texts.head?, numericText k v = false ∧ pk.number v = none

/-- Texts of column `j`. -/
def textsOf (rows : List (List (List Char))) (j : Nat) : List (List Char) := rows.map fun r => r.getD j []

/-- A csv file without blank lines and quotes, with as many fields in every line as there are columns, where every
column is one of numbers or one of texts and the interactions are numbers. -/
structure PlainCsv (k : Conv) (pk : PdConv) (cols : List String) (rows : List (List (List Char))) : Prop where
  names : cols.Nodup
  fresh : "rid" ∉ cols ∧ "uid" ∉ cols ∧ "iid" ∉ cols
  user : "user" ∈ cols
  item : "item" ∈ cols
  interaction : "interaction" ∈ cols
  data : rows ≠ []
  wide : ∀ r ∈ rows, r.length = cols.length
  clean : ∀ r ∈ rows, ∀ v ∈ r, Clean ',' v
  column : ∀ (j : Nat) (c : String), cols[j]? = some c →
    NumberCol k pk (textsOf rows j) ∨ (c ≠ "interaction" ∧ TextCol k pk (textsOf rows j))

open Classical in
/-- What a cell of such a file means. -/
noncomputable def meaning (k : Conv) (pk : PdConv) (texts : List (List Char)) (v : List Char) : Val :=
  if NumberCol k pk texts then .num ((pk.number v).getD 0) else .str (String.ofList v)

/-- The records of such a file: what every cell means, and the number of the line. -/
noncomputable def csvRecords (k : Conv) (pk : PdConv) (cols : List String) (rows : List (List (List Char))) :
    List (List (String × Val)) :=
  rows.zipIdx.map fun ri =>
    (cols.zipIdx.map fun cj => (cj.1, meaning k pk (textsOf rows cj.2) (ri.1.getD cj.2 []))) ++ [("rid", .num ri.2)]

end DRec.Spec
