import Verif.Model.Sql
import Verif.Spec.TableNames

/-! # Notions used in the statements about SQL texts (C123) -/

namespace DRec.Spec

/-- Words with a meaning of their own in SQL. -/
def reservedWords : List String :=
  ["SELECT", "FROM", "WHERE", "AND", "OR", "NOT", "IN", "GROUP", "LIMIT"] ++ otherReserved

/-- A name made of letters, digits and underscores that does not start with a digit and is not reserved. -/
structure PlainName (c : String) : Prop where
  first : ∃ a s, c.toList = a :: s ∧ (a.isAlpha = true ∨ a = '_')
  chars : ∀ a ∈ c.toList, sqlNameChar a = true
  free : String.ofList (c.toList.map Char.toUpper) ∉ reservedWords

/-- No two names differ in upper and lower case only. -/
def NoCaseClash (names : List String) : Prop := ∀ a ∈ names, ∀ b ∈ names, sameName a b = true → a = b

/-- The text Python prints for a number: an integer, or a float by its shortest digits (except negative zero). -/
def NumText (q : ℚ) (v : List Char) : Prop :=
  (∃ n : Int, q = n ∧ v = (toString n).toList) ∨
  ∃ d : Decimal, d.digits ≠ [] ∧ (∀ x ∈ d.digits, x < 10) ∧
    (q = Decimal.value d ∧ v = floatText d ∨ q = -Decimal.value d ∧ 0 < Decimal.value d ∧ v = '-' :: floatText d)

/-- The text of a value in a condition; texts without double quotes. -/
def RhsText : Rhs → List Char → Prop
  | .num q, v => NumText q v
  | .quoted s, v => '"' ∉ s.toList ∧ v = quoteText s

/-- A filter: conditions with the texts of their values, record ids to drop or keep, columns for `unique`. -/
inductive SOp where
  | select (cs : List (String × Op × Rhs × List Char))
  | drop (ids : List Nat) (keep : Bool)
  | unique (cols : List String)

/-- The filter as a syntax tree: the new columns and state, as in `World.selectOn`, `World.dropOn`, `World.uniqueOn`. -/
def SOp.tree (x : Inst) : SOp → Inst
  | .select cs => { x with state := x.queryWith (cs.map fun c => .cmp c.1 c.2.1 c.2.2.1) }
  | .drop ids keep => { x with state := .sub x.columns x.state [if keep then .ridIn ids else .ridNotIn ids] }
  | .unique cols => { x with columns := withRid cols, state := .sub (withRid cols) x.state [.ridFirst cols] }

/-- The filter as text: the new columns and `_state_query`. -/
def SOp.text (table : List Char) (s : List String × List Char) : SOp → List String × List Char
  | .select cs => (s.1, stateText s.1 table s.2 (cs.map fun c => condText c.1 c.2.1 c.2.2.2))
  | .drop ids keep => (s.1, dropText s.1 (sourceText table s.2) ids keep)
  | .unique cols => (withRid cols, uniqueText cols (sourceText table s.2))

/-- The filter can be used on a dataset with these columns. -/
def SOp.Fits (cols : List String) : SOp → Prop
  | .select cs => cs ≠ [] ∧ ∀ c ∈ cs, c.1 ∈ cols ∧ RhsText c.2.2.1 c.2.2.2
  | .drop _ _ => True
  | .unique l => l ≠ [] ∧ ∀ c ∈ l, c ∈ cols

/-- Every filter can be used on the result of the ones before. -/
def AllFit (cols : List String) : List SOp → Prop
  | [] => True
  | o :: os => o.Fits cols ∧ AllFit (o.text [] (cols, [])).1 os

/-- A table whose statements can be written without quotes. -/
structure PlainTable (db : String → Option Table) (n : String) (t : Table) : Prop where
  found : db n = some t
  name : PlainName n
  cols : ∀ c ∈ t.cols, PlainName c
  clash : NoCaseClash t.cols
  rid : "rid" ∈ t.cols
  ids : (t.rows.map (·.rid)).Nodup

end DRec.Spec
