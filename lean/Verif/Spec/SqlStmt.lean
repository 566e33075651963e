import Verif.Spec.Sql
import Verif.Model.SqlStmt

/-! # Notions used in the statements about SQL statements (C124) -/

namespace DRec.Spec

/-- Two lists of rows with the same record ids and the same values in all columns. -/
def SameCells : List Row → List Row → Prop := List.Forall₂ fun r r' => r.rid = r'.rid ∧ ∀ c, r.get c = r'.get c

/-- Rows in the order of their record ids. -/
def InOrder (rows : List Row) : Prop := (rows.map (·.rid)).Pairwise (· < ·)

end DRec.Spec
