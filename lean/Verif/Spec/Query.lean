import Verif.Model.Core

/-!
# What a query means

Independent of the model: the meaning of comparisons between cells and literals, and how a user
writes a list of conditions as text.
-/

namespace DRec.Spec

/-- Two values of the same kind (both numbers or both texts). -/
def SameKind : Val → Val → Prop
  | .num _, .num _ => True
  | .str _, .str _ => True
  | _, _ => False

/-- Strict order on values of the same kind. -/
def Less : Val → Val → Prop
  | .num a, .num b => a < b
  | .str a, .str b => a < b
  | _, _ => False

/-- Meaning of `a op b`. -/
def Holds : Op → Val → Val → Prop
  | .eq, a, b => a = b
  | .ne, a, b => a ≠ b
  | .lt, a, b => Less a b
  | .gt, a, b => Less b a
  | .le, a, b => SameKind a b ∧ ¬ Less b a
  | .ge, a, b => SameKind a b ∧ ¬ Less a b

/-- The comparison is meaningful: equality always is, orderings need values of the same kind. -/
def Comparable : Op → Val → Val → Prop
  | .eq, _, _ => True
  | .ne, _, _ => True
  | _, a, b => SameKind a b

/-- A literal as a user writes it: a decimal integer, a decimal fraction, a quoted string. -/
inductive SLit where
  | int (n : Int)
  | dec (neg : Bool) (whole : Nat) (frac : List Nat)
  | str (s : String)
  deriving DecidableEq, Repr

/-- Is it an integer literal? -/
def SLit.isInt : SLit → Bool
  | .int _ => true
  | _ => false

/-- Is it a string literal? -/
def SLit.isStr : SLit → Bool
  | .str _ => true
  | _ => false

/-- Decimal digits after the point as a number. -/
def fracVal : List Nat → ℚ
  | [] => 0
  | d :: ds => ((d : ℚ) + fracVal ds) / 10

/-- The value meant by a literal. -/
def SLit.value : SLit → Val
  | .int n => .num n
  | .dec neg w f => .num (if neg then -((w : ℚ) + fracVal f) else (w : ℚ) + fracVal f)
  | .str s => .str s

/-- Text of an unsigned decimal number. -/
def natText (n : Nat) : List Char := Nat.toDigits 10 n

/-- Text of a literal. -/
def SLit.text : SLit → List Char
  | .int n => if n < 0 then '-' :: natText n.natAbs else natText n.natAbs
  | .dec neg w f =>
    (if neg then ['-'] else []) ++ natText w ++ '.' :: f.map Nat.digitChar
  | .str s => '\'' :: s.toList ++ ['\'']

/-- The literal can be written in a query: digits are digits, strings have no quote, backslash,
comma or whitespace (the query syntax has no escapes). -/
def SLit.Writable : SLit → Prop
  | .int _ => True
  | .dec _ _ f => f ≠ [] ∧ ∀ d ∈ f, d < 10
  | .str s => ∀ c ∈ s.toList, c ≠ '\'' ∧ c ≠ '\\' ∧ c ≠ ',' ∧ c.isWhitespace = false

/-- A condition as a user writes it. -/
structure SCond where
  col : String
  op : Op
  lit : SLit
  deriving DecidableEq, Repr

/-- Text of a condition: three parts separated by single blanks. -/
def SCond.text (c : SCond) : List Char :=
  c.col.toList ++ ' ' :: c.op.text.toList ++ ' ' :: c.lit.text

/-- Conditions joined by commas, each surrounded by any amount of whitespace. -/
def queryText : List (List Char × SCond × List Char) → List Char
  | [] => []
  | [(a, c, b)] => a ++ c.text ++ b
  | (a, c, b) :: rest => a ++ c.text ++ b ++ ',' :: queryText rest

/-- A column name that can be written in a query. -/
def NameOk (c : String) : Prop := c.toList ≠ [] ∧ ∀ x ∈ c.toList, x ≠ ',' ∧ x.isWhitespace = false

/-- Blank padding. -/
def Blank (s : List Char) : Prop := ∀ x ∈ s, x.isWhitespace = true

/-- A non-empty list of writable conditions with blank padding. -/
def WellWritten (ws : List (List Char × SCond × List Char)) : Prop :=
  ws ≠ [] ∧ ∀ w ∈ ws, Blank w.1 ∧ Blank w.2.2 ∧ NameOk w.2.1.col ∧ w.2.1.lit.Writable

/-- A row satisfies a list of written conditions. -/
def Sat (ws : List (List Char × SCond × List Char)) (r : Row) : Prop :=
  ∀ w ∈ ws, Holds w.2.1.op (r.get w.2.1.col) w.2.1.lit.value

instance : DecidableRel SameKind := fun a b => by
  cases a <;> cases b <;> unfold SameKind <;> infer_instance

instance : DecidableRel Less := fun a b => by
  cases a <;> cases b <;> unfold Less <;> infer_instance

instance (op : Op) (a b : Val) : Decidable (Holds op a b) := by
  cases op <;> unfold Holds <;> infer_instance

instance (op : Op) (a b : Val) : Decidable (Comparable op a b) := by
  cases op <;> unfold Comparable <;> infer_instance

instance (ws : List (List Char × SCond × List Char)) (r : Row) : Decidable (Sat ws r) := by
  unfold Sat; infer_instance

instance (l : SLit) : Decidable l.Writable := by
  cases l <;> unfold SLit.Writable <;> infer_instance

instance (c : String) : Decidable (NameOk c) := by unfold NameOk; infer_instance

instance (s : List Char) : Decidable (Blank s) := by unfold Blank; infer_instance

instance (ws : List (List Char × SCond × List Char)) : Decidable (WellWritten ws) := by
  unfold WellWritten; infer_instance

end DRec.Spec
