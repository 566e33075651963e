import Verif.Model.TableNames
import Mathlib.Algebra.Order.Field.Basic
import Mathlib.Algebra.Order.AbsoluteValue.Basic

/-!
# Random table names (C120)
-/

namespace DRec.Spec

/-- The number with these digits. -/
def ofDigits (ds : List Nat) : Nat := ds.foldl (fun a d => 10 * a + d) 0

/-- The value of a decimal number. -/
def Decimal.value (d : Decimal) : ℚ := (ofDigits d.digits : ℚ) * (10 : ℚ) ^ (d.point - d.digits.length)

/-- The decimal number printed for the random number `k / 2^53`: it starts with a digit that is not zero and is closer to
it than to any other value `random.random()` may have, or to one.  (`repr` of a float is the shortest decimal
number that is read back as the same float, so this holds for it.) -/
structure PrintedAs (k : Nat) (d : Decimal) : Prop where
  digits : ∀ x ∈ d.digits, x < 10
  first : ∃ x xs, d.digits = x :: xs ∧ x ≠ 0
  nearest : ∀ j, j ≤ 2 ^ 53 → j ≠ k → |Decimal.value d - k / 2 ^ 53| < |Decimal.value d - j / 2 ^ 53|

/-- What may happen to the datasets of one file: hidden reductions, `apply` with a new type, each with the random number
it draws, and anything else that creates no table. -/
inductive NEvent where
  | reduce (i : Nat) (skip : Bool) (d : Decimal)
  | retype (i : Nat) (c : String) (f : Val → Option Lit) (dt : DType) (d : Decimal)
  | other (f : World → World)

/-- No table is created. -/
def CreatesNone (f : World → World) : Prop :=
  ∀ w, (f w).nextT = w.nextT ∧ ∀ n, ((f w).tables n).isSome = true → (w.tables n).isSome = true

/-- The random numbers drawn. -/
def NEvent.draws : NEvent → List Decimal
  | .reduce _ _ d => [d]
  | .retype _ _ _ _ d => [d]
  | .other _ => []

/-- The events with numbered tables: the final state and what was raised. -/
def runNumbered (w : World) : List NEvent → World × List (Option Err)
  | [] => (w, [])
  | .reduce i s _ :: es =>
    let p := w.optimize i s
    let q := runNumbered p.1 es
    (q.1, p.2 :: q.2)
  | .retype i c f dt _ :: es =>
    let p := w.applyNew i c f dt
    let q := runNumbered p.1 es
    (q.1, p.2 :: q.2)
  | .other f :: es => runNumbered (f w) es

/-- The events with the names the code gives to the tables. -/
def runNamed (w : World) (nm : Nat → List Char) : List NEvent → World × List (Option Err)
  | [] => (w, [])
  | .reduce i s d :: es =>
    let p := w.optimizeNamed nm d i s
    let q := runNamed p.1.1 p.1.2 es
    (q.1, p.2 :: q.2)
  | .retype i c f dt d :: es =>
    let p := w.applyNewNamed nm d i c f dt
    let q := runNamed p.1.1 p.1.2 es
    (q.1, p.2 :: q.2)
  | .other f :: es => runNamed (f w) nm es

end DRec.Spec
