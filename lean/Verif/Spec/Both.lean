import Verif.Spec.Db

/-!
# One history on both backends

A history of operations is run on an in-memory dataset and on a database dataset.
-/

namespace DRec.Spec

/-- An in-memory dataset as a plain list of records: what `columns`, `values()` and `has_internal_ids` show. -/
def memPlain (m : Mem) : Plain := ⟨m.cols, m.rows.map (Row.toRec m.cols), m.hasIds⟩

/-- Operations that both backends have.  With `copy` the history goes on with the new dataset. -/
inductive BothOp where
  | select (ws : List (List Char × SCond × List Char)) (copy : Bool)
  | drop (ids : List Nat) (keep copy : Bool)
  | unique (cs : List String) (copy : Bool)
  | assign
  | apply (c : String) (f : Val → Option Lit)
  | copy
  | read (op : ReadOp)

/-- The operation on the database dataset `i`. -/
def BothOp.onDb (i : Nat) : BothOp → DbOp
  | .select ws cp => .select i ws cp
  | .drop ids keep cp => .drop i ids keep cp
  | .unique cs cp => .unique i (some cs) cp
  | .assign => .assign i
  | .apply c f => .apply i c f
  | .copy => .copy i
  | .read op => .read i op

/-- An outcome of an in-memory operation in place. -/
def memOutcome (p : Mem × Option Err) : Except Err Mem :=
  match p.2 with
  | none => .ok p.1
  | some e => .error e

/-- The operation on an in-memory dataset; a read leaves it as it is. -/
def BothOp.onMem (m : Mem) : BothOp → Except Err Mem
  | .select ws cp => if cp then m.select (queryText ws) else m.selectInPlace (queryText ws)
  | .drop ids keep cp => .ok (if cp then m.drop ids keep else m.dropInPlace ids keep)
  | .unique cs cp => if cp then m.unique (some cs) else m.uniqueInPlace (some cs)
  | .assign => memOutcome m.assignIds
  | .apply c f => memOutcome (m.apply c fun v => (f v).map Lit.toVal)
  | .copy => .ok m.copy
  | .read _ => .ok m

/-- A history on an in-memory dataset, up to the first error. -/
def runMem (m : Mem) : List BothOp → Except Err Mem
  | [] => .ok m
  | op :: ops =>
    match op.onMem m with
    | .ok m' => runMem m' ops
    | .error e => .error e

/-- A history on a database dataset, up to the first error. -/
def runDb (w : World) (i : Nat) : List BothOp → World × Except Err Nat
  | [] => (w, .ok i)
  | op :: ops =>
    match runOp w (op.onDb i) with
    | (w', .ok k) => runDb w' k ops
    | (w', .error e) => (w', .error e)

/-- Operations that both backends support: admissible for the database (`Admissible`), conditions on columns
that exist, compared directly in memory, literals that can be read for the column, and `unique` on columns
that exist, without the record id. -/
def Shared (names : List String) (m : Mem) (w : World) (i : Nat) (op : BothOp) : Prop :=
  Admissible names w (op.onDb i) ∧
  match op with
  | .select ws _ => ∀ c ∈ ws, c.2.1.col ∈ m.cols ∧ Fits m c.2.1 ∧ Direct m c.2.1
  | .unique cs _ => cs ⊆ m.cols ∧ "rid" ∉ cs
  | _ => True

/-- Every operation of a history is supported when its turn comes. -/
def SharedAll (names : List String) : Mem → World → Nat → List BothOp → Prop
  | _, _, _, [] => True
  | m, w, i, op :: ops => Shared names m w i op ∧
    ∀ m' k, op.onMem m = .ok m' → (runOp w (op.onDb i)).2 = .ok k →
      SharedAll names m' (runOp w (op.onDb i)).1 k ops

/-- At every point the dataset has the columns a table needs. -/
def WorksAll : Mem → List BothOp → Prop
  | _, [] => True
  | m, op :: ops => Works (memPlain m) (op.onDb 0) ∧ ∀ m', op.onMem m = .ok m' → WorksAll m' ops

end DRec.Spec
