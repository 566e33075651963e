import Verif.Model.Db
import Verif.Spec.Mem
import Mathlib.Data.List.Dedup

/-!
# Plain datasets and histories

What the database operations mean on a plain list of records, and histories of operations on any number of
datasets that share a file.
-/

namespace DRec.Spec

/-- Cell of a record. -/
def cellOf (r : Rec) (c : String) : Val := (r.lookup c).getD .null

/-- A dataset as a plain list of records. -/
structure Plain where
  cols : List String
  recs : List Rec
  hasIds : Bool
  deriving DecidableEq

/-- A record satisfies a list of written conditions. -/
def SatRec (ws : List (List Char × SCond × List Char)) (r : Rec) : Prop :=
  ∀ w ∈ ws, Holds w.2.1.op (cellOf r w.2.1.col) w.2.1.lit.value

instance (ws : List (List Char × SCond × List Char)) (r : Rec) : Decidable (SatRec ws r) := by
  unfold SatRec; infer_instance

/-- A record restricted to columns, in the order of the columns. -/
def project (cs : List String) (r : Rec) : Rec := cs.map fun c => (c, cellOf r c)

/-- Keep the records satisfying the conditions. -/
def Plain.select (ws : List (List Char × SCond × List Char)) (p : Plain) : Plain :=
  { p with recs := p.recs.filter fun r => SatRec ws r }

/-- Keep (or drop) the records whose id is listed. -/
def Plain.drop (ids : List Nat) (keep : Bool) (p : Plain) : Plain :=
  { p with recs := p.recs.filter fun r => decide (∃ n ∈ ids, cellOf r "rid" = .num (n : ℚ)) == keep }

/-- The record id is in front: no record with the same values on the columns has a smaller one. -/
def FirstOn (l : List String) (recs : List Rec) (r : Rec) : Prop :=
  ∀ r' ∈ recs, l.map (cellOf r') = l.map (cellOf r) → ¬ Less (cellOf r' "rid") (cellOf r "rid")

instance (l : List String) (recs : List Rec) (r : Rec) : Decidable (FirstOn l recs r) := by
  unfold FirstOn; infer_instance

/-- One record per combination of values of the columns, restricted to those columns and the record id. -/
def Plain.unique (cs : Option (List String)) (p : Plain) : Plain :=
  let l := cs.getD p.cols
  let l' := if "rid" ∈ l then l else l ++ ["rid"]
  ⟨l', (p.recs.filter fun r => FirstOn l p.recs r).map (project l'), p.hasIds⟩

/-- Number of a value: how many different values appear before it. -/
def numberOf (vs : List Val) (v : Val) : Val := .num ((vs.takeWhile (· ≠ v)).dedup.length : ℕ)

/-- Write a column of every record, at the end when it is new. -/
def Plain.write (c : String) (f : Rec → Val) (p : Plain) : Plain :=
  let cols' := if c ∈ p.cols then p.cols else p.cols ++ [c]
  { p with cols := cols'
           recs := p.recs.map fun r => cols'.map fun d => (d, if d = c then f r else cellOf r d) }

/-- Number users and items in the order of first appearance. -/
def Plain.assign (p : Plain) : Plain :=
  let users := p.recs.map (cellOf · "user")
  let items := p.recs.map (cellOf · "item")
  { (p.write "uid" fun r => numberOf users (cellOf r "user")).write "iid"
      (fun r => numberOf items (cellOf r "item")) with hasIds := true }

/-- Remove the internal id columns. -/
def Plain.removeIds (p : Plain) : Plain :=
  let l := p.cols.filter fun c => c ≠ "uid" ∧ c ≠ "iid"
  ⟨l, p.recs.map (project l), false⟩

/-- Recompute a column. -/
def Plain.apply (c : String) (f : Val → Val) (p : Plain) : Plain :=
  { p with recs := p.recs.map fun r => r.map fun q => (q.1, if q.1 = c then f q.2 else q.2) }

/-- The dataset seen through an object of the database model: what `columns`, `values()` and
`has_internal_ids` show. -/
def plainOf (w : World) (i : Nat) : Option Plain :=
  match w.insts i, w.view i with
  | some x, .ok recs => some ⟨x.columns, recs, x.hasIds⟩
  | _, _ => none

/-- Operations of a history.  `i` is the number of the dataset; conditions are given as written. -/
inductive DbOp where
  | select (i : Nat) (ws : List (List Char × SCond × List Char)) (copy : Bool)
  | drop (i : Nat) (ids : List Nat) (keep copy : Bool)
  | unique (i : Nat) (cs : Option (List String)) (copy : Bool)
  | copy (i : Nat)
  | close (i : Nat)
  | read (i : Nat) (op : ReadOp)
  | assign (i : Nat)
  | removeIds (i : Nat)
  | apply (i : Nat) (c : String) (f : Val → Option Lit)
  | openGen (i : Nat)
  | closeGen
  | reopen

/-- The dataset an operation is called on. -/
def DbOp.inst : DbOp → Nat
  | .select i _ _ | .drop i _ _ _ | .unique i _ _ | .copy i | .close i | .read i _ | .assign i | .removeIds i
  | .apply i _ _ | .openGen i => i
  | .closeGen | .reopen => 0

/-- Does it return a new dataset? -/
def DbOp.makesNew : DbOp → Bool
  | .select _ _ c | .drop _ _ _ c | .unique _ _ c => c
  | .copy _ => true
  | _ => false

/-- Its meaning on a plain dataset (`none`: the dataset is gone). -/
def DbOp.effect : DbOp → Plain → Option Plain
  | .select _ ws _, p => some (p.select ws)
  | .drop _ ids keep _, p => some (p.drop ids keep)
  | .unique _ cs _, p => some (p.unique cs)
  | .close _, _ => none
  | .assign _, p => some p.assign
  | .removeIds _, p => some p.removeIds
  | .apply _ c f, p => some (p.apply c fun v => ((f v).map Lit.toVal).getD v)
  | _, p => some p

/-- The literal is of the type of the column: numbers for number columns, texts (without a double quote) for
text columns. -/
def FitsType (ty : String → DType) (c : SCond) : Prop :=
  match ty c.col, c.lit with
  | .obj, .str s => '"' ∉ s.toList
  | .obj, _ => False
  | _, l => l.isStr = false

/-- No column is called like the text (SQL names are case-insensitive). -/
def NoColumn (names : List String) (c : SCond) : Prop :=
  match c.lit with
  | .str s => ∀ n ∈ names, n.toLower ≠ s.toLower
  | _ => True

instance (ty : String → DType) (c : SCond) : Decidable (FitsType ty c) := by
  unfold FitsType; split <;> infer_instance

instance (names : List String) (c : SCond) : Decidable (NoColumn names c) := by
  unfold NoColumn; split <;> infer_instance

/-- The id columns are the last two, or there are none. -/
def IdsLast (cols : List String) : Prop :=
  (∃ c0, cols = c0 ++ ["uid", "iid"] ∧ "uid" ∉ c0 ∧ "iid" ∉ c0) ∨ ("uid" ∉ cols ∧ "iid" ∉ cols)

/-- Neither id column. -/
def NotId (c : String) : Prop := c ≠ "uid" ∧ c ≠ "iid"

instance (c : String) : Decidable (NotId c) := by unfold NotId; infer_instance

/-- A value of a condition that does not read an id column. -/
def NoIdsRhs : Rhs → Prop
  | .num _ => True
  | .quoted s => sameName s "uid" = false ∧ sameName s "iid" = false

/-- A condition that does not read an id column. -/
def NoIdsCond : SqlCond → Prop
  | .cmp c _ r => NotId c ∧ NoIdsRhs r
  | .ridIn _ => True
  | .ridNotIn _ => True
  | .ridFirst cs => ∀ c ∈ cs, NotId c

/-- A state that does not read an id column. -/
def NoIdsSrc : Src → Prop
  | .table => True
  | .sub cols src conds => (∀ c ∈ cols, NotId c) ∧ NoIdsSrc src ∧ ∀ c ∈ conds, NoIdsCond c

/-- Numbering the users and items of this dataset cannot be seen through the others: when it stands directly on
its table, either the table is numbered like that already or the others on the table do not read the ids. -/
def IdSafe (w : World) (i : Nat) : Prop :=
  ∀ x t, w.insts i = some x → x.state = .table → w.tables x.table = some t →
    numberBy "item" "iid" (numberBy "user" "uid" t.rows) = t.rows ∨
    ∀ k y, k ≠ i → w.insts k = some y → y.table = x.table → (∀ c ∈ y.columns, NotId c) ∧ NoIdsSrc y.state

/-- What is needed of a query: well written, literals of the type of their columns, no missing cells, for orderings
cells of the same kind as the literals, and no text that is the name of a column. -/
def SelectPre (names : List String) (ws : List (List Char × SCond × List Char)) (p : Plain)
    (types : Option (String → DType)) : Prop :=
  WellWritten ws ∧ ∀ w ∈ ws, NoColumn names w.2.1 ∧ (∀ ty, types = some ty → FitsType ty w.2.1) ∧
    ∀ r ∈ p.recs, Comparable w.2.1.op (cellOf r w.2.1.col) w.2.1.lit.value ∧ cellOf r w.2.1.col ≠ .null

/-- An outcome without a new object. -/
def outcome (i : Nat) (p : World × Option Err) : World × Except Err Nat :=
  (p.1, match p.2 with | none => .ok i | some e => .error e)

/-- Run one operation of the model; the result is the number of the dataset it produced or changed. -/
def runOp (w : World) : DbOp → World × Except Err Nat
  | .select i ws copy => w.select i (queryText ws) copy
  | .drop i ids keep copy => w.drop i ids keep copy
  | .unique i cs copy => w.unique i cs copy
  | .copy i => outcome w.nextI (w.copy i)
  | .close i => outcome i (w.close i)
  | .read i op => ((w.read i op).1, (w.read i op).2.map fun _ => i)
  | .assign i => outcome i (w.assign i)
  | .removeIds i => outcome i (w.removeIds i)
  | .apply i c f => outcome i (w.apply i c f)
  | .openGen i => outcome i ({ (w.record i).1 with gens := w.gens + 1 }, (w.record i).2)
  | .closeGen => outcome 0 ({ w with gens := w.gens - 1 }, none)
  | .reopen => outcome w.nextI w.reopen

/-- Run a history. -/
def runOps (w : World) : List DbOp → World
  | [] => w
  | op :: ops => runOps (runOp w op).1 ops

/-- The operations the claim is about: queries as above, `unique` not on an empty list, ids assigned where users
and items are present and nobody else on the table reads ids, ids removed from the end of the columns,
functions that return values of one type on all records, and no value generator left open. -/
def Admissible (names : List String) (w : World) : DbOp → Prop
  | .select i ws _ => ∀ p x, plainOf w i = some p → w.insts i = some x → SelectPre names ws p x.types
  | .unique _ cs _ => cs ≠ some []
  | .assign i => ∀ p, plainOf w i = some p → "user" ∈ p.cols ∧ "item" ∈ p.cols ∧
      (∀ r ∈ p.recs, cellOf r "user" ≠ .null ∧ cellOf r "item" ≠ .null) ∧ IdSafe w i
  | .removeIds i => ∀ p, plainOf w i = some p → IdsLast p.cols
  | .apply i c f => ∃ d, ∀ p, plainOf w i = some p → ∀ r ∈ p.recs, ∃ l, f (cellOf r c) = some l ∧ l.dtype = some d
  | .openGen _ => False
  | .closeGen => False
  | .reopen => False
  | _ => True

/-- Every operation of a history is one the claim is about, when its turn comes. -/
def AdmissibleAll (names : List String) : World → List DbOp → Prop
  | _, [] => True
  | w, op :: ops => Admissible names w op ∧ AdmissibleAll names (runOp w op).1 ops

/-- Replace one dataset. -/
def setAt (P : Nat → Option Plain) (k : Nat) (p : Option Plain) : Nat → Option Plain :=
  fun j => if j = k then p else P j

/-- What one operation may do to all datasets.  If it returns, the dataset it returns (a number not in use
before for a new one) shows its meaning and all others show what they showed.  If it raises, everything
shows what it showed, except that an operation in place may already have been carried out. -/
def StepSpec (P : Nat → Option Plain) (op : DbOp) (out : Except Err Nat) (P' : Nat → Option Plain) : Prop :=
  match out with
  | .ok k =>
    (if op.makesNew then P k = none ∧ k ≠ op.inst else k = op.inst) ∧
      ∃ p, P op.inst = some p ∧ P' = setAt P k (op.effect p)
  | .error _ =>
    P' = P ∨ (op.makesNew = false ∧ ∃ p, P op.inst = some p ∧ P' = setAt P op.inst (op.effect p))

/-- SQL order: numbers before texts. -/
def SqlLess (a b : Val) : Prop :=
  match a, b with
  | .num _, .str _ => True
  | _, _ => Less a b

instance (a b : Val) : Decidable (SqlLess a b) := by
  unfold SqlLess; split <;> infer_instance

/-- The extreme cell of a column, apart from nulls. -/
def Extreme (less : Val → Val → Prop) (cells : List Val) (v : Val) : Prop :=
  (v = .null ∧ ∀ u ∈ cells, u = .null) ∨ (v ≠ .null ∧ v ∈ cells ∧ ∀ u ∈ cells, u ≠ .null → ¬ less v u)

/-- What a read shows of a plain dataset. -/
def ReadSpec (names : List String) (types : Option (String → DType)) (p : Plain) : ReadOp → ReadRes → Prop
  | .values cs, .recs l => l = p.recs.map fun r => r.filter fun q => q.1 ∈ cs.getD p.cols
  | .selectOne q cs, .one r => ∀ ws, q = queryText ws → SelectPre names ws p types →
      r = (p.recs.find? fun r => SatRec ws r).map fun r => r.filter fun q => q.1 ∈ cs.getD p.cols
  | .countUnique cs, .count n => n = (p.recs.map fun r => (cs.getD p.cols).map (cellOf r)).dedup.length
  | .max c, .val v => Extreme SqlLess (p.recs.map (cellOf · c)) v
  | .min c, .val v => Extreme (fun a b => SqlLess b a) (p.recs.map (cellOf · c)) v
  | _, _ => False

/-- Tables with these columns can be rebuilt. -/
def FullCols (cols : List String) : Prop := ["rid", "user", "item", "interaction"] ⊆ cols ∧ cols.Nodup

/-- Nothing can go wrong: all the columns that tables need are there, before and after, and the columns the
operation names exist. -/
def Works (p : Plain) : DbOp → Prop
  | .select _ ws _ => FullCols p.cols ∧ ∀ w ∈ ws, w.2.1.col ∈ p.cols
  | .drop _ _ _ _ => FullCols p.cols
  | .unique _ cs _ => FullCols p.cols ∧ FullCols (p.unique cs).cols ∧ cs.getD p.cols ⊆ p.cols
  | .read _ (.values cs) => FullCols p.cols ∧ cs.getD p.cols ⊆ p.cols
  | .read _ (.countUnique cs) => FullCols p.cols ∧ cs.getD p.cols ⊆ p.cols ∧ cs ≠ some []
  | .read _ (.selectOne _ _) => False
  | .read _ (.max c) => FullCols p.cols ∧ c ∈ p.cols
  | .read _ (.min c) => FullCols p.cols ∧ c ∈ p.cols
  | .assign _ => FullCols p.cols
  | .apply _ c _ => FullCols p.cols ∧ c ∈ p.cols ∧ c ∉ ["rid", "uid", "iid", "user", "item"] ∧ p.recs ≠ []
  | _ => True

/-- A world just after creating a first dataset, from a csv file or from an existing `.sqlite` file. -/
def Start (w : World) : Prop :=
  (∃ cols types rows, w = World.ofCsv cols types rows) ∨ ∃ t, w = World.ofFile t

/-- Operations that leave the dataset they are called on as it is. -/
def DbOp.keepsOwn : DbOp → Bool
  | .select _ _ c | .drop _ _ _ c | .unique _ _ c => c
  | .copy _ | .read _ _ | .openGen _ => true
  | _ => false

/-- A value of a column given as an argument: a number for an integer column, a text for a text column. -/
def IsArg (d : DType) (a : Lit) (v : Val) : Prop :=
  (∃ n : Int, d = .int ∧ a = .int n ∧ v = .num n) ∨ ∃ s, d = .obj ∧ a = .str s ∧ v = .str s

end DRec.Spec
