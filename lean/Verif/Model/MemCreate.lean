import Verif.Model.Mem

/-!
# Creating an in-memory dataset (`mem_dataset.py:11-77`, `dataset_factory.py:40-54`)

The constructor changes the dataframe it is given, so dataframes are objects of a heap: an address is a position.
-/

namespace DRec

/-- A dataframe: its column names, their types, and its rows with their index labels (`Row.rid`).  Index labels are
natural numbers here; they need not be distinct. -/
structure DataFrame where
  cols : List String
  dtype : String → DType
  rows : List Row

/-- A column name given by the caller.  `interned` says whether it is the string object that a literal with the same
text denotes: literals are, strings computed at run time need not be. -/
structure Label where
  name : String
  interned : Bool
  deriving DecidableEq, Repr

/-- Python `label is 'text'` (`mem_dataset.py:56,60,64`). -/
def Label.is (l : Label) (s : String) : Bool := l.interned && decide (l.name = s)

/-- `df[dst] = df[src]` (`mem_dataset.py:44-46`): a new column is put at the end, an existing one is overwritten; an
unknown source raises `KeyError`. -/
def DataFrame.copyCol (t : DataFrame) (dst src : String) : Except Err DataFrame :=
  if src ∈ t.cols then
    .ok ⟨if dst ∈ t.cols then t.cols else t.cols ++ [dst], fun c => if c = dst then t.dtype src else t.dtype c,
      t.rows.map fun r => r.set dst (r.cell src)⟩
  else .error .missingColumn

/-- The three assignments (`mem_dataset.py:43-51`), one after the other. -/
def DataFrame.mainCols (t : DataFrame) (u i x : Label) : Except Err DataFrame :=
  match t.copyCol "user" u.name with
  | .error e => .error e
  | .ok t1 =>
    match t1.copyCol "item" i.name with
    | .error e => .error e
    | .ok t2 => t2.copyCol "interaction" x.name

/-- One `if label is not 'user': self.columns.remove(label)` (`mem_dataset.py:55-65`); `remove` of a name that is not
in the list raises `ValueError`. -/
def removeLabel (cols : List String) (l : Label) (std : String) : Except Err (List String) :=
  if l.is std then .ok cols
  else if l.name ∈ cols then .ok (cols.erase l.name) else .error .badValue

/-- The columns of the dataset when none are given (`mem_dataset.py:53-65`). -/
def DataFrame.labelCols (t : DataFrame) (u i x : Label) : Except Err (List String) :=
  match removeLabel (t.cols ++ ["rid"]) u "user" with
  | .error e => .error e
  | .ok c1 =>
    match removeLabel c1 i "item" with
    | .error e => .error e
    | .ok c2 => removeLabel c2 x "interaction"

/-- Columns that are not in the list are dropped (`mem_dataset.py:67-70`). -/
def DataFrame.dropExtra (t : DataFrame) (cols : List String) : DataFrame := { t with cols := t.cols.filter (· ∈ cols) }

/-- Missing values of text columns become the empty text (`mem_dataset.py:72-75`).  Columns of dtype `object` count as
text columns. -/
def DataFrame.fill (t : DataFrame) : DataFrame :=
  { t with rows := t.rows.map fun r =>
      ⟨r.rid, fun c => if c ∈ t.cols ∧ t.dtype c = .obj ∧ r.cell c = .null then .str "" else r.cell c⟩ }

/-- Overwrite a heap cell. -/
def setAt (heap : List DataFrame) (a : Nat) (t : DataFrame) : List DataFrame := heap.set a t

/-- The constructor for a given dataframe (`mem_dataset.py:40-77`), at address `a`: the heap afterwards and the
dataset.  The steps write to that dataframe; a failure leaves the writes done so far, of which only those of a
successful run are kept here. -/
def memCtor (heap : List DataFrame) (a : Nat) (columns : Option (List String)) (u i x : Label) :
    List DataFrame × Except Err Mem :=
  match heap[a]? with
  | none => (heap, .error .crash)
  | some t =>
    match t.mainCols u i x with
    | .error e => (heap, .error e)
    | .ok t1 =>
      match columns.elim (t1.labelCols u i x) .ok with
      | .error e => (setAt heap a t1, .error e)
      | .ok cols =>
        let t2 := (t1.dropExtra cols).fill
        (setAt heap a t2, .ok ⟨cols, t2.dtype, t2.rows, false, [], [], none, none⟩)

/-- `InteractionsDatasetFactory.read_df` (`dataset_factory.py:40-54`): the constructor runs on a copy (`df.copy()`).
Simplification: no `columns` among the further keyword arguments. -/
def readDf (heap : List DataFrame) (a : Nat) (u i x : Label) : List DataFrame × Except Err Mem :=
  match heap[a]? with
  | none => (heap, .error .crash)
  | some t => memCtor (heap ++ [t]) heap.length none u i x

end DRec
