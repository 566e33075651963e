import Verif.Model.QueryText

/-!
# Files: saving as SQLite, the registry of temporary files, generated splits, the dataset factory

`db_dataset.py:384-430`, `file_utils.py`, `integrated_datasets.py:111-188`, `dataset_factory.py`.
A program that may be killed is a list of file system operations; a crash leaves what a prefix of the list
does.  A single operation (creating with a content, replacing a content, removing, renaming) is atomic.
-/

namespace DRec

/-- A path. -/
abbrev Path := List Char

/-- The files: content per path, `none` when there is no such file. -/
abbrev FS (C : Type) := Path → Option C

/-- One change of the file system. -/
inductive FsOp (C : Type) where
  | write (p : Path) (c : C)
  | remove (p : Path)
  | rename (a b : Path)

/-- Its effect. -/
def FsOp.run {C : Type} : FsOp C → FS C → FS C
  | .write p c, fs => fun q => if q = p then some c else fs q
  | .remove p, fs => fun q => if q = p then none else fs q
  | .rename a b, fs => fun q => if q = b then fs a else if q = a then none else fs q

/-- Running a program to its end. -/
def runOps {C : Type} (ops : List (FsOp C)) (fs : FS C) : FS C := ops.foldl (fun fs o => o.run fs) fs

/-! ## `DatabaseInteractionDataset.save` to a SQLite file -/

/-- `path + ".tmp"` (`db_dataset.py:409`). -/
def tmpPath (p : Path) : Path := p ++ ".tmp".toList

/-- `isfile(p)`, then `remove(p)` (`db_dataset.py:410,425,429`). -/
def removeIfThere {C : Type} (fs : FS C) (p : Path) : List (FsOp C) := if (fs p).isSome then [.remove p] else []

/-- The file system operations of saving `new` at `path` (`db_dataset.py:409-430`): the new database is written to
the temporary path (`parts` are the contents it has on the way), then the old file is removed and the temporary
one renamed. -/
def saveOps {C : Type} (fs : FS C) (path : Path) (parts : List C) (new : C) : List (FsOp C) :=
  removeIfThere fs (tmpPath path) ++ parts.map (.write (tmpPath path)) ++ [.write (tmpPath path) new] ++
    removeIfThere fs path ++ [.rename (tmpPath path) path]

/-- The check for other users of the file (`db_dataset.py:405-408`): `own` is the file behind this dataset, `users p`
the number of live datasets on `p`. -/
def saveRefused (own path : Path) (users : Path → Nat) : Bool :=
  (decide (path = own) && decide (1 < users path)) || (decide (path ≠ own) && decide (0 < users path))

/-- `save` to a SQLite file (`db_dataset.py:404-430`). -/
def saveSqlite {C : Type} (own path : Path) (users : Path → Nat) (parts : List C) (new : C) (fs : FS C) :
    Except Err (List (FsOp C)) :=
  if saveRefused own path users then .error .assertion else .ok (saveOps fs path parts new)

/-! ## The registry of temporary files (`file_utils.py:24-59`) -/

/-- The lines of a text with their line ends, as given by iteration over a file. -/
def fileLines : List Char → List (List Char)
  | [] => []
  | c :: cs =>
    if c = '\n' then ['\n'] :: fileLines cs
    else
      match fileLines cs with
      | [] => [[c]]
      | l :: ls => (c :: l) :: ls

/-- `path.strip("\n")`. -/
def stripNl (s : List Char) : List Char :=
  ((s.dropWhile (· = '\n')).reverse.dropWhile (· = '\n')).reverse

/-- The registry file (`none`: it does not exist) and the files that exist. -/
structure Temp where
  registry : Option (List Char)
  files : Path → Bool

/-- `register_temp_file` (`file_utils.py:24-29`): the path and a line end are appended. -/
def Temp.register (t : Temp) (p : Path) : Temp :=
  { t with registry := some (t.registry.getD [] ++ p ++ ['\n']) }

/-- The lines `unregister_temp_file` writes back (`file_utils.py:36-42`). -/
def keptLines (p : Path) (text : List Char) : List (List Char) :=
  (fileLines text).filter fun l => stripNl l ≠ p

/-- `unregister_temp_file` (`file_utils.py:32-47`): the registry is removed when nothing is left; removing a
registry that does not exist raises. -/
def Temp.unregister (t : Temp) (p : Path) : Except Err Temp :=
  match t.registry with
  | none => .error .notFound
  | some text =>
    .ok { t with registry := if keptLines p text = [] then none else some (keptLines p text).flatten }

/-- `delete_temp_files` (`file_utils.py:50-59`): every listed path is removed if it is a file, then the registry. -/
def Temp.cleanup (t : Temp) : Temp :=
  match t.registry with
  | none => t
  | some text => ⟨none, fun p => t.files p && !decide (p ∈ (fileLines text).map strip)⟩

/-- Operations on the registry; `create` makes a file without registering it. -/
inductive TempOp where
  | create (p : Path)
  | register (p : Path)
  | unregister (p : Path)
  | cleanup

/-- One operation; a raising one changes nothing. -/
def Temp.step (t : Temp) : TempOp → Temp
  | .create p => { t with files := fun q => decide (q = p) || t.files q }
  | .register p => t.register p
  | .unregister p =>
    match t.unregister p with
    | .ok t' => t'
    | .error _ => t
  | .cleanup => t.cleanup

/-- A history. -/
def Temp.run (t : Temp) (ops : List TempOp) : Temp := ops.foldl Temp.step t

/-- Name of a temporary database (`db_dataset.py:680`): `join(folder, f'interactions_{id}.{digits}.tmp.sqlite')`. -/
def tempName (folder : Path) (ident digits : Nat) : Path :=
  folder ++ "/interactions_".toList ++ Nat.toDigits 10 ident ++ ['.'] ++ Nat.toDigits 10 digits ++ ".tmp.sqlite".toList

/-! ## Generated train and test files (`integrated_datasets.py:111-188`) -/

/-- Which half is asked for. -/
inductive Half where
  | train
  | test
  deriving DecidableEq

/-- The two generated files, as lists of lines; `none` when the file does not exist. -/
structure GenFiles where
  train : Option (List (List Char))
  test : Option (List (List Char))
  deriving DecidableEq

/-- The content of a half. -/
def GenFiles.get (g : GenFiles) : Half → Option (List (List Char))
  | .train => g.train
  | .test => g.test

/-- Set the content of a half. -/
def GenFiles.set (g : GenFiles) : Half → List (List Char) → GenFiles
  | .train, c => { g with train := some c }
  | .test, c => { g with test := some c }

/-- The states of a file while `save` writes it line by line: empty, one line, … (`mem_dataset.py:307`,
`db_dataset.py:437-442`). -/
def writeStates (h : Half) (lines : List (List Char)) (g : GenFiles) : List GenFiles :=
  (List.range (lines.length + 1)).map fun n => g.set h (lines.take n)

/-- The states passed through while both halves are saved (`integrated_datasets.py:143-144`, `183-184`): the test file
is begun after the train file is complete. -/
def genStates (split : List (List Char) × List (List Char)) (g : GenFiles) : List GenFiles :=
  g :: writeStates .train split.1 g ++ writeStates .test split.2 (g.set .train split.1)

/-- The state after a complete generation. -/
def genDone (split : List (List Char) × List (List Char)) (g : GenFiles) : GenFiles :=
  (g.set .train split.1).set .test split.2

/-- `get_train_dataset` and `get_test_dataset` for a dataset without its own train and test files
(`integrated_datasets.py:131-145`, `171-185`), run to the end: an existing file is used as it is. -/
def getHalf (split : List (List Char) × List (List Char)) (h : Half) (g : GenFiles) : GenFiles × List (List Char) :=
  match g.get h with
  | some c => (g, c)
  | none => (genDone split g, match h with
    | .train => split.1
    | .test => split.2)

/-! ## The dataset factory (`dataset_factory.py:18-38`) -/

/-- Which class was instantiated. -/
inductive Backend where
  | memory
  | database
  deriving DecidableEq

/-- Lists of column names by address; `none` is a column to skip. -/
abbrev ColHeap := Nat → List (Option String)

/-- A constructor: it gets the address of the column list (or `None`) and may change that list and any list it
creates itself; it succeeds or raises. -/
structure Ctor where
  result : ColHeap → Option Nat → Except Err Unit
  effect : ColHeap → Option Nat → ColHeap

/-- What a constructor may change: the list it was given and lists from `next` on. -/
def Ctor.Frame (k : Ctor) : Prop :=
  ∀ (heap : ColHeap) (a b next : Nat), b ≠ a → b < next → k.effect heap (some a) b = heap b

/-- The instantiation part (`dataset_factory.py:26-37`): a `MemoryError` makes the database class the fallback. -/
def build (memory database : Ctor) (inMemory isDb : Bool) (heap : ColHeap) (cols : Option Nat) :
    ColHeap × Except Err Backend :=
  if inMemory && !isDb then
    match memory.result heap cols with
    | .ok _ => (memory.effect heap cols, .ok .memory)
    | .error .memory =>
      (database.effect (memory.effect heap cols) cols,
        (database.result (memory.effect heap cols) cols).map fun _ => .database)
    | .error e => (memory.effect heap cols, .error e)
  else
    match database.result heap cols with
    | .ok _ => (database.effect heap cols, .ok .database)
    | .error .memory =>
      if inMemory then
        (database.effect (database.effect heap cols) cols,
          (database.result (database.effect heap cols) cols).map fun _ => .database)
      else (database.effect heap cols, .error .memory)
    | .error e => (database.effect heap cols, .error e)

/-- `path.endswith('.sqlite')`. -/
def isSqlite (path : Path) : Bool := ".sqlite".toList.isSuffixOf path

/-- `InteractionsDatasetFactory.__new__` (`dataset_factory.py:18-38`): `columns` is the address of the caller's list;
`columns + ['rid']` is a new list at the address `next`. -/
def factory (memory database : Ctor) (heap : ColHeap) (next : Nat) (path : Path) (columns : Option Nat)
    (inMemory : Bool) : ColHeap × Except Err Backend :=
  match columns with
  | none =>
    if isSqlite path then build memory database inMemory true heap none else (heap, .error .assertion)
  | some a =>
    if some "uid" ∈ heap a then (heap, .error .assertion)
    else if some "iid" ∈ heap a then (heap, .error .assertion)
    else build memory database inMemory (isSqlite path)
      (fun b => if b = next then heap a ++ [some "rid"] else heap b) (some next)

end DRec
