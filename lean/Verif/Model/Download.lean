import Verif.Model.Core

/-!
# Downloading the built-in datasets (`DRecPy/Dataset/integrated_datasets.py:10-110,190-215`, `file_utils.py:4-21`)

The folder of one dataset: whether it exists, and its files by path inside it.  A download is a list of changes of the
folder; a process that dies leaves what a prefix of the list does.  Simplifications: an archive has all its files in one
folder and no other folders in it; texts are byte lists, what happens to them in decoding and encoding is in
`Model/Encoding`; a file is read when the dataset is opened (parsing is in `Model/Csv`).
-/

namespace DRec.Dl

/-- `DatasetReadConfig` (`integrated_datasets.py:10-22`), without what concerns parsing. -/
structure Cfg where
  full : String
  train : Option String := none
  test : Option String := none
  folder : Option String := none
  unzip : Bool := true
  deriving DecidableEq

/-- `DATASETS` (`integrated_datasets.py:25-58`). -/
def datasets : List (String × Cfg) :=
  [("ml-100k", { full := "u.data", train := some "ua.base", test := some "ua.test", folder := some "ml-100k" }),
   ("ml-1m", { full := "ratings.dat", folder := some "ml-1m" }),
   ("ml-10m", { full := "ratings.dat", folder := some "ml-10M100K" }),
   ("ml-20m", { full := "ratings.csv", folder := some "ml-20m" }),
   ("bx", { full := "BX-Book-Ratings.csv", unzip := false })]

variable {α : Type}

/-- The folder of a dataset: `root` when it exists (`file_utils.py:15-21`), `sub` when the folder of the archive exists
in it, and the files. -/
structure Disk (α : Type) where
  root : Bool
  sub : Bool
  files : List String → Option (List α)

/-- A disk without the folder. -/
def Disk.empty : Disk α := ⟨false, false, fun _ => none⟩

/-- One change. -/
inductive Op (α : Type) where
  | mkRoot
  | mkSub
  | write (p : List String) (c : List α)
  | rename (a b : List String)
  | rmSub
  | remove (p : List String)

/-- Its effect. -/
def Op.run (d : Disk α) : Op α → Disk α
  | .mkRoot => { d with root := true }
  | .mkSub => { d with sub := true }
  | .write p c => { d with files := fun q => if q = p then some c else d.files q }
  | .rename a b => { d with files := fun q => if q = b then d.files a else if q = a then none else d.files q }
  | .rmSub => { d with sub := false }
  | .remove p => { d with files := fun q => if q = p then none else d.files q }

/-- Running a list of changes. -/
def run (d : Disk α) (ops : List (Op α)) : Disk α := ops.foldl Op.run d

/-- What the server answers (`integrated_datasets.py:65`): the bytes and, when they are an archive, the files in it.  The
status of the response is not looked at. -/
structure Response (α : Type) where
  data : List α
  archive : Option (List (String × List α))

/-- Writing a file: it is created, then grows; `cuts` are the lengths it has on the way. -/
def writing (cuts : List Nat) (p : List String) (c : List α) : List (Op α) :=
  (0 :: cuts).map (fun n => .write p (c.take n)) ++ [.write p c]

/-- How a download happens to run: the lengths files have while they are written, and the order of `os.listdir`. -/
structure Sched where
  cuts : List String → List Nat
  order : List String

/-- Path of a file of the archive (`integrated_datasets.py:77-78`). -/
def inArchive (folder : Option String) (f : String) : List String := folder.toList ++ [f]

/-- Extracting the archive (`integrated_datasets.py:77-78`). -/
def extracting (cfg : Cfg) (s : Sched) (files : List (String × List α)) : List (Op α) :=
  (if cfg.folder.isSome then [.mkSub] else []) ++
    files.flatMap fun f => writing (s.cuts (inArchive cfg.folder f.1)) (inArchive cfg.folder f.1) f.2

/-- Moving the files out of the folder of the archive and removing the folder (`integrated_datasets.py:80-87`). -/
def moving (cfg : Cfg) (s : Sched) : List (Op α) :=
  match cfg.folder with
  | none => []
  | some d => s.order.map (fun f => .rename [d, f] [f]) ++ [.rmSub]

/-- `tmp.zip` (`integrated_datasets.py:73`). -/
def tmpZip : List String := ["tmp.zip"]

/-- The changes made by `download_dataset` and whether it returns (`integrated_datasets.py:61-93`). -/
def download (cfg : Cfg) (s : Sched) (r : Response α) : List (Op α) × Bool :=
  if cfg.unzip then
    match r.archive with
    | none => (.mkRoot :: writing (s.cuts tmpZip) tmpZip r.data, false)
    | some files => (.mkRoot :: writing (s.cuts tmpZip) tmpZip r.data ++ extracting cfg s files ++ moving cfg s ++
        [.remove tmpZip], true)
  else (.mkRoot :: writing (s.cuts [cfg.full]) [cfg.full] r.data, true)

/-- `get_dataset` for a file of the dataset (`integrated_datasets.py:96-110`): the text that is read.  `none` as an
answer: the request raises. -/
def getDataset (cfg : Cfg) (s : Sched) (answer : Option (Response α)) (file : String) (d : Disk α) :
    Disk α × Except Err (List α) :=
  if d.root then
    (d, match d.files [file] with | none => .error .notFound | some c => .ok c)
  else match answer with
    | none => (d, .error .crash)
    | some r =>
      let d' := run d (download cfg s r).1
      if (download cfg s r).2 then
        (d', match d'.files [file] with | none => .error .notFound | some c => .ok c)
      else (d', .error .badValue)

/-- `get_full_dataset` by name (`integrated_datasets.py:190-209`); names that are not in `DATASETS` raise
`FileNotFoundError`. -/
def getFull (name : String) (s : Sched) (answer : Option (Response α)) (d : Disk α) : Disk α × Except Err (List α) :=
  match datasets.lookup name with
  | none => (d, .error .notFound)
  | some cfg => getDataset cfg s answer cfg.full d

end DRec.Dl
