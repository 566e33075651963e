import Verif.Model.KnnMem

/-!
# Saving and loading a recommender (`DRecPy/Recommender/recommender_abc.py:503-524`)

`save` and `load` are `joblib.dump` and `joblib.load`, which pickle the recommender with all objects it refers to.

Simplifications: an object is its plain data (numbers, texts, arrays, tables) together with its attributes that refer to other
objects; functions, classes and loggers are written as their names (`logging.Logger.__reduce__`, Python 3.7 and later); the
recursion limit of Python is never reached; the file can be opened; joblib's separate handling of numpy arrays does
not lose data.
-/

namespace DRec.Pick

/-- What an attribute refers to: an object, or something written by its name (a function, a class, a logger). -/
inductive Ref (A : Type) where
  | obj (a : A)
  | glob (name : String)
  deriving DecidableEq

/-- An object: whether its type can be pickled, its plain data and its attributes. -/
structure Cell (A V : Type) where
  portable : Bool
  data : V
  fields : List (String × Ref A)
  deriving DecidableEq

/-- The objects of a process. -/
abbrev Heap (A V : Type) := A → Option (Cell A V)

/-- Refer to other addresses. -/
def Ref.map {A B : Type} (f : A → B) : Ref A → Ref B
  | .obj a => .obj (f a)
  | .glob n => .glob n

/-- Refer to other addresses. -/
def Cell.map {A B V : Type} (f : A → B) (c : Cell A V) : Cell B V :=
  ⟨c.portable, c.data, c.fields.map fun p => (p.1, p.2.map f)⟩

/-- The objects that an object refers to, in the order of its attributes. -/
def Cell.refs {A V : Type} (c : Cell A V) : List A :=
  c.fields.filterMap fun p => match p.2 with
    | .obj a => some a
    | .glob _ => none

section
variable {A V : Type} [DecidableEq A]

/-- `Pickler.save` of one object (`dump(self, save_path)`, `recommender_abc.py:512`): an object that is already in the memo is
written as a reference; an object that cannot be pickled raises `TypeError`; otherwise the object is put into the memo and the
objects it refers to are written.  `n` bounds the depth. -/
def visit (h : Heap A V) : Nat → List (A × Cell A V) → A → Except Err (List (A × Cell A V))
  | 0, _, _ => .error .crash
  | n + 1, memo, a =>
    if a ∈ memo.map (·.1) then .ok memo
    else match h a with
      | none => .error .crash
      | some c =>
        if c.portable = false then .error .typeError
        else c.refs.foldlM (visit h n) (memo ++ [(a, c)])

/-- The contents of the file (`recommender_abc.py:512`): the objects in the order in which they were written, referring to each
other by the number in the memo. -/
def dump (n : Nat) (h : Heap A V) (a : A) : Except Err (List (Cell Nat V)) :=
  (visit h (n + 1) [] a).map fun memo => memo.map fun e => e.2.map (memo.map (·.1)).idxOf

/-- `load(load_path)` (`recommender_abc.py:524`): an object is created for every object of the file, next to the objects that
the process has.  The result is the object `.inr 0`. -/
def load (h : Heap A V) (s : List (Cell Nat V)) : Heap (A ⊕ Nat) V
  | .inl a => (h a).map (Cell.map .inl)
  | .inr k => s[k]?.map (Cell.map .inr)

/-! ## Files -/

/-- The files: none, one that was not written to the end, or a complete one. -/
abbrev Files (V : Type) := String → Option (Option (List (Cell Nat V)))

/-- `save` (`recommender_abc.py:503-512`).  `joblib.dump` opens the file for writing, which empties it, and then pickles into
it. -/
def save (n : Nat) (h : Heap A V) (a : A) (path : String) (fs : Files V) : Files V × Except Err Unit :=
  match dump n h a with
  | .ok s => (fun p => if p = path then some (some s) else fs p, .ok ())
  | .error e => (fun p => if p = path then some none else fs p, .error e)

/-- What `load` raises. -/
inductive LoadErr where
  | noFile     -- FileNotFoundError
  | truncated  -- EOFError: the pickle has no end
  deriving DecidableEq

/-- `load` (`recommender_abc.py:514-524`). -/
def loadFile (fs : Files V) (path : String) (h : Heap A V) : Except LoadErr (Heap (A ⊕ Nat) V) :=
  match fs path with
  | none => .error .noFile
  | some none => .error .truncated
  | some (some s) => .ok (load h s)

end

/-! ## The recommenders of DRecPy -/

/-- Which recommender: `UserKNN`/`ItemKNN`; `CDAE`/`DMF`, which sample with a `PointSampler` (`cdae.py:45`, `dmf.py:62`);
`Caser`, which samples with a `ListSampler` (`caser.py:72-75`). -/
inductive Cls where
  | knn (cfg : KnnCfg)
  | points
  | lists

/-- A dataset: in memory, or in a database with an open connection. -/
structure DsSt where
  db : Bool
  m : Mem

/-- A recommender.  `logFile`: created with `log_file=True`.  `lossOk`, `optOk`, `netOk`: whether the loss, the optimizer and
the layers or variables (TensorFlow objects) can be pickled, which depends on the version of TensorFlow.  `fit`: the number of the
dataset it was fitted on last. -/
structure ModelSt where
  cls : Cls
  logFile : Bool
  lossOk : Bool
  fit : Option Nat
  optOk : Bool
  netOk : Bool
  M : Knn

/-- The datasets and recommenders of a process. -/
structure St where
  ds : List DsSt
  models : List ModelSt

/-- What a program does. -/
inductive Op where
  | newDs (db : Bool) (m : Mem)
  | newModel (cls : Cls) (logFile lossOk : Bool)
  /-- `models[r].fit(ds[d])`; the optimizer is the default one or the one given (`recommender_abc.py:153-156`). -/
  | fit (r d : Nat) (optOk netOk : Bool)

/-- The similarities and neighbours after fitting (`base_knn.py:75-80`). -/
def ModelSt.learn (x : ModelSt) (m : Mem) : Knn :=
  match x.cls with
  | .knn cfg => fitKnn cfg (ratingsOf m) x.M
  | _ => x.M

/-- One call.  `fit` (`recommender_abc.py:97-157`) assigns internal ids in the dataset given, which the recommender keeps; a fit
that raises is not modelled. -/
def St.step (s : St) : Op → St
  | .newDs db m => { s with ds := s.ds ++ [⟨db, m⟩] }
  | .newModel cls logFile lossOk =>
    { s with models := s.models ++ [⟨cls, logFile, lossOk, none, true, true, Knn.init⟩] }
  | .fit r d optOk netOk =>
    match s.ds[d]?, s.models[r]? with
    | some y, some x =>
      let m := y.m.assignIds.1
      { ds := s.ds.set d ⟨y.db, m⟩
        models := s.models.set r { x with fit := some d, optOk := optOk, netOk := netOk, M := x.learn m } }
    | _, _ => s

/-- A program. -/
def St.run (ops : List Op) : St := ops.foldl St.step ⟨[], []⟩

/-- The objects of the process. -/
inductive Addr where
  | ds (i : Nat)
  | conn (i : Nat)
  | model (r : Nat)
  | loss (r : Nat)
  | optimizer (r : Nat)
  | tracker (r : Nat)
  | sims (r : Nat)
  | nbrs (r : Nat)
  | net (r : Nat)
  | sampler (r : Nat)
  | nullGen (r : Nat)
  | posGen (r : Nat)
  deriving DecidableEq

/-- Plain data of an object. -/
inductive Data where
  | model (cls : Cls) (fitted : Bool)
  | data (m : Mem)
  | sims (f : Nat × Nat → Option ℚ)
  | nbrs (f : Nat → Option (List (ℚ × Nat)))
  | other

/-- The attributes `_logger` and `_file_logger` (`recommender_abc.py:81-96`): loggers are written by name. -/
def loggers (x : ModelSt) : List (String × Ref Addr) :=
  ("_logger", .glob "CLOGGER") :: if x.logFile then [("_file_logger", .glob "FLOGGER")] else []

/-- The attributes of a recommender of its class that are set by its `__init__` (`base_knn.py:43-73`: two functions and two
dictionaries; `cdae.py:30-31`, `dmf.py:44`, `caser.py:43`: the loss). -/
def ownFields (x : ModelSt) (r : Nat) : List (String × Ref Addr) :=
  match x.cls with
  | .knn _ => [("sim_metric_fn", .glob "metric"), ("aggregation_fn", .glob "aggregation"), ("_similarities", .obj (.sims r)),
      ("_neighbours", .obj (.nbrs r))]
  | _ => [("_loss", .obj (.loss r))]

/-- The attributes of a recommender that are set by `fit` (`recommender_abc.py:134-157`): the dataset, the loss tracker and the
optimizer for all recommenders, the network and the sampler for those that are trained (`cdae.py:33-45`, `dmf.py:46-62`,
`caser.py:45-75`).  The network is also in the lists of trainable objects (`recommender_abc.py:66-70`). -/
def fitFields (x : ModelSt) (r : Nat) : List (String × Ref Addr) :=
  match x.fit with
  | none => []
  | some d =>
    [("interaction_dataset", .obj (.ds d)), ("_loss_tracker", .obj (.tracker r)), ("optimizer", .obj (.optimizer r))] ++
      match x.cls with
      | .knn _ => []
      | _ => [("network", .obj (.net r)), ("trainable_vars", .obj (.net r)), ("_sampler", .obj (.sampler r))]

/-- The attributes of the sampler: the dataset, and for a `PointSampler` two generators (`point_sampler.py:29-43`;
`list_sampler.py` has none).  -/
def samplerFields (x : ModelSt) (r : Nat) : List (String × Ref Addr) :=
  match x.fit, x.cls with
  | some d, .points => [("interaction_dataset", .obj (.ds d)), ("null_pair_gen", .obj (.nullGen r)),
      ("pos_pair_gen", .obj (.posGen r))]
  | some d, .lists => [("interaction_dataset", .obj (.ds d))]
  | _, _ => []

/-- The objects of the process and what they refer to.  Generators (`mem_dataset.py:107-163`, `db_dataset.py:160-232`) and
connections (`db_dataset.py:38`) cannot be pickled. -/
def St.heap (s : St) : Heap Addr Data
  | .ds i => s.ds[i]?.map fun y => ⟨true, .data y.m, if y.db then [("_conn", .obj (.conn i))] else []⟩
  | .conn i => s.ds[i]?.bind fun y => if y.db then some ⟨false, .other, []⟩ else none
  | .model r => s.models[r]?.map fun x =>
      ⟨true, .model x.cls x.fit.isSome, loggers x ++ ownFields x r ++ fitFields x r⟩
  | .loss r => s.models[r]?.map fun x => ⟨x.lossOk, .other, []⟩
  | .optimizer r => s.models[r]?.map fun x => ⟨x.optOk, .other, []⟩
  | .tracker r => s.models[r]?.map fun _ => ⟨true, .other, []⟩
  | .sims r => s.models[r]?.map fun x => ⟨true, .sims x.M.sims, []⟩
  | .nbrs r => s.models[r]?.map fun x => ⟨true, .nbrs x.M.nbrs, []⟩
  | .net r => s.models[r]?.map fun x => ⟨x.netOk, .other, []⟩
  | .sampler r => s.models[r]?.map fun x => ⟨true, .other, samplerFields x r⟩
  | .nullGen r => s.models[r]?.map fun _ => ⟨false, .other, []⟩
  | .posGen r => s.models[r]?.map fun _ => ⟨false, .other, []⟩

/-- A bound for the number of objects. -/
def St.size (s : St) : Nat := 2 * s.ds.length + 10 * s.models.length

end DRec.Pick
