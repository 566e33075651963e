import Verif.Model.Mem

/-!
# Sharing between in-memory datasets

Python objects share dataframes, column lists and mapping dictionaries by reference.  Here these are
cells of a heap and every write says which cell it goes to.  What is written is computed by the
functions of `Verif.Model.Mem`.
-/

namespace DRec

/-- Contents of a dataframe object. -/
structure Frame where
  dtype : String → DType
  rows : List Row

/-- A `MemoryInteractionDataset` object: references to its dataframe, its column list and its two
mappings, plus the fields held by value (`mem_dataset.py:11-24`). -/
structure Obj where
  frame : Nat
  cols : Nat
  umap : Nat
  imap : Nat
  hasIds : Bool
  cache : Option Mat
  cacheT : Option Mat

/-- Heap cells and the live dataset objects; an address is a position. -/
structure Heap where
  frames : List Frame
  lists : List (List String)
  maps : List (List Val)
  objs : List Obj

/-- What a dataset object shows: its references followed. -/
def Heap.view (h : Heap) (o : Obj) : Mem where
  cols := h.lists.getD o.cols []
  dtype := (h.frames.getD o.frame ⟨fun _ => .obj, []⟩).dtype
  rows := (h.frames.getD o.frame ⟨fun _ => .obj, []⟩).rows
  hasIds := o.hasIds
  userMap := h.maps.getD o.umap []
  itemMap := h.maps.getD o.imap []
  cache := o.cache
  cacheT := o.cacheT

/-- All live datasets. -/
def Heap.views (h : Heap) : List Mem := h.objs.map h.view

/-- A new dataframe object with the given contents. -/
def Heap.newFrame (h : Heap) (f : Frame) : Heap × Nat :=
  ({ h with frames := h.frames ++ [f] }, h.frames.length)

/-- A new list object. -/
def Heap.newList (h : Heap) (l : List String) : Heap × Nat :=
  ({ h with lists := h.lists ++ [l] }, h.lists.length)

/-- A new dictionary object. -/
def Heap.newMap (h : Heap) (m : List Val) : Heap × Nat :=
  ({ h with maps := h.maps ++ [m] }, h.maps.length)

/-- Item assignment into an existing dataframe. -/
def Heap.writeFrame (h : Heap) (a : Nat) (f : Frame) : Heap := { h with frames := h.frames.set a f }

/-- `append`/`remove` on an existing list. -/
def Heap.writeList (h : Heap) (a : Nat) (l : List String) : Heap := { h with lists := h.lists.set a l }

/-- Attribute assignment on dataset object `i`. -/
def Heap.setObj (h : Heap) (i : Nat) (o : Obj) : Heap := { h with objs := h.objs.set i o }

/-- A new dataset object. -/
def Heap.addObj (h : Heap) (o : Obj) : Heap := { h with objs := h.objs ++ [o] }

/-- `copy` (`mem_dataset.py:365-382`): the column list is deep-copied, the dataframe and the mappings
are shared, the matrix caches are empty. -/
def Heap.copyObj (h : Heap) (o : Obj) : Heap × Obj :=
  let (h1, l) := h.newList (h.view o).cols
  (h1, { o with cols := l, cache := none, cacheT := none })

/-- `self._df = self._df[...]` (`mem_dataset.py:258-261,470-478`): the reference is moved to a new
dataframe. -/
def Heap.refilter (h : Heap) (o : Obj) (rows : List Row) : Heap × Obj :=
  let (h1, a) := h.newFrame ⟨(h.view o).dtype, rows⟩
  (h1, { o with frame := a })

/-- `new_ds._df = ...; new_ds.columns = columns` (`mem_dataset.py:226-228`): new dataframe, new column
list. -/
def Heap.restructure (h : Heap) (o : Obj) (cols : List String) (rows : List Row) : Heap × Obj :=
  let (h1, a) := h.newFrame ⟨(h.view o).dtype, rows⟩
  let (h2, l) := h1.newList cols
  (h2, { o with frame := a, cols := l })

/-- `self._df = self._df.copy(); self._df[c] = ...` (`mem_dataset.py:310,316,325,351-352`): clone the
dataframe, then assign into the clone. -/
def Heap.cloneAndAssign (h : Heap) (o : Obj) (f : Frame) : Heap × Obj :=
  let (h1, a) := h.newFrame ⟨(h.view o).dtype, (h.view o).rows⟩
  (h1.writeFrame a f, { o with frame := a })

/-- Operations on dataset object `i`; `copy` is the flag of the Python method. -/
inductive HOp where
  | copy (i : Nat)
  | select (i : Nat) (q : List Char) (copy : Bool)
  | drop (i : Nat) (ids : List Nat) (keep : Bool) (copy : Bool)
  | unique (i : Nat) (cs : Option (List String)) (copy : Bool)
  | apply (i : Nat) (c : String) (f : Val → Option Val)
  | assign (i : Nat)
  | remove (i : Nat)
  | userVec (i : Nat) (u : Nat)
  | itemVec (i : Nat) (k : Nat)

/-- The object an operation is called on. -/
def HOp.target : HOp → Nat
  | .copy i | .select i _ _ | .drop i _ _ _ | .unique i _ _ | .apply i _ _ | .assign i | .remove i
  | .userVec i _ | .itemVec i _ => i

/-- Methods with a `copy` flag: work on a new object or on the object itself
(`mem_dataset.py:83,222,256`). -/
def Heap.onCopyOrSelf (h : Heap) (i : Nat) (o : Obj) (copy : Bool) (f : Heap → Obj → Heap × Obj) :
    Heap :=
  if copy then
    let (h1, o1) := h.copyObj o
    let (h2, o2) := f h1 o1
    h2.addObj o2
  else
    let (h2, o2) := f h o
    h2.setObj i o2

/-- One operation called on object `o`.  A query or column error discards the new object of a copying
call and leaves the object of an in-place call as it is. -/
def Heap.stepOn (h : Heap) (o : Obj) : HOp → Heap
  -- mem_dataset.py:365-382
  | .copy _ => (h.copyObj o).1.addObj (h.copyObj o).2
  -- mem_dataset.py:82-86,477
  | .select i q copy => match (h.view o).applyQuery q with
    | .error _ => h
    | .ok rows => h.onCopyOrSelf i o copy fun h o => h.refilter o rows
  -- mem_dataset.py:255-262
  | .drop i ids keep copy =>
    let rows := dropRows ids keep (h.view o).rows
    h.onCopyOrSelf i o copy fun h o => h.refilter o rows
  -- mem_dataset.py:220-230
  | .unique i cs copy => match handleColumns (h.view o).cols cs with
    | .error _ => h
    | .ok l =>
      let m := (h.view o).uniqueOn l
      h.onCopyOrSelf i o copy fun h o => h.restructure o m.cols m.rows
  -- mem_dataset.py:339-360
  | .apply i c f =>
    let m := ((h.view o).apply c f).1
    let (h1, o1) := h.cloneAndAssign o ⟨m.dtype, m.rows⟩
    h1.setObj i { o1 with cache := m.cache, cacheT := m.cacheT }
  -- mem_dataset.py:309-330: columns.append works on the existing list
  | .assign i =>
    let m := (h.view o).assignIds.1
    let (h1, o1) := h.cloneAndAssign o ⟨m.dtype, m.rows⟩
    let h2 := h1.writeList o1.cols m.cols
    let (h3, u) := h2.newMap m.userMap
    let (h4, k) := h3.newMap m.itemMap
    h4.setObj i { o1 with umap := u, imap := k, hasIds := m.hasIds }
  -- mem_dataset.py:332-337: a new dataframe, columns.remove works on the existing list
  | .remove i =>
    let m := (h.view o).removeIds.1
    let (h1, o1) := h.refilter o m.rows
    (h1.writeList o1.cols m.cols).setObj i { o1 with hasIds := m.hasIds }
  -- mem_dataset.py:165-218: only the caches change
  | .userVec i u =>
    let m := ((h.view o).userVec u).1
    h.setObj i { o with cache := m.cache, cacheT := m.cacheT }
  | .itemVec i k =>
    let m := ((h.view o).itemVec k).1
    h.setObj i { o with cache := m.cache, cacheT := m.cacheT }

/-- One operation; nothing happens when the object does not exist. -/
def Heap.step (h : Heap) (op : HOp) : Heap :=
  match h.objs[op.target]? with
  | none => h
  | some o => h.stepOn o op

/-- A history of operations. -/
def Heap.run (h : Heap) (ops : List HOp) : Heap := ops.foldl Heap.step h

/-- A heap holding one freshly loaded dataset (`mem_dataset.py:11-77`). -/
def Heap.load (m : Mem) : Heap where
  frames := [⟨m.dtype, m.rows⟩]
  lists := [m.cols]
  maps := [m.userMap, m.itemMap]
  objs := [⟨0, 0, 0, 1, m.hasIds, m.cache, m.cacheT⟩]

end DRec
