import Verif.Model.Db

/-!
# The column list passed to `unique`

Column lists are objects: a dataset keeps one, the caller passes one.  This part of the model follows which list
objects `unique` writes to; the records are modelled in `Mem.unique` and `World.unique`.
-/

namespace DRec

/-- The list objects of a program, by number. -/
structure Lists where
  val : Nat → List String
  next : Nat

/-- The argument `columns` of `unique`: left out, one name, or a list object. -/
inductive ColsArg where
  | all
  | one (c : String)
  | list (ref : Nat)

/-- Create a list object. -/
def Lists.new (L : Lists) (l : List String) : Lists × Nat :=
  (⟨fun k => if k = L.next then l else L.val k, L.next + 1⟩, L.next)

/-- `list.append` on a list object. -/
def Lists.append (L : Lists) (r : Nat) (c : String) : Lists :=
  ⟨fun k => if k = r then L.val r ++ [c] else L.val k, L.next⟩

/-- The value of the argument, as the models of `unique` take it. -/
def ColsArg.value (L : Lists) : ColsArg → Option (List String)
  | .all => none
  | .one c => some [c]
  | .list r => some (L.val r)

/-- `_handle_columns` on list objects (`dataset_abc.py:341-348`): a copy of the columns of the dataset, a new list
with one name, or the list that was passed itself.  `own` is the column list of the dataset. -/
def Lists.handle (L : Lists) (own : Nat) (arg : ColsArg) : Lists × Except Err Nat :=
  let p := match arg with
    | .all => L.new (L.val own)
    | .one c => L.new [c]
    | .list r => (L, r)
  if (p.1.val p.2).all (· ∈ L.val own) then (p.1, .ok p.2) else (p.1, .error .badColumn)

/-- `unique` in memory on list objects (`mem_dataset.py:221-228`): works on a copy of the list.  The result is the
column list of the returned dataset. -/
def memUniqueLists (L : Lists) (own : Nat) (arg : ColsArg) : Lists × Except Err Nat :=
  match L.handle own arg with
  | (L1, .error e) => (L1, .error e)
  | (L1, .ok r) =>
    let p := L1.new (L1.val r)
    (if "rid" ∈ p.1.val p.2 then p.1 else p.1.append p.2 "rid", .ok p.2)

/-- `unique` in the database on list objects (`db_dataset.py:235-250`): the list becomes the column list of the
returned dataset and the record id is appended to it.  The list object made by `copy()` is replaced at once and
left out. -/
def dbUniqueLists (L : Lists) (own : Nat) (arg : ColsArg) : Lists × Except Err Nat :=
  match L.handle own arg with
  | (L1, .error e) => (L1, .error e)
  | (L1, .ok r) => (if "rid" ∈ L1.val r then L1 else L1.append r "rid", .ok r)

end DRec
