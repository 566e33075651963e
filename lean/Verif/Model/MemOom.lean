import Verif.Model.Mem

/-!
# Running out of memory (`DRecPy/Dataset/mem_dataset.py:165-218,339-360`)

Building the interaction matrix can raise `MemoryError`.  `oom` says whether it does when it is attempted.
-/

namespace DRec

/-- `select_user_interaction_vec` (`mem_dataset.py:165-190`) when building the matrix may run out of memory: the matrix
is replaced by an empty one, which is never looked at again, and the vector is computed from the records. -/
def Mem.userVecM (oom : Bool) (ds : Mem) (uid : Nat) : Mem × Except Err (List ℚ) :=
  match ds.uidToUser uid with
  | .ok (some _) =>
    if oom = true ∧ ds.cache = none then ({ ds with cache := some zeroMat }, ds.userVecSlow uid) else ds.userVec uid
  | _ => ds.userVec uid

/-- `select_item_interaction_vec` (`mem_dataset.py:192-218`) when building the matrix may run out of memory. -/
def Mem.itemVecM (oom : Bool) (ds : Mem) (iid : Nat) : Mem × Except Err (List ℚ) :=
  match ds.iidToItem iid with
  | .ok (some _) =>
    if oom = true ∧ ds.cache = none then ({ ds with cache := some zeroMat }, ds.itemVecSlow iid) else ds.itemVec iid
  | _ => ds.itemVec iid

/-- `apply` (`mem_dataset.py:339-360`) when building the matrix may run out of memory: `MemoryError` is an `Exception`,
so `apply` raises; the new dataframe is already in place and the matrix is already forgotten (lines 351-357). -/
def Mem.applyM (oom : Bool) (ds : Mem) (c : String) (f : Val → Option Val) : Mem × Option Err :=
  if oom = true ∧ c = "interaction" ∧ ds.cache.isSome then
    match ({ ds with cache := none }.apply c f) with
    | (ds1, none) => ({ ds1 with cache := none, cacheT := none }, some .applyFailed)
    | (_, some e) => (ds, some e)
  else ds.apply c f

end DRec
