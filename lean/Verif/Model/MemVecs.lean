import Verif.Model.MemOom
import Verif.Spec.Mem

/-!
# Interaction vectors of an in-memory dataset asked for by several threads

`select_user_interaction_vec` and `select_item_interaction_vec` (`mem_dataset.py:165-218`) with
`_build_interaction_matrix` (`mem_dataset.py:480-498`), one access to the shared matrices per step.
-/

namespace DRec.Conc

open Spec

/-- Where a thread is. -/
inductive VecPc where
  /-- line 166 (193) -/
  | start
  /-- line 170 (197), before `_cached_interaction_matrix is not None` -/
  | present
  /-- line 170 (197), before `_cached_interaction_matrix.shape[0] <= 1` -/
  | shape
  /-- line 173 (200) -/
  | absent
  /-- line 174 (201): the records are read (lines 483-493) -/
  | build
  /-- line 495, with the matrix put together -/
  | write (M : Mat)
  /-- line 498 -/
  | transpose
  /-- line 176 (203) -/
  | fetch
  /-- line 179 (206), after `MemoryError` -/
  | marker
  /-- lines 180-190 (208-218) -/
  | slow
  | done (r : Except Err (List ℚ))
  deriving DecidableEq, Repr

/-- The id is known (lines 166-167, 193-194). -/
def vecKnown (ds : Mem) : VecReq → Except Err Unit
  | .user u =>
    match ds.uidToUser u with
    | .error e => .error e
    | .ok none => .error .notFound
    | .ok (some _) => .ok ()
  | .item i =>
    match ds.iidToItem i with
    | .error e => .error e
    | .ok none => .error .notFound
    | .ok (some _) => .ok ()

/-- `_cached_interaction_matrix[uid]`, `_cached_trans_interaction_matrix[iid]` (lines 176, 203). -/
def vecFetch (ds : Mem) : VecReq → Except Err (List ℚ)
  | .user u =>
    match ds.cache with
    | none => .error .crash
    | some M => if u < M.nrows then .ok (M.row u) else .error .outOfRange
  | .item i =>
    match ds.cacheT with
    | none => .error .crash
    | some M => if i < M.ncols then .ok (M.col i) else .error .outOfRange

/-- Lines 180-190, 208-218. -/
def vecSlow (ds : Mem) : VecReq → Except Err (List ℚ)
  | .user u => ds.userVecSlow u
  | .item i => ds.itemVecSlow i

/-- One step of a thread that asks for a vector (`mem_dataset.py:165-218,480-498`); `oom` tells whether building the matrix
runs out of memory in this thread.  Simplification: reading the records is one step, because nothing changes them. -/
def vecStep (oom : Bool) (q : VecReq) (ds : Mem) : VecPc → Mem × VecPc
  | .start =>
    match vecKnown ds q with
    | .error e => (ds, .done (.error e))
    | .ok _ => (ds, .present)
  | .present => (ds, if ds.cache = none then .absent else .shape)
  | .shape =>
    match ds.cache with
    | none => (ds, .done (.error .crash))
    | some M => (ds, if M.nrows ≤ 1 then .marker else .absent)
  | .absent => (ds, if ds.cache = none then .build else .fetch)
  | .build =>
    if oom then (ds, .marker)
    else match ds.buildMatrix with
      | .error e => (ds, .done (.error e))
      | .ok M => (ds, .write M)
  | .write M => ({ ds with cache := some M }, .transpose)
  | .transpose =>
    match ds.cache with
    | none => (ds, .done (.error .crash))
    | some M => ({ ds with cacheT := some M }, .fetch)
  | .fetch => (ds, .done (vecFetch ds q))
  | .marker => ({ ds with cache := some zeroMat }, .slow)
  | .slow => (ds, .done (vecSlow ds q))
  | .done r => (ds, .done r)

/-- A thread: its request, whether memory runs out, where it is. -/
structure VecThread where
  req : VecReq
  oom : Bool
  pc : VecPc

/-- One step of thread `t`. -/
def vecPoolStep (t : Nat) (ds : Mem) (ts : List VecThread) : Mem × List VecThread :=
  match ts[t]? with
  | none => (ds, ts)
  | some th => ((vecStep th.oom th.req ds th.pc).1, ts.set t { th with pc := (vecStep th.oom th.req ds th.pc).2 })

/-- The threads take turns as the schedule says. -/
def vecSchedule : List Nat → Mem → List VecThread → Mem × List VecThread
  | [], ds, ts => (ds, ts)
  | t :: sched, ds, ts => vecSchedule sched (vecPoolStep t ds ts).1 (vecPoolStep t ds ts).2

/-- Threads that have not begun. -/
def vecStart (qs : List (VecReq × Bool)) : List VecThread := qs.map fun q => ⟨q.1, q.2, .start⟩

end DRec.Conc
