import Verif.Model.Sampler
import Verif.Model.Threads
import Verif.Model.Float

/-!
# Dataset splits (`DRecPy/Evaluation/Splits/`)

Over the in-memory dataset.  The per-user tasks run as concurrent threads of `Verif.Model.Threads`.
-/

namespace DRec

/-! ## random_split -/

/-- Walk over the records with a pointer into the sorted indices, collecting the record ids
(`random_split.py:42-47`): `test_idxs[pointer]` is the head of the remaining indices; the walk stops when
they are used up. -/
def pickRids : List Row → Nat → List Nat → List Nat
  | _, _, [] => []
  | [], _, _ => []
  | r :: rs, i, j :: js => if i = j then r.rid :: pickRids rs (i + 1) js else pickRids rs (i + 1) (j :: js)

/-- `random_split(ds, test_ratio, seed)` (`random_split.py:6-52`): train and test set. -/
def randomSplit (ds : Mem) (ratio : ℚ) (rng : Nat → Nat) : Except Err (Mem × Mem) :=
  if 0 < ratio ∧ ratio < 1 then
    let idxs := (pySample (List.range ds.rows.length) (shareOf ds.rows.length ratio) rng).insertionSort
      (· ≤ ·)
    if idxs.length > 0 then
      let rids := pickRids ds.rows 0 idxs
      .ok (ds.drop rids false, ds.drop rids true)
    else .error .assertion
  else .error .assertion

/-! ## Tasks and shared variables -/

/-- The shared variables of the tasks: `train_rids_to_rem`, `test_rids` and `n_tasks_done`, each used
under its own lock (`leave_k_out.py:8-11,63-66`, `matrix_split.py:8-11,57-60`). -/
inductive SVar where
  | rem | test | done
  deriving DecidableEq

/-- Types of the shared variables. -/
abbrev SVar.Ty : SVar → Type
  | .rem => List Nat
  | .test => List Nat
  | .done => Nat

/-- The critical sections of the tasks: `extend` one of the lists, only check something under the test
lock, increment the counter (`leave_k_out.py:118-135`, `matrix_split.py:91-106`). -/
inductive SAct where
  | remove (ids : List Nat)
  | toTest (ids : List Nat)
  | check
  | count

/-- Effect of a critical section. -/
def SAct.sec : SAct → Sec SVar.Ty
  | .remove ids => ⟨.rem, fun l => l ++ ids⟩
  | .toTest ids => ⟨.test, fun l => l ++ ids⟩
  | .check => ⟨.test, fun l => l⟩
  | .count => ⟨.done, fun n => n + 1⟩

/-- Initial values (`leave_k_out.py:63,66`). -/
def splitInit : (v : SVar) → v.Ty
  | .rem => []
  | .test => []
  | .done => 0

/-- All tasks submitted to the pool (`leave_k_out.py:65-79`). -/
def splitStart (tasks : List (List SAct)) : Cfg SVar.Ty :=
  Cfg.init splitInit (tasks.map (List.map SAct.sec))

/-- Train and test set built from the shared lists (`leave_k_out.py:91-96`, `matrix_split.py:78-83`). -/
def splitFinish (ds : Mem) (m : (v : SVar) → v.Ty) : Mem × Mem :=
  (ds.drop (m .rem ++ m .test) false, ds.drop (m .test) true)

/-- `f'{user}'`: whole numbers print their digits, texts print themselves without quotes.
Simplification: fractional ids print as fractions. -/
def cellText : Val → List Char
  | .num q => if q.den = 1 then pyIntText q.num else (Lit.flt q).pyStr.toList
  | .str s => s.toList
  | .null => "None".toList

/-- `interaction_dataset.select(f'user == {user}')` (`leave_k_out.py:101,109`, `matrix_split.py:89`). -/
def userRows (ds : Mem) (user : Val) : Except Err (List Row) :=
  (ds.select ("user == ".toList ++ cellText user)).map (·.rows)

/-- `interaction_dataset.unique('user')` values (`leave_k_out.py:56-60`, `matrix_split.py:43-44`);
also for `item`. -/
def uniqueVals (ds : Mem) (c : String) : Except Err (List Val) :=
  (ds.unique (some [c])).map fun d => d.rows.map (·.get c)

/-! ## leave_k_out -/

/-- The argument `k`: an integer or a float (`leave_k_out.py:47-54`). -/
inductive KArg where
  | fixed (k : Int)
  | ratio (q : ℚ)

/-- Number of records to sample from `n` (`leave_k_out.py:102,110`). -/
def KArg.amount : KArg → Nat → Nat
  | .fixed k, _ => k.toNat
  | .ratio q, n => shareOf n q

/-- The checks on `k` (`leave_k_out.py:47-54`). -/
def KArg.valid : KArg → Bool
  | .fixed k => 0 < k
  | .ratio q => 0 < q ∧ q < 1

/-- Tuple order of `(timestamp, rid)`. -/
def tsLe (a b : ℚ × Nat) : Prop := a.1 < b.1 ∨ (a.1 = b.1 ∧ a.2 ≤ b.2)

instance : DecidableRel tsLe := fun a b => by unfold tsLe; infer_instance

/-- One record in the heap loop (`leave_k_out.py:124-126`): `heappush` while there are fewer than `k`,
then `heapreplace`, which pops the smallest entry and pushes the new one.  The heap is kept as a sorted
list, its smallest entry in front (the heap's internal order is not observable here). -/
def heapStep (k : Nat) (h : List (ℚ × Nat)) (x : ℚ × Nat) : List (ℚ × Nat) :=
  if h.length < k then List.orderedInsert tsLe x h else List.orderedInsert tsLe x h.tail

/-- Record ids left in the heap (`leave_k_out.py:123-128`).  Simplification: timestamps are numbers. -/
def latestRids (label : String) (k : Nat) (rows : List Row) : List Nat :=
  ((rows.map fun r => (sortKey label r, r.rid)).foldl (heapStep k) []).map (·.2)

/-- `_leave_k_out_user` (`leave_k_out.py:114-135`): the critical sections it goes through.  `last` is the
timestamp column when `last_timestamps` is set; reading an unknown column raises. -/
def leaveKTask (cols : List String) (minN k : Nat) (last : Option String) (rng : Nat → Nat)
    (rows : List Row) : List SAct :=
  if rows.length < minN then [.remove (rows.map (·.rid)), .count]
  else if rows.length > k ∧ k > 0 then
    match last with
    | some label =>
      if label ∈ cols then [.toTest (latestRids label k rows), .count] else []
    | none => [.toTest (pySample (rows.map (·.rid)) k rng), .count]
  else [.count]

/-- `_leave_k_out_user_fixed`, `_leave_k_out_user_ratio` (`leave_k_out.py:99-111`): an exception (also in
`select`) ends the task silently, since the result of `apply_async` is never read. -/
def leaveKUser (ds : Mem) (k : KArg) (minN : Nat) (last : Option String) (rng : Nat → Nat)
    (user : Val) : List SAct :=
  match userRows ds user with
  | .error _ => []
  | .ok rows => leaveKTask ds.cols minN (k.amount rows.length) last rng rows

/-- `leave_k_out` up to the start of the pool (`leave_k_out.py:47-77`): the tasks, one per user.  Task `i`
has its own random source `rngs i` (seeded with `seed + i + 1`). -/
def leaveKTasks (ds : Mem) (k : KArg) (minN : Nat) (last : Option String) (rngs : Nat → Nat → Nat) :
    Except Err (List (List SAct)) :=
  if k.valid then
    (uniqueVals ds "user").map fun us =>
      us.zipIdx.map fun p => leaveKUser ds k minN last (rngs p.2) p.1
  else .error .assertion

/-! ## matrix_split -/

/-- `_matrix_split_user` (`matrix_split.py:86-106`): every item test takes the test lock. -/
def matrixUser (ds : Mem) (minN : Nat) (testUsers testItems : List Val) (user : Val) : List SAct :=
  match userRows ds user with
  | .error _ => []
  | .ok rows =>
    if rows.length < minN then [.remove (rows.map (·.rid)), .count]
    else if user ∈ testUsers then
      let toTest := (rows.filter fun r => r.get "item" ∈ testItems).map (·.rid)
      rows.map (fun _ => SAct.check) ++
        if toTest.length < rows.length then [.toTest toTest, .count] else [.count]
    else [.count]

/-- The users and items drawn for the test set (`matrix_split.py:42-49`). -/
def drawn (vals : List Val) (ratio : ℚ) (rng : Nat → Nat) : List Val :=
  pySample vals (shareOf vals.length ratio) rng

/-- `matrix_split` up to the start of the pool (`matrix_split.py:38-66`).  One random source serves both
samples; as every pair of outcomes is allowed for, they are given as two streams.  A missing `item`
column raises before. -/
def matrixTasks (ds : Mem) (userRatio itemRatio : ℚ) (minN : Nat) (rngU rngI : Nat → Nat) :
    Except Err (List (List SAct)) :=
  if (0 < userRatio ∧ userRatio ≤ 1) ∧ (0 < itemRatio ∧ itemRatio ≤ 1) then
    (uniqueVals ds "user").bind fun us =>
      (uniqueVals ds "item").map fun is =>
        us.map (matrixUser ds minN (drawn us userRatio rngU) (drawn is itemRatio rngI))
  else .error .assertion

end DRec
