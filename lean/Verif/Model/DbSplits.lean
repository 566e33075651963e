import Verif.Model.DbThreads
import Verif.Model.Splits

/-!
# Splits of a database dataset (`DRecPy/Evaluation/Splits/`)

The same functions as in `Verif.Model.Splits`, called on a `DatabaseInteractionDataset`.  Simplifications: the list of
users is read to its end before the first task starts; the critical sections of the tasks, which touch no dataset, are
run after all selections, in any interleaving; a task reads its selection once.
-/

namespace DRec.Conc

/-- Cells of one column of the records read (`values(column, to_list=True)`, `db_dataset.py:851-855`). -/
def columnOf (c : String) : ReadRes → List Val
  | .recs l => l.map fun r => (r.lookup c).getD .null
  | _ => []

/-- A record read from the database, with its record id (`values(['rid', …], to_list=True)`,
`db_dataset.py:851-855`). -/
def recRow (r : Rec) : Row :=
  ⟨match r.lookup "rid" with | some (.num q) => q.num.toNat | _ => 0, fun c => (r.lookup c).getD .null⟩

/-- `unique(c)` and its values (`leave_k_out.py:56-60`, `matrix_split.py:43-44,47-49`): the new dataset, which lives
until the split returns, and the cells. -/
def dbUnique (w : World) (i : Nat) (c : String) : World × Except Err (Nat × List Val) :=
  match w.unique i (some [c]) true with
  | (w1, .error e) => (w1, .error e)
  | (w1, .ok j) =>
    match w1.read j (.values (some [c])) with
    | (w2, .error e) => (w2, .error e)
    | (w2, .ok r) => (w2, .ok (j, columnOf c r))

/-- `f'user == {user}'` (`leave_k_out.py:101,109`, `matrix_split.py:89`). -/
def userQuery (user : Val) : List Char := "user == ".toList ++ cellText user

/-- `_leave_k_out_user_fixed`, `_leave_k_out_user_ratio` (`leave_k_out.py:99-135`) after the selection; an exception
ends the task silently. -/
def dbLeaveKUser (cols : List String) (k : KArg) (minN : Nat) (last : Option String) (rng : Nat → Nat) :
    Phase → List SAct
  | .done (.ok (.recs l)) => leaveKTask cols minN (k.amount l.length) last rng (l.map recRow)
  | _ => []

/-- `_matrix_split_user` (`matrix_split.py:86-106`) after the selection. -/
def dbMatrixUser (minN : Nat) (testUsers testItems : List Val) (user : Val) : Phase → List SAct
  | .done (.ok (.recs l)) =>
    if l.length < minN then [.remove (l.map fun r => (recRow r).rid), .count]
    else if user ∈ testUsers then
      let toTest := (l.filter fun r => (recRow r).get "item" ∈ testItems).map fun r => (recRow r).rid
      l.map (fun _ => SAct.check) ++ if toTest.length < l.length then [.toTest toTest, .count] else [.count]
    else [.count]
  | _ => []

/-- The two sets (`leave_k_out.py:93-96`, `matrix_split.py:80-83`), test before train. -/
def dbFinish (w : World) (i : Nat) (m : (v : SVar) → v.Ty) : World × Except Err (Nat × Nat) :=
  match w.drop i (m .test) true true with
  | (w1, .error e) => (w1, .error e)
  | (w1, .ok test) =>
    match w1.drop i (m .rem ++ m .test) false true with
    | (w2, .error e) => ((w2.close test).1, .error e)
    | (w2, .ok train) => (w2, .ok (train, test))

/-- `random_split` on a database dataset (`random_split.py:6-52`).  The loop over the values ends with `break`, so its
value generator is still open when the two sets are made and is closed on return. -/
def dbRandomSplit (w : World) (i : Nat) (ratio : ℚ) (rng : Nat → Nat) : World × Except Err (Nat × Nat) :=
  if 0 < ratio ∧ ratio < 1 then
    match w.len i with
    | none => (w, .error .crash)
    | some n =>
      let idxs := (pySample (List.range n) (shareOf n ratio) rng).insertionSort (· ≤ ·)
      if idxs.length > 0 then
        match w.read i (.values (some ["rid"])) with
        | (w1, .error e) => (w1, .error e)
        | (w1, .ok (.recs l)) =>
          let rids := pickRids (l.map recRow) 0 idxs
          match World.drop { w1 with gens := w1.gens + 1 } i rids true true with
          | (w2, .error e) => ({ w2 with gens := w2.gens - 1 }, .error e)
          | (w2, .ok test) =>
            match w2.drop i rids false true with
            | (w3, .error e) => ((World.close { w3 with gens := w3.gens - 1 } test).1, .error e)
            | (w3, .ok train) => ({ w3 with gens := w3.gens - 1 }, .ok (train, test))
        | (w1, .ok _) => (w1, .error .crash)
      else (w, .error .assertion)
  else (w, .error .assertion)

end DRec.Conc
