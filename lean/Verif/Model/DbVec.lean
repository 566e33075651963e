import Verif.Model.Db

/-!
# Interaction vectors of the database dataset (`db_dataset.py:105-155`)

The vector of a user (item) is computed from a query and kept in a dictionary of the object
(`db_dataset.py:45-53`).  A copy starts with empty dictionaries; nothing else touches them.
-/

namespace DRec

/-- A cached dictionary: id and vector (dense). -/
abbrev VecCache := List (Nat × List ℚ)

/-- Which of the two functions: the column of raw ids, the column of ids asked for, the column of positions. -/
structure Side where
  raw : String
  own : String
  other : String

/-- `select_user_interaction_vec` -/
def Side.user : Side := ⟨"user", "uid", "iid"⟩

/-- `select_item_interaction_vec` -/
def Side.item : Side := ⟨"item", "iid", "uid"⟩

/-- The query `f'uid == {uid}'` (`db_dataset.py:117,143`). -/
def idQuery (own : String) (k : Nat) : List Char := own.toList ++ " == ".toList ++ Nat.toDigits 10 k

/-- `float(interaction)` (`db_dataset.py:121,147`). -/
def Val.pyFloat? : Val → Option ℚ
  | .num q => some q
  | .str s => pyFloat s.toList
  | .null => none

/-- Position and value of one record (`db_dataset.py:119-121,145-147`). -/
def vecEntryOf (other : String) (r : Rec) : Except Err (Nat × ℚ) :=
  match ((r.lookup other).getD .null).toNat?, ((r.lookup "interaction").getD .null).pyFloat? with
  | some j, some x => .ok (j, x)
  | _, _ => .error .typeError

/-- The matrix with one row (`db_dataset.py:124-125,150-151`): `max + 1` columns, a position outside them
raises. -/
def toVec (other : String) (m : Val) : Except Err ReadRes → Except Err (List ℚ)
  | .ok (.recs l) =>
    match m.toNat?, l.mapM (vecEntryOf other) with
    | some n, .ok es => (mkMat 1 (n + 1) (es.map fun p => (0, p.1, p.2))).map fun a => a.row 0
    | some _, .error e => .error e
    | none, _ => .error .typeError
  | .ok _ => .error .crash
  | .error e => .error e

/-- Computing a vector (`db_dataset.py:115-125,141-151`): the greatest position, a query into a copy, its values.
The copy is closed when the function is left. -/
def World.vecCompute (w : World) (i : Nat) (s : Side) (k : Nat) : World × Except Err (List ℚ) :=
  match w.read i (.max s.other) with
  | (w1, .error e) => (w1, .error e)
  | (w1, .ok (.val m)) =>
    match w1.select i (idQuery s.own k) true with
    | (w2, .error e) => (w2, .error e)
    | (w2, .ok j) =>
      let p := w2.read j (.values (some [s.other, "interaction"]))
      ((p.1.close j).1, toVec s.other m p.2)
  | (w1, .ok _) => (w1, .error .crash)

/-- `select_user_interaction_vec`, `select_item_interaction_vec` (`db_dataset.py:105-155`).  `oom` tells whether
building the matrix runs out of memory: then the dictionary is emptied, and the last line raises `KeyError`. -/
def World.vec (w : World) (cache : VecCache) (limit : Nat) (oom : Bool) (i : Nat) (s : Side) (k : Nat) :
    World × VecCache × Except Err (List ℚ) :=
  match w.toRaw i s.raw s.own k with
  | .error e => (w, cache, .error e)
  | .ok none => (w, cache, .error .assertion)
  | .ok (some v) =>
    if v = .null then (w, cache, .error .assertion)
    else
      match cache.lookup k with
      | some v => (w, cache, .ok v)
      | none =>
        let c := if limit < cache.length then [] else cache
        match w.vecCompute i s k with
        | (w', .error e) => (w', c, .error e)
        | (w', .ok v) => if oom then (w', [], .error .keyError) else (w', (k, v) :: c, .ok v)

end DRec
