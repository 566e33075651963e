import Verif.Model.Knn

/-!
# What the nearest neighbour recommenders read from the dataset

The queries of `user_knn.py` and `item_knn.py` written as texts for the dataset model of `Verif.Model.Mem`.
`Verif.Model.Knn` works on the list of records `ratingsOf` instead; `Verif/Props/KnnMem.lean` shows that both
give the same answers.
-/

namespace DRec

/-- An id read from an integer cell. -/
def idCell : Val → Nat
  | .num q => q.num.toNat
  | _ => 0

/-- A number read from a cell. -/
def ratCell : Val → ℚ
  | .num q => q
  | _ => 0

/-- The records collected by `_compute_similarities` (`user_knn.py:25-29`, `item_knn.py:25-29`). -/
def ratingsOf (ds : Mem) : List Rating :=
  ds.rows.map fun r => ⟨idCell (r.get "uid"), idCell (r.get "iid"), ratCell (r.get "interaction")⟩

/-- Text of `f'uid == {uid}, iid == {iid}'` (`user_knn.py:61`, `item_knn.py:61`). -/
def pairQuery (uid iid : Nat) : List Char :=
  "uid == ".toList ++ cellText (.num (uid : ℚ)) ++ ", iid == ".toList ++ cellText (.num (iid : ℚ))

/-- `select_one(f'uid == {uid}, iid == {iid}')` and `record['interaction']` (`user_knn.py:60-62`,
`item_knn.py:60-62`). -/
def interactionMem (ds : Mem) (uid iid : Nat) : Except Err (Option Val) :=
  match ds.selectOne (pairQuery uid iid) none with
  | .error e => .error e
  | .ok none => .ok none
  | .ok (some rec) =>
    match rec.lookup "interaction" with
    | none => .error .keyError
    | some v => .ok (some v)

/-- `select(f'uid == {k}')` or `select(f'iid == {k}')` (`user_knn.py:66,72,78`, `item_knn.py:66,72,76`). -/
def idSelect (ds : Mem) (c : String) (k : Nat) : Except Err Mem :=
  ds.select (c.toList ++ " == ".toList ++ cellText (.num (k : ℚ)))

/-- The column the averages are taken over: the item for user neighbourhoods, the user for item ones. -/
def KKind.otherCol : KKind → String
  | .user => "iid"
  | .item => "uid"

/-- `_predict_default` (`user_knn.py:64-67`, `item_knn.py:64-67`): sum of the interactions over the number of
records. -/
def defaultMem (K : KKind) (ds : Mem) (other : Nat) : Except Err ℚ :=
  match idSelect ds K.otherCol other with
  | .error e => .error e
  | .ok s =>
    match s.valuesOf "interaction" with
    | .error e => .error e
    | .ok vs => if s.len = 0 then .error .zeroDiv else .ok ((vs.map ratCell).sum / (s.len : ℚ))

/-- `select(f'uid == {neighbour}').values(['iid', 'interaction'], to_list=True)` (`user_knn.py:78-79`). -/
def neighbourRecords (ds : Mem) (uid : Nat) : Except Err (List (Val × Val)) :=
  match idSelect ds "uid" uid with
  | .error e => .error e
  | .ok s => (handleColumns s.cols (some ["iid", "interaction"])).map fun _ =>
      s.rows.map fun r => (r.get "iid", r.get "interaction")

/-- `user_ds.select_one(f'iid == {neighbour}', 'interaction', to_list=True)` on the records of a user
(`item_knn.py:76,83`). -/
def ownInteraction (ds : Mem) (uid iid : Nat) : Except Err (Option Val) :=
  match idSelect ds "uid" uid with
  | .error e => .error e
  | .ok s =>
    match s.selectOne ("iid".toList ++ " == ".toList ++ cellText (.num (iid : ℚ))) (some ["interaction"]) with
    | .error e => .error e
    | .ok none => .ok none
    | .ok (some rec) => .ok (rec.head?.map (·.2))

/-- `_rank` of the two classes (`user_knn.py:69-95`, `item_knn.py:69-96`). -/
def knnRank (cfg : KnnCfg) (rs : List Rating) (M : Knn) : RankFn :=
  match cfg.kind with
  | .user => userRank cfg rs M
  | .item => itemRank cfg rs M

end DRec
