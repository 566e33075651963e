import Verif.Model.DbNets
import Verif.Spec.DbKnn

/-! # CDAE and DMF on a database dataset -/

namespace DRec.Spec

open Conc

/-- No raw id is missing. -/
def Named (m : Mem) : Prop := ∀ r ∈ m.rows, r.get "user" ≠ .null ∧ r.get "item" ≠ .null

/-- The vector that an in-memory dataset gives when it is asked for the first time. -/
def memVec (m : Mem) (q : VecReq) : Except Err (List ℚ) := (serve { m with cache := none, cacheT := none } q).2

/-- One for every interaction that reaches the threshold, else zero. -/
def onesFrom (t : ℚ) (v : List ℚ) : List ℚ := v.map fun x => if t ≤ x then 1 else 0

/-- `_rank` of CDAE on an in-memory dataset. -/
def memCdaeRank (t : ℚ) (net : Nat → List ℚ → Except Err (List ℚ)) (m : Mem) : RankFn := fun uid iids n novelty =>
  match memVec m (.user uid) with
  | .error e => .error e
  | .ok v => match net uid (onesFrom t v) with
    | .error e => .error e
    | .ok preds => cdaeRank m (fun _ => preds) uid iids n novelty

/-- `_predict` of CDAE on an in-memory dataset, for known items. -/
def memCdaePredict (t : ℚ) (net : Nat → List ℚ → Except Err (List ℚ)) (m : Mem) : PredictFn ℚ
  | none, _ => .ok none
  | some u, i =>
    match memVec m (.user u) with
    | .error e => .error e
    | .ok v => match net u (onesFrom t v) with
      | .error e => .error e
      | .ok preds => match i with
        | none => .error .crash
        | some i => match preds[i]? with
          | some q => .ok (some q)
          | none => .error .outOfRange

/-- `_predict` of DMF on an in-memory dataset. -/
def memDmfPredict (net : List ℚ → List ℚ → Except Err ℚ) (m : Mem) : PredictFn ℚ
  | some u, some i =>
    match memVec m (.user u) with
    | .error e => .error e
    | .ok a => match memVec m (.item i) with
      | .error e => .error e
      | .ok b => (net a b).map some
  | _, _ => .error .notFound

/-- The same call of a recommender with these methods on an in-memory dataset. -/
def memServeBy (m : Mem) (f : PredictFn ℚ) (rk : RankFn) : Request → Except Err Reply
  | .predict user item =>
    match predict m true f user item false with
    | .error e => .error e
    | .ok none => .error .crash
    | .ok (some x) => .ok (.score x)
  | .rank user items novelty skip n => (rank m rk user items novelty skip n).map .ranking
  | .recommend user n novelty threshold => (recommend m rk user n novelty threshold).map .ranking

/-- The vectors of a training batch on an in-memory dataset. -/
def memBatch (m : Mem) (users items : List Nat) : Except Err (List (List ℚ) × List (List ℚ)) :=
  match users.mapM fun u => memVec m (.user u) with
  | .error e => .error e
  | .ok us => (items.mapM fun i => memVec m (.item i)).map fun is => (us, is)

end DRec.Spec
