import Verif.Model.DbList
import Verif.Spec.DbKnn

/-! # ListSampler and Caser on a database dataset -/

namespace DRec.Spec

open Conc

/-- The sampler with these arguments on the records of an in-memory dataset. -/
def memSampler (cfg : ListCfg) (m : Mem) : LSampler :=
  ⟨m.rows, [cfg.groupCol], cfg.negRatio, cfg.nTargets, cfg.negCol, cfg.threshold.map PyNum.value, cfg.sortCol, cfg.minPos,
    cfg.maxPos⟩

/-- The same sampler and calls on an in-memory dataset. -/
def memSampling (cfg : ListCfg) (m : Mem) (calls : List (Nat × List LDraw)) : Except Err (List (Option (List Sampled))) :=
  match cfg.check m.hasIds m.cols with
  | .error e => .error e
  | .ok _ => calls.mapM fun c => (memSampler cfg m).sample c.1 c.2

/-- A sampled element as the user sees it: the records are dictionaries. -/
structure Dicts where
  group : List Val
  positives : List Rec
  targets : List Rec
  negatives : List Val
  deriving DecidableEq

/-- Sampled elements as the user sees them, with the columns of the dataset. -/
def dicts (cols : List String) (s : Sampled) : Dicts :=
  ⟨s.group, s.positives.map (Row.toRec cols), s.targets.map (Row.toRec cols), s.negatives⟩

/-- The answers of several calls as the user sees them. -/
def answersSeen (cols : List String) (r : Except Err (List (Option (List Sampled)))) :
    Except Err (List (Option (List Dicts))) := r.map fun l => l.map fun o => o.map fun e => e.map (dicts cols)

/-- The training examples of Caser on an in-memory dataset, one batch per epoch. -/
noncomputable def memTraining (c : Caser) (negRatio : Nat) (threshold : PyNum) (sortCol : Option String) (m : Mem)
    (epochs : List (Nat × List LDraw)) : Except Err (List (Option (List CaserExample))) :=
  match c.sampler m negRatio threshold.value sortCol with
  | .error e => .error e
  | .ok S => epochs.mapM fun b => match S.sample b.1 b.2 with
    | .error e => .error e
    | .ok o => caserBatch c negRatio o

/-- `_rank` of Caser on an in-memory dataset: the scores are what the network computes for the sequence of the user. -/
noncomputable def memCaserRank (c : Caser) (m : Mem) (sortCol : Option String) (net : Nat → List Val → Except Err (List ℚ)) :
    RankFn := fun uid iids n novelty =>
  match c.sequence m sortCol uid with
  | .error e => .error e
  | .ok l => match net uid l with
    | .error e => .error e
    | .ok preds => caserRank m (fun _ => preds) uid iids n novelty

/-- The same call of a Caser on an in-memory dataset. -/
noncomputable def memCaserServe (c : Caser) (m : Mem) (sortCol : Option String) (net : Nat → List Val → Except Err (List ℚ)) :
    Request → Except Err Reply
  | .predict user item =>
    match predict m true (fun _ _ => .error .crash) user item false with
    | .error e => .error e
    | .ok none => .error .crash
    | .ok (some x) => .ok (.score x)
  | .rank user items novelty skip n => (rank m (memCaserRank c m sortCol net) user items novelty skip n).map .ranking
  | .recommend user n novelty threshold =>
    (recommend m (memCaserRank c m sortCol net) user n novelty threshold).map .ranking

end DRec.Spec
