import Verif.Model.DbSplits
import Verif.Model.Evaluation

/-!
# Evaluation of database datasets (`DRecPy/Evaluation/Processes/`)

The tasks of `ranking_evaluation` and `recommendation_evaluation` as programs of dataset operations, run by a pool of
threads on one database file.  Simplifications: every dataset operation is one step (what happens inside a selection is
in `Model/DbThreads`), the list of users is read to its end before the first task starts, the datasets of a task that
raised stay open.  The model under evaluation is a program, too (`DbModel`): a function (`EvalModel.asDb`) or a
recommender that reads a database dataset (`Model/DbKnn`).
-/

namespace DRec.Conc

/-- The part of a task that works on datasets: dataset operations in order, ending with a result.  `len` is
`__len__`, `toId` is `user_to_uid` or `item_to_iid`, `toRaw` is `uid_to_user` or `iid_to_item`, `close` the end of an
object. -/
inductive DbProg (α : Type) where
  | ret (r : Except Err α)
  | select (i : Nat) (q : List Char) (k : Nat → DbProg α)
  | unique (i : Nat) (c : String) (k : Nat → DbProg α)
  | read (i : Nat) (op : ReadOp) (k : ReadRes → DbProg α)
  | len (i : Nat) (k : Nat → DbProg α)
  | toId (i : Nat) (raw idc : String) (a : Lit) (k : Option Val → DbProg α)
  | toRaw (i : Nat) (raw idc : String) (n : Nat) (k : Option Val → DbProg α)
  | close (i : Nat) (k : DbProg α)

/-- One step: the next dataset operation; an exception ends the task (`ranking_evaluation.py:153-157`), except inside
`__del__` (`db_dataset.py:602-604`), where Python ignores it. -/
def DbProg.step {α : Type} (w : World) : DbProg α → World × DbProg α
  | .ret r => (w, .ret r)
  | .select i q k => match w.select i q true with
    | (w', .ok j) => (w', k j)
    | (w', .error e) => (w', .ret (.error e))
  | .unique i c k => match w.unique i (some [c]) true with
    | (w', .ok j) => (w', k j)
    | (w', .error e) => (w', .ret (.error e))
  | .read i op k => match w.read i op with
    | (w', .ok r) => (w', k r)
    | (w', .error e) => (w', .ret (.error e))
  | .len i k => match w.len i with
    | some n => (w, k n)
    | none => (w, .ret (.error .crash))
  | .toId i raw idc a k => match w.toId i raw idc a with
    | .ok v => (w, k v)
    | .error e => (w, .ret (.error e))
  | .toRaw i raw idc n k => match w.toRaw i raw idc n with
    | .ok v => (w, k v)
    | .error e => (w, .ret (.error e))
  | .close i k => ((w.close i).1, k)

/-- The parts of a recommender that the evaluation uses, with the dataset operations they make
(`ranking_evaluation.py:205-222`, `recommendation_evaluation.py:164-165`); the rest of the task is their last argument. -/
structure DbModel where
  nItems : Nat
  rank : Val → List Val → Bool → (List (ℚ × Val) → DbProg (Outcome EvalData)) → DbProg (Outcome EvalData)
  recommend : Val → Nat → Bool → Option ℚ → (List (ℚ × Val) → DbProg (Outcome EvalData)) → DbProg (Outcome EvalData)

/-- Go on with a result, or end with the exception (`ranking_evaluation.py:153-157`). -/
def withResult {α β : Type} (r : Except Err α) (k : α → DbProg β) : DbProg β :=
  match r with
  | .error e => .ret (.error e)
  | .ok x => k x

/-- A model that makes no dataset operations when it is asked (`ranking_evaluation.py:222`,
`recommendation_evaluation.py:164-165`). -/
def _root_.DRec.EvalModel.asDb (model : EvalModel) : DbModel where
  nItems := model.nItems
  rank u items novelty k := withResult (model.rank u items novelty) k
  recommend u n novelty low k := withResult (model.recommend u n novelty low) k

/-- The end of several objects. -/
def closing {α : Type} (k : DbProg α) : List Nat → DbProg α
  | [] => k
  | i :: is => .close i (closing k is)

/-- Records read. -/
def recsOf : ReadRes → List Rec
  | .recs l => l
  | _ => []

/-- Cell of the record found by `select_one(…, ['interaction'], to_list=True) or 0`
(`ranking_evaluation.py:223-224`). -/
def foundOrZero : ReadRes → ℚ
  | .one (some r) => sortKey "interaction" (recRow r)
  | _ => 0

/-- `f'interaction {op} {interaction_threshold}'`; `thr` is the printed threshold (`ranking_evaluation.py:168,182`). -/
def boundQuery (op : String) (thr : List Char) : List Char := ("interaction " ++ op ++ " ").toList ++ thr

/-- `user_ds.select_one(f'item == {item}', ['interaction'], to_list=True) or 0` for every item
(`ranking_evaluation.py:223-224`, `recommendation_evaluation.py:166-167`). -/
def readRelevancies {α : Type} (uds : Nat) (k : List (Val × ℚ) → DbProg α) : List Val → List (Val × ℚ) → DbProg α
  | [], acc => k acc
  | v :: vs, acc => .read uds (.selectOne ("item == ".toList ++ cellText v) (some ["interaction"])) fun res =>
      readRelevancies uds k vs (acc ++ [(v, foundOrZero res)])

/-- `set(ds.unique('item').values_list('item', to_list=True))` (`ranking_evaluation.py:199-202`); the dataset of unique
items is not kept. -/
def readItems {α : Type} (ds : Nat) (k : List Val → DbProg α) : DbProg α :=
  .unique ds "item" fun d => .read d (.values (some ["item"])) fun res => .close d (k (columnOf "item" res))

/-- The positive records of a user and the sample of them (`ranking_evaluation.py:167-176`,
`recommendation_evaluation.py:143-152`). -/
def readPositives {α : Type} (uds pos : Nat) (nPos : Option Nat) (rng : Nat → Nat)
    (k : List Row → DbProg (Outcome α)) : DbProg (Outcome α) :=
  match nPos with
  | none => .read pos (.values (some ["item", "interaction"])) fun res => k ((recsOf res).map recRow)
  | some n => .len pos fun l =>
    if l < n then closing (.ret (.ok .skip)) [uds, pos]
    else .read pos (.values (some ["item", "interaction"])) fun res => k (pySample ((recsOf res).map recRow) n rng)

/-- Ranking and relevancies (`ranking_evaluation.py:215-224`); `own` are the datasets of the task. -/
def dbRank (model : DbModel) (a : EvalArgs) (user : Val) (uds : Nat) (own : List Nat) (sampled : List Row)
    (neg : List Val) (rng : EvalRng) : DbProg (Outcome EvalData) :=
  let all := sampled.map (·.get "item") ++ neg
  if all.length = 0 then closing (.ret (.ok .skip)) own
  else
    model.rank user (pySample all all.length rng.shuffle) a.novelty fun ranked =>
      readRelevancies uds (fun rels => closing (.ret (.ok (.done ⟨ranked.map (·.2), sampled.map (·.get "item"),
        bestItem sampled, rels⟩))) own) (distinctVals (pySample all all.length rng.shuffle)) []

/-- The rejection loop after `item_blacklist` is known (`ranking_evaluation.py:203-213`). -/
def dbGenerate (model : DbModel) (a : EvalArgs) (user : Val) (uds : Nat) (own : List Nat) (sampled : List Row)
    (first : List Val) (wanted : Nat) (black : List Val) (rng : EvalRng) : DbProg (Outcome EvalData) :=
  if (model.nItems : Int) - black.length < wanted then closing (.ret (.ok .skip)) own
  else match genLoop model.nItems black wanted first rng.items with
    | none => .ret (.ok .more)
    | some l => dbRank model a user uds own sampled l rng

/-- `__ranking_evaluation_user` up to the metrics (`ranking_evaluation.py:163-224`) on database datasets `test` and
`train`; `thr` is the printed threshold. -/
def dbRankingUser (model : DbModel) (test train : Nat) (thr : List Char) (a : EvalArgs) (user : Val) (rng : EvalRng) :
    DbProg (Outcome EvalData) :=
  .select test (userQuery user) fun uds =>
  .select uds (boundQuery ">=" thr) fun pos =>
  readPositives uds pos a.nPos rng.pos fun sampled =>
  .select uds (boundQuery "<" thr) fun neg =>
  .read neg (.values (some ["item"])) fun res =>
  match a.nNeg with
  | none => dbRank model a user uds [uds, pos, neg] sampled (columnOf "item" res) rng
  | some n =>
    let negs := columnOf "item" res
    let first := pySample negs (min (n.wanted sampled.length) negs.length) rng.neg
    if first.length < n.wanted sampled.length ∧ a.generate then
      if a.trainEval then
        readItems pos fun items =>
        dbGenerate model a user uds [uds, pos, neg] sampled first (n.wanted sampled.length) (distinctVals items) rng
      else
        .select train (userQuery user ++ ", ".toList ++ boundQuery ">=" thr) fun tpos =>
        readItems tpos fun titems =>
        readItems pos fun items =>
        dbGenerate model a user uds [uds, pos, neg, tpos] sampled first (n.wanted sampled.length)
          (distinctVals (titems ++ items)) rng
    else dbRank model a user uds [uds, pos, neg] sampled first rng

/-- `_recommendation_evaluation_user` up to the metrics (`recommendation_evaluation.py:136-167`) on database dataset
`test`. -/
def dbRecommendationUser (model : DbModel) (test : Nat) (thr : List Char) (a : EvalArgs) (n : Option Nat)
    (low : Option ℚ) (user : Val) (rng : EvalRng) : DbProg (Outcome EvalData) :=
  .select test (userQuery user) fun uds =>
  .select uds (boundQuery ">=" thr) fun pos =>
  readPositives uds pos a.nPos rng.pos fun sampled =>
  if sampled.length = 0 then closing (.ret (.ok .skip)) [uds, pos]
  else match n with
    | none => .ret (.error .badValue)
    | some n => model.recommend user n a.novelty low fun recs =>
        readRelevancies uds (fun rels => closing (.ret (.ok (.done ⟨recs.map (·.2), sampled.map (·.get "item"),
          bestItem sampled, rels⟩))) [uds, pos]) (distinctVals (sampled.map (·.get "item") ++ recs.map (·.2))) []

end DRec.Conc
