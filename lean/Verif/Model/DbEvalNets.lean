import Verif.Model.DbCache
import Verif.Model.DbEval

/-!
# Evaluation of CDAE and DMF on a database dataset, with the dictionaries of vectors

The tasks of `ranking_evaluation` and `recommendation_evaluation` as in `Model/DbEval`, but the recommender they ask is a
program that also uses the dictionaries of computed vectors (`Model/DbCache`), which all tasks share.  The simplifications
are those of `Model/DbEval`.
-/

namespace DRec.Conc

/-- A task: dataset operations and calls of the recommender.  `call q c k`: the recommender was asked `q`, `c` is what is
left of its program (`ranking_evaluation.py:163-224`, `recommendation_evaluation.py:136-167`). -/
inductive HProg (α : Type) : Type 1 where
  | ret (r : Except Err α)
  | select (i : Nat) (q : List Char) (k : Nat → HProg α)
  | unique (i : Nat) (c : String) (k : Nat → HProg α)
  | read (i : Nat) (op : ReadOp) (k : ReadRes → HProg α)
  | len (i : Nat) (k : Nat → HProg α)
  | close (i : Nat) (k : HProg α)
  | call (q : Request) (c : CProg Reply) (k : Reply → HProg α)

/-- One step: the next dataset operation, or the next access of the recommender (`ranking_evaluation.py:153-157`; the
exception of a call ends the task). -/
def HProg.step {α : Type} (lim : KKind → Nat) (w : World) (D : VecStore) : HProg α → World × VecStore × HProg α
  | .ret r => (w, D, .ret r)
  | .select i q k => match w.select i q true with
    | (w', .ok j) => (w', D, k j)
    | (w', .error e) => (w', D, .ret (.error e))
  | .unique i c k => match w.unique i (some [c]) true with
    | (w', .ok j) => (w', D, k j)
    | (w', .error e) => (w', D, .ret (.error e))
  | .read i op k => match w.read i op with
    | (w', .ok r) => (w', D, k r)
    | (w', .error e) => (w', D, .ret (.error e))
  | .len i k => match w.len i with
    | some n => (w, D, k n)
    | none => (w, D, .ret (.error .crash))
  | .close i k => ((w.close i).1, D, k)
  | .call _ (.ret (.ok x)) k => (w, D, k x)
  | .call _ (.ret (.error e)) _ => (w, D, .ret (.error e))
  | .call q c k => ((c.step lim w D).1, (c.step lim w D).2.1, .call q (c.step lim w D).2.2 k)

/-- The end of several objects. -/
def hClosing {α : Type} (k : HProg α) : List Nat → HProg α
  | [] => k
  | i :: is => .close i (hClosing k is)

/-- The list a call of `rank` or `recommend` returned (`recommender_abc.py:440-452`). -/
def rankingOf : Reply → List (ℚ × Option Val)
  | .ranking l => l
  | .score _ => []

/-- `model.rank(user, items, novelty=novelty, skip_invalid_items=True)` (`ranking_evaluation.py:222`). -/
def hAskRank {α : Type} (serve : Request → CProg Reply) (user : Val) (items : List Val) (novelty : Bool)
    (k : List (ℚ × Val) → HProg α) : HProg α :=
  .call (.rank (idLit user) (items.map idLit) novelty true none)
    (serve (.rank (idLit user) (items.map idLit) novelty true none)) fun x => k (rawPairs (rankingOf x))

/-- `model.recommend(user, n=max(k), novelty=novelty, …)` (`recommendation_evaluation.py:164-165`). -/
def hAskRecommend {α : Type} (serve : Request → CProg Reply) (user : Val) (n : Nat) (novelty : Bool) (low : Option ℚ)
    (k : List (ℚ × Val) → HProg α) : HProg α :=
  .call (.recommend (idLit user) (some n) novelty low) (serve (.recommend (idLit user) (some n) novelty low)) fun x =>
    k (rawPairs (rankingOf x))

/-- `user_ds.select_one(f'item == {item}', ['interaction'], to_list=True) or 0` for every item
(`ranking_evaluation.py:223-224`, `recommendation_evaluation.py:166-167`). -/
def hRelevancies {α : Type} (uds : Nat) (k : List (Val × ℚ) → HProg α) : List Val → List (Val × ℚ) → HProg α
  | [], acc => k acc
  | v :: vs, acc => .read uds (.selectOne ("item == ".toList ++ cellText v) (some ["interaction"])) fun res =>
      hRelevancies uds k vs (acc ++ [(v, foundOrZero res)])

/-- `set(ds.unique('item').values_list('item', to_list=True))` (`ranking_evaluation.py:199-202`). -/
def hItems {α : Type} (ds : Nat) (k : List Val → HProg α) : HProg α :=
  .unique ds "item" fun d => .read d (.values (some ["item"])) fun res => .close d (k (columnOf "item" res))

/-- The positive records of a user and the sample of them (`ranking_evaluation.py:167-176`,
`recommendation_evaluation.py:143-152`). -/
def hPositives {α : Type} (uds pos : Nat) (nPos : Option Nat) (rng : Nat → Nat)
    (k : List Row → HProg (Outcome α)) : HProg (Outcome α) :=
  match nPos with
  | none => .read pos (.values (some ["item", "interaction"])) fun res => k ((recsOf res).map recRow)
  | some n => .len pos fun l =>
    if l < n then hClosing (.ret (.ok .skip)) [uds, pos]
    else .read pos (.values (some ["item", "interaction"])) fun res => k (pySample ((recsOf res).map recRow) n rng)

/-- Ranking and relevancies (`ranking_evaluation.py:215-224`); `own` are the datasets of the task. -/
def hRank (serve : Request → CProg Reply) (a : EvalArgs) (user : Val) (uds : Nat) (own : List Nat) (sampled : List Row)
    (neg : List Val) (rng : EvalRng) : HProg (Outcome EvalData) :=
  let all := sampled.map (·.get "item") ++ neg
  if all.length = 0 then hClosing (.ret (.ok .skip)) own
  else
    hAskRank serve user (pySample all all.length rng.shuffle) a.novelty fun ranked =>
      hRelevancies uds (fun rels => hClosing (.ret (.ok (.done ⟨ranked.map (·.2), sampled.map (·.get "item"),
        bestItem sampled, rels⟩))) own) (distinctVals (pySample all all.length rng.shuffle)) []

/-- The rejection loop after `item_blacklist` is known (`ranking_evaluation.py:203-213`). -/
def hGenerate (serve : Request → CProg Reply) (nItems : Nat) (a : EvalArgs) (user : Val) (uds : Nat) (own : List Nat)
    (sampled : List Row) (first : List Val) (wanted : Nat) (black : List Val) (rng : EvalRng) : HProg (Outcome EvalData) :=
  if (nItems : Int) - black.length < wanted then hClosing (.ret (.ok .skip)) own
  else match genLoop nItems black wanted first rng.items with
    | none => .ret (.ok .more)
    | some l => hRank serve a user uds own sampled l rng

/-- `__ranking_evaluation_user` up to the metrics (`ranking_evaluation.py:163-224`) with a recommender that answers with
`serve`. -/
def hRankingUser (serve : Request → CProg Reply) (nItems test train : Nat) (thr : List Char) (a : EvalArgs) (user : Val)
    (rng : EvalRng) : HProg (Outcome EvalData) :=
  .select test (userQuery user) fun uds =>
  .select uds (boundQuery ">=" thr) fun pos =>
  hPositives uds pos a.nPos rng.pos fun sampled =>
  .select uds (boundQuery "<" thr) fun neg =>
  .read neg (.values (some ["item"])) fun res =>
  match a.nNeg with
  | none => hRank serve a user uds [uds, pos, neg] sampled (columnOf "item" res) rng
  | some n =>
    let negs := columnOf "item" res
    let first := pySample negs (min (n.wanted sampled.length) negs.length) rng.neg
    if first.length < n.wanted sampled.length ∧ a.generate then
      if a.trainEval then
        hItems pos fun items =>
        hGenerate serve nItems a user uds [uds, pos, neg] sampled first (n.wanted sampled.length) (distinctVals items) rng
      else
        .select train (userQuery user ++ ", ".toList ++ boundQuery ">=" thr) fun tpos =>
        hItems tpos fun titems =>
        hItems pos fun items =>
        hGenerate serve nItems a user uds [uds, pos, neg, tpos] sampled first (n.wanted sampled.length)
          (distinctVals (titems ++ items)) rng
    else hRank serve a user uds [uds, pos, neg] sampled first rng

/-- `_recommendation_evaluation_user` up to the metrics (`recommendation_evaluation.py:136-167`) with a recommender that
answers with `serve`. -/
def hRecommendationUser (serve : Request → CProg Reply) (test : Nat) (thr : List Char) (a : EvalArgs) (n : Option Nat)
    (low : Option ℚ) (user : Val) (rng : EvalRng) : HProg (Outcome EvalData) :=
  .select test (userQuery user) fun uds =>
  .select uds (boundQuery ">=" thr) fun pos =>
  hPositives uds pos a.nPos rng.pos fun sampled =>
  if sampled.length = 0 then hClosing (.ret (.ok .skip)) [uds, pos]
  else match n with
    | none => .ret (.error .badValue)
    | some n => hAskRecommend serve user n a.novelty low fun recs =>
        hRelevancies uds (fun rels => hClosing (.ret (.ok (.done ⟨recs.map (·.2), sampled.map (·.get "item"),
          bestItem sampled, rels⟩))) [uds, pos]) (distinctVals (sampled.map (·.get "item") ++ recs.map (·.2))) []

end DRec.Conc
