import Verif.Model.DbVec
import Verif.Model.KnnMem
import Verif.Model.Sampler

/-!
# Generators and PointSampler of the database dataset (`db_dataset.py:157-232`, `point_sampler.py`)

`Model/Sampler` says what the generators draw from given rows; here they run on the objects and tables of
`Model/Db`.  Random sources are lists of raw draws.  Simplifications: the cursor a generator keeps is left out
(`Model/DbLocks` has its lock); the generators do not share a random source; a copy that is only used by a generator
is closed with the program.
-/

namespace DRec

/-- What a call of `next` comes to: a value, still looking when the draws are used up, `StopIteration`, or another
exception. -/
inductive NextOut (α : Type) where
  | got (a : α)
  | more
  | stop
  | raised (e : Err)
  deriving DecidableEq

/-- A generator object of `_select_random_generator` has not run yet, is suspended in its loop with `max_uid`, or has
raised; then every further `next` stops. -/
inductive RecState where
  | fresh
  | running (maxUid : Nat)
  | dead
  deriving DecidableEq

/-- A generator object: the dataset it is a method of and where it is (`db_dataset.py:170-195`). -/
structure DbRecGen where
  inst : Nat
  state : RecState
  deriving DecidableEq

/-- The records of the current state with further conditions (`db_dataset.py:179-192,226-229`). -/
def World.queryRecs (w : World) (i : Nat) (q : List Char) : Except Err (List Rec) :=
  match w.insts i with
  | none => .error .crash
  | some x =>
    match w.tables x.table with
    | none => .error .crash
    | some t =>
      match x.parse q with
      | .error e => .error e
      | .ok conds =>
        match evalSrc t (x.queryWith conds) with
        | .error e => .error e
        | .ok p => .ok (p.2.map (x.decode p.1))

/-- The loop up to the next `yield` (`db_dataset.py:177-195`). -/
def World.drawLoop (w : World) (i maxUid : Nat) : List Nat → NextOut (Rec × List Nat)
  | [] => .more
  | d :: ds =>
    match w.queryRecs i (idQuery "uid" (randint0 maxUid d)) with
    | .error e => .raised e
    | .ok l =>
      if l.length = 0 then w.drawLoop i maxUid ds
      else
        match ds with
        | [] => .more
        | e :: ds' =>
          match l[randint0 (l.length - 1) e]? with
          | some r => .got (r, ds')
          | none => .more

/-- A generator that raised is finished. -/
def NextOut.after {α : Type} (o : NextOut α) (s : RecState) : RecState :=
  match o with
  | .raised _ => .dead
  | _ => s

/-- `next` on a record generator (`db_dataset.py:170-195`); `max_uid` that is no number cannot be drawn up to. -/
def World.recNext (w : World) (g : DbRecGen) (draws : List Nat) : World × DbRecGen × NextOut (Rec × List Nat) :=
  match g.state with
  | .dead => (w, g, .stop)
  | .running m =>
    let o := w.drawLoop g.inst m draws
    (w, ⟨g.inst, o.after (.running m)⟩, o)
  | .fresh =>
    match w.len g.inst with
    | none => (w, ⟨g.inst, .dead⟩, .raised .crash)
    | some 0 => (w, ⟨g.inst, .dead⟩, .raised .empty)
    | some _ =>
      match w.read g.inst (.max "uid") with
      | (w1, .ok (.val v)) =>
        match v.toNat? with
        | some m =>
          let o := w1.drawLoop g.inst m draws
          (w1, ⟨g.inst, o.after (.running m)⟩, o)
        | none => (w1, ⟨g.inst, .dead⟩, .raised .typeError)
      | (w1, .ok _) => (w1, ⟨g.inst, .dead⟩, .raised .crash)
      | (w1, .error e) => (w1, ⟨g.inst, .dead⟩, .raised e)

/-- A copy restricted by a query (`db_dataset.py:163-167,207-211`); no interaction is recorded.  When the query fails
the copy is garbage and closed. -/
def World.copyWhere (w : World) (i : Nat) (q : List Char) : World × Except Err Nat :=
  match w.copy i with
  | (w1, some e) => (w1, .error e)
  | (w1, none) =>
    match w1.selectOn w.nextI q with
    | (w2, some e) => ((w2.close w.nextI).1, .error e)
    | (w2, none) => (w2, .ok w.nextI)

/-- `select_random_generator(query)` (`db_dataset.py:157-168`). -/
def World.randomGen (w : World) (i : Nat) (q : Option (List Char)) : World × Except Err DbRecGen :=
  match w.insts i with
  | none => (w, .error .crash)
  | some x =>
    if x.hasIds then
      match q with
      | none => (w, .ok ⟨i, .fresh⟩)
      | some q =>
        match w.copyWhere i q with
        | (w1, .error e) => (w1, .error e)
        | (w1, .ok j) => (w1, .ok ⟨j, .fresh⟩)
    else (w, .error .noIds)

/-- The pair generator: not run yet, in its loop with the largest ids and the generator of existing pairs, or
finished. -/
inductive NullState where
  | fresh
  | running (maxUid maxIid : Nat) (existing : Option DbRecGen)
  | dead
  deriving DecidableEq

/-- A generator object of `null_interaction_pair_generator` (`db_dataset.py:197`): the dataset, the threshold as it is
printed, and where it is. -/
structure DbNullGen where
  inst : Nat
  threshold : Option (List Char)
  state : NullState
  deriving DecidableEq

/-- The generator of existing pairs (`db_dataset.py:204-215`): `None` when anything raises; its first record is thrown
away.  `.more`: the draws were used up. -/
def World.existingGen (w : World) (i : Nat) (threshold : Option (List Char)) (eds : List Nat) :
    World × NextOut (Option DbRecGen × List Nat) :=
  match threshold with
  | none => (w, .got (none, eds))
  | some t =>
    match w.copyWhere i ("interaction < ".toList ++ t) with
    | (w1, .error _) => (w1, .got (none, eds))
    | (w1, .ok j) =>
      match w1.recNext ⟨j, .fresh⟩ eds with
      | (w2, g, .got (_, eds')) => (w2, .got (some g, eds'))
      | (w2, _, .more) => (w2, .more)
      | (w2, _, _) => (w2, .got (none, eds))

/-- `self.max(c)` of an id column as a number (`db_dataset.py:217-218`). -/
def World.maxOf (w : World) (i : Nat) (c : String) : World × Except Err Nat :=
  match w.read i (.max c) with
  | (w1, .ok (.val v)) =>
    match v.toNat? with
    | some m => (w1, .ok m)
    | none => (w1, .error .typeError)
  | (w1, .ok _) => (w1, .error .crash)
  | (w1, .error e) => (w1, .error e)

/-- Everything before the loop (`db_dataset.py:198-221`). -/
def World.nullStart (w : World) (i : Nat) (threshold : Option (List Char)) (eds : List Nat) :
    World × NextOut ((Nat × Nat × Option DbRecGen) × List Nat) :=
  match w.insts i with
  | none => (w, .raised .crash)
  | some x =>
    if x.hasIds then
      if x.nRows = 0 then (w, .raised .empty)
      else
        match w.existingGen i threshold eds with
        | (w1, .got (ex, eds')) =>
          match w1.maxOf i "uid" with
          | (w2, .error e) => (w2, .raised e)
          | (w2, .ok mu) =>
            match w2.maxOf i "iid" with
            | (w3, .error e) => (w3, .raised e)
            | (w3, .ok mi) => (w3, .got ((mu, mi, ex), eds'))
        | (w1, _) => (w1, .more)
    else (w, .raised .noIds)

/-- Draw a pair of ids (`db_dataset.py:225-232`): looked up, and yielded when there is no record. -/
def World.freePair (w : World) (i mu mi e f : Nat) : Except Err (Option (Val × Val)) :=
  match w.queryRecs i (pairQuery (randint0 mu e) (randint0 mi f)) with
  | .error e => .error e
  | .ok [] => .ok (some (.num (randint0 mu e : ℕ), .num (randint0 mi f : ℕ)))
  | .ok _ => .ok none

/-- The loop without existing pairs (`db_dataset.py:222-232`). -/
def World.nullLoop (w : World) (i mu mi : Nat) : List Nat → NextOut ((Val × Val) × List Nat)
  | e :: f :: ds =>
    match w.freePair i mu mi e f with
    | .error e => .raised e
    | .ok (some p) => .got (p, ds)
    | .ok none => w.nullLoop i mu mi ds
  | _ => .more

/-- The loop with a generator `g` of existing pairs on the dataset of `n` records (`db_dataset.py:222-232`).  The
generator has been started, so it does not change the datasets. -/
def World.mixedLoop (w : World) (i mu mi n : Nat) (g : DbRecGen) : List Nat → List Nat →
    NextOut ((Val × Val) × List Nat × List Nat)
  | d :: ds, eds =>
    if randint0 (mu * mi + n) d ≥ mu * mi then
      match (w.recNext g eds).2.2 with
      | .got (r, eds') =>
        match r.lookup "uid", r.lookup "iid" with
        | some u, some i => .got ((u, i), ds, eds')
        | _, _ => .raised .keyError
      | .more => .more
      | .stop => .raised .crash
      | .raised e => .raised e
    else
      match ds with
      | e :: f :: ds' =>
        match w.freePair i mu mi e f with
        | .error e => .raised e
        | .ok (some p) => .got (p, ds', eds)
        | .ok none => w.mixedLoop i mu mi n g ds' eds
      | _ => .more
  | [], _ => .more

/-- The loop in both cases; `randint` and `len(negative_ds)` only with existing pairs (`db_dataset.py:223`). -/
def World.pairLoop (w : World) (i mu mi : Nat) (ex : Option DbRecGen) (draws eds : List Nat) :
    NextOut ((Val × Val) × List Nat × List Nat) :=
  match ex with
  | none =>
    match w.nullLoop i mu mi draws with
    | .got (p, ds) => .got (p, ds, eds)
    | .more => .more
    | .stop => .stop
    | .raised e => .raised e
  | some g =>
    match w.len g.inst with
    | none => .raised .crash
    | some n => w.mixedLoop i mu mi n g draws eds

/-- A pair generator that raised is finished. -/
def NextOut.afterPair {α : Type} (o : NextOut α) (s : NullState) : NullState :=
  match o with
  | .raised _ => .dead
  | _ => s

/-- `next` on the pair generator (`db_dataset.py:197-232`). -/
def World.nullNext (w : World) (g : DbNullGen) (draws eds : List Nat) :
    World × DbNullGen × NextOut ((Val × Val) × List Nat × List Nat) :=
  match g.state with
  | .dead => (w, g, .stop)
  | .running mu mi ex =>
    let o := w.pairLoop g.inst mu mi ex draws eds
    (w, { g with state := o.afterPair (.running mu mi ex) }, o)
  | .fresh =>
    match w.nullStart g.inst g.threshold eds with
    | (w1, .got ((mu, mi, ex), eds')) =>
      let o := w1.pairLoop g.inst mu mi ex draws eds'
      (w1, { g with state := o.afterPair (.running mu mi ex) }, o)
    | (w1, .raised e) => (w1, { g with state := .dead }, .raised e)
    | (w1, _) => (w1, g, .more)

/-- A `PointSampler` over a database dataset (`point_sampler.py:19-42`). -/
structure DbSampler where
  pos : DbRecGen
  neg : DbNullGen
  deriving DecidableEq

/-- `PointSampler(dataset, neg_ratio, threshold)` (`point_sampler.py:19-42`): the pair generator does not run yet, the
copy of the record generator is made. -/
def World.pointSampler (w : World) (i : Nat) (threshold : Option PyNum) : World × Except Err DbSampler :=
  match w.randomGen i (positiveQuery threshold) with
  | (w1, .error e) => (w1, .error e)
  | (w1, .ok g) => (w1, .ok ⟨g, ⟨i, threshold.map PyNum.text, .fresh⟩⟩)

/-- `sample_positive` (`point_sampler.py:85-96`): a finished generator gives three `None`. -/
def World.samplePositive (w : World) (S : DbSampler) (ps : List Nat) : World × DbSampler × NextOut (Triple × List Nat) :=
  let r := w.recNext S.pos ps
  (r.1, { S with pos := r.2.1 }, match r.2.2 with
    | .got (rec, ps') =>
      match rec.lookup "uid", rec.lookup "iid", rec.lookup "interaction" with
      | some u, some i, some v => .got (⟨u, i, v, false⟩, ps')
      | _, _, _ => .raised .keyError
    | .more => .more
    | .stop => .got (⟨.null, .null, .null, false⟩, ps)
    | .raised e => .raised e)

/-- `sample_negative` (`point_sampler.py:74-83`): the default of a finished generator has three parts and cannot be
unpacked into two. -/
def World.sampleNegative (w : World) (S : DbSampler) (ns es : List Nat) :
    World × DbSampler × NextOut (Triple × List Nat × List Nat) :=
  let r := w.nullNext S.neg ns es
  (r.1, { S with neg := r.2.1 }, match r.2.2 with
    | .got ((u, i), ns', es') => .got (⟨u, i, .num 0, true⟩, ns', es')
    | .more => .more
    | .stop => .raised .badValue
    | .raised e => .raised e)

/-- One round of `sample` (`point_sampler.py:57-59`): `x` is `rng.uniform(0, neg_ratio + 1)`. -/
def World.sampleOne (w : World) (S : DbSampler) (x : ℚ) (ps ns es : List Nat) : World × DbSampler × NextOut Triple :=
  if x > 1 then
    let r := w.sampleNegative S ns es
    (r.1, r.2.1, match r.2.2 with
      | .got (t, _) => .got t
      | .more => .more
      | .stop => .stop
      | .raised e => .raised e)
  else
    let r := w.samplePositive S ps
    (r.1, r.2.1, match r.2.2 with
      | .got (t, _) => .got t
      | .more => .more
      | .stop => .stop
      | .raised e => .raised e)

end DRec
