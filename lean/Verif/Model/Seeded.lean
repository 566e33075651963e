import Verif.Model.Sampler

/-!
# PointSampler with a seed

`random.Random(seed)` is a stream of 32-bit words that depends on the seed only.  `PointSampler` makes three of
them with the same seed: its own `rng` and one in each of the two generators (`point_sampler.py:31-42`).  Every
element of `words` is one output of the Mersenne twister; which streams belong to seeds is left open.
-/

namespace DRec

/-- `n.bit_length()` of a positive number. -/
def bitLength (n : Nat) : Nat := n.log2 + 1

/-- `rng._randbelow(n)` for `0 < n < 2 ^ 32`, called by `rng.randint(0, n - 1)` (`mem_dataset.py:120,124,159,160`,
`db_dataset.py:178,185,227,228`): the first `n.bit_length()` bits of a word, again while they are not below `n`. -/
def randBelow (n : Nat) : List Nat → Option (Nat × List Nat)
  | [] => none
  | w :: ws => if w / 2 ^ (32 - bitLength n) < n then some (w / 2 ^ (32 - bitLength n), ws) else randBelow n ws

/-- `rng.uniform(0, hi)`, again and again (`point_sampler.py:59`): `hi * rng.random()`, where `random()` is made of 27
bits of one word and 26 bits of the next. -/
def uniforms (hi : ℚ) : List Nat → List ℚ
  | a :: b :: ws => hi * (((a / 2 ^ 5 * 2 ^ 26 + b / 2 ^ 6 : ℕ) : ℚ) / 2 ^ 53) :: uniforms hi ws
  | _ => []

/-- One `next` of `_select_random_generator` with a seed (`mem_dataset.py:119-129`, `db_dataset.py:177-195`);
at most `tries` uids. -/
def recordFrom (maxUid : Nat) (rows : List Row) : Nat → List Nat → Option (Row × List Nat)
  | 0, _ => none
  | tries + 1, ws =>
    match randBelow (maxUid + 1) ws with
    | none => none
    | some (u, ws') =>
      let seg := rowsWith "uid" u rows
      if seg.length = 0 then recordFrom maxUid rows tries ws'
      else match randBelow seg.length ws' with
        | none => none
        | some (e, rest) => (seg[e]?).map fun r => (r, rest)

/-- One `next` of the pair generator with a seed and no threshold (`mem_dataset.py:154-163`,
`db_dataset.py:222-232`); at most `tries` pairs. -/
def pairFrom (rows : List Row) (maxUid maxIid : Nat) : Nat → List Nat → Option ((Nat × Nat) × List Nat)
  | 0, _ => none
  | tries + 1, ws =>
    match randBelow (maxUid + 1) ws with
    | none => none
    | some (u, ws') => match randBelow (maxIid + 1) ws' with
      | none => none
      | some (i, rest) =>
        if pairFound rows u i then pairFrom rows maxUid maxIid tries rest else some ((u, i), rest)

/-- `next` of the positive generator; every try uses a word. -/
def RecGen.nextSeeded (g : RecGen) (ws : List Nat) : Option (Row × List Nat) :=
  recordFrom g.maxUid g.rows ws.length ws

/-- `next` of the pair generator. -/
def NullGen.nextSeeded (g : NullGen) (ws : List Nat) : Option ((Nat × Nat) × List Nat) :=
  pairFrom g.rows g.maxUid g.maxIid ws.length ws

/-- `PointSampler(dataset, neg_ratio, seed=seed).sample(n)` without threshold (`point_sampler.py:19-62`): the three
random sources start with the same words. -/
def Mem.seededSample (ds : Mem) (negRatio : ℚ) (n : Nat) (words : List Nat) : Except Err (Option (List Triple)) :=
  match ds.pointSampler none with
  | .error e => .error e
  | .ok (pos, neg) => .ok (pointSample pos.nextSeeded neg.nextSeeded n (uniforms (negRatio + 1) words) words words)

end DRec
