import Verif.Model.Diverged

/-!
# Ranking with NaN scores

`Model/Recommender` has scores that are numbers and `heapq.nlargest` as documented.  Here a score may be NaN (`none`), as after training that
diverged, and `heapq.nlargest` is the code of the standard library.
-/

namespace DRec.NanRank

open DRec.Div

/-- A score and the internal id of the item, as in the lists of `_rank` (`recommender_abc.py:460-461`). -/
abbrev Cand := Option ℚ × Nat

/-- What the heap holds: a candidate and its place in the iteration. -/
abbrev Entry := Cand × Int

/-- `x == y` for floats: false with NaN.  Simplification: the scores are different objects, for the same object Python's tuples take it as equal. -/
def sameFloat (x y : Option ℚ) : Bool :=
  match x, y with
  | some a, some b => decide (a = b)
  | _, _ => false

/-- `a < b` for the tuples of `_rank` (`recommender_abc.py:460`). -/
def ltCand (a b : Cand) : Bool := if sameFloat a.1 b.1 then decide (a.2 < b.2) else above a.1 b.1

/-- `a < b` for the tuples in the heap of `heapq.nlargest` (called at `recommender_abc.py:461`). -/
def ltEntry (a b : Entry) : Bool := if sameFloat a.1.1 b.1.1 && decide (a.1.2 = b.1.2) then decide (a.2 < b.2) else ltCand a.1 b.1

/-- Two elements of a list change places. -/
def swp (h : Array Entry) (i j : Nat) : Array Entry := if p : i < h.size ∧ j < h.size then h.swap i j p.1 p.2 else h

/-- `heapq._siftdown`, used by `nlargest` (`recommender_abc.py:461`); the first argument bounds the number of steps. -/
def siftdown : Nat → Array Entry → Nat → Nat → Array Entry
  | 0, h, _, _ => h
  | f + 1, h, start, pos =>
    if start < pos then
      match h[pos]?, h[(pos - 1) / 2]? with
      | some x, some y => if ltEntry x y then siftdown f (swp h pos ((pos - 1) / 2)) start ((pos - 1) / 2) else h
      | _, _ => h
    else h

/-- The first loop of `heapq._siftup` (`recommender_abc.py:461`): down to a leaf, always to the smaller child. -/
def sink : Nat → Array Entry → Nat → Array Entry × Nat
  | 0, h, pos => (h, pos)
  | f + 1, h, pos =>
    match h[2 * pos + 1]?, h[2 * pos + 2]? with
    | some x, some y => let c := if ltEntry x y then 2 * pos + 1 else 2 * pos + 2; sink f (swp h pos c) c
    | some _, none => sink f (swp h pos (2 * pos + 1)) (2 * pos + 1)
    | none, _ => (h, pos)

/-- `heapq._siftup` (`recommender_abc.py:461`). -/
def siftup (h : Array Entry) (pos : Nat) : Array Entry :=
  let r := sink h.size h pos
  siftdown h.size r.1 pos r.2

/-- `heapq.heapify` (`recommender_abc.py:461`). -/
def heapify (h : Array Entry) : Array Entry := (List.range (h.size / 2)).reverse.foldl siftup h

/-- `heapq.heapreplace` (`recommender_abc.py:461`). -/
def heapreplace (h : Array Entry) (e : Entry) : Array Entry := siftup (h.setIfInBounds 0 e) 0

/-- The loop of `nlargest` over the remaining candidates (`recommender_abc.py:461`). -/
def more : List Cand → Array Entry → Int → Array Entry
  | [], h, _ => h
  | c :: cs, h, order =>
    match h[0]? with
    | none => h
    | some top => if ltCand top.1 c then more cs (heapreplace h (c, order)) (order - 1) else more cs h order

/-- `max` of a list (`recommender_abc.py:461`: `nlargest` with one result). -/
def best (b : Cand) : List Cand → Cand
  | [] => b
  | c :: cs => if ltCand b c then best c cs else best b cs

/-- The heap of `nlargest` with several results, before it is sorted (`recommender_abc.py:461`). -/
def heapOf (n : Nat) (l : List Cand) : Array Entry :=
  more (l.drop n) (heapify (((l.take n).zipIdx.map fun p => (p.1, -(p.2 : Int)))).toArray) (-(n : Int))

/-- `heapq.nlargest(n, l)` (`recommender_abc.py:461`); `sort` is `list.sort` of Python, whose reversed order is that of the reversed list. -/
def nlargest (sort : List Entry → List Entry) (n : Nat) (l : List Cand) : List Cand :=
  if n = 1 then
    match l with
    | [] => []
    | c :: cs => [best c cs]
  else (sort (heapOf n l).toList.reverse).reverse.map (·.1)

/-- `heapq.nlargest(n, l)` when `l` is a list, as in `caser.py:144-146`, `cdae.py:103` and `item_knn.py:96`: lists that are not longer than `n` are
sorted.  `sortC` is `list.sort` for candidates, `sort` the same for the entries of the heap. -/
def nlargestList (sortC : List Cand → List Cand) (sort : List Entry → List Entry) (n : Nat) (l : List Cand) : List Cand :=
  if n = 1 then nlargest sort n l
  else if l.length ≤ n then (sortC l.reverse).reverse.take n
  else nlargest sort n l

/-- `_rank` (`recommender_abc.py:454-461`) for the candidates left by `novelty`; `score i` is `none` when `_predict` returns `None`. -/
def rank (sort : List Entry → List Entry) (score : Nat → Option (Option ℚ)) (iids : List Nat) (n : Nat) : List Cand :=
  nlargest sort n (iids.filterMap fun i => (score i).map fun s => (s, i))

/-- `_recommend` (`recommender_abc.py:413-419`). -/
def recommend (sort : List Entry → List Entry) (score : Nat → Option (Option ℚ)) (iids : List Nat) (n : Nat) (threshold : Option ℚ) : List Cand :=
  match threshold with
  | none => rank sort score iids n
  | some t => (rank sort score iids n).filter fun c => match c.1 with
    | none => false
    | some v => decide (t ≤ v)

end DRec.NanRank
