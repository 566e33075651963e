import Verif.Model.Core

/-!
# Python's `random`

A random source is an arbitrary stream of naturals; theorems quantify over all streams, hence over
every seed and every outcome.
-/

namespace DRec

/-- `rng.randint(0, n)` (both ends included) for one raw draw. -/
def randint0 (n d : Nat) : Nat := d % (n + 1)

/-- `rng.sample(xs, k)` for `k ≤ len(xs)`: `k` draws without replacement.  CPython swaps or rejects
instead of erasing; the set of possible outcomes (all arrangements of `k` distinct positions) is the
same. -/
def pySample {α : Type} : List α → Nat → (Nat → Nat) → List α
  | _, 0, _ => []
  | xs, k + 1, s =>
    match xs[s 0 % xs.length]? with
    | none => []
    | some x => x :: pySample (xs.eraseIdx (s 0 % xs.length)) k (fun i => s (i + 1))

end DRec
