import Verif.Model.Core

/-!
# The generator returned by `values` of a database dataset (`db_dataset.py:278-317`)

A `ValueGenerator` wraps one cursor.  `next(g)` advances the generator object kept in `self.iter`, but
`for x in g` calls `__iter__`, which makes another generator object over the same cursor each time.
Simplification: the connection stays open while the generator is used.
-/

namespace DRec

variable {α : Type}

/-- A value generator: rows its cursor has not fetched yet, is the cursor closed, `removed_gen`, is the
cursor in the class-wide set of open generators, has the generator object in `self.iter` finished. -/
structure VGen (α : Type) where
  left : List α
  closed : Bool
  removed : Bool
  listed : Bool
  mainDone : Bool

/-- `ValueGenerator.__init__` after `c.execute` (`db_dataset.py:280-285,310-317`). -/
def VGen.start (rows : List α) : VGen α := ⟨rows, false, false, true, false⟩

/-- What one resumption of a generator object does. -/
inductive Pull (α : Type) where
  | item (x : α)
  | stop
  | raised

/-- One resumption of an unfinished generator object made by `__iter__` (`db_dataset.py:287-293`): a
closed cursor raises, the end of the rows unlists and closes the cursor. -/
def VGen.pull (g : VGen α) : VGen α × Pull α :=
  if g.closed then (g, .raised)
  else match g.left with
    | x :: rest => ({ g with left := rest }, .item x)
    | [] =>
      if g.listed then ({ g with removed := true, listed := false, closed := true }, .stop)
      else ({ g with removed := true }, .raised)

/-- `next(g)` (`db_dataset.py:295-296`): a finished generator object only stops. -/
def VGen.next (g : VGen α) : VGen α × Pull α :=
  if g.mainDone then (g, .stop)
  else match g.pull with
    | (h, .item x) => (h, .item x)
    | (h, .stop) => ({ h with mainDone := true }, .stop)
    | (h, .raised) => ({ h with mainDone := true }, .raised)

/-- How a loop ended. -/
inductive LoopEnd where
  | broken
  | exhausted
  | raised
  deriving DecidableEq

/-- `for x in g` left by `break` after `n` records: a new generator object, resumed at most `n` times. -/
def VGen.loop : Nat → VGen α → VGen α × List α × LoopEnd
  | 0, g => (g, [], .broken)
  | n + 1, g =>
    match g.pull with
    | (h, .item x) => let r := VGen.loop n h; (r.1, x :: r.2.1, r.2.2)
    | (h, .stop) => (h, [], .exhausted)
    | (h, .raised) => (h, [], .raised)

/-- `close()` and `__del__` (`db_dataset.py:298-308`). -/
def VGen.close (g : VGen α) : VGen α :=
  if g.removed then g else { g with listed := false, removed := true, closed := true }

/-- What a program does with a generator. -/
inductive GenOp where
  | next
  | loop (n : Nat)
  | close

/-- What it gets back: the records of this step and how it ended. -/
abbrev GenOut (α : Type) := List α × LoopEnd

/-- One step on a value generator. -/
def VGen.step (g : VGen α) : GenOp → VGen α × GenOut α
  | .next => match g.next with
    | (h, .item x) => (h, [x], .broken)
    | (h, .stop) => (h, [], .exhausted)
    | (h, .raised) => (h, [], .raised)
  | .loop n => g.loop n
  | .close => (g.close, [], .broken)

/-- A whole program. -/
def VGen.run : VGen α → List GenOp → VGen α × List (GenOut α)
  | g, [] => (g, [])
  | g, o :: os => let r := g.step o; let s := r.1.run os; (s.1, r.2 :: s.2)

/-! ## The generator of an in-memory dataset (`mem_dataset.py:242-253`)

A Python generator function: `iter(g)` is `g`, a finished or closed generator stops for ever. -/

/-- One step: the state is what is left to hand out. -/
def plainStep : List α → GenOp → List α × GenOut α
  | [], .next => ([], [], .exhausted)
  | x :: rest, .next => (rest, [x], .broken)
  | l, .loop n => (l.drop n, l.take n, if n ≤ l.length then .broken else .exhausted)
  | _, .close => ([], [], .broken)

/-- A whole program. -/
def plainRun : List α → List GenOp → List α × List (GenOut α)
  | l, [] => (l, [])
  | l, o :: os => let r := plainStep l o; let s := plainRun r.1 os; (s.1, r.2 :: s.2)

end DRec
