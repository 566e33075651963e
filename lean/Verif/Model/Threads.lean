import Mathlib.Logic.Function.Basic

/-!
# Worker threads with locks

Each task runs a sequence of critical sections `with lock: var = f(var)`; a section is four separate
steps (take the lock, read the shared variable, write the new value, release the lock) and steps of
different tasks interleave arbitrarily.  A `ThreadPool` with any number of workers only allows some of
these interleavings.
-/

namespace DRec

variable {V : Type} [DecidableEq V] {α : V → Type}

/-- A critical section updating one shared variable; every variable has its own lock. -/
structure Sec (α : V → Type) where
  var : V
  upd : α var → α var

/-- State of a task: between sections, holding the lock, having read the variable, having written it. -/
inductive Th (α : V → Type) where
  | idle (todo : List (Sec α))
  | locked (s : Sec α) (todo : List (Sec α))
  | loaded (s : Sec α) (x : α s.var) (todo : List (Sec α))
  | stored (s : Sec α) (todo : List (Sec α))

/-- Shared variables, lock owners and tasks. -/
structure Cfg (α : V → Type) where
  mem : (v : V) → α v
  owner : V → Option Nat
  thr : List (Th α)

/-- One step of task `i`; `none` when it is finished or waits for a lock. -/
def Cfg.step (c : Cfg α) (i : Nat) : Option (Cfg α) :=
  match c.thr[i]? with
  | none => none
  | some (.idle []) => none
  | some (.idle (s :: rest)) =>
    if c.owner s.var = none then
      some { c with
        owner := Function.update c.owner s.var (some i)
        thr := c.thr.set i (.locked s rest) }
    else none
  | some (.locked s rest) => some { c with thr := c.thr.set i (.loaded s (c.mem s.var) rest) }
  | some (.loaded s x rest) =>
    some { c with
      mem := Function.update c.mem s.var (s.upd x)
      thr := c.thr.set i (.stored s rest) }
  | some (.stored s rest) =>
    some { c with
      owner := Function.update c.owner s.var none
      thr := c.thr.set i (.idle rest) }

/-- All tasks submitted, none started. -/
def Cfg.init (mem : (v : V) → α v) (progs : List (List (Sec α))) : Cfg α :=
  ⟨mem, fun _ => none, progs.map .idle⟩

/-- `n` steps of some interleaving lead from one configuration to another. -/
inductive Steps : Nat → Cfg α → Cfg α → Prop
  | refl (c : Cfg α) : Steps 0 c c
  | step {n : Nat} {c c' d : Cfg α} (i : Nat) : Steps n c c' → c'.step i = some d → Steps (n + 1) c d

/-- All tasks have finished. -/
def Cfg.Complete (c : Cfg α) : Prop := ∀ t ∈ c.thr, t = .idle []

end DRec
