import Verif.Model.DbCache
import Verif.Spec.DbNets

/-! # Interaction vectors asked for by several threads -/

namespace DRec.Spec

open Conc

/-- Runs of a pool of tasks that share the dictionaries: in each step one of the tasks makes its next access. -/
inductive CRuns {α : Type} (lim : KKind → Nat) :
    World → VecStore → List (CProg α) → World → VecStore → List (CProg α) → Prop
  | refl (w : World) (D : VecStore) (ps : List (CProg α)) : CRuns lim w D ps w D ps
  | step {w : World} {D : VecStore} {ps : List (CProg α)} {t : Nat} {p : CProg α} {w' : World} {D' : VecStore}
      {ps' : List (CProg α)} : ps[t]? = some p →
      CRuns lim (p.step lim w D).1 (p.step lim w D).2.1 (ps.set t (p.step lim w D).2.2) w' D' ps' → CRuns lim w D ps w' D' ps'

/-- The request of a side. -/
def sideReq (s : KKind) (n : Nat) : VecReq :=
  match s with
  | .user => .user n
  | .item => .item n

/-- The raw ids of a side. -/
def sideMap (s : KKind) (m : Mem) : List Val :=
  match s with
  | .user => m.userMap
  | .item => m.itemMap

/-- The dictionaries hold vectors that the same data in memory gives, one per id. -/
def StoreOk (m : Mem) (D : VecStore) : Prop :=
  ∀ s, ((D s).map (·.1)).Nodup ∧ ∀ n v, (D s).lookup n = some v → memVec m (sideReq s n) = .ok v

/-- There are at most as many users (items) as the limit of the dictionary says. -/
def Roomy (m : Mem) (lim : KKind → Nat) : Prop := ∀ s, (sideMap s m).length ≤ lim s

/-- What a thread gets that asks for the vectors of these ids. -/
def memVecs (m : Mem) (qs : List (KKind × Nat × Bool)) : Except Err (List (List ℚ)) :=
  qs.mapM fun q => memVec m (sideReq q.1 q.2.1)

end DRec.Spec
