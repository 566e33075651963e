import Verif.Model.DbGen
import Verif.Spec.DbSplits
import Verif.Spec.Sampler

/-! # PointSampler over a database dataset -/

namespace DRec.Spec

/-- What a program does while it has a sampler: operations on datasets, and samples (with the outcomes of the random
choices). -/
inductive SampleEv where
  | op (o : DbOp)
  | sample (x : ℚ) (ps ns es : List Nat)

/-- The datasets a sampler works on: the one it was made for, and its own copies. -/
def samplerHolds (S : DbSampler) : List Nat :=
  S.neg.inst :: S.pos.inst :: match S.neg.state with
    | .running _ _ (some g) => [g.inst]
    | _ => []

/-- Run the program: final datasets, sampler, and the results of the samples. -/
def sampleRun (w : World) (S : DbSampler) : List SampleEv → World × DbSampler × List (NextOut Triple)
  | [] => (w, S, [])
  | .op o :: evs => sampleRun (runOp w o).1 S evs
  | .sample x ps ns es :: evs =>
    let r := w.sampleOne S x ps ns es
    let q := sampleRun r.1 r.2.1 evs
    (q.1, q.2.1, r.2.2 :: q.2.2)

/-- The operations are those of C18, and the datasets of the sampler are not changed in place or closed. -/
def SampleOk (names : List String) (w : World) (S : DbSampler) : List SampleEv → Prop
  | [] => True
  | .op o :: evs => (Admissible names w o ∧ (o.inst ∈ samplerHolds S → o.keepsOwn = true)) ∧
      SampleOk names (runOp w o).1 S evs
  | .sample x ps ns es :: evs =>
    SampleOk names (w.sampleOne S x ps ns es).1 (w.sampleOne S x ps ns es).2.1 evs

/-- Number columns where the sampler expects them. -/
def SampleTypes (x : Inst) : Prop :=
  ∀ ty, x.types = some ty → ∀ c ∈ ["uid", "iid", "interaction"], ty c ≠ .obj

/-- Database dataset `i`, with internal ids, that can be sampled from: it shows what `m` shows, and has records. -/
structure Samplable (w : World) (i : Nat) (x : Inst) (m : Mem) : Prop where
  same : SameData w i x m
  fresh : Fresh m
  ne : m.rows ≠ []
  types : SampleTypes x

/-- A positive sample is asked for. -/
def SampleEv.positive : SampleEv → Bool
  | .op _ => false
  | .sample x _ _ _ => decide (x ≤ 1)

end DRec.Spec
