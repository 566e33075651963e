import Verif.Model.SaveLoad
import Verif.Spec.DbKnn

/-! # What a program can see of objects -/

namespace DRec.Pick.Spec

open DRec.Spec Conc

variable {A V : Type}

/-- `x.f.g.…`: what a path of attributes leads to. -/
def follow (h : Heap A V) : Ref A → List String → Option (Ref A)
  | r, [] => some r
  | .obj a, f :: p => (h a).bind fun c => (c.fields.lookup f).bind fun r => follow h r p
  | .glob _, _ :: _ => none

/-- What is at the end of a path: a name, or an object with its data and the names of its attributes. -/
def seen (h : Heap A V) (r : Ref A) (p : List String) : Option (String ⊕ (V × List String)) :=
  (follow h r p).bind fun e => match e with
    | .glob n => some (.inl n)
    | .obj a => (h a).map fun c => .inr (c.data, c.fields.map (·.1))

/-- An object can be reached from another one by references. -/
inductive Reach (h : Heap A V) (a : A) : A → Prop where
  | refl : Reach h a a
  | step {b c : A} {x : Cell A V} {f : String} : Reach h a b → h b = some x → (f, Ref.obj c) ∈ x.fields → Reach h a c

/-- Every reference is to an object. -/
def Closed (h : Heap A V) : Prop :=
  ∀ a x f b, h a = some x → (f, Ref.obj b) ∈ x.fields → (h b).isSome

/-- There are at most `n` objects. -/
def AtMost (h : Heap A V) (n : Nat) : Prop := ∃ l : List A, l.length ≤ n ∧ ∀ a, (h a).isSome → a ∈ l

/-- The data at the end of a path. -/
def dataAt (h : Heap A V) (r : Ref A) (p : List String) : Option V :=
  (seen h r p).bind fun e => match e with
    | .inl _ => none
    | .inr d => some d.1

/-- The answer of a fitted nearest neighbour recommender to `predict`, `rank` or `recommend`: what it reads are its own
settings, its dataset and its two dictionaries. -/
def answer (h : Heap A Data) (r : Ref A) (q : Request) : Option (Except Err Reply) :=
  match dataAt h r [], dataAt h r ["interaction_dataset"], dataAt h r ["_similarities"], dataAt h r ["_neighbours"] with
  | some (.model (.knn cfg) _), some (.data m), some (.sims f), some (.nbrs g) => some (memServe cfg m ⟨f, g⟩ q)
  | _, _, _, _ => none

/-- The recommenders that can be saved: those that were not fitted, and those fitted on a dataset in memory that do not use a
`PointSampler`, in both cases if the TensorFlow objects they hold can be pickled. -/
def Savable (s : St) (x : ModelSt) : Prop :=
  match x.cls, x.fit with
  | .knn _, none => True
  | .knn _, some d => (∃ y, s.ds[d]? = some y ∧ y.db = false) ∧ x.optOk = true
  | .points, none => x.lossOk = true
  | .points, some _ => False
  | .lists, none => x.lossOk = true
  | .lists, some d => (∃ y, s.ds[d]? = some y ∧ y.db = false) ∧ x.lossOk = true ∧ x.optOk = true ∧ x.netOk = true

end DRec.Pick.Spec
