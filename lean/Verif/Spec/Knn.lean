import Verif.Model.Knn

/-!
# Notions the properties of the nearest neighbour recommenders are stated with
-/

namespace DRec.Spec

open DRec

/-- Entity `a` has a record with `i`. -/
def Rated (K : KKind) (rs : List Rating) (a i : Nat) : Prop := ∃ r ∈ rs, K.own r = a ∧ K.other r = i

/-- The entity occurs in the dataset. -/
def Known (K : KKind) (rs : List Rating) (a : Nat) : Prop := ∃ r ∈ rs, K.own r = a

/-- There are exactly `c` different things both entities have a record with. -/
def CoRatings (K : KKind) (rs : List Rating) (a b c : Nat) : Prop :=
  ∃ items : List Nat, items.Nodup ∧ items.length = c ∧ ∀ i, i ∈ items ↔ Rated K rs a i ∧ Rated K rs b i

/-- A similarity after shrinkage for `c` co-ratings. -/
def Shrunk (sh : Option ℚ) (c : Nat) (raw s : ℚ) : Prop :=
  match sh with
  | none => s = raw
  | some z => s = raw * (c / (c + z + 1 / 1000000))

/-- The entries of the similarity matrix. -/
def simMatrix (cfg : KnnCfg) (rs : List Rating) : List (Nat × Nat × ℚ) :=
  cfg.metric (rs.map fun r => (cfg.kind.own r, cfg.kind.other r, r.x))

/-- A matrix has at most one value per cell. -/
def OneValue (M : List (Nat × Nat × ℚ)) : Prop :=
  ∀ i j s s', (i, j, s) ∈ M → (i, j, s') ∈ M → s = s'

/-- Internal ids are 0, 1, 2, … without gap. -/
def Dense (K : KKind) (rs : List Rating) : Prop := ∃ n, ∀ a, Known K rs a ↔ a < n

/-- `b` may be a neighbour of `a` with similarity `s`: another entity of the dataset, positive similarity,
at least `m` co-ratings. -/
structure Candidate (cfg : KnnCfg) (rs : List Rating) (a b : Nat) (s : ℚ) : Prop where
  other : b ≠ a
  known : Known cfg.kind rs b
  positive : 0 < s
  sim : ∃ raw c, (max a b, min a b, raw) ∈ simMatrix cfg rs ∧ CoRatings cfg.kind rs a b c ∧ cfg.m ≤ c ∧
    Shrunk cfg.shrinkage c raw s

/-- The two ids have a similarity value and enough co-ratings. -/
def Paired (cfg : KnnCfg) (rs : List Rating) (a b : Nat) : Prop :=
  ∃ raw c, (a, b, raw) ∈ simMatrix cfg rs ∧ CoRatings cfg.kind rs a b c ∧ cfg.m ≤ c

/-- Items to rank: given, and new to the user when novelty is on. -/
def Wanted (rs : List Rating) (uid : Nat) (iids : List Nat) (novelty : Bool) (i : Nat) : Prop :=
  i ∈ iids ∧ (novelty = true → ¬ ∃ r ∈ rs, r.uid = uid ∧ r.iid = i)

/-- A ranking agrees with a scoring function: best first, no item twice, every score is what the function
returns, and with room for everything exactly the wanted items with a value are ranked. -/
structure Agrees (rs : List Rating) (f : PredictFn ℚ) (uid : Nat) (iids : List Nat) (n : Nat) (novelty : Bool)
    (out : List (ℚ × Nat)) : Prop where
  sorted : out.Pairwise fun p q => q.1 ≤ p.1
  nodup : (out.map (·.2)).Nodup
  score : ∀ p ∈ out, f (some uid) (some p.2) = .ok (some p.1) ∧ Wanted rs uid iids novelty p.2
  complete : ∀ i s, Wanted rs uid iids novelty i → f (some uid) (some i) = .ok (some s) → (s, i) ∉ out →
    out.length = n ∧ ∀ p ∈ out, s ≤ p.1

end DRec.Spec
