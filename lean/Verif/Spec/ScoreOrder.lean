import Verif.Model.DbKnn

/-!
# Scores in the same order (C118)
-/

namespace DRec.Spec

/-- A score is high enough for a threshold. -/
def HighEnough (t : Option ℚ) (x : ℚ) : Prop := ∀ q ∈ t, q ≤ x

/-- Two ways to give scores to users and items: they give scores to the same pairs, order the items of each user in the
same way, and thresholds `t` and `t'` separate the same items. -/
structure SameOrder (s s' : Nat → Nat → Option ℚ) (t t' : Option ℚ) : Prop where
  alike : ∀ u i, (s u i).isSome = (s' u i).isSome
  order : ∀ u i j x y x' y', s u i = some x → s u j = some y → s' u i = some x' → s' u j = some y' → (x < y ↔ x' < y')
  cut : ∀ u i x x', s u i = some x → s' u i = some x' → (HighEnough t x ↔ HighEnough t' x')

/-- The score given by a `_predict` method. -/
def scoreOf (f : PredictFn ℚ) (u i : Nat) : Option ℚ :=
  match f (some u) (some i) with
  | .ok p => p
  | .error _ => none

/-- Two recommenders of the same class (with the ranking of the base class, CDAE or Caser) whose scores are in the same
order; `_predict` raises the same exceptions. -/
inductive OrderedAlike (m : Mem) (t t' : Option ℚ) : RankFn → RankFn → Prop
  | base (f f' : PredictFn ℚ) (h : SameOrder (scoreOf f) (scoreOf f') t t')
      (he : ∀ u i e, f (some u) (some i) = .error e ↔ f' (some u) (some i) = .error e) :
      OrderedAlike m t t' (baseRank m f) (baseRank m f')
  | cdae (p p' : Nat → List ℚ) (h : SameOrder (fun u i => (p u)[i]?) (fun u i => (p' u)[i]?) t t') :
      OrderedAlike m t t' (cdaeRank m p) (cdaeRank m p')
  | caser (p p' : Nat → List ℚ) (h : SameOrder (fun u i => (p u)[i]?) (fun u i => (p' u)[i]?) t t') :
      OrderedAlike m t t' (caserRank m p) (caserRank m p')

/-- The items of a list of recommendations, in order. -/
def itemsOnly (r : Except Err (List (ℚ × Option Val))) : Except Err (List (Option Val)) := r.map (·.map Prod.snd)

end DRec.Spec
