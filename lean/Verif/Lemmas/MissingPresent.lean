import Verif.Lemmas.Missing

/-! # Lemmas about data without missing interactions -/

namespace DRec.Miss

open DRec.Metrics

/-- A row of numbers. -/
def coeRow {K : Type} (a : SRow K) : SRow (Num K) := a.map fun e : Nat × K => (e.1, (e.2 : Num K))

/-- Cells with numbers. -/
def coeCells {K : Type} (es : List (Nat × Nat × K)) : List (Nat × Nat × Num K) :=
  es.map fun e : Nat × Nat × K => (e.1, e.2.1, (e.2.2 : Num K))

theorem csrRows_coe {K : Type} [AddCommMonoid K] (es : List (Nat × Nat × K)) :
    csrRows (coeCells es) = (csrRows es).map coeRow := by
  unfold csrRows coeCells coeRow
  rw [List.map_map, List.map_map]
  refine List.map_congr_left fun i _ => ?_
  dsimp only [Function.comp_apply]
  rw [List.map_map, List.filter_map, List.map_map]
  refine List.map_congr_left fun c _ => ?_
  dsimp only [Function.comp_apply]
  rw [List.filter_map, List.map_map, ← sum_coe, List.map_map]
  rfl

theorem csrCols_coe {K : Type} (es : List (Nat × Nat × K)) : csrCols (coeCells es) = csrCols es := by
  unfold csrCols coeCells
  rw [List.map_map]
  rfl

theorem userItems_coe {K : Type} (a : SRow K) : userItems (coeRow a) = userItems a := by
  unfold userItems coeRow
  rw [List.zipIdx_map, List.map_map]
  rfl

theorem getD_map' {α β : Type} (f : α → β) (l : List α) (n : Nat) (d : α) : (l.map f).getD n (f d) = f (l.getD n d) := by
  rw [List.getD_eq_getElem?_getD, List.getD_eq_getElem?_getD, List.getElem?_map]
  cases l[n]? <;> rfl

theorem getD_coe {K : Type} [Zero K] (a : SRow K) (n : Nat) :
    ((coeRow a).map (·.2)).getD n 0 = (((a.map (·.2)).getD n 0 : K) : Num K) := by
  have h : (coeRow a).map (·.2) = (a.map (·.2)).map fun x : K => (x : Num K) := by
    unfold coeRow
    rw [List.map_map, List.map_map]
    rfl
  rw [h]
  exact getD_map' (fun x : K => (x : Num K)) _ _ 0

theorem pairsOf_coe {K : Type} [Zero K] (a b : SRow K) : pairsOf (coeRow a) (coeRow b) = coePairs (pairsOf a b) := by
  unfold pairsOf coePairs
  rw [userItems_coe, userItems_coe, List.map_map]
  refine List.map_congr_left fun p _ => ?_
  rw [getD_coe, getD_coe]
  rfl

theorem allValues_coe {K : Type} [Zero K] (rows : List (SRow K)) (n : Nat) :
    allValues (rows.map coeRow) n = (allValues rows n).map fun x : K => (x : Num K) := by
  have h : (rows.map coeRow).flatten.map (·.2) = (rows.flatten.map (·.2)).map fun x : K => (x : Num K) := by
    unfold coeRow
    rw [← List.map_flatten, List.map_map, List.map_map]
    rfl
  unfold allValues
  rw [h]
  dsimp only
  rw [List.length_map (fun x : K => (x : Num K)), List.length_map coeRow]
  split <;> rfl

theorem foldl_coe {K : Type} (f : K → K → K) (l : List K) (v : K) :
    (l.map fun x : K => (x : Num K)).foldl (lift₂ f) (v : Num K) = ((l.foldl f v : K) : Num K) := by
  induction l generalizing v with
  | nil => rfl
  | cons x l ih => exact ih (f v x)

theorem maxDiffM_coe {K : Type} [Field K] [LinearOrder K] (rows : List (SRow K)) (n : Nat) :
    maxDiffM (rows.map coeRow) n = ((maxDiff rows n : K) : Num K) := by
  unfold maxDiffM maxDiff
  rw [allValues_coe]
  cases allValues rows n with
  | nil => rfl
  | cons v vs =>
    rw [List.map_cons]
    dsimp only
    rw [foldl_coe, foldl_coe, lift₂_coe]

theorem msdM_coe {K : Type} [Field K] [DecidableEq K] (d : K) (a b : SRow K) :
    msdM (d : Num K) (coeRow a) (coeRow b) = (msd d a b).map fun x : K => (x : Num K) := by
  unfold msdM msd
  rw [pairsOf_coe]
  dsimp only
  have h1 : (coePairs (pairsOf a b)).length = (pairsOf a b).length := List.length_map ..
  rw [h1, coePairs_sum _ _ (fun p => ((p.1 - p.2) / d) ^ 2) fun _ => rfl]
  by_cases hl : (pairsOf a b).length = 0
  · rw [if_pos hl, if_pos hl]; rfl
  rw [if_neg hl, if_neg hl]
  by_cases hd : d = 0
  · rw [if_pos hd, if_pos (WithTop.coe_eq_zero.2 hd)]; rfl
  rw [if_neg hd, if_neg fun h => hd (WithTop.coe_eq_zero.1 h)]
  rfl

theorem upperLoop_coe {K : Type} (f : SRow K → SRow K → Option K) (g : SRow (Num K) → SRow (Num K) → Option (Num K))
    (h : ∀ a b, g (coeRow a) (coeRow b) = (f a b).map fun x : K => (x : Num K)) (rows : List (SRow K)) :
    upperLoop g (rows.map coeRow) = coeCells (upperLoop f rows) := by
  have hd : ∀ i, (rows.map coeRow).getD i [] = coeRow (rows.getD i []) := fun i => getD_map' coeRow _ _ []
  unfold upperLoop coeCells
  rw [List.length_map, List.map_flatMap]
  refine List.flatMap_congr fun i _ => ?_
  rw [List.map_flatMap]
  refine List.flatMap_congr fun j _ => ?_
  rw [hd, hd, h]
  cases f (rows.getD i []) (rows.getD j []) with
  | none => rfl
  | some s =>
    dsimp only [Option.map_some]
    split <;> rfl

theorem msdSimM_coe {K : Type} [Field K] [LinearOrder K] (es : List (Nat × Nat × K)) :
    msdSimM (coeCells es) = coeCells (msdSim es) := by
  unfold msdSimM msdSim
  rw [csrRows_coe, csrCols_coe, maxDiffM_coe]
  exact upperLoop_coe _ _ (msdM_coe _) _

/-- The gains of the items from position `i`. -/
theorem dcgM_coe (strong : Bool) (rel : Nat → ℝ) (l : List Nat) (i : Nat) :
    dcgM strong (fun r => ((rel r : ℝ) : Num ℝ)) l i =
      (((l.zipIdx i).map fun p => gain strong (rel p.1) / Real.logb 2 (2 + (p.2 : ℝ))).sum : ℝ) := by
  induction l generalizing i with
  | nil => rfl
  | cons r l ih =>
    unfold dcgM
    rw [ih, lift_coe, ← WithTop.coe_add, List.zipIdx_cons, List.map_cons, List.sum_cons]

theorem dcgLoop_eq (strong : Bool) (rels : List (Nat × ℝ)) (rel : Nat → ℝ) (l : List Nat) (i : Nat) (acc : ℝ)
    (h : ∀ r ∈ l, lookupRel rels r = some (rel r)) :
    dcgLoop strong rels l i acc =
      .ok (acc + ((l.zipIdx i).map fun p => gain strong (rel p.1) / Real.logb 2 (2 + (p.2 : ℝ))).sum) := by
  induction l generalizing i acc with
  | nil => rw [dcgLoop]; simp
  | cons r l ih =>
    rw [dcgLoop, h r (List.mem_cons_self ..)]
    dsimp only
    rw [ih _ _ fun r hr => h r (List.mem_cons_of_mem _ hr), List.zipIdx_cons, List.map_cons, List.sum_cons, add_assoc]

/-- Every key of a dictionary has a value. -/
theorem lookupRel_idealOrder (rels : List (Nat × ℝ)) (r : Nat) (h : r ∈ idealOrder rels) : ∃ x, lookupRel rels r = some x := by
  unfold idealOrder at h
  obtain ⟨p, hp, rfl⟩ := List.mem_map.1 h
  rw [List.mem_insertionSort] at hp
  unfold lookupRel
  cases e : rels.find? fun q => q.1 = p.1 with
  | none => exact absurd (List.find?_eq_none.1 e p hp) (by simp)
  | some q => exact ⟨q.2, rfl⟩

/-- NDCG of numbers. -/
theorem ndcgM_coe (strong : Bool) (rels : List (Nat × ℝ)) (rel : Nat → ℝ) (k : Nat) (recs : List Nat)
    (hrel : ∀ r x, lookupRel rels r = some x → rel r = x) (h : ∀ r ∈ recs.take k, ∃ x, lookupRel rels r = some x) :
    ndcgM strong (fun r => ((rel r : ℝ) : Num ℝ)) k recs (idealOrder rels) =
      (ndcg strong recs (some k) (some rels)).map fun y : ℝ => (y : Num ℝ) := by
  have h1 : ∀ l : List Nat, (∀ r ∈ l, ∃ x, lookupRel rels r = some x) → ∀ r ∈ l, lookupRel rels r = some (rel r) := by
    intro l hl r hr
    obtain ⟨x, hx⟩ := hl r hr
    rw [hx, hrel r x hx]
  have h2 : ∀ r ∈ (idealOrder rels).take k, ∃ x, lookupRel rels r = some x :=
    fun r hr => lookupRel_idealOrder rels r (List.mem_of_mem_take hr)
  unfold ndcgM ndcg dcg
  dsimp only [trunc]
  rw [dcgLoop_eq strong rels rel _ 0 0 (h1 _ h), dcgLoop_eq strong rels rel _ 0 0 (h1 _ h2), dcgM_coe, dcgM_coe]
  dsimp only
  rw [zero_add, zero_add]
  by_cases hz : ((((idealOrder rels).take k).zipIdx 0).map fun p => gain strong (rel p.1) / Real.logb 2 (2 + (p.2 : ℝ))).sum = 0
  · rw [if_pos hz, if_pos (WithTop.coe_eq_zero.2 hz)]; rfl
  · rw [if_neg hz, if_neg fun g => hz (WithTop.coe_eq_zero.1 g)]; rfl

theorem reportedM_coe {K : Type} [Field K] (vs : List (Except Err K)) :
    reportedM (vs.map fun v => v.map fun x : K => (x : Num K)) =
      (((vs.filterMap Except.toOption).sum / ((vs.filterMap Except.toOption).length : K) : K) : Num K) := by
  have h : (vs.map fun v => v.map fun x : K => (x : Num K)).filterMap Except.toOption =
      (vs.filterMap Except.toOption).map fun x : K => (x : Num K) := by
    induction vs with
    | nil => rfl
    | cons v vs ih =>
      cases v with
      | error e => exact ih
      | ok x => exact congrArg (List.cons _) ih
  unfold reportedM
  rw [h]
  dsimp only
  rw [List.length_map, sum_coe, lift_coe]
  split
  · rename_i h0
    rw [h0, List.eq_nil_of_length_eq_zero h0]
    simp
  · rfl

/-- The counted test records and predictions. -/
theorem predictiveM_coe (predict : Nat → Nat → Option ℚ) (countNone : Bool) (test : List (Nat × Nat × ℚ)) (hne : test ≠ []) :
    predictiveM (fun u i => (predict u i).map fun y : ℚ => (y : Num ℚ)) countNone
        (test.map fun t : Nat × Nat × ℚ => ⟨t.1, t.2.1, (t.2.2 : Num ℚ)⟩) =
      mse ((test.filter fun t => countNone || (predict t.1 t.2.1).isSome).map (·.2.2))
        ((test.filter fun t => countNone || (predict t.1 t.2.1).isSome).map fun t => (predict t.1 t.2.1).getD 0) := by
  have h : evalPairsM (fun u i => (predict u i).map fun y : ℚ => (y : Num ℚ)) countNone
      (test.map fun t : Nat × Nat × ℚ => ⟨t.1, t.2.1, (t.2.2 : Num ℚ)⟩) =
      (test.filter fun t => countNone || (predict t.1 t.2.1).isSome).map fun t =>
        ((t.2.2 : Num ℚ), (((predict t.1 t.2.1).getD 0 : ℚ) : Num ℚ)) := by
    clear hne
    induction test with
    | nil => rfl
    | cons t l ih =>
      unfold evalPairsM at ih ⊢
      rw [List.map_cons, List.filterMap_cons, ih, List.filter_cons]
      dsimp only
      cases hp : predict t.1 t.2.1 with
      | none => cases countNone <;> simp [hp]
      | some y => simp [hp]
  have h0 : (test.map fun t : Nat × Nat × ℚ => (⟨t.1, t.2.1, (t.2.2 : Num ℚ)⟩ : Rec)).length ≠ 0 := by
    rw [List.length_map]
    exact fun g => hne (List.eq_nil_of_length_eq_zero g)
  unfold predictiveM mseM
  rw [if_neg h0, h]
  generalize (test.filter fun t => countNone || (predict t.1 t.2.1).isSome) = l
  rw [if_neg (by simp), List.map_map, List.map_map, List.filterMap_map, List.filterMap_map]
  congr 1
  · exact List.filterMap_eq_map ▸ rfl
  · exact List.filterMap_eq_map ▸ rfl

end DRec.Miss
