import Verif.Lemmas.Missing
import Verif.Lemmas.MissingPresent

/-!
# C133: missing interactions
-/

namespace DRec.Miss

open DRec.Metrics

/-- The records with an interaction. -/
def present (rs : List Rec) : List Rec := rs.filter fun r => r.x ≠ ⊤

/-! ## Selections and ranges -/

/-- The full claim for selections: a record without interaction counts like no record. -/
def SelectsAsWithout : Prop := ∀ (op : Op) (v : ℚ) (rs : List Rec), selectX op v rs = selectX op v (present rs)

/-- C133: every comparison but `!=` selects the records that have an interaction with that property, so a record without
interaction counts like no record.  Missing: `!=`, where it is false. -/
theorem C133_select_partial (op : Op) (hop : op ≠ .ne) (v : ℚ) (rs : List Rec) :
    selectX op v rs = selectX op v (present rs) ∧
      ∀ r, r ∈ selectX op v rs ↔ r ∈ rs ∧ ∃ q : ℚ, r.x = q ∧ op.onRat q v = true := by
  have key : ∀ x : Num ℚ, cmp op x v = true ↔ ∃ q : ℚ, x = q ∧ op.onRat q v = true := by
    intro x
    induction x using WithTop.recTopCoe with
    | top => simp [hop]
    | coe q => simp
  constructor
  · unfold selectX present
    rw [List.filter_filter]
    apply List.filter_congr
    intro r _
    rw [Bool.eq_iff_iff, Bool.and_eq_true, key]
    constructor
    · rintro ⟨q, h1, h2⟩
      exact ⟨⟨q, h1, h2⟩, by simp [h1]⟩
    · exact fun h => h.1
  · intro r
    rw [selectX, List.mem_filter, key]

/-- C133: `> v` and `<= v` leave out exactly the records without interaction. -/
theorem C133_halves (v : ℚ) (rs : List Rec) (r : Rec) (hr : r ∈ rs) :
    (r ∉ selectX .gt v rs ∧ r ∉ selectX .le v rs) ↔ r.x = ⊤ := by
  simp only [selectX, List.mem_filter, hr, true_and]
  obtain ⟨u, i, x⟩ := r
  dsimp only
  induction x using WithTop.recTopCoe with
  | top => simp
  | coe q => simp only [cmp_coe, Op.onRat, decide_eq_true_eq, WithTop.coe_ne_top, iff_false]; intro h; exact h.1 (not_le.1 h.2)

/-- C133 (witness): `interaction != 3` selects a record without interaction. -/
theorem C133_select_refuted : ¬ SelectsAsWithout := by
  intro h
  have := congrArg List.length (h .ne 3 [⟨0, 0, ⊤⟩])
  revert this
  decide +kernel

/-- C133: maximum and minimum ignore the records without interaction, and are NaN only if there are no others; so is the range
that a recommender learns. -/
theorem C133_range (rs : List Rec) :
    maxX rs = maxX (present rs) ∧ minX rs = minX (present rs) ∧ minInteraction rs = minInteraction (present rs) ∧
    (maxX rs = ⊤ ↔ ∀ r ∈ rs, r.x = ⊤) ∧ (minX rs = ⊤ ↔ ∀ r ∈ rs, r.x = ⊤) ∧
    (∀ q : ℚ, maxX rs = q ↔ (∃ r ∈ rs, r.x = q) ∧ ∀ r ∈ rs, ∀ p : ℚ, r.x = p → p ≤ q) ∧
    (∀ q : ℚ, minX rs = q ↔ (∃ r ∈ rs, r.x = q) ∧ ∀ r ∈ rs, ∀ p : ℚ, r.x = p → q ≤ p) ∧
    (minInteraction rs = ⊤ ↔ ∀ r ∈ rs, r.x = ⊤) ∧
    (∀ q : ℚ, minX rs = q → minInteraction rs = if q = 1 then 0 else (q : Num ℚ)) := by
  have e : (rs.filterMap fun r => val? r.x) = ((present rs).filterMap fun r => val? r.x) := by
    rw [present, List.filterMap_filter]
    apply List.filterMap_congr
    intro r _
    obtain ⟨u, i, x⟩ := r
    dsimp only
    induction x using WithTop.recTopCoe <;> simp
  have e1 : maxX rs = maxX (present rs) := by unfold maxX; rw [← e]
  have e2 : minX rs = minX (present rs) := by unfold minX; rw [← e]
  have hmem : ∀ q : ℚ, q ∈ (rs.filterMap fun r => val? r.x) ↔ ∃ r ∈ rs, r.x = q := by
    intro q
    rw [List.mem_filterMap]
    simp only [val?_eq_some]
  have hnil : (rs.filterMap fun r => val? r.x) = [] ↔ ∀ r ∈ rs, r.x = ⊤ := by
    rw [List.filterMap_eq_nil_iff]
    simp only [val?_eq_none]
  have fmax : ∀ (l : List ℚ) (v : ℚ), l.foldl max v ∈ v :: l ∧ ∀ x ∈ v :: l, x ≤ l.foldl max v := by
    intro l
    induction l with
    | nil => intro v; simp
    | cons y l ih =>
      intro v
      obtain ⟨h1, h2⟩ := ih (max v y)
      rw [List.foldl_cons]
      constructor
      · rcases List.mem_cons.1 h1 with h | h
        · rw [h]
          rcases max_choice v y with g | g <;> rw [g] <;> simp
        · simp [h]
      · intro x hx
        have hv := h2 _ (List.mem_cons_self ..)
        rcases List.mem_cons.1 hx with rfl | hx
        · exact (le_max_left _ _).trans hv
        · rcases List.mem_cons.1 hx with rfl | hx
          · exact (le_max_right _ _).trans hv
          · exact h2 x (List.mem_cons_of_mem _ hx)
  have fmin : ∀ (l : List ℚ) (v : ℚ), l.foldl min v ∈ v :: l ∧ ∀ x ∈ v :: l, l.foldl min v ≤ x := by
    intro l
    induction l with
    | nil => intro v; simp
    | cons y l ih =>
      intro v
      obtain ⟨h1, h2⟩ := ih (min v y)
      rw [List.foldl_cons]
      constructor
      · rcases List.mem_cons.1 h1 with h | h
        · rw [h]
          rcases min_choice v y with g | g <;> rw [g] <;> simp
        · simp [h]
      · intro x hx
        have hv := h2 _ (List.mem_cons_self ..)
        rcases List.mem_cons.1 hx with rfl | hx
        · exact hv.trans (min_le_left _ _)
        · rcases List.mem_cons.1 hx with rfl | hx
          · exact hv.trans (min_le_right _ _)
          · exact h2 x (List.mem_cons_of_mem _ hx)
  have etop : minX rs = ⊤ ↔ ∀ r ∈ rs, r.x = ⊤ := by
    rw [← hnil]
    unfold minX
    cases (rs.filterMap fun r => val? r.x) <;> simp
  refine ⟨e1, e2, by unfold minInteraction; rw [← e2], ?_, etop, ?_, ?_, ?_, ?_⟩
  · rw [← hnil]
    unfold maxX
    cases (rs.filterMap fun r => val? r.x) <;> simp
  · intro q
    rw [← hmem q]
    have h2 : (∀ r ∈ rs, ∀ p : ℚ, r.x = p → p ≤ q) ↔ ∀ p ∈ (rs.filterMap fun r => val? r.x), p ≤ q := by
      simp only [hmem]
      exact ⟨fun h p ⟨r, hr, hp⟩ => h r hr p hp, fun h r hr p hp => h p ⟨r, hr, hp⟩⟩
    rw [h2]
    unfold maxX
    cases (rs.filterMap fun r => val? r.x) with
    | nil => simp
    | cons v vs =>
      obtain ⟨g1, g2⟩ := fmax vs v
      dsimp only
      rw [WithTop.coe_inj]
      constructor
      · rintro rfl; exact ⟨g1, g2⟩
      · rintro ⟨k1, k2⟩; exact le_antisymm (k2 _ g1) (g2 _ k1)
  · intro q
    rw [← hmem q]
    have h2 : (∀ r ∈ rs, ∀ p : ℚ, r.x = p → q ≤ p) ↔ ∀ p ∈ (rs.filterMap fun r => val? r.x), q ≤ p := by
      simp only [hmem]
      exact ⟨fun h p ⟨r, hr, hp⟩ => h r hr p hp, fun h r hr p hp => h p ⟨r, hr, hp⟩⟩
    rw [h2]
    unfold minX
    cases (rs.filterMap fun r => val? r.x) with
    | nil => simp
    | cons v vs =>
      obtain ⟨g1, g2⟩ := fmin vs v
      dsimp only
      rw [WithTop.coe_inj]
      constructor
      · rintro rfl; exact ⟨g1, g2⟩
      · rintro ⟨k1, k2⟩; exact le_antisymm (g2 _ k1) (k2 _ g1)
  · rw [← etop]
    unfold minInteraction
    split
    · rename_i h1
      rw [h1]
      simp
    · exact Iff.rfl
  · intro q hq
    unfold minInteraction
    rw [hq]
    by_cases h1 : q = 1
    · rw [h1]; simp
    · rw [if_neg h1, if_neg (by rwa [← WithTop.coe_one, WithTop.coe_inj])]

/-- C133: an entry of an interaction vector is NaN exactly when a record of the pair has no interaction. -/
theorem C133_vector (rs : List Rec) (u i : Nat) : entry rs u i = ⊤ ↔ ∃ r ∈ rs, r.uid = u ∧ r.iid = i ∧ r.x = ⊤ := by
  unfold entry
  rw [sum_eq_top, List.mem_map]
  simp only [List.mem_filter, decide_eq_true_eq]
  exact ⟨fun ⟨r, ⟨h1, h2, h3⟩, h4⟩ => ⟨r, h1, h2, h3, h4⟩, fun ⟨r, h1, h2, h3, h4⟩ => ⟨r, ⟨h1, h2, h3⟩, h4⟩⟩

/-- Some records. -/
def exRecs : List Rec := [⟨0, 0, 4⟩, ⟨0, 1, ⊤⟩, ⟨1, 0, 2⟩, ⟨1, 1, 5⟩, ⟨2, 1, 3⟩]

example : maxX exRecs = 5 ∧ minX exRecs = 2 ∧ (selectX .ge 3 exRecs).map (·.uid) = [0, 1, 2] ∧
    (selectX .lt 3 exRecs).map (·.uid) = [1] ∧ exRecs.length = 5 ∧ entry exRecs 0 1 = ⊤ ∧ entry exRecs 0 0 = 4 := by
  decide +kernel

/-! ## Similarities -/

/-- C133: a pair of users with a common item for which one of them has no interaction has no cosine or Pearson similarity that
is a number; with all common interactions present the similarities are the exact ones.  Here `l` are the common interactions. -/
theorem C133_similarities (a b : SRow (Num ℝ)) :
    ((∃ p ∈ pairsOf a b, p.1 = ⊤ ∨ p.2 = ⊤) → cosineCfM a b = some ⊤ ∧ ∀ s, pearsonM a b = some s → s = ⊤) ∧
    ∀ l : List (ℝ × ℝ), pairsOf a b = coePairs l →
      (∀ s, cosineCfM a b = some s ↔ (l.map fun p => p.1 * p.2).sum ≠ 0 ∧ s = ((cosOf l : ℝ) : Num ℝ)) ∧
      ∀ s, pearsonM a b = some s ↔ l ≠ [] ∧ ((centred l).map fun p => p.1 ^ 2).sum ≠ 0 ∧
        ((centred l).map fun p => p.2 ^ 2).sum ≠ 0 ∧ s = ((cosOf (centred l) : ℝ) : Num ℝ) := by
  constructor
  · intro h
    constructor
    · have : ((pairsOf a b).map fun p => lift₂ (· * ·) p.1 p.2).sum = ⊤ := by
        obtain ⟨p, hp, h⟩ := h
        rw [sum_eq_top, List.mem_map]
        refine ⟨p, hp, ?_⟩
        rcases h with h | h <;> simp [h]
      rw [cosineCfM, this, if_neg WithTop.top_ne_zero, cosOfM_top h]
    · intro s hs
      unfold pearsonM at hs
      split at hs
      · exact absurd hs (by simp)
      · split at hs
        · exact absurd hs (by simp)
        · rw [← Option.some.inj hs, cosOfM_top (centredM_top h)]
  · intro l hl
    constructor
    · intro s
      rw [cosineCfM, hl, coePairs_sum l _ (fun p => p.1 * p.2) fun _ => rfl, cosOfM_coe]
      split
      · rename_i h
        rw [coe_sum_eq_zero] at h
        simp [h]
      · rename_i h
        rw [coe_sum_eq_zero] at h
        simp only [Option.some.injEq, ne_eq, h, not_false_eq_true, true_and]
        exact eq_comm
    · intro s
      have hlen : (coePairs l).length = 0 ↔ l = [] := by rw [coePairs, List.length_map, List.length_eq_zero_iff]
      rw [pearsonM, hl, centredM_coe, coePairs_sum _ _ (fun p => p.1 ^ 2) fun _ => rfl,
        coePairs_sum _ _ (fun p => p.2 ^ 2) fun _ => rfl, cosOfM_coe]
      simp only [coe_sum_eq_zero, hlen]
      split
      · rename_i h
        simp [h]
      · rename_i h
        split
        · rename_i h'
          constructor
          · intro g
            exact absurd g (by simp)
          · rintro ⟨_, g1, g2, _⟩
            exact (h'.elim g1 g2).elim
        · rename_i h'
          rw [not_or] at h'
          simp only [Option.some.injEq, ne_eq, h, h'.1, h'.2, not_false_eq_true, true_and]
          exact eq_comm

/-- C133: one record without interaction anywhere, and no mean squared difference similarity is a number. -/
theorem C133_msd {K : Type} [Field K] [LinearOrder K] (es : List (Nat × Nat × Num K)) (h : ∃ e ∈ es, e.2.2 = ⊤) :
    ∀ e ∈ msdSimM es, e.2.2 = ⊤ := by
  intro e he
  unfold msdSimM at he
  rw [maxDiffM_top _ (csrRows_top h)] at he
  obtain ⟨a, b, hab⟩ := mem_upperLoop he
  exact msdM_top hab

/-- Three users of which the third lacks one interaction: the first two have no common missing item, but no number. -/
example : msdSimM [(0, 0, (4 : Num ℚ)), (1, 0, 2), (2, 1, ⊤)] = [(0, 0, ⊤), (0, 1, ⊤), (1, 0, ⊤), (1, 1, ⊤), (2, 2, ⊤)] := by
  decide +kernel

/-- C133: the neighbours are those found when a similarity that is no number counts as no similarity. -/
theorem C133_neighbours (cfg : KnnCfg) (n : Nat) (sims : Nat × Nat → Option (Num ℚ)) (a : Nat) :
    neighboursM cfg.k n sims a = neighboursOf cfg n (fun p => (sims p).bind val?) a ∧
      ∀ s b, (s, b) ∈ neighboursM cfg.k n sims a → simM sims a b = s ∧ 0 < s ∧ b ≠ a ∧ b < n := by
  have key : ∀ (o : Option (Num ℚ)) (b : Nat), ((val? (o.getD 0)).bind fun s => if 0 < s then some (s, b) else none) =
      if 0 < (o.bind val?).getD 0 then some ((o.bind val?).getD 0, b) else none := by
    intro o b
    cases o with
    | none => rfl
    | some x =>
      induction x using WithTop.recTopCoe with
      | top => rfl
      | coe q => rfl
  constructor
  · unfold neighboursM neighboursOf
    congr 1
    generalize (List.range n).filter (fun b => decide (b ≠ a)) = l
    induction l with
    | nil => rfl
    | cons b l ih =>
      have k1 : ((val? (simM sims a b)).bind fun s => if 0 < s then some (s, b) else none) =
          if 0 < getSim (fun p => (sims p).bind val?) a b then some (getSim (fun p => (sims p).bind val?) a b, b)
          else none := key (sims (max a b, min a b)) b
      rw [List.filterMap_cons, List.map_cons, List.filter_cons, ← ih, k1]
      by_cases hq : 0 < getSim (fun p => (sims p).bind val?) a b <;> simp [hq]
  · intro s b h
    unfold neighboursM nlargest at h
    have h1 := List.mem_of_mem_take h
    rw [List.mem_insertionSort, List.mem_filterMap] at h1
    obtain ⟨b', hb, h2⟩ := h1
    rw [List.mem_filter, List.mem_range] at hb
    rw [Option.bind_eq_some_iff] at h2
    obtain ⟨q, hq, h3⟩ := h2
    split at h3
    · rename_i hpos
      obtain ⟨rfl, rfl⟩ := Prod.mk.inj (Option.some.inj h3)
      exact ⟨val?_eq_some.1 hq, hpos, of_decide_eq_true hb.2, hb.1⟩
    · exact absurd h3 (by simp)

/-! ## Predictions -/

/-- C133: a prediction is no number exactly when the first record of one of the neighbours about the item has no interaction;
with all interactions present it is the exact one. -/
theorem C133_predictions (agg : Agg) (rs : List Rec) (nbrs : List (ℚ × Nat)) (hpos : ∀ p ∈ nbrs, 0 < p.1) (i : Nat) :
    (predictM agg rs nbrs i = some ⊤ ↔ ∃ p ∈ nbrs, interactionM rs p.2 i = some ⊤) ∧
    ∀ l : List (ℚ × ℚ), usedM rs nbrs i = l.map (fun p => ((p.1 : Num ℚ), p.2)) →
      predictM agg rs nbrs i = (agg.run l).map fun y => ((y : ℚ) : Num ℚ) := by
  have hused : ∀ x s, (x, s) ∈ usedM rs nbrs i ↔ ∃ p ∈ nbrs, interactionM rs p.2 i = some x ∧ p.1 = s := by
    intro x s
    unfold usedM
    rw [List.mem_filterMap]
    constructor
    · rintro ⟨p, hp, h⟩
      rw [Option.map_eq_some_iff] at h
      obtain ⟨y, hy, h⟩ := h
      obtain ⟨rfl, rfl⟩ := Prod.mk.inj h
      exact ⟨p, hp, hy, rfl⟩
    · rintro ⟨p, hp, h, rfl⟩
      exact ⟨p, hp, by rw [h]; rfl⟩
  have hsims : ∀ q ∈ usedM rs nbrs i, 0 < q.2 := by
    rintro ⟨x, s⟩ hq
    obtain ⟨p, hp, _, rfl⟩ := (hused x s).1 hq
    exact hpos p hp
  have htop : (∃ q ∈ usedM rs nbrs i, q.1 = ⊤) ↔ ∃ p ∈ nbrs, interactionM rs p.2 i = some ⊤ := by
    constructor
    · rintro ⟨⟨x, s⟩, hq, rfl⟩
      obtain ⟨p, hp, h, _⟩ := (hused _ s).1 hq
      exact ⟨p, hp, h⟩
    · rintro ⟨p, hp, h⟩
      exact ⟨(⊤, p.1), (hused _ _).2 ⟨p, hp, h, rfl⟩, rfl⟩
  constructor
  · rw [← htop]
    unfold predictM
    generalize usedM rs nbrs i = l at hsims
    cases agg with
    | mean =>
      dsimp only [aggM]
      split
      · rw [Option.some.injEq, lift_eq_top, sum_eq_top, List.mem_map]
      · rename_i h
        have : l = [] := List.eq_nil_of_length_eq_zero (by omega)
        simp [this]
    | weighted =>
      dsimp only [aggM]
      split
      · rw [Option.some.injEq, lift_eq_top, sum_eq_top, List.mem_map]
        simp only [lift_eq_top]
      · rename_i h
        constructor
        · intro g; exact absurd g (by simp)
        · rintro ⟨q, hq, _⟩
          refine absurd ?_ h
          have hne : l.map (·.2) ≠ [] := by
            intro hn
            rw [List.map_eq_nil_iff] at hn
            rw [hn] at hq
            exact List.not_mem_nil hq
          refine List.sum_pos _ (fun x hx => ?_) hne
          obtain ⟨q', hq', rfl⟩ := List.mem_map.1 hx
          exact hsims q' hq'
  · intro l hl
    unfold predictM
    rw [hl]
    cases agg with
    | mean =>
      simp only [aggM, Agg.run, aggMean, List.length_map, List.map_map]
      have : (l.map ((fun p : Num ℚ × ℚ => p.1) ∘ fun p : ℚ × ℚ => ((p.1 : Num ℚ), p.2))).sum = (((l.map (·.1)).sum : ℚ) : Num ℚ) := by
        rw [← sum_coe, List.map_map]; rfl
      rw [this]
      split <;> rfl
    | weighted =>
      simp only [aggM, Agg.run, aggWeighted, List.map_map]
      have h1 : (l.map ((fun p : Num ℚ × ℚ => p.2) ∘ fun p : ℚ × ℚ => ((p.1 : Num ℚ), p.2))) = l.map (·.2) := rfl
      have h2 : (l.map ((fun p : Num ℚ × ℚ => lift (p.2 * ·) p.1) ∘ fun p : ℚ × ℚ => ((p.1 : Num ℚ), p.2))).sum =
          (((l.map fun p => p.2 * p.1).sum : ℚ) : Num ℚ) := by
        rw [← sum_coe, List.map_map]; rfl
      rw [h1, h2]
      split <;> rfl

/-- The full claim for predictions: a record without interaction counts like no record. -/
def PredictsAsWithout : Prop := ∀ (agg : Agg) (rs : List Rec) (nbrs : List (ℚ × Nat)) (i : Nat), (∀ p ∈ nbrs, 0 < p.1) →
  predictM agg rs nbrs i = predictM agg (present rs) nbrs i

/-- C133 (witness): with one neighbour who lacks the interaction and one who has it, the prediction is NaN instead of the
interaction that is there. -/
theorem C133_predictions_refuted : ¬ PredictsAsWithout := by
  intro h
  have := h .mean exRecs [(1, 0), (1 / 2, 1)] 1 (by intro p hp; simp only [List.mem_cons, List.not_mem_nil, or_false] at hp; rcases hp with rfl | rfl <;> norm_num)
  revert this
  decide +kernel

example : predictM .mean exRecs [(1, 0), (1 / 2, 1)] 1 = some ⊤ ∧ predictM .mean (present exRecs) [(1, 0), (1 / 2, 1)] 1 = some 5 ∧
    predictM .weighted exRecs [(1, 0), (1 / 2, 1)] 0 = some (10 / 3 : ℚ) := by decide +kernel

/-! ## Evaluation -/

/-- C133: a predictive evaluation that counts a test record without interaction, or a prediction that is no number, raises. -/
theorem C133_predictive (predict : Nat → Nat → Option (Num ℚ)) (countNone : Bool) (test : List Rec) (r : Rec) (hr : r ∈ test)
    (h : (r.x = ⊤ ∧ (countNone = true ∨ predict r.uid r.iid ≠ none)) ∨ predict r.uid r.iid = some ⊤) :
    predictiveM predict countNone test = .error .badValue := by
  have hlen : test.length ≠ 0 := (List.length_pos_of_mem hr).ne'
  unfold predictiveM
  rw [if_neg hlen, mseM, if_pos]
  have hmem : ∀ p, (match predict r.uid r.iid with
      | none => if countNone then some (r.x, 0) else none
      | some y => some (r.x, y)) = some p → p ∈ evalPairsM predict countNone test := by
    intro p hp
    exact List.mem_filterMap.2 ⟨r, hr, hp⟩
  cases hp : predict r.uid r.iid with
  | none =>
    rw [hp] at h hmem
    rcases h with ⟨hx, hc⟩ | h
    · rcases hc with hc | hc
      · exact .inl (List.mem_map.2 ⟨(r.x, 0), hmem _ (by simp [hc]), hx⟩)
      · exact absurd rfl hc
    · exact absurd h (by simp)
  | some y =>
    rw [hp] at h hmem
    rcases h with ⟨hx, _⟩ | h
    · exact .inl (List.mem_map.2 ⟨(r.x, y), hmem _ rfl, hx⟩)
    · exact .inr (List.mem_map.2 ⟨(r.x, y), hmem _ rfl, Option.some.inj h⟩)

/-- Without the record there is a result. -/
example : predictiveM (fun _ _ => some 3) false exRecs = .error .badValue ∧
    predictiveM (fun _ _ => some 3) false (present exRecs) = .ok (6 / 4) := by decide +kernel

/-- C133: a test record without interaction is never a relevant one. -/
theorem C133_relevant (thr : ℚ) (test : List Rec) (u i : Nat) :
    i ∈ relevantM thr test u ↔ ∃ r ∈ test, r.uid = u ∧ r.iid = i ∧ ∃ q : ℚ, r.x = q ∧ thr ≤ q := by
  unfold relevantM
  rw [List.mem_map]
  constructor
  · rintro ⟨r, hr, rfl⟩
    obtain ⟨h1, q, h2, h3⟩ := ((C133_select_partial .ge (by decide) thr _).2 r).1 hr
    rw [List.mem_filter] at h1
    exact ⟨r, h1.1, of_decide_eq_true h1.2, rfl, q, h2, of_decide_eq_true h3⟩
  · rintro ⟨r, h1, h2, h3, q, h4, h5⟩
    exact ⟨r, ((C133_select_partial .ge (by decide) thr _).2 r).2
      ⟨List.mem_filter.2 ⟨h1, decide_eq_true h2⟩, q, h4, decide_eq_true h5⟩, h3⟩

theorem dcgM_top {strong : Bool} {rel : Nat → Num ℝ} {l : List Nat} (n : Nat) (h : ∃ r ∈ l, rel r = ⊤) :
    dcgM strong rel l n = ⊤ := by
  induction l generalizing n with
  | nil => obtain ⟨r, hr, _⟩ := h; exact absurd hr List.not_mem_nil
  | cons x l ih =>
    obtain ⟨r, hr, ht⟩ := h
    unfold dcgM
    rw [WithTop.add_eq_top]
    rcases List.mem_cons.1 hr with rfl | hr
    · exact .inl (by rw [ht, lift_top])
    · exact .inr (ih _ ⟨r, hr, ht⟩)

/-- C133: with an item among the first `k` recommended whose test record has no interaction, NDCG is no number or raises. -/
theorem C133_ndcg (strong : Bool) (rel : Nat → Num ℝ) (k : Nat) (recs order : List Nat) (h : ∃ r ∈ recs.take k, rel r = ⊤) :
    ndcgM strong rel k recs order = .error .zeroDiv ∨ ndcgM strong rel k recs order = .ok ⊤ := by
  unfold ndcgM
  split
  · exact .inl rfl
  · exact .inr (by rw [dcgM_top 0 h, lift₂_top_left])

/-- C133: one user whose metric is no number, and the reported mean over all users is none. -/
theorem C133_reported {K : Type} [Field K] (vs : List (Except Err (Num K))) (h : Except.ok ⊤ ∈ vs) : reportedM vs = ⊤ := by
  have hm : ⊤ ∈ vs.filterMap Except.toOption := List.mem_filterMap.2 ⟨_, h, rfl⟩
  unfold reportedM
  dsimp only
  rw [if_neg (List.length_pos_of_mem hm).ne', lift_eq_top, sum_eq_top]
  exact hm

/-- C133: without missing interactions the mean squared difference similarities, NDCG, the reported mean and the predictive
evaluation are the exact ones. -/
theorem C133_present :
    (∀ {K : Type} [Field K] [LinearOrder K] (es : List (Nat × Nat × K)),
      msdSimM (es.map fun e : Nat × Nat × K => (e.1, e.2.1, (e.2.2 : Num K))) =
        (msdSim es).map fun e : Nat × Nat × K => (e.1, e.2.1, (e.2.2 : Num K))) ∧
    (∀ (strong : Bool) (rels : List (Nat × ℝ)) (rel : Nat → ℝ) (k : Nat) (recs : List Nat),
      (∀ r x, lookupRel rels r = some x → rel r = x) → (∀ r ∈ recs.take k, ∃ x, lookupRel rels r = some x) →
      ndcgM strong (fun r => ((rel r : ℝ) : Num ℝ)) k recs (idealOrder rels) =
        (ndcg strong recs (some k) (some rels)).map fun y : ℝ => (y : Num ℝ)) ∧
    (∀ {K : Type} [Field K] (vs : List (Except Err K)),
      reportedM (vs.map fun v => v.map fun x : K => (x : Num K)) =
        (((vs.filterMap Except.toOption).sum / ((vs.filterMap Except.toOption).length : K) : K) : Num K)) ∧
    ∀ (predict : Nat → Nat → Option ℚ) (countNone : Bool) (test : List (Nat × Nat × ℚ)), test ≠ [] →
      predictiveM (fun u i => (predict u i).map fun y : ℚ => (y : Num ℚ)) countNone
          (test.map fun t : Nat × Nat × ℚ => ⟨t.1, t.2.1, (t.2.2 : Num ℚ)⟩) =
        mse ((test.filter fun t => countNone || (predict t.1 t.2.1).isSome).map (·.2.2))
          ((test.filter fun t => countNone || (predict t.1 t.2.1).isSome).map fun t => (predict t.1 t.2.1).getD 0) :=
  ⟨msdSimM_coe, ndcgM_coe, reportedM_coe, predictiveM_coe⟩

/-- Three interactions of two users and two items; two predictions of which one is missing. -/
example : msdSimM [(0, 0, (4 : Num ℚ)), (1, 0, 2), (1, 1, 3)] =
      [(0, 0, 1), (0, 1, ((3 / 4 : ℚ) : Num ℚ)), (1, 0, ((3 / 4 : ℚ) : Num ℚ)), (1, 1, 1)] ∧
    predictiveM (fun _ i => if i = 0 then some 3 else none) true [⟨0, 0, 4⟩, ⟨0, 1, 2⟩] = .ok (5 / 2) ∧
    predictiveM (fun _ i => if i = 0 then some 3 else none) false [⟨0, 0, 4⟩, ⟨0, 1, 2⟩] = .ok 1 := by decide +kernel

/-- Test set of a user with a relevant item and an item without interaction, both recommended: NDCG is no number. -/
example : relevantM 3 exRecs 0 = [0] ∧ relevancyM exRecs 0 1 = ⊤ ∧ relevancyM exRecs 0 0 = 4 ∧ relevancyM exRecs 0 7 = 0 ∧
    reportedM (K := ℚ) [Except.ok ((1 / 2 : ℚ) : Num ℚ), Except.ok ⊤, Except.error Err.zeroDiv] = ⊤ ∧
    reportedM (K := ℚ) [Except.ok ((1 / 2 : ℚ) : Num ℚ), Except.ok ((1 : ℚ) : Num ℚ), Except.error Err.zeroDiv] =
      ((3 / 4 : ℚ) : Num ℚ) := by decide +kernel

end DRec.Miss
