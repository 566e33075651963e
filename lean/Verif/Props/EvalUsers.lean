import Verif.Props.Evaluation

/-!
# C46, C47, C48, C50: what is evaluated for a user
-/

namespace DRec

open Spec

theorem mem_thresholdRows {t : ℚ} {rows : List Row} {r : Row} :
    r ∈ thresholdRows (some t) rows ↔ r ∈ rows ∧ IsPositive t r := by
  simp only [thresholdRows, List.mem_filter, IsPositive]
  refine and_congr_right fun _ => ?_
  cases r.get "interaction" <;> simp

theorem mem_belowThreshold {t : ℚ} {rows : List Row} {r : Row} :
    r ∈ belowThreshold t rows ↔ r ∈ rows ∧ IsNegative t r := by
  simp only [belowThreshold, List.mem_filter, IsNegative]
  refine and_congr_right fun _ => ?_
  cases r.get "interaction" <;> simp

/-! ## The rejection loop -/

theorem genLoop_spec {nItems : Nat} {black : List Val} {wanted : Nat} {draws : List Nat} {cur l : List Val}
    (hlen : cur.length ≤ wanted) (h : genLoop nItems black wanted cur draws = some l) :
    l.length = wanted ∧ ∃ fresh : List Val, l = cur ++ fresh ∧ fresh.Nodup ∧
      (∀ x ∈ fresh, x ∉ black ∧ x ∉ cur ∧ ∃ j : Nat, j ≤ nItems - 1 ∧ x = .num (j : ℚ)) := by
  induction draws generalizing cur with
  | nil =>
    simp only [genLoop] at h
    split at h
    · cases h
    · cases h
      exact ⟨by omega, [], by simp⟩
  | cons d ds ih =>
    simp only [genLoop] at h
    split at h
    next hlt =>
      split at h
      next hx =>
        obtain ⟨hl, fresh, he, hn, hf⟩ := ih (by simp; omega) h
        refine ⟨hl, Val.num (randint0 (nItems - 1) d : ℕ) :: fresh, by rw [he]; simp, ?_, ?_⟩
        · refine List.nodup_cons.2 ⟨fun hm => ?_, hn⟩
          exact (hf _ hm).2.1 (by simp)
        · intro x hm
          rcases List.mem_cons.1 hm with rfl | hm
          · exact ⟨hx.1, hx.2, _, randint0_le _ _, rfl⟩
          · obtain ⟨h1, h2, h3⟩ := hf x hm
            exact ⟨h1, fun hc => h2 (by simp [hc]), h3⟩
      · exact ih hlen h
    next => cases h; exact ⟨by omega, [], by simp⟩

/-- Among `n` numbers there is one outside of a shorter list. -/
theorem exists_num_not_mem (n : Nat) (l : List Val) (h : l.length < n) :
    ∃ j : Nat, j < n ∧ Val.num (j : ℚ) ∉ l := by
  by_contra hc
  push Not at hc
  have hnd : ((List.range n).map fun j : Nat => Val.num (j : ℚ)).Nodup := by
    refine (List.nodup_map_iff_inj_on List.nodup_range).2 ?_
    intro x _ y _ e
    simpa using e
  have hsub : ((List.range n).map fun j : Nat => Val.num (j : ℚ)) ⊆ l := by
    intro x hx
    obtain ⟨j, hj, rfl⟩ := List.mem_map.1 hx
    exact hc j (List.mem_range.1 hj)
  have := (List.subperm_of_subset hnd hsub).length_le
  simp at this
  omega

theorem genLoop_finish (nItems : Nat) (black : List Val) (wanted : Nat)
    (hg : (wanted : Int) ≤ (nItems : Int) - black.length) (m : Nat) :
    ∀ cur : List Val, wanted - cur.length = m → ∃ draws, (genLoop nItems black wanted cur draws).isSome := by
  induction m with
  | zero =>
    intro cur hm
    exact ⟨[], by simp [genLoop, show ¬ cur.length < wanted by omega]⟩
  | succ m ih =>
    intro cur hm
    obtain ⟨j, hj, hnot⟩ := exists_num_not_mem nItems (black ++ cur) (by simp; omega)
    obtain ⟨draws, hd⟩ := ih (cur ++ [Val.num (j : ℚ)]) (by simp; omega)
    refine ⟨j :: draws, ?_⟩
    have hr : randint0 (nItems - 1) j = j := randint0_of_le (by omega)
    simp only [List.mem_append, not_or] at hnot
    simp only [genLoop, hr, show cur.length < wanted by omega, if_true]
    rw [if_pos hnot]
    exact hd

theorem genLoop_reach (nItems : Nat) (black : List Val) (wanted : Nat)
    (hg : (wanted : Int) ≤ (nItems : Int) - black.length) (before : List Nat) :
    ∀ cur : List Val, ∃ draws, (genLoop nItems black wanted cur (before ++ draws)).isSome := by
  induction before with
  | nil => intro cur; exact genLoop_finish nItems black wanted hg _ cur rfl
  | cons d ds ih =>
    intro cur
    simp only [List.cons_append, genLoop]
    split
    · split
      · exact ih _
      · exact ih _
    · exact ⟨[], rfl⟩

theorem mem_distinct_iff {xs : List Val} {v : Val} : v ∈ distinctVals xs ↔ v ∈ xs := mem_distinctVals xs v

/-- What the blacklist contains. -/
theorem blacklist_mem {model : EvalModel} (ht : IntUsers model.train) {a : EvalArgs} {u : Int}
    {rows : List Row} (hte : a.trainEval = true → recordsOf model.train.rows (.num u) = rows)
    {black : List Val}
    (hb : blacklist model a (.num u) (thresholdRows (some a.threshold) rows) = .ok black) :
    ∀ r ∈ rows ++ recordsOf model.train.rows (.num u), IsPositive a.threshold r → itemOf r ∈ black := by
  intro r hr hp
  unfold blacklist at hb
  have hsplit : ∀ r ∈ rows, IsPositive a.threshold r →
      itemOf r ∈ (thresholdRows (some a.threshold) rows).map (·.get "item") := fun r hr hp =>
    List.mem_map.2 ⟨r, mem_thresholdRows.2 ⟨hr, hp⟩, rfl⟩
  split at hb
  next h =>
    cases hb
    rw [hte h] at hr
    rw [mem_distinct_iff]
    exact hsplit r (by simpa using hr) hp
  next =>
    simp only [trainPositives, userRows_int ht, Except.map, Except.ok.injEq] at hb
    subst hb
    rw [mem_distinct_iff, List.mem_append]
    rcases List.mem_append.1 hr with h | h
    · exact .inr (hsplit r h hp)
    · exact .inl (List.mem_map.2 ⟨r, mem_thresholdRows.2 ⟨h, hp⟩, rfl⟩)

/-- What the negatives of a user are made of. -/
theorem negativesOf_spec {model : EvalModel} (ht : IntUsers model.train) {a : EvalArgs} {n : NegArg}
    (hn : a.nNeg = some n) {u : Int} {rows : List Row}
    (hte : a.trainEval = true → recordsOf model.train.rows (.num u) = rows) {nS : Nat} {rng : EvalRng}
    {l : List Val} (h : negativesOf model a (.num u) (thresholdRows (some a.threshold) rows) nS
      (belowThreshold a.threshold rows) rng = .ok (.done l)) :
    (a.generate = true → l.length = n.wanted nS) ∧ ∃ listed fresh : List Val, l = listed ++ fresh ∧
      listed.Subperm ((belowThreshold a.threshold rows).map itemOf) ∧ fresh.Nodup ∧
      ∀ x ∈ fresh, x ∉ listed ∧
        (∀ r ∈ rows ++ recordsOf model.train.rows (.num u), IsPositive a.threshold r → itemOf r ≠ x) ∧
        ∃ j : Nat, j < model.nItems ∧ x = .num (j : ℚ) := by
  unfold negativesOf at h
  simp only [hn] at h
  set first := pySample ((belowThreshold a.threshold rows).map (·.get "item"))
    (min (n.wanted nS) (belowThreshold a.threshold rows).length) rng.neg with hfirst
  have hfl : first.length = min (n.wanted nS) (belowThreshold a.threshold rows).length :=
    pySample_length _ _ _ (by simp)
  have hsub : first.Subperm ((belowThreshold a.threshold rows).map itemOf) := pySample_subperm _ _ _
  split at h
  next hc =>
    split at h
    · cases h
    next black hb =>
      split at h
      · cases h
      next hguard =>
        split at h
        · cases h
        next l' hl' =>
          simp only [Except.ok.injEq, Outcome.done.injEq] at h
          subst h
          obtain ⟨h1, fresh, h2, h3, h4⟩ := genLoop_spec (by omega) hl'
          refine ⟨fun _ => h1, first, fresh, h2, hsub, h3, ?_⟩
          intro x hx
          obtain ⟨h5, h6, j, h7, rfl⟩ := h4 x hx
          refine ⟨h6, fun r hr hp e => h5 (e ▸ blacklist_mem ht hte hb r hr hp), j, ?_, rfl⟩
          omega
  next hc =>
    simp only [Except.ok.injEq, Outcome.done.injEq] at h
    subst h
    refine ⟨fun hg => ?_, first, [], by simp, hsub, List.nodup_nil, by simp⟩
    have : ¬ first.length < n.wanted nS := fun hlt => hc ⟨hlt, hg⟩
    omega

/-! ## C46 -/

/-- **C46**, count: with generation the number of negatives is exactly the one asked for. -/
theorem C46_exact_number (model : EvalModel) (ht : IntUsers model.train) (a : EvalArgs) (n : NegArg)
    (hn : a.nNeg = some n) (hg : a.generate = true) (u : Int) (rows : List Row)
    (hte : a.trainEval = true → recordsOf model.train.rows (.num u) = rows) (nS : Nat) (rng : EvalRng)
    (l : List Val) (h : negativesOf model a (.num u) (thresholdRows (some a.threshold) rows) nS
      (belowThreshold a.threshold rows) rng = .ok (.done l)) :
    l.length = n.wanted nS :=
  (negativesOf_spec ht hn hte h).1 hg

/-- **C46**, generated part: the negatives are some listed ones followed by generated ones; the generated
ones are pairwise distinct, different from the listed ones and never a positive of the user, in the train
or the test set. -/
theorem C46_generated (model : EvalModel) (ht : IntUsers model.train) (a : EvalArgs) (n : NegArg)
    (hn : a.nNeg = some n) (u : Int) (rows : List Row)
    (hte : a.trainEval = true → recordsOf model.train.rows (.num u) = rows) (nS : Nat) (rng : EvalRng)
    (l : List Val) (h : negativesOf model a (.num u) (thresholdRows (some a.threshold) rows) nS
      (belowThreshold a.threshold rows) rng = .ok (.done l)) :
    ∃ listed fresh : List Val, l = listed ++ fresh ∧
      (∀ x ∈ listed, ∃ r ∈ rows, IsNegative a.threshold r ∧ itemOf r = x) ∧ fresh.Nodup ∧
      ∀ x ∈ fresh, x ∉ listed ∧
        ∀ r ∈ rows ++ recordsOf model.train.rows (.num u), IsPositive a.threshold r → itemOf r ≠ x := by
  obtain ⟨_, listed, fresh, h1, h2, h3, h4⟩ := negativesOf_spec ht hn hte h
  refine ⟨listed, fresh, h1, fun x hx => ?_, h3, fun x hx => ⟨(h4 x hx).1, (h4 x hx).2.1⟩⟩
  obtain ⟨r, hr, e⟩ := List.mem_map.1 (h2.subset hx)
  exact ⟨r, (mem_belowThreshold.1 hr).1, (mem_belowThreshold.1 hr).2, e⟩

/-- **C46** (partial: the user's test records have different items and no negative test record is about
an item the user rated positively in the train set; the full property is without these two conditions and
fails, see `C46_fails_repeated` and `C46_fails_positive`).  All negatives are pairwise distinct and none
is a positive item of the user. -/
theorem C46_negatives_partial (model : EvalModel) (ht : IntUsers model.train) (a : EvalArgs) (n : NegArg)
    (hn : a.nNeg = some n) (u : Int) (rows : List Row)
    (hte : a.trainEval = true → recordsOf model.train.rows (.num u) = rows)
    (hd : (rows.map itemOf).Nodup)
    (hneg : ∀ r ∈ rows, IsNegative a.threshold r → ∀ r' ∈ recordsOf model.train.rows (.num u),
      IsPositive a.threshold r' → itemOf r' ≠ itemOf r)
    (nS : Nat) (rng : EvalRng)
    (l : List Val) (h : negativesOf model a (.num u) (thresholdRows (some a.threshold) rows) nS
      (belowThreshold a.threshold rows) rng = .ok (.done l)) :
    l.Nodup ∧
      ∀ x ∈ l, ∀ r ∈ rows ++ recordsOf model.train.rows (.num u), IsPositive a.threshold r → itemOf r ≠ x := by
  obtain ⟨_, listed, fresh, rfl, h2, h3, h4⟩ := negativesOf_spec ht hn hte h
  have hsl : ((belowThreshold a.threshold rows).map itemOf).Sublist (rows.map itemOf) :=
    List.Sublist.map _ List.filter_sublist
  have hnd : listed.Nodup := by
    obtain ⟨l', hp, hs⟩ := h2
    exact hp.nodup_iff.1 (hs.nodup (hsl.nodup hd))
  refine ⟨List.nodup_append.2 ⟨hnd, h3, ?_⟩, ?_⟩
  · rintro x hx y hy rfl
    exact (h4 x hy).1 hx
  · intro x hx r hr hp e
    rcases List.mem_append.1 hx with hx | hx
    · obtain ⟨r0, hr0, e0⟩ := List.mem_map.1 (h2.subset hx)
      obtain ⟨hr0, hn0⟩ := mem_belowThreshold.1 hr0
      rcases List.mem_append.1 hr with hr | hr
      · have : r = r0 := List.inj_on_of_nodup_map hd hr hr0 (e.trans e0.symm)
        subst this
        obtain ⟨q, hq, hlt⟩ := hn0
        obtain ⟨q', hq', hle⟩ := hp
        rw [hq] at hq'
        cases hq'
        exact absurd hlt (not_lt.2 hle)
      · exact hneg r0 hr0 hn0 r hr hp (e.trans e0.symm)
    · exact (h4 x hx).2.1 r hr hp e

/-- **C46**, loop: whatever has been drawn so far, the loop can still reach the number asked for. -/
theorem C46_loop_can_end (model : EvalModel) (a : EvalArgs) (user : Val) (testPos : List Row)
    (nS : Nat) (neg : List Row) (rng : EvalRng) (before : List Nat) :
    ∃ draws, negativesOf model a user testPos nS neg { rng with items := before ++ draws } ≠ .ok .more := by
  unfold negativesOf
  cases a.nNeg with
  | none => exact ⟨[], by simp⟩
  | some n =>
    simp only
    split
    · cases hb : blacklist model a user testPos with
      | error e => exact ⟨[], by simp⟩
      | ok black =>
        simp only
        split
        · exact ⟨[], by simp⟩
        next hguard =>
          obtain ⟨draws, hd⟩ := genLoop_reach model.nItems black (n.wanted nS) (by omega) before
            (pySample (neg.map (·.get "item")) (min (n.wanted nS) neg.length) rng.neg)
          refine ⟨draws, ?_⟩
          cases hl : genLoop model.nItems black (n.wanted nS)
            (pySample (neg.map (·.get "item")) (min (n.wanted nS) neg.length) rng.neg) (before ++ draws) with
          | none => rw [hl] at hd; cases hd
          | some l => simp
    · exact ⟨[], by simp⟩

/-! ## C47 -/

/-- The model knows a raw item id. -/
def KnownItem (model : EvalModel) (x : Val) : Prop := ∃ r ∈ model.train.rows, itemOf r = x

/-- **C47** (partial: the raw item ids of the train set include 0, …, n−1; the full property is for every
train set and fails, see `C47_fails`).  Every generated negative is a raw item id known to the model. -/
theorem C47_known_partial (model : EvalModel) (ht : IntUsers model.train)
    (hitems : ∀ j : Nat, j < model.nItems → KnownItem model (.num (j : ℚ)))
    (a : EvalArgs) (n : NegArg) (hn : a.nNeg = some n) (u : Int) (rows : List Row)
    (hte : a.trainEval = true → recordsOf model.train.rows (.num u) = rows) (nS : Nat) (rng : EvalRng)
    (l : List Val) (h : negativesOf model a (.num u) (thresholdRows (some a.threshold) rows) nS
      (belowThreshold a.threshold rows) rng = .ok (.done l)) :
    ∀ x ∈ l, (∀ r ∈ rows, itemOf r ≠ x) → KnownItem model x := by
  obtain ⟨_, listed, fresh, rfl, h2, h3, h4⟩ := negativesOf_spec ht hn hte h
  intro x hx hnot
  rcases List.mem_append.1 hx with hx | hx
  · obtain ⟨r, hr, e⟩ := List.mem_map.1 (h2.subset hx)
    exact absurd e (hnot r (mem_belowThreshold.1 hr).1)
  · obtain ⟨_, _, j, hj, rfl⟩ := h4 x hx
    exact hitems j hj

/-! ## C48 -/

theorem foldl_max {α : Type} (f : α → ℚ) (xs : List α) (b : α) :
    (xs.foldl (fun b y => if f b < f y then y else b) b ∈ b :: xs) ∧
    ∀ y ∈ b :: xs, f y ≤ f (xs.foldl (fun b y => if f b < f y then y else b) b) := by
  induction xs generalizing b with
  | nil => simp
  | cons x xs ih =>
    simp only [List.foldl_cons]
    obtain ⟨h1, h2⟩ := ih (if f b < f x then x else b)
    constructor
    · rcases List.mem_cons.1 h1 with h | h
      · rw [h]; split <;> simp
      · simp [h]
    · intro y hy
      have hb : f b ≤ f (if f b < f x then x else b) ∧ f x ≤ f (if f b < f x then x else b) := by
        split
        next h => exact ⟨h.le, le_rfl⟩
        next h => exact ⟨le_rfl, not_lt.1 h⟩
      have htop := h2 _ (List.mem_cons_self)
      rcases List.mem_cons.1 hy with rfl | hy
      · exact hb.1.trans htop
      · rcases List.mem_cons.1 hy with rfl | hy
        · exact hb.2.trans htop
        · exact h2 y (by simp [hy])

/-- **C48 fails**: the item handed to the single-item metrics always has the *lowest* interaction of the
sampled positives. -/
theorem C48_best_is_lowest (sampled : List Row) (v : Val) (h : bestItem sampled = some v) :
    ∃ r ∈ sampled, itemOf r = v ∧ ∀ r' ∈ sampled, sortKey "interaction" r ≤ sortKey "interaction" r' := by
  unfold bestItem at h
  cases sampled with
  | nil => simp [pyMaxBy] at h
  | cons x xs =>
    simp only [pyMaxBy, Option.map_some, Option.some.injEq] at h
    obtain ⟨h1, h2⟩ := foldl_max (fun r => -sortKey "interaction" r) xs x
    exact ⟨_, h1, h, fun r' hr' => neg_le_neg_iff.1 (h2 r' hr')⟩

/-- **C48 fails** as soon as two sampled positives with different items differ in interaction. -/
theorem C48_fails (sampled : List Row) (hd : (sampled.map itemOf).Nodup) (r1 r2 : Row) (h1 : r1 ∈ sampled)
    (h2 : r2 ∈ sampled) (hlt : sortKey "interaction" r1 < sortKey "interaction" r2) :
    ∀ r ∈ sampled, bestItem sampled = some (itemOf r) →
      ¬ ∀ r' ∈ sampled, sortKey "interaction" r' ≤ sortKey "interaction" r := by
  intro r hr hb hall
  obtain ⟨r0, hr0, e, hlow⟩ := C48_best_is_lowest _ _ hb
  have : r0 = r := List.inj_on_of_nodup_map hd hr0 hr e
  subst this
  exact absurd (hlt.trans_le (hall r2 h2)) (not_lt.2 (hlow r1 h1))

/-- **C48** (partial: all sampled positives have the same interaction; the full property is for every
list and fails, see `C48_fails`).  The item has the highest interaction. -/
theorem C48_best_partial (sampled : List Row) (hne : sampled ≠ [])
    (heq : ∀ r ∈ sampled, ∀ r' ∈ sampled, sortKey "interaction" r = sortKey "interaction" r') :
    ∃ r ∈ sampled, bestItem sampled = some (itemOf r) ∧
      ∀ r' ∈ sampled, sortKey "interaction" r' ≤ sortKey "interaction" r := by
  cases sampled with
  | nil => exact absurd rfl hne
  | cons x xs =>
    have h1 := (foldl_max (fun r => -sortKey "interaction" r) xs x).1
    exact ⟨_, h1, rfl, fun r' hr' => (heq r' hr' _ h1).le⟩

/-! ## C50 -/

variable {K : Type} [Field K] [LinearOrder K] [FloorRing K]

/-- The pair of true and predicted value of a record, if there is one: a missing prediction counts as 0
when requested. -/
def Spec.available (predict : Val → Val → Except Err (Option ℚ)) (countNone : Bool)
    (rec : Val × Val × ℚ) : Option (ℚ × ℚ) :=
  match predict rec.1 rec.2.1 with
  | .ok (some y) => some (rec.2.2, y)
  | .ok none => if countNone then some (rec.2.2, 0) else none
  | .error _ => none

theorem predictLoop_eq (predict : Val → Val → Except Err (Option ℚ)) (countNone : Bool) (left : Nat)
    (recs : List (Val × Val × ℚ)) (h : ∀ rec ∈ recs, ∃ p, predict rec.1 rec.2.1 = .ok p) :
    predictLoop predict countNone left recs =
      .ok ((recs.filterMap (Spec.available predict countNone)).take left) := by
  induction recs generalizing left with
  | nil => simp [predictLoop]
  | cons rec rest ih =>
    obtain ⟨u, i, x⟩ := rec
    have ih := fun left => ih left fun rec hr => h rec (List.mem_cons_of_mem _ hr)
    obtain ⟨p, hp⟩ := h (u, i, x) (by simp)
    simp only at hp
    simp only [predictLoop, List.filterMap_cons, Spec.available, hp]
    rcases left with _ | left
    · simp
    · cases p with
      | some y => simp [ih, Except.map]
      | none =>
        cases countNone with
        | true => simp [ih, Except.map]
        | false => simp [ih]

/-- **C50.** When no prediction raises (`skip_errors`), the metric is applied to exactly the first
`n_test_predictions` available pairs, each prediction paired with the interaction of its own record. -/
theorem C50_pairs (predict : Val → Val → Except Err (Option ℚ)) (countNone : Bool) (n : Option Nat)
    (metric : List ℚ → List ℚ → Except Err K) (recs : List (Val × Val × ℚ))
    (h : ∀ rec ∈ recs, ∃ p, predict rec.1 rec.2.1 = .ok p) (hn : 0 < n.getD recs.length) :
    ∃ pairs, pairs = (recs.filterMap (Spec.available predict countNone)).take (n.getD recs.length) ∧
      predictiveEval predict countNone n metric recs =
        (metric (pairs.map (·.1)) (pairs.map (·.2))).map round4 := by
  refine ⟨_, rfl, ?_⟩
  unfold predictiveEval
  rw [if_neg (by omega), predictLoop_eq predict countNone _ recs h]
  have hl : (recs.filterMap (Spec.available predict countNone)).length ≤ recs.length :=
    List.length_filterMap_le _ _
  have : (recs.filterMap (Spec.available predict countNone)).take (min (n.getD recs.length) recs.length) =
      (recs.filterMap (Spec.available predict countNone)).take (n.getD recs.length) := by
    rw [List.take_eq_take_iff]
    omega
  simp only [this]

/-- **C50**, counting missing predictions: the records used are the first `n_test_predictions`. -/
theorem C50_count_none (predict : Val → Val → Except Err (Option ℚ)) (recs : List (Val × Val × ℚ))
    (h : ∀ rec ∈ recs, ∃ p, predict rec.1 rec.2.1 = .ok p) (n : Nat) :
    ((recs.filterMap (Spec.available predict true)).take n).map (·.1) = (recs.take n).map (·.2.2) := by
  rw [List.map_take, List.map_take]
  congr 1
  induction recs with
  | nil => rfl
  | cons rec rest ih =>
    obtain ⟨p, hp⟩ := h rec (by simp)
    have ih := ih fun rec hr => h rec (List.mem_cons_of_mem _ hr)
    cases p <;> simp [Spec.available, hp, ih]

/-- **C50**, raising predictions: an exception ends the evaluation exactly when it is reached before
enough predictions have been made. -/
theorem C50_error (predict : Val → Val → Except Err (Option ℚ)) (countNone : Bool) (left : Nat)
    (good : List (Val × Val × ℚ)) (bad : Val × Val × ℚ) (rest : List (Val × Val × ℚ)) (e : Err)
    (h : ∀ rec ∈ good, ∃ p, predict rec.1 rec.2.1 = .ok p) (hb : predict bad.1 bad.2.1 = .error e) :
    predictLoop predict countNone left (good ++ bad :: rest) =
      if left ≤ (good.filterMap (Spec.available predict countNone)).length then
        .ok ((good.filterMap (Spec.available predict countNone)).take left)
      else .error e := by
  induction good generalizing left with
  | nil =>
    obtain ⟨u, i, x⟩ := bad
    simp only at hb
    rcases left with _ | left <;> simp [predictLoop, hb]
  | cons rec good ih =>
    obtain ⟨u, i, x⟩ := rec
    have ih := fun left => ih left fun rec hr => h rec (List.mem_cons_of_mem _ hr)
    obtain ⟨p, hp⟩ := h (u, i, x) (by simp)
    simp only at hp
    simp only [List.cons_append, predictLoop, List.filterMap_cons, Spec.available, hp]
    rcases left with _ | left
    · simp
    · cases p with
      | some y =>
        simp only [Nat.add_one_ne_zero, if_false, Nat.add_sub_cancel, ih, List.length_cons,
          Nat.add_le_add_iff_right, List.take_succ_cons]
        split <;> simp [Except.map]
      | none =>
        cases countNone with
        | true =>
          simp only [Nat.add_one_ne_zero, if_false, if_true, Nat.add_sub_cancel, ih, List.length_cons,
            Nat.add_le_add_iff_right, List.take_succ_cons]
          split <;> simp [Except.map]
        | false => simp [ih]

/-! ## Examples and counterexamples -/

/-- Train set with items 100 and 200; user 1 likes both. -/
def exRawTrain : Mem := mkMem .int [(.num 1, .num 100, 5), (.num 2, .num 200, 4)]

def exRawModel : EvalModel := { exEvalModel with train := exRawTrain, nItems := 2 }

theorem mkMem_int {rows : List (Val × Val × ℚ)} (h : ∀ p ∈ rows, ∃ n : Int, p.1 = .num n) :
    IntUsers (mkMem .int rows) := by
  refine ⟨by simp [mkMem], by simp [mkMem], ?_⟩
  intro r hr
  simp only [mkMem, List.mem_map] at hr
  obtain ⟨p, hp, rfl⟩ := hr
  obtain ⟨n, hn⟩ := h p.1 (List.fst_mem_of_mem_zipIdx hp)
  exact ⟨n, by simp [mkRow, Row.get, hn]⟩

theorem exRawTrain_ok : IntUsers exRawTrain :=
  mkMem_int fun p hp => by
    simp only [List.mem_cons, List.not_mem_nil, or_false] at hp
    rcases hp with rfl | rfl
    · exact ⟨1, by norm_num⟩
    · exact ⟨2, by norm_num⟩

/-- Arguments with generation of two negatives. -/
def exGenArgs (n : Nat) (trainEval : Bool) : EvalArgs := ⟨3, none, some (.count n), true, trainEval, false⟩

/-- **C46 fails**: the same item listed twice below the threshold is used twice. -/
theorem C46_fails_repeated : ∃ (rows : List Row) (l : List Val),
    negativesOf exRawModel (exGenArgs 2 false) (.num 1) (thresholdRows (some 3) rows) 1
      (belowThreshold 3 rows) exEvalRng = .ok (.done l) ∧ ¬ l.Nodup := by
  refine ⟨[mkRow 0 [("user", .num 1), ("item", .num 7), ("interaction", .num 1)],
    mkRow 1 [("user", .num 1), ("item", .num 7), ("interaction", .num 2)]], [.num 7, .num 7], ?_, by simp⟩
  rfl

/-- **C46 fails**: an item that is positive in the train set and negative in the test set is used. -/
theorem C46_fails_positive : ∃ (rows : List Row) (l : List Val) (r : Row),
    negativesOf exRawModel (exGenArgs 1 false) (.num 1) (thresholdRows (some 3) rows) 1
      (belowThreshold 3 rows) exEvalRng = .ok (.done l) ∧
    r ∈ recordsOf exRawTrain.rows (.num 1) ∧ IsPositive 3 r ∧ itemOf r ∈ l := by
  refine ⟨[mkRow 0 [("user", .num 1), ("item", .num 100), ("interaction", .num 1)]], [.num 100],
    mkRow 0 [("user", .num 1), ("item", .num 100), ("interaction", .num 5)], rfl, ?_, ?_, ?_⟩
  · have : recordsOf exRawTrain.rows (.num 1) =
        [mkRow 0 [("user", .num 1), ("item", .num 100), ("interaction", .num 5)]] := rfl
    rw [this]; simp
  · exact ⟨5, rfl, by norm_num⟩
  · simp [itemOf, mkRow, Row.get]

/-- **C47 fails**: with raw ids 100 and 200 the generated negative is 0, which no item has. -/
theorem C47_fails : ∃ (rows : List Row) (l : List Val) (x : Val),
    negativesOf exRawModel (exGenArgs 1 false) (.num 1) (thresholdRows (some 3) rows) 1
      (belowThreshold 3 rows) exEvalRng = .ok (.done l) ∧
    x ∈ l ∧ (∀ r ∈ rows, itemOf r ≠ x) ∧ ¬ KnownItem exRawModel x := by
  refine ⟨[mkRow 0 [("user", .num 1), ("item", .num 100), ("interaction", .num 5)]], [.num 0], .num 0, ?_,
    by simp, ?_, ?_⟩
  · rfl
  · decide +kernel
  · rintro ⟨r, hr, e⟩
    have : ∀ r ∈ exRawModel.train.rows, decide (itemOf r ≠ .num 0) = true := by decide +kernel
    exact absurd e (by simpa using this r hr)

/-- Train set with items 0 to 3. -/
def exLowTrain : Mem := mkMem .int [(.num 1, .num 0, 5), (.num 2, .num 1, 4), (.num 2, .num 2, 4),
  (.num 2, .num 3, 4)]

theorem exLowTrain_ok : IntUsers exLowTrain :=
  mkMem_int fun p hp => by
    simp only [List.mem_cons, List.not_mem_nil, or_false] at hp
    rcases hp with rfl | rfl | rfl | rfl
    · exact ⟨1, by norm_num⟩
    · exact ⟨2, by norm_num⟩
    · exact ⟨2, by norm_num⟩
    · exact ⟨2, by norm_num⟩

def exLowModel : EvalModel := { exEvalModel with train := exLowTrain, nItems := 4 }

def exLowRows : List Row :=
  [mkRow 0 [("user", .num 1), ("item", .num 1), ("interaction", .num 5)],
   mkRow 1 [("user", .num 1), ("item", .num 7), ("interaction", .num 1)]]

example : IntUsers exLowModel.train ∧
    (∀ j : Nat, j < exLowModel.nItems → KnownItem exLowModel (.num (j : ℚ))) ∧
    (exGenArgs 2 false).nNeg = some (.count 2) ∧ (exLowRows.map itemOf).Nodup ∧
    (∀ r ∈ exLowRows, IsNegative 3 r → ∀ r' ∈ recordsOf exLowModel.train.rows (.num 1),
      IsPositive 3 r' → itemOf r' ≠ itemOf r) ∧
    (match negativesOf exLowModel (exGenArgs 2 false) (.num 1)
        (thresholdRows (some 3) exLowRows) 1 (belowThreshold 3 exLowRows)
        { exEvalRng with items := [0, 1, 2] } with
      | .ok (.done l) => l
      | _ => []) = [.num 7, .num 2] := by
  refine ⟨exLowTrain_ok, ?_, rfl, by decide +kernel, ?_, by decide +kernel⟩
  · intro j hj
    have hj : j < 4 := hj
    match j, hj with
    | 0, _ => exact ⟨_, List.mem_cons_self, by decide +kernel⟩
    | 1, _ => exact ⟨_, List.mem_cons_of_mem _ List.mem_cons_self, by decide +kernel⟩
    | 2, _ => exact ⟨_, List.mem_cons_of_mem _ (List.mem_cons_of_mem _ List.mem_cons_self), by decide +kernel⟩
    | 3, _ => exact ⟨_, List.mem_cons_of_mem _ (List.mem_cons_of_mem _ (List.mem_cons_of_mem _
        List.mem_cons_self)), by decide +kernel⟩
  · intro r hr _ r' hr' _
    have : ∀ r ∈ exLowRows, ∀ r' ∈ recordsOf exLowModel.train.rows (.num 1),
      decide (itemOf r' ≠ itemOf r) = true := by decide +kernel
    simpa using this r hr r' hr'

example : ∃ sampled : List Row, ∃ r1 ∈ sampled, ∃ r2 ∈ sampled, (sampled.map itemOf).Nodup ∧
    sortKey "interaction" r1 < sortKey "interaction" r2 ∧ bestItem sampled = some (itemOf r1) :=
  ⟨[mkRow 0 [("item", .num 1), ("interaction", .num 5)], mkRow 1 [("item", .num 2), ("interaction", .num 4)]],
    mkRow 1 [("item", .num 2), ("interaction", .num 4)], by simp,
    mkRow 0 [("item", .num 1), ("interaction", .num 5)], by simp, by decide +kernel, by decide +kernel,
    by decide +kernel⟩

example : ∃ sampled : List Row, sampled.length = 2 ∧
    ∀ r ∈ sampled, ∀ r' ∈ sampled, sortKey "interaction" r = sortKey "interaction" r' :=
  ⟨[mkRow 0 [("item", .num 1), ("interaction", .num 5)], mkRow 1 [("item", .num 2), ("interaction", .num 5)]],
    rfl, by decide +kernel⟩

/-- A model that predicts 3 for item 1, nothing for item 2. -/
def exPredict : Val → Val → Except Err (Option ℚ) :=
  fun _ i => if i = .num 1 then .ok (some 3) else if i = .num 2 then .ok none else .error .badValue

example : (∀ rec ∈ [(Val.num 7, Val.num 2, (4 : ℚ)), (.num 7, .num 1, 5)],
      ∃ p, exPredict rec.1 rec.2.1 = .ok p) ∧
    [(Val.num 7, Val.num 2, (4 : ℚ)), (.num 7, .num 1, 5)].filterMap (Spec.available exPredict false) =
      [(5, 3)] ∧
    exPredict (.num 7) (.num 9) = .error .badValue := by
  refine ⟨?_, by decide +kernel, by simp [exPredict]⟩
  intro rec hr
  simp only [List.mem_cons, List.not_mem_nil, or_false] at hr
  rcases hr with rfl | rfl
  · exact ⟨none, rfl⟩
  · exact ⟨some 3, rfl⟩

end DRec
