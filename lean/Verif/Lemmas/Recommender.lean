import Verif.Spec.Recommender
import Verif.Lemmas.Splits
import Verif.Lemmas.Matrix
import Verif.Lemmas.MemHeap

/-! # Lemmas on ranking -/

namespace DRec

open Spec

/-! ## nlargest -/

theorem pairGe_total (a b : ℚ × Nat) : pairGe a b ∨ pairGe b a := by
  unfold pairGe
  rcases lt_trichotomy a.1 b.1 with h | h | h
  · exact .inr (.inl h)
  · rcases Nat.le_total a.2 b.2 with h2 | h2
    · exact .inr (.inr ⟨h, h2⟩)
    · exact .inl (.inr ⟨h.symm, h2⟩)
  · exact .inl (.inl h)

theorem pairGe_trans {a b c : ℚ × Nat} (h1 : pairGe a b) (h2 : pairGe b c) : pairGe a c := by
  unfold pairGe at *
  rcases h1 with h1 | ⟨h1, h1'⟩ <;> rcases h2 with h2 | ⟨h2, h2'⟩
  · exact .inl (h2.trans h1)
  · exact .inl (h2 ▸ h1)
  · exact .inl (h1 ▸ h2)
  · exact .inr ⟨h2.trans h1, h2'.trans h1'⟩

theorem pairGe_antisymm {a b : ℚ × Nat} (h1 : pairGe a b) (h2 : pairGe b a) : a = b := by
  unfold pairGe at *
  rcases h1 with h1 | ⟨h1, h1'⟩ <;> rcases h2 with h2 | ⟨h2, h2'⟩
  · exact absurd h1 (not_lt.2 h2.le)
  · exact absurd h1 (by rw [h2]; exact lt_irrefl _)
  · exact absurd h2 (by rw [h1]; exact lt_irrefl _)
  · exact Prod.ext h2 (Nat.le_antisymm h2' h1')

instance : Std.Total pairGe := ⟨pairGe_total⟩
instance : IsTrans (ℚ × Nat) pairGe := ⟨fun _ _ _ => pairGe_trans⟩
instance : Std.Antisymm pairGe := ⟨fun _ _ => pairGe_antisymm⟩

theorem pairGe_le {a b : ℚ × Nat} (h : pairGe a b) : b.1 ≤ a.1 := by
  rcases h with h | h
  · exact h.le
  · exact h.1.le

theorem sorted_pairs (l : List (ℚ × Nat)) : (l.insertionSort pairGe).Pairwise pairGe :=
  List.pairwise_insertionSort pairGe l

theorem nlargest_pairwise (n : Nat) (l : List (ℚ × Nat)) : (nlargest n l).Pairwise pairGe :=
  (sorted_pairs l).sublist (List.take_sublist _ _)

theorem nlargest_subperm (n : Nat) (l : List (ℚ × Nat)) : (nlargest n l).Subperm l :=
  (List.take_sublist _ _).subperm.trans (List.perm_insertionSort pairGe l).subperm

theorem nlargest_length (n : Nat) (l : List (ℚ × Nat)) : (nlargest n l).length = min n l.length := by
  simp [nlargest]

theorem nlargest_all (n : Nat) (l : List (ℚ × Nat)) (h : l.length ≤ n) : (nlargest n l).Perm l := by
  unfold nlargest
  rw [List.take_of_length_le (by simpa using h)]
  exact List.perm_insertionSort pairGe l

theorem nlargest_perm (n : Nat) {l l' : List (ℚ × Nat)} (h : l.Perm l') : nlargest n l = nlargest n l' := by
  unfold nlargest
  rw [List.Perm.eq_of_pairwise' (r := pairGe) (sorted_pairs l) (sorted_pairs l')]
  exact (List.perm_insertionSort pairGe l).trans (h.trans (List.perm_insertionSort pairGe l').symm)

/-- What is left out is not better than anything returned, and nothing is left out unnecessarily. -/
theorem nlargest_best (n : Nat) (l : List (ℚ × Nat)) (x : ℚ × Nat) (hx : x ∈ l)
    (hnot : x ∉ nlargest n l) : (nlargest n l).length = n ∧ ∀ y ∈ nlargest n l, pairGe y x := by
  have hmem : x ∈ l.insertionSort pairGe := (List.perm_insertionSort pairGe l).mem_iff.2 hx
  rw [← List.take_append_drop n (l.insertionSort pairGe)] at hmem
  rcases List.mem_append.1 hmem with h | h
  · exact absurd h hnot
  · have hp := sorted_pairs l
    rw [← List.take_append_drop n (l.insertionSort pairGe), List.pairwise_append] at hp
    refine ⟨?_, fun y hy => hp.2.2 y hy x h⟩
    have hne : (l.insertionSort pairGe).drop n ≠ [] := List.ne_nil_of_mem h
    have hlt : n < (l.insertionSort pairGe).length := by
      by_contra hc
      exact hne (List.drop_of_length_le (not_lt.1 hc))
    simp only [nlargest, List.length_take]
    omega

/-! ## Rows of a user -/

theorem cellText_nat (k : Nat) : cellText (.num (k : ℚ)) = (SLit.int (k : Int)).text := by
  have : ((k : ℕ) : ℚ) = ((k : Int) : ℚ) := by simp
  rw [this]
  simp only [cellText, SLit.text]
  rw [if_pos (by simp)]
  rfl

theorem idRows {ds : Mem} {c : String} (hc : c ∈ ds.cols) (hn : NameOk c) (hid : c = "uid" ∨ c = "iid")
    (k : Nat) : ds.applyQuery (c.toList ++ " == ".toList ++ cellText (.num (k : ℚ))) =
      .ok (rowsWith c k ds.rows) := by
  have hw : WellWritten [([], ⟨c, .eq, .int k⟩, [])] := by
    refine ⟨by simp, ?_⟩
    intro w hw
    simp only [List.mem_singleton] at hw
    subst hw
    exact ⟨by simp [Blank], by simp [Blank], hn, trivial⟩
  have hm := applyQuery_means ds [([], ⟨c, .eq, .int k⟩, [])] hw (by
    intro w hw
    simp only [List.mem_singleton] at hw
    subst hw
    refine segMeans_direct ds _ _ _ (by simp [Blank]) (by simp [Blank]) hn trivial hc ?_ ?_ ?_
    · unfold Fits
      rw [if_pos (by rcases hid with rfl | rfl <;> simp)]
      rfl
    · refine .inr (.inr ?_)
      rcases hid with rfl | rfl <;> simp
    · intro r _
      simp [Comparable])
  have e : c.toList ++ " == ".toList ++ cellText (.num (k : ℚ)) =
      queryText [([], ⟨c, .eq, .int k⟩, [])] := by
    rw [cellText_nat]
    simp only [queryText, SCond.text, List.nil_append, List.append_nil]
    simp [Op.text]
  rw [e, hm]
  simp only [rowsWith, Except.ok.injEq]
  apply List.filter_congr
  intro r _
  simp [Sat, Holds, SLit.value]

theorem uidRows_ok {ds : Mem} (h : "uid" ∈ ds.cols) (uid : Nat) :
    uidRows ds uid = .ok { ds.copy with rows := rowsWith "uid" uid ds.rows } := by
  have := idRows h (by decide) (.inl rfl) uid
  unfold uidRows Mem.select
  rw [applyQuery_copy]
  have e : "uid == ".toList ++ cellText (.num (uid : ℚ)) =
      "uid".toList ++ " == ".toList ++ cellText (.num (uid : ℚ)) := by rfl
  rw [e, this]
  rfl

theorem ratedIids_ok {ds : Mem} (h : IdsOk ds) (uid : Nat) :
    ratedIids ds uid = .ok ((rowsWith "uid" uid ds.rows).map (·.get "iid")) := by
  unfold ratedIids
  rw [uidRows_ok h.user.hasCol]
  simp [Mem.valuesOf, handleColumns, Mem.copy, h.item.hasCol, Except.map]

/-- In terms of raw ids. -/
theorem mem_rated {ds : Mem} (h : IdsOk ds) {uid i : Nat} {user item : Val}
    (hu : ds.userMap[uid]? = some user) (hi : ds.itemMap[i]? = some item) :
    .num (i : ℚ) ∈ (rowsWith "uid" uid ds.rows).map (·.get "iid") ↔ Owns ds user item := by
  obtain ⟨hu1, hu2⟩ := List.getElem?_eq_some_iff.1 hu
  obtain ⟨hi1, hi2⟩ := List.getElem?_eq_some_iff.1 hi
  simp only [rowsWith, List.mem_map, List.mem_filter, decide_eq_true_eq, Owns]
  constructor
  · rintro ⟨r, ⟨hr, e1⟩, e2⟩
    obtain ⟨m1, c1⟩ := h.user.code r hr
    obtain ⟨m2, c2⟩ := h.item.code r hr
    rw [c1] at e1
    rw [c2] at e2
    have e1 : ds.userMap.idxOf (r.get "user") = uid := by simpa using e1
    have e2 : ds.itemMap.idxOf (r.get "item") = i := by simpa using e2
    refine ⟨r, hr, ?_, ?_⟩
    · rw [← hu2]
      subst e1
      exact (List.getElem_idxOf hu1).symm
    · rw [← hi2]
      subst e2
      exact (List.getElem_idxOf hi1).symm
  · rintro ⟨r, hr, rfl, rfl⟩
    refine ⟨r, ⟨hr, ?_⟩, ?_⟩
    · rw [(h.user.code r hr).2, ← hu2, h.user.nodup.idxOf_getElem]
    · rw [(h.item.code r hr).2, ← hi2, h.item.nodup.idxOf_getElem]

/-! ## Candidates and scores -/

theorem candidates_ok {ds : Mem} (h : IdsOk ds) (uid : Nat) (iids : List Nat) (novelty : Bool) :
    ∃ cand, candidates ds uid iids novelty = .ok cand ∧ (novelty = true → cand.Nodup) ∧
      (novelty = false → cand = iids) ∧
      ∀ i, i ∈ cand ↔ i ∈ iids ∧
        (novelty = true → .num (i : ℚ) ∉ (rowsWith "uid" uid ds.rows).map (·.get "iid")) := by
  unfold candidates
  cases novelty with
  | false => exact ⟨iids, by simp, by simp, by simp, by simp⟩
  | true =>
    refine ⟨_, by rw [ratedIids_ok h]; rfl, fun _ => ?_, by simp, ?_⟩
    · exact (List.nodup_dedup _).filter _
    · intro i
      simp [novelIids, List.mem_filter]

theorem scored_mapM (f : PredictFn ℚ) (uid : Nat) (cand : List Nat)
    (h : ∀ i ∈ cand, ∃ p, f (some uid) (some i) = .ok p) :
    ∃ preds, cand.mapM (scored f uid) = .ok preds ∧
      preds.filterMap id = cand.filterMap fun i =>
        match f (some uid) (some i) with
        | .ok (some s) => some (s, i)
        | _ => none := by
  refine ⟨cand.map fun i => match f (some uid) (some i) with
        | .ok (some s) => some (s, i)
        | _ => none, mapM_except_ok _ _ _ ?_, ?_⟩
  · intro i hi
    obtain ⟨p, hp⟩ := h i hi
    cases p <;> simp [scored, hp, Except.map]
  · rw [List.filterMap_map]
    rfl

/-- The pair made for a scored item. -/
def scorePair (f : PredictFn ℚ) (uid i : Nat) : Option (ℚ × Nat) :=
  match f (some uid) (some i) with
  | .ok (some s) => some (s, i)
  | _ => none

theorem scorePair_some {f : PredictFn ℚ} {uid i : Nat} {p : ℚ × Nat} :
    scorePair f uid i = some p ↔ p.2 = i ∧ f (some uid) (some i) = .ok (some p.1) := by
  unfold scorePair
  split
  next s hs =>
    rw [hs]
    constructor
    · intro e; cases e; exact ⟨rfl, rfl⟩
    · rintro ⟨h1, h2⟩
      cases h2
      exact congrArg some (Prod.ext rfl h1.symm)
  next hno =>
    constructor
    · intro e; cases e
    · rintro ⟨_, h⟩
      exact absurd h (hno _)

theorem baseRank_ok {ds : Mem} (h : IdsOk ds) {f : PredictFn ℚ} {uid : Nat} {iids : List Nat} (n : Nat)
    (novelty : Bool) (hs : ∀ i ∈ iids, ∃ p, f (some uid) (some i) = .ok p) :
    ∃ cand, (novelty = true → cand.Nodup) ∧ (novelty = false → cand = iids) ∧
      (∀ i, i ∈ cand ↔ i ∈ iids ∧
        (novelty = true → .num (i : ℚ) ∉ (rowsWith "uid" uid ds.rows).map (·.get "iid"))) ∧
      baseRank ds f uid iids n novelty = .ok (nlargest n (cand.filterMap (scorePair f uid))) := by
  obtain ⟨cand, h1, h2, h3, h4⟩ := candidates_ok h uid iids novelty
  refine ⟨cand, h2, h3, h4, ?_⟩
  obtain ⟨preds, h5, h6⟩ := scored_mapM f uid cand fun i hi => hs i ((h4 i).1 hi).1
  unfold baseRank
  rw [h1]
  simp only [h5, h6]
  rfl

theorem toRaw_ok {ds : Mem} (hids : ds.hasIds = true) (l : List (ℚ × Nat)) :
    toRaw ds l = .ok (l.map fun p => (p.1, ds.itemMap[p.2]?)) := by
  unfold toRaw
  apply mapM_except_ok
  intro p _
  simp [Mem.iidToItem, hids, Except.map]

theorem iidToItem_iff {ds : Mem} (hids : ds.hasIds = true) {i : Nat} {v : Val} :
    ds.iidToItem i = .ok (some v) ↔ ds.itemMap[i]? = some v := by
  simp [Mem.iidToItem, hids]

theorem uidToUser_iff {ds : Mem} (hids : ds.hasIds = true) {i : Nat} {v : Val} :
    ds.uidToUser i = .ok (some v) ↔ ds.userMap[i]? = some v := by
  simp [Mem.uidToUser, hids]

/-- Pairs with different ids stay different as raw pairs. -/
theorem filterMap_scorePair_snd (f : PredictFn ℚ) (uid : Nat) (cand : List Nat) :
    ((cand.filterMap (scorePair f uid)).map (·.2)).Sublist cand := by
  induction cand with
  | nil => simp
  | cons i cand ih =>
    rw [List.filterMap_cons]
    cases hp : scorePair f uid i with
    | none => exact ih.cons _
    | some p =>
      obtain ⟨rfl, _⟩ := scorePair_some.1 hp
      simpa using ih

end DRec
