import Verif.Model.NanRank
import Mathlib.Data.List.Sort
import Mathlib.Tactic.Linarith

/-!
# C152: ranking with undefined scores

The ranking still consists of the right number of different items with their own scores, but their order may be wrong.
-/

namespace DRec.NanRank

open DRec.Div

/-- What is used of `list.sort`: it permutes the list, and leaves it alone when no element is smaller than the one before it. -/
structure PySort (sort : List Entry → List Entry) : Prop where
  perm : ∀ l, (sort l).Perm l
  run : ∀ l, l.IsChain (fun a b => ltEntry b a = false) → sort l = l

theorem swp_perm (h : Array Entry) (i j : Nat) : (swp h i j).toList.Perm h.toList := by
  unfold swp
  split
  · next p => exact (Array.swap_perm p.1 p.2).toList
  · exact List.Perm.refl _

theorem siftdown_perm (f : Nat) : ∀ (h : Array Entry) (s p : Nat), (siftdown f h s p).toList.Perm h.toList := by
  induction f with
  | zero => exact fun h s p => List.Perm.refl _
  | succ f ih =>
    intro h s p
    unfold siftdown
    split
    · split
      · split
        · exact (ih _ _ _).trans (swp_perm _ _ _)
        · exact List.Perm.refl _
      · exact List.Perm.refl _
    · exact List.Perm.refl _

theorem sink_perm (f : Nat) : ∀ (h : Array Entry) (p : Nat), (sink f h p).1.toList.Perm h.toList := by
  induction f with
  | zero => exact fun h p => List.Perm.refl _
  | succ f ih =>
    intro h p
    unfold sink
    split
    · exact (ih _ _).trans (swp_perm _ _ _)
    · exact (ih _ _).trans (swp_perm _ _ _)
    · exact List.Perm.refl _

theorem siftup_perm (h : Array Entry) (p : Nat) : (siftup h p).toList.Perm h.toList :=
  (siftdown_perm _ _ _ _).trans (sink_perm _ _ _)

theorem heapify_perm (h : Array Entry) : (heapify h).toList.Perm h.toList := by
  unfold heapify
  generalize (List.range (h.size / 2)).reverse = l
  induction l generalizing h with
  | nil => exact List.Perm.refl _
  | cons i l ih => exact (ih _).trans (siftup_perm h i)

/-- The heap holds candidates, as many as before. -/
theorem more_sub (cs : List Cand) : ∀ (h : Array Entry) (order : Int) (done : List Cand), (h.toList.map (·.1)).Subperm done →
    ((more cs h order).toList.map (·.1)).Subperm (done ++ cs) ∧ (more cs h order).size = h.size := by
  induction cs with
  | nil => exact fun h o done hd => ⟨by simpa [more] using hd, rfl⟩
  | cons c cs ih =>
    intro h o done hd
    have hkeep : (h.toList.map (·.1)).Subperm (done ++ [c]) := hd.trans (List.sublist_append_left _ _).subperm
    unfold more
    split
    · next h0 =>
      exact ⟨hd.trans (List.sublist_append_left _ _).subperm, rfl⟩
    · next top h0 =>
      split
      · have hs : ((heapreplace h (c, o)).toList.map (·.1)).Subperm (done ++ [c]) := by
          have hp := (siftup_perm (h.setIfInBounds 0 (c, o)) 0).map (·.1)
          refine hp.subperm.trans ?_
          rw [Array.toList_setIfInBounds]
          cases hl : h.toList with
          | nil => simp
          | cons x xs =>
            rw [hl] at hd
            simp only [List.set_cons_zero, List.map_cons] at hd ⊢
            have h1 : (xs.map (·.1)).Subperm done := (List.sublist_cons_self _ _).subperm.trans hd
            exact ((List.subperm_cons c).2 h1).trans (List.perm_append_singleton c done).symm.subperm
        have hz : (heapreplace h (c, o)).size = h.size := by
          have := (siftup_perm (h.setIfInBounds 0 (c, o)) 0).length_eq
          simpa [heapreplace] using this
        obtain ⟨h1, h2⟩ := ih (heapreplace h (c, o)) (o - 1) (done ++ [c]) hs
        exact ⟨by simpa using h1, h2.trans hz⟩
      · obtain ⟨h1, h2⟩ := ih h o (done ++ [c]) hkeep
        exact ⟨by simpa using h1, h2⟩

theorem heapOf_sub (n : Nat) (l : List Cand) : ((heapOf n l).toList.map (·.1)).Subperm l ∧ (heapOf n l).size = min n l.length := by
  have hp := heapify_perm ((l.take n).zipIdx.map fun p => (p.1, -(p.2 : Int))).toArray
  have hm : (((l.take n).zipIdx.map fun p => ((p.1, -(p.2 : Int)) : Entry)).map (·.1)) = l.take n := by
    rw [List.map_map]
    exact List.zipIdx_map_fst 0 _
  obtain ⟨h1, h2⟩ := more_sub (l.drop n) _ (-(n : Int)) (l.take n) (by
    have := hp.map (·.1)
    rw [hm] at this
    exact this.subperm)
  rw [List.take_append_drop] at h1
  refine ⟨h1, h2.trans ?_⟩
  have := hp.length_eq
  simpa using this

theorem best_mem (cs : List Cand) : ∀ b, best b cs ∈ b :: cs := by
  induction cs with
  | nil => intro b; simp [best]
  | cons c cs ih =>
    intro b
    unfold best
    split
    · exact List.mem_cons_of_mem _ (ih c)
    · rcases List.mem_cons.1 (ih b) with h | h
      · rw [h]; simp
      · simp [h]

theorem nlargest_sub {sort : List Entry → List Entry} (hs : PySort sort) (n : Nat) (l : List Cand) :
    (nlargest sort n l).Subperm l ∧ (nlargest sort n l).length = min n l.length := by
  unfold nlargest
  split
  · next h1 =>
    subst h1
    cases l with
    | nil => simp
    | cons c cs =>
      refine ⟨List.singleton_subperm_iff.2 (best_mem cs c), ?_⟩
      simp
  · obtain ⟨h1, h2⟩ := heapOf_sub n l
    have hp : (sort (heapOf n l).toList.reverse).reverse.Perm (heapOf n l).toList :=
      (List.reverse_perm _).trans ((hs.perm _).trans (List.reverse_perm _))
    refine ⟨(hp.map (·.1)).subperm.trans h1, ?_⟩
    rw [(hp.map (·.1)).length_eq]
    simpa using h2

/-! ## The property -/

/-- **C152** (items): whatever scores are NaN, the ranking holds different items of the list, each with its own score, as many as asked for or
as there are predictions. -/
theorem C152_items {sort : List Entry → List Entry} (hs : PySort sort) (score : Nat → Option (Option ℚ)) (iids : List Nat) (hn : iids.Nodup) (n : Nat) :
    ((rank sort score iids n).map (·.2)).Nodup ∧ (∀ c ∈ rank sort score iids n, c.2 ∈ iids ∧ score c.2 = some c.1) ∧
    (rank sort score iids n).length = min n (iids.filter fun i => (score i).isSome).length := by
  obtain ⟨h1, h2⟩ := nlargest_sub hs n (iids.filterMap fun i => (score i).map fun s => (s, i))
  have hm : (iids.filterMap fun i => (score i).map fun s => (s, i)).map (·.2) = iids.filter fun i => (score i).isSome := by
    clear h1 h2 hn
    induction iids with
    | nil => rfl
    | cons i l ih => cases h : score i <;> simp [h, ih]
  refine ⟨?_, fun c hc => ?_, ?_⟩
  · have h3 : ((rank sort score iids n).map (·.2)).Subperm (iids.filter fun i => (score i).isSome) := by
      rw [← hm]
      obtain ⟨l, h4, h5⟩ := h1
      exact ⟨l.map (·.2), h4.map _, h5.map _⟩
    obtain ⟨l, h4, h5⟩ := h3
    exact h4.nodup_iff.1 ((hn.filter _).sublist h5)
  · have := h1.subset hc
    obtain ⟨i, hi, he⟩ := List.mem_filterMap.1 this
    obtain ⟨s, e1, e2⟩ := Option.map_eq_some_iff.1 he
    subst e2
    exact ⟨hi, e1⟩
  · unfold rank
    rw [h2, ← hm, List.length_map]

theorem best_nan (i : Nat) (cs : List Cand) : best (none, i) cs = (none, i) := by
  induction cs with
  | nil => rfl
  | cons c cs ih =>
    have : ltCand (none, i) c = false := by simp [ltCand, sameFloat, above]
    simp [best, this, ih]

theorem best_number (cs : List Cand) : ∀ (x : ℚ) (i : Nat), ∃ v j, best (some x, i) cs = (some v, j) ∧ x ≤ v ∧ ∀ y k, (some y, k) ∈ cs → y ≤ v := by
  induction cs with
  | nil => exact fun x i => ⟨x, i, rfl, le_rfl, by simp⟩
  | cons c cs ih =>
    intro x i
    obtain ⟨s, k⟩ := c
    unfold best
    cases s with
    | none =>
      have : ltCand (some x, i) (none, k) = false := by simp [ltCand, sameFloat, above]
      rw [this]
      obtain ⟨v, j, h1, h2, h3⟩ := ih x i
      refine ⟨v, j, h1, h2, fun y m hm => h3 y m ?_⟩
      simpa using hm
    | some z =>
      by_cases hlt : ltCand (some x, i) (some z, k) = true
      · rw [if_pos hlt]
        obtain ⟨v, j, h1, h2, h3⟩ := ih z k
        have hxz : x ≤ z := by
          by_cases h : x = z
          · exact h.le
          · simp [ltCand, sameFloat, above, h] at hlt
            exact hlt.le
        refine ⟨v, j, h1, hxz.trans h2, fun y m hm => ?_⟩
        rcases List.mem_cons.1 hm with h | h
        · cases h; exact h2
        · exact h3 y m h
      · rw [if_neg hlt]
        obtain ⟨v, j, h1, h2, h3⟩ := ih x i
        have hzx : z ≤ x := by
          by_cases h : x = z
          · exact h.ge
          · simp [ltCand, sameFloat, above, h] at hlt
            exact hlt
        refine ⟨v, j, h1, h2, fun y m hm => ?_⟩
        rcases List.mem_cons.1 hm with h | h
        · cases h; exact hzx.trans h2
        · exact h3 y m h

/-- **C152** (the best item): when the first score is a number, the only item asked for has the largest number.  Missing: without that
hypothesis, see `C152_first`. -/
theorem C152_best_partial (sort : List Entry → List Entry) (score : Nat → Option (Option ℚ)) (i : Nat) (iids : List Nat) (x : ℚ) (hx : score i = some (some x)) :
    ∃ v j, rank sort score (i :: iids) 1 = [(some v, j)] ∧ ∀ k ∈ i :: iids, ∀ y, score k = some (some y) → y ≤ v := by
  obtain ⟨v, j, h1, h2, h3⟩ := best_number (iids.filterMap fun i => (score i).map fun s => (s, i)) x i
  refine ⟨v, j, by simp [rank, nlargest, hx, h1], fun k hk y hy => ?_⟩
  rcases List.mem_cons.1 hk with rfl | hk
  · rw [hx] at hy
    cases hy
    exact h2
  · exact h3 y k (List.mem_filterMap.2 ⟨k, hk, by rw [hy]; rfl⟩)

/-- **C152** (the best item): when the first score is NaN, its item is the best, whatever the other scores are. -/
theorem C152_first (sort : List Entry → List Entry) (score : Nat → Option (Option ℚ)) (i : Nat) (iids : List Nat) (hx : score i = some none) :
    rank sort score (i :: iids) 1 = [(none, i)] := by
  simp [rank, nlargest, hx, best_nan]

theorem more_nan (cs : List Cand) : ∀ (h : Array Entry) (order : Int), (∀ e ∈ h.toList, e.1.1 = none) → more cs h order = h := by
  induction cs with
  | nil => exact fun _ _ _ => rfl
  | cons c cs ih =>
    intro h o hn
    unfold more
    split
    · rfl
    · next top h0 =>
      have ht : top.1.1 = none := hn top (by rw [Array.mem_toList_iff]; exact Array.mem_of_getElem? h0)
      have : ltCand top.1 c = false := by simp [ltCand, sameFloat, above, ht]
      rw [this]
      exact ih h o hn

/-- **C152** (no number among the first): when the first `n` scores are NaN, the ranking consists of their items, and no item with a number gets in,
however large it is. -/
theorem C152_blocked {sort : List Entry → List Entry} (hs : PySort sort) (score : Nat → Option (Option ℚ)) (first rest : List Nat)
    (hf : ∀ i ∈ first, score i = some none) : (rank sort score (first ++ rest) first.length).Perm (first.map fun i => (none, i)) := by
  have hm : (first.filterMap fun i => (score i).map fun s => (s, i)) = first.map fun i => (none, i) := by
    rw [← List.filterMap_eq_map]
    exact List.filterMap_congr fun i hi => by rw [hf i hi]; rfl
  unfold rank
  rw [List.filterMap_append, hm]
  generalize rest.filterMap (fun i => (score i).map fun s => (s, i)) = r
  unfold nlargest
  split
  · next h1 =>
    obtain ⟨i, rfl⟩ := List.length_eq_one_iff.1 h1
    simp [best_nan]
  · have hp := heapify_perm (((first.map fun i => ((none, i) : Cand)).zipIdx.map fun p => (p.1, -(p.2 : Int)))).toArray
    have hz : (((first.map fun i => ((none, i) : Cand)).zipIdx.map fun p => ((p.1, -(p.2 : Int)) : Entry)).map (·.1)) = first.map fun i => (none, i) := by
      rw [List.map_map]
      exact List.zipIdx_map_fst 0 _
    have hpm := hp.map (·.1)
    rw [hz] at hpm
    have ht : (first.map (fun i => ((none, i) : Cand)) ++ r).take first.length = first.map fun i => (none, i) := List.take_left' (by simp)
    have hh : ((heapOf first.length (first.map (fun i => ((none, i) : Cand)) ++ r)).toList.map (·.1)).Perm (first.map fun i => (none, i)) := by
      unfold heapOf
      rw [ht, more_nan]
      · exact hpm
      · intro e he
        obtain ⟨i, -, h2⟩ := List.mem_map.1 (hpm.subset (List.mem_map_of_mem he))
        rw [← h2]
    refine List.Perm.trans ?_ hh
    exact ((List.reverse_perm _).trans ((hs.perm _).trans (List.reverse_perm _))).map _

/-- **C152** (threshold): with a threshold exactly the items of the ranking are recommended whose score is a number that reaches it, in the order
of the ranking; without one the whole ranking is. -/
theorem C152_threshold (sort : List Entry → List Entry) (score : Nat → Option (Option ℚ)) (iids : List Nat) (n : Nat) (t : ℚ) :
    (∀ c, c ∈ recommend sort score iids n (some t) ↔ c ∈ rank sort score iids n ∧ ∃ v, c.1 = some v ∧ t ≤ v) ∧
    (recommend sort score iids n (some t)).Sublist (rank sort score iids n) ∧
    recommend sort score iids n none = rank sort score iids n := by
  refine ⟨fun c => ?_, List.filter_sublist, rfl⟩
  simp only [recommend, List.mem_filter]
  refine and_congr_right fun _ => ?_
  cases c.1 with
  | none => simp
  | some v => simp

/-- Scores 1, NaN and 2 of three items. -/
def threeScores : Nat → Option (Option ℚ)
  | 0 => some (some 1)
  | 1 => some none
  | _ => some (some 2)

/-- **C152** (witness): one NaN in between, and the item with the smaller score is ranked first. -/
theorem C152_order_refuted {sort : List Entry → List Entry} (hs : PySort sort) :
    rank sort threeScores [0, 1, 2] 3 = [(some 1, 0), (none, 1), (some 2, 2)] := by
  have hh : (heapOf 3 [(some 1, 0), (none, 1), (some 2, 2)]).toList = [((some 1, 0), 0), ((none, 1), -1), ((some 2, 2), -2)] := by decide +kernel
  have h1 : ([0, 1, 2].filterMap fun i => (threeScores i).map fun s => (s, i)) = [(some 1, 0), (none, 1), (some 2, 2)] := rfl
  unfold rank nlargest
  rw [h1, hh, if_neg (by decide), hs.run]
  · rfl
  · simp [ltEntry, ltCand, sameFloat, above]

/-! ## Examples -/

/-- There is such a sort. -/
theorem pySort_insertion : PySort (List.insertionSort fun a b => ltEntry b a = false) := by
  refine ⟨fun l => List.perm_insertionSort _ l, fun l h => ?_⟩
  induction l with
  | nil => rfl
  | cons a l ih =>
    cases l with
    | nil => rfl
    | cons b l =>
      rw [List.insertionSort_cons, ih (List.isChain_cons_cons.1 h).2]
      exact List.orderedInsert_cons_of_le _ l (by simpa using (List.isChain_cons_cons.1 h).1)

/-- Three items with a NaN, two asked for. -/
example : ((rank (List.insertionSort fun a b => ltEntry b a = false) threeScores [0, 1, 2] 2).map (·.2)).Nodup ∧
    (rank (List.insertionSort fun a b => ltEntry b a = false) threeScores [0, 1, 2] 2).length = 2 :=
  ⟨(C152_items pySort_insertion threeScores [0, 1, 2] (by decide) 2).1, (C152_items pySort_insertion threeScores [0, 1, 2] (by decide) 2).2.2⟩

/-- The best of the three is found when the first score is a number, and not when it is NaN. -/
example : (∃ v j, rank id threeScores [0, 1, 2] 1 = [(some v, j)] ∧ ∀ k ∈ [0, 1, 2], ∀ y, threeScores k = some (some y) → y ≤ v) ∧
    rank id threeScores [1, 0, 2] 1 = [(none, 1)] :=
  ⟨C152_best_partial id threeScores 0 [1, 2] 1 rfl, C152_first id threeScores 1 [0, 2] rfl⟩

/-- Two NaN keep two numbers out. -/
example : (rank (List.insertionSort fun a b => ltEntry b a = false) (fun i => if i < 2 then some none else some (some 5)) ([0, 1] ++ [2, 3]) 2).Perm
    [(none, 0), (none, 1)] :=
  C152_blocked pySort_insertion _ [0, 1] [2, 3] (by decide)

/-- The witness with that sort; with a threshold the NaN is gone, the order stays wrong. -/
example : recommend (List.insertionSort fun a b => ltEntry b a = false) threeScores [0, 1, 2] 3 (some 1) = [(some 1, 0), (some 2, 2)] := by
  unfold recommend
  simp only [C152_order_refuted pySort_insertion]
  decide +kernel

end DRec.NanRank
