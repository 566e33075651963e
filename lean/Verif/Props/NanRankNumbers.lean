import Verif.Lemmas.NanRank
import Verif.Lemmas.Recommender

/-!
# C152: ranking when all scores are numbers

The code of `heapq.nlargest` then does what its documentation says: the items with the largest scores in falling order, equal scores with the
larger id first.
-/

namespace DRec.NanRank

/-- What is used of `list.sort` here: numbers come out sorted. -/
def SortsNumbers (sort : List Entry → List Entry) : Prop :=
  ∀ l : List Entry, (∀ e ∈ l, e.1.1.isSome) → (sort l).Pairwise fun a b => ltEntry b a = false

/-- `a` comes before `b` in a ranking: its score is larger, or the same and its id is larger. -/
def Before (a b : Cand) : Prop := ∃ x y : ℚ, a.1 = some x ∧ b.1 = some y ∧ (y < x ∨ y = x ∧ b.2 < a.2)

theorem before_of {a b : Cand} (ha : a.1.isSome) (hb : b.1.isSome) (hle : ckey b ≤ ckey a) (hne : b.2 ≠ a.2) : Before a b := by
  obtain ⟨x, hx⟩ := Option.isSome_iff_exists.1 ha
  obtain ⟨y, hy⟩ := Option.isSome_iff_exists.1 hb
  refine ⟨x, y, hx, hy, ?_⟩
  rw [ckey, ckey, Prod.Lex.toLex_le_toLex, hx, hy] at hle
  rcases hle with h | ⟨h1, h2⟩
  · exact Or.inl h
  · exact Or.inr ⟨h1, lt_of_le_of_ne h2 hne⟩

theorem nlargest_best {sort : List Entry → List Entry} (hs : PySort sort) (hn : SortsNumbers sort) (n : Nat) (l : List Cand)
    (hl : ∀ c ∈ l, c.1.isSome) : (nlargest sort n l).Pairwise (fun a b => ckey b ≤ ckey a) ∧
    ∃ out, (nlargest sort n l ++ out).Perm l ∧ ∀ o ∈ out, ∀ c ∈ nlargest sort n l, ckey o ≤ ckey c := by
  unfold nlargest
  split
  · cases l with
    | nil => exact ⟨List.Pairwise.nil, [], by simp, by simp⟩
    | cons c cs =>
      refine ⟨List.pairwise_singleton _ _, (c :: cs).erase (best c cs), (List.perm_cons_erase (best_mem cs c)).symm, fun o ho d hd => ?_⟩
      rw [List.mem_singleton.1 hd]
      exact best_ckey cs c (hl c List.mem_cons_self) (fun d hd => hl d (List.mem_cons_of_mem _ hd)) o (List.mem_of_mem_erase ho)
  · have hp : (sort (heapOf n l).toList.reverse).reverse.Perm (heapOf n l).toList :=
      (List.reverse_perm _).trans ((hs.perm _).trans (List.reverse_perm _))
    rcases Nat.eq_zero_or_pos n with rfl | hpos
    · have h0 : (sort (heapOf 0 l).toList.reverse).reverse = [] := by
        have h5 : (heapOf 0 l).toList.length = 0 := by rw [Array.length_toList, (heapOf_sub 0 l).2, Nat.zero_min]
        have := hp.length_eq.trans h5
        exact List.length_eq_zero_iff.1 this
      rw [h0]
      exact ⟨List.Pairwise.nil, l, by simp, by simp⟩
    · obtain ⟨h1, out, h2, h3⟩ := heapOf_best n hpos l hl
      have hpm := hp.map (·.1)
      refine ⟨?_, out, (hpm.append_right out).trans h2, fun o ho c hc => ?_⟩
      · have h4 := hn (heapOf n l).toList.reverse fun e he => h1 e (List.mem_reverse.1 he)
        rw [List.pairwise_map, List.pairwise_reverse]
        refine h4.imp_of_mem fun {a b} ha hb hab => ?_
        have ha' := h1 a (List.mem_reverse.1 ((hs.perm _).subset ha))
        have hb' := h1 b (List.mem_reverse.1 ((hs.perm _).subset hb))
        refine ckey_le_of_ekey (not_lt.1 fun hh => ?_)
        rw [(ltEntry_iff hb' ha').2 hh] at hab
        cases hab
      · obtain ⟨e, he, rfl⟩ := List.mem_map.1 (hpm.subset hc)
        exact h3 o ho e he

/-- **C152** (numbers): when no score is NaN the ranking is in falling order, and every item left out comes after every item of the ranking. -/
theorem C152_numbers {sort : List Entry → List Entry} (hs : PySort sort) (hsn : SortsNumbers sort) (score : Nat → Option (Option ℚ)) (iids : List Nat)
    (hd : iids.Nodup) (hn : ∀ i ∈ iids, score i ≠ some none) (n : Nat) :
    (rank sort score iids n).Pairwise Before ∧
    ∀ k ∈ iids, ∀ y, score k = some (some y) → k ∉ (rank sort score iids n).map (·.2) → ∀ c ∈ rank sort score iids n, Before c (some y, k) := by
  obtain ⟨a1, a2, -⟩ := C152_items hs score iids hd n
  have hnum : ∀ c ∈ iids.filterMap fun i => (score i).map fun s => (s, i), c.1.isSome := by
    intro c hc
    obtain ⟨i, hi, he⟩ := List.mem_filterMap.1 hc
    obtain ⟨s, e1, e2⟩ := Option.map_eq_some_iff.1 he
    subst e2
    cases s with
    | none => exact absurd e1 (hn i hi)
    | some x => rfl
  have hsub := (nlargest_sub hs n (iids.filterMap fun i => (score i).map fun s => (s, i))).1.subset
  obtain ⟨h1, out, h0, h3⟩ := nlargest_best hs hsn n _ hnum
  have h2 : ∀ o ∈ iids.filterMap fun i => (score i).map fun s => (s, i), o ∉ rank sort score iids n → ∀ c ∈ rank sort score iids n, ckey o ≤ ckey c :=
    fun o ho hno => h3 o ((List.mem_append.1 (h0.symm.subset ho)).resolve_left hno)
  constructor
  · refine (h1.and (List.pairwise_map.1 a1)).imp_of_mem fun {a b} ha hb hab => ?_
    exact before_of (hnum a (hsub ha)) (hnum b (hsub hb)) hab.1 (Ne.symm hab.2)
  · intro k hk y hy hnot c hc
    refine before_of (hnum c (hsub hc)) rfl (h2 (some y, k) ?_ (fun hm => hnot (List.mem_map_of_mem (f := (·.2)) hm)) c hc) fun e => hnot ?_
    · exact List.mem_filterMap.2 ⟨k, hk, by rw [hy]; rfl⟩
    · change k = c.2 at e
      rw [e]
      exact List.mem_map_of_mem (f := (·.2)) hc

theorem ckey_pairGe (a b : ℚ × Nat) : ckey (some b.1, b.2) ≤ ckey (some a.1, a.2) ↔ pairGe a b := by
  rw [ckey, ckey, Prod.Lex.toLex_le_toLex]
  rfl

/-- **C152** (documentation): for numbers the code of `heapq.nlargest` gives the first `n` of the list sorted downwards, which is how it is
documented and how the other properties take it; equal candidates are allowed. -/
theorem C152_documented {sort : List Entry → List Entry} (hs : PySort sort) (hsn : SortsNumbers sort) (n : Nat) (l : List (ℚ × Nat)) :
    nlargest sort n (l.map fun p => (some p.1, p.2)) = ((l.insertionSort pairGe).take n).map fun p => (some p.1, p.2) := by
  have hnum : ∀ c ∈ l.map fun p => ((some p.1, p.2) : Cand), c.1.isSome := by
    intro c hc
    obtain ⟨p, -, rfl⟩ := List.mem_map.1 hc
    rfl
  obtain ⟨h1, out, h2, h3⟩ := nlargest_best hs hsn n _ hnum
  have hlen := (nlargest_sub hs n (l.map fun p => ((some p.1, p.2) : Cand))).2
  generalize nlargest sort n (l.map fun p => ((some p.1, p.2) : Cand)) = R at h1 h2 h3 hlen
  have inv : ∀ S : List Cand, (∀ c ∈ S, c.1.isSome) → (S.map fun c => (c.1.getD 0, c.2)).map (fun p => ((some p.1, p.2) : Cand)) = S := by
    intro S hS
    rw [List.map_map]
    refine (List.map_congr_left fun c hc => ?_).trans (List.map_id S)
    obtain ⟨x, hx⟩ := Option.isSome_iff_exists.1 (hS c hc)
    obtain ⟨y, i⟩ := c
    cases hx
    rfl
  have hR : ∀ c ∈ R, c.1.isSome := fun c hc => hnum c (h2.subset (List.mem_append_left _ hc))
  have hO : ∀ c ∈ out, c.1.isSome := fun c hc => hnum c (h2.subset (List.mem_append_right _ hc))
  rw [← inv R hR] at h1 h2 h3 hlen ⊢
  rw [← inv out hO] at h2 h3
  generalize R.map (fun c => (c.1.getD 0, c.2)) = r at *
  generalize out.map (fun c => (c.1.getD 0, c.2)) = o at *
  have hinj : Function.Injective fun p : ℚ × Nat => ((some p.1, p.2) : Cand) := by
    rintro ⟨a, b⟩ ⟨c, d⟩ h
    simpa using h
  have hperm : (r ++ o).Perm l := by
    rw [← List.map_append] at h2
    exact (List.map_perm_map_iff hinj).1 h2
  have hsorted : (r ++ o.insertionSort pairGe).Pairwise pairGe := by
    refine List.pairwise_append.2 ⟨?_, List.pairwise_insertionSort pairGe o, fun a ha b hb => ?_⟩
    · exact (List.pairwise_map.1 h1).imp fun {a b} h => (ckey_pairGe a b).1 h
    · exact (ckey_pairGe a b).1 (h3 _ (List.mem_map_of_mem ((List.perm_insertionSort _ o).subset hb)) _ (List.mem_map_of_mem ha))
  have heq : r ++ o.insertionSort pairGe = l.insertionSort pairGe :=
    List.Perm.eq_of_pairwise (fun a b _ _ h h' => antisymm_of pairGe h h') hsorted (List.pairwise_insertionSort pairGe l)
      ((((List.perm_insertionSort _ o).append_left r).trans hperm).trans (List.perm_insertionSort _ l).symm)
  have hlen2 := congrArg List.length heq
  simp only [List.length_map, List.length_append, List.length_insertionSort] at hlen hlen2
  rw [← heq]
  congr 1
  rcases Nat.le_total n l.length with h | h
  · rw [List.take_left' (by omega)]
  · have h0 : o.insertionSort pairGe = [] := List.length_eq_zero_iff.1 (by rw [List.length_insertionSort]; omega)
    rw [h0, List.append_nil, List.take_of_length_le (by omega)]

/-! ## Lists -/

/-- What is used of `list.sort` for candidates: as for entries (`PySort`, `SortsNumbers`). -/
structure PySortC (sort : List Cand → List Cand) : Prop where
  perm : ∀ l, (sort l).Perm l
  run : ∀ l, l.IsChain (fun a b => ltCand b a = false) → sort l = l
  numbers : ∀ l : List Cand, (∀ c ∈ l, c.1.isSome) → (sort l).Pairwise fun a b => ltCand b a = false

/-- **C152** (items of a list): the results are candidates, none more often than in the list, as many as asked for or as there are. -/
theorem C152_list_items {sortC : List Cand → List Cand} {sort : List Entry → List Entry} (hc : PySortC sortC) (hs : PySort sort) (n : Nat)
    (l : List Cand) : (nlargestList sortC sort n l).Subperm l ∧ (nlargestList sortC sort n l).length = min n l.length := by
  unfold nlargestList
  split
  · exact nlargest_sub hs n l
  · split
    · next h =>
      have hp : (sortC l.reverse).reverse.Perm l := (List.reverse_perm _).trans ((hc.perm _).trans (List.reverse_perm _))
      rw [List.take_of_length_le (by rw [hp.length_eq]; exact h), hp.length_eq]
      exact ⟨hp.subperm, by omega⟩
    · exact nlargest_sub hs n l

/-- **C152** (documentation, lists): for numbers both ways through the code give what the documentation says. -/
theorem C152_list_documented {sortC : List Cand → List Cand} {sort : List Entry → List Entry} (hc : PySortC sortC) (hs : PySort sort)
    (hsn : SortsNumbers sort) (n : Nat) (l : List (ℚ × Nat)) :
    nlargestList sortC sort n (l.map fun p => (some p.1, p.2)) = ((l.insertionSort pairGe).take n).map fun p => (some p.1, p.2) := by
  unfold nlargestList
  split
  · exact C152_documented hs hsn n l
  · split
    · rw [List.map_take]
      congr 1
      have hnum : ∀ c ∈ l.map fun p => ((some p.1, p.2) : Cand), c.1.isSome := by
        intro c hc
        obtain ⟨p, -, rfl⟩ := List.mem_map.1 hc
        rfl
      generalize hL : l.map (fun p => ((some p.1, p.2) : Cand)) = L at hnum
      have hp : (sortC L.reverse).reverse.Perm L := (List.reverse_perm _).trans ((hc.perm _).trans (List.reverse_perm _))
      have h1 := hc.numbers L.reverse fun c h => hnum c (List.mem_reverse.1 h)
      have hm : ∀ c ∈ sortC L.reverse, c.1.isSome := fun c h => hnum c (List.mem_reverse.1 ((hc.perm _).subset h))
      have h2 : (sortC L.reverse).reverse.Pairwise fun a b => ckey b ≤ ckey a := by
        rw [List.pairwise_reverse]
        refine h1.imp_of_mem fun {a b} ha hb hab => not_lt.1 fun hh => ?_
        rw [(ltCand_iff (hm b hb) (hm a ha)).2 hh] at hab
        cases hab
      have h3 : ((l.insertionSort pairGe).map fun p => ((some p.1, p.2) : Cand)).Pairwise fun a b => ckey b ≤ ckey a := by
        rw [List.pairwise_map]
        exact (List.pairwise_insertionSort pairGe l).imp fun {a b} h => (ckey_pairGe a b).2 h
      have hp2 : ((l.insertionSort pairGe).map fun p => ((some p.1, p.2) : Cand)).Perm L := hL ▸ (List.perm_insertionSort pairGe l).map _
      refine List.Perm.eq_of_pairwise (fun a b ha hb h h' => ?_) h2 h3 (hp.trans hp2.symm)
      have ha' := hnum a (hp.subset ha)
      have hb' := hnum b (hp2.subset hb)
      obtain ⟨e1, e2⟩ := (ckey_inj ha' hb').1 (le_antisymm h' h)
      obtain ⟨x, i⟩ := a
      obtain ⟨y, j⟩ := b
      cases x with
      | none => cases ha'
      | some x =>
        cases y with
        | none => cases hb'
        | some y =>
          have e1' : x = y := of_decide_eq_true e1
          have e2' : i = j := e2
          rw [e1', e2']
    · exact C152_documented hs hsn n l

/-- **C152** (witness, lists): sorting is misled by NaN in the same way. -/
theorem C152_list_order_refuted {sortC : List Cand → List Cand} (hc : PySortC sortC) (sort : List Entry → List Entry) :
    nlargestList sortC sort 3 [(some 1, 0), (none, 1), (some 2, 2)] = [(some 1, 0), (none, 1), (some 2, 2)] := by
  rw [nlargestList, if_neg (by decide), if_pos (by decide), hc.run]
  · rfl
  · simp [ltCand, sameFloat, Div.above]

/-! ## Examples -/

theorem sortsNumbers_insertion : SortsNumbers (List.insertionSort fun a b => ltEntry b a = false) := by
  intro l
  induction l with
  | nil => intro _; exact List.Pairwise.nil
  | cons a l ih =>
    intro h
    have hl : ∀ e ∈ l, e.1.1.isSome := fun e he => h e (List.mem_cons_of_mem _ he)
    have ha := h a List.mem_cons_self
    have hs := ih hl
    have hm : ∀ e ∈ l.insertionSort (fun a b => ltEntry b a = false), e.1.1.isSome := fun e he => hl e ((List.perm_insertionSort _ l).subset he)
    rw [List.insertionSort_cons]
    generalize l.insertionSort (fun a b => ltEntry b a = false) = m at hs hm
    have le_iff : ∀ {x y : Entry}, x.1.1.isSome → y.1.1.isSome → (ltEntry y x = false ↔ ekey x ≤ ekey y) := by
      intro x y hx hy
      rw [← not_lt, ← ltEntry_iff hy hx]
      simp
    clear ih hl h
    induction m with
    | nil => exact List.pairwise_singleton _ _
    | cons b m ih =>
      have hb := hm b List.mem_cons_self
      obtain ⟨p1, p2⟩ := List.pairwise_cons.1 hs
      rw [List.orderedInsert_cons]
      split
      · next hab =>
        refine List.pairwise_cons.2 ⟨fun c hc => ?_, hs⟩
        rcases List.mem_cons.1 hc with rfl | hc
        · exact hab
        · have hc' := hm c (List.mem_cons_of_mem _ hc)
          exact (le_iff ha hc').2 (((le_iff ha hb).1 hab).trans ((le_iff hb hc').1 (p1 c hc)))
      · next hab =>
        refine List.pairwise_cons.2 ⟨fun c hc => ?_, ih p2 fun e he => hm e (List.mem_cons_of_mem _ he)⟩
        rcases List.mem_cons.1 ((List.perm_orderedInsert _ a m).subset hc) with rfl | hc
        · exact (le_iff hb ha).2 (not_le.1 fun hh => hab ((le_iff ha hb).2 hh)).le
        · exact p1 c hc

/-- Scores of four items, two of them equal. -/
def fourScores : Nat → Option (Option ℚ)
  | 0 => some (some 1)
  | 1 => some (some 3)
  | 2 => none
  | _ => some (some 3)

/-- The two best of four. -/
example : (rank (List.insertionSort fun a b => ltEntry b a = false) fourScores [0, 1, 2, 3] 2).Pairwise Before ∧
    rank (List.insertionSort fun a b => ltEntry b a = false) fourScores [0, 1, 2, 3] 2 = [(some 3, 3), (some 3, 1)] :=
  ⟨(C152_numbers pySort_insertion sortsNumbers_insertion fourScores [0, 1, 2, 3] (by decide) (by decide) 2).1, by decide +kernel⟩

/-- The three largest of five pairs, two of them the same. -/
example : nlargest (List.insertionSort fun a b => ltEntry b a = false) 3 [(some 1, 0), (some 3, 1), (some 2, 2), (some 3, 1), (some 0, 4)] =
    [(some 3, 1), (some 3, 1), (some 2, 2)] :=
  (C152_documented pySort_insertion sortsNumbers_insertion 3 [(1, 0), (3, 1), (2, 2), (3, 1), (0, 4)]).trans (by decide +kernel)

theorem pySortC_insertion : PySortC (List.insertionSort fun a b => ltCand b a = false) := by
  refine ⟨fun l => List.perm_insertionSort _ l, fun l h => ?_, fun l => ?_⟩
  · induction l with
    | nil => rfl
    | cons a l ih =>
      cases l with
      | nil => rfl
      | cons b l =>
        rw [List.insertionSort_cons, ih (List.isChain_cons_cons.1 h).2]
        exact List.orderedInsert_cons_of_le _ l (by simpa using (List.isChain_cons_cons.1 h).1)
  · induction l with
    | nil => intro _; exact List.Pairwise.nil
    | cons a l ih =>
      intro h
      have hl : ∀ e ∈ l, e.1.isSome := fun e he => h e (List.mem_cons_of_mem _ he)
      have ha := h a List.mem_cons_self
      have hs := ih hl
      have hm : ∀ e ∈ l.insertionSort (fun a b => ltCand b a = false), e.1.isSome := fun e he => hl e ((List.perm_insertionSort _ l).subset he)
      rw [List.insertionSort_cons]
      generalize l.insertionSort (fun a b => ltCand b a = false) = m at hs hm
      have le_iff : ∀ {x y : Cand}, x.1.isSome → y.1.isSome → (ltCand y x = false ↔ ckey x ≤ ckey y) := by
        intro x y hx hy
        rw [← not_lt, ← ltCand_iff hy hx]
        simp
      clear ih hl h
      induction m with
      | nil => exact List.pairwise_singleton _ _
      | cons b m ih =>
        have hb := hm b List.mem_cons_self
        obtain ⟨p1, p2⟩ := List.pairwise_cons.1 hs
        rw [List.orderedInsert_cons]
        split
        · next hab =>
          refine List.pairwise_cons.2 ⟨fun c hc => ?_, hs⟩
          rcases List.mem_cons.1 hc with rfl | hc
          · exact hab
          · have hc' := hm c (List.mem_cons_of_mem _ hc)
            exact (le_iff ha hc').2 (((le_iff ha hb).1 hab).trans ((le_iff hb hc').1 (p1 c hc)))
        · next hab =>
          refine List.pairwise_cons.2 ⟨fun c hc => ?_, ih p2 fun e he => hm e (List.mem_cons_of_mem _ he)⟩
          rcases List.mem_cons.1 ((List.perm_orderedInsert _ a m).subset hc) with rfl | hc
          · exact (le_iff hb ha).2 (not_le.1 fun hh => hab ((le_iff ha hb).2 hh)).le
          · exact p1 c hc

/-- A short list and a long one. -/
example : nlargestList (List.insertionSort fun a b => ltCand b a = false) (List.insertionSort fun a b => ltEntry b a = false) 3
      [(some 1, 0), (some 3, 1)] = [(some 3, 1), (some 1, 0)] ∧
    nlargestList (List.insertionSort fun a b => ltCand b a = false) (List.insertionSort fun a b => ltEntry b a = false) 2
      [(some 1, 0), (some 3, 1), (some 2, 2)] = [(some 3, 1), (some 2, 2)] :=
  ⟨(C152_list_documented pySortC_insertion pySort_insertion sortsNumbers_insertion 3 [(1, 0), (3, 1)]).trans (by decide +kernel),
    (C152_list_documented pySortC_insertion pySort_insertion sortsNumbers_insertion 2 [(1, 0), (3, 1), (2, 2)]).trans (by decide +kernel)⟩

/-- The witness and the number of its items. -/
example : (nlargestList (List.insertionSort fun a b => ltCand b a = false) id 3 [(some 1, 0), (none, 1), (some 2, 2)]) =
      [(some 1, 0), (none, 1), (some 2, 2)] ∧
    (nlargestList (List.insertionSort fun a b => ltCand b a = false) (List.insertionSort fun a b => ltEntry b a = false) 2
      [(some 1, 0), (none, 1), (some 2, 2)]).length = 2 :=
  ⟨C152_list_order_refuted pySortC_insertion id, (C152_list_items pySortC_insertion pySort_insertion 2 _).2⟩

end DRec.NanRank
