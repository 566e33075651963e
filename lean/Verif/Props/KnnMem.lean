import Verif.Lemmas.KnnMem
import Verif.Props.Knn

/-!
# The nearest neighbour recommenders read what the list of records says

For a dataset with consistent internal ids (`Spec.Fresh`), every query the recommenders send to the dataset
gives what `Verif.Model.Knn` reads from the list of records.
-/

namespace DRec

open Spec

/-- Internal ids of the fitted dataset have no gaps (hypothesis of `C62_neighbours`). -/
theorem C62_dense (ds : Mem) (h : Fresh ds) (K : KKind) : Dense K (ratingsOf ds) := by
  cases K with
  | user =>
    refine ⟨ds.userMap.length, fun a => ?_⟩
    constructor
    · rintro ⟨x, hx, rfl⟩
      obtain ⟨r, hr, rfl⟩ := List.mem_map.1 hx
      obtain ⟨hm, hc⟩ := h.ids.user.code r hr
      simp only [KKind.own]
      rw [hc, idCell_nat]
      exact List.idxOf_lt_length_of_mem hm
    · intro ha
      obtain ⟨r, hr, e⟩ := h.users _ (List.getElem_mem ha)
      refine ⟨ratingOf r, List.mem_map.2 ⟨r, hr, rfl⟩, ?_⟩
      simp only [KKind.own, ratingOf]
      rw [(h.ids.user.code r hr).2, idCell_nat, e, h.ids.user.nodup.idxOf_getElem]
  | item =>
    refine ⟨ds.itemMap.length, fun a => ?_⟩
    constructor
    · rintro ⟨x, hx, rfl⟩
      obtain ⟨r, hr, rfl⟩ := List.mem_map.1 hx
      obtain ⟨hm, hc⟩ := h.ids.item.code r hr
      simp only [KKind.own]
      rw [hc, idCell_nat]
      exact List.idxOf_lt_length_of_mem hm
    · intro ha
      obtain ⟨r, hr, e⟩ := h.items _ (List.getElem_mem ha)
      refine ⟨ratingOf r, List.mem_map.2 ⟨r, hr, rfl⟩, ?_⟩
      simp only [KKind.own, ratingOf]
      rw [(h.ids.item.code r hr).2, idCell_nat, e, h.ids.item.nodup.idxOf_getElem]

theorem interactionMem_eq {ds : Mem} (h : Fresh ds) (u i : Nat) :
    interactionMem ds u i = .ok ((ds.rows.find? fun r =>
      decide (idCell (r.get "uid") = u) && decide (idCell (r.get "iid") = i)).map fun r => r.get "interaction") := by
  unfold interactionMem Mem.selectOne
  rw [pairRows h.ids.user.hasCol h.ids.item.hasCol]
  have e : (ds.rows.filter fun r => decide (r.get "uid" = .num (u : ℚ)) && decide (r.get "iid" = .num (i : ℚ))) =
      ds.rows.filter fun r => decide (idCell (r.get "uid") = u) && decide (idCell (r.get "iid") = i) := by
    apply List.filter_congr
    intro r hr
    rw [Bool.eq_iff_iff]
    simp only [Bool.and_eq_true, decide_eq_true_eq]
    rw [idCell_iff (fresh_cells h hr).1, idCell_iff (fresh_cells h hr).2.1]
  rw [e]
  simp only [handleColumns, bind, Except.bind, head?_filter_map]
  cases ds.rows.find? fun r => decide (idCell (r.get "uid") = u) && decide (idCell (r.get "iid") = i) with
  | none => rfl
  | some r =>
    simp only [Option.map_some]
    rw [lookup_toRec r "interaction" ds.cols h.hasInter]

/-- `_get_interaction` finds the first record of the pair in the list of records. -/
theorem C63_get_interaction (ds : Mem) (h : Fresh ds) (u i : Nat) :
    interactionMem ds u i = .ok ((interactionOf .user (ratingsOf ds) u i).map .num) ∧
      interactionMem ds u i = .ok ((interactionOf .item (ratingsOf ds) i u).map .num) := by
  rw [interactionMem_eq h]
  have key : ∀ l : List Row, (∀ r ∈ l, r ∈ ds.rows) →
      (l.find? fun r => decide (idCell (r.get "uid") = u) && decide (idCell (r.get "iid") = i)).map
        (fun r => r.get "interaction") =
      ((l.map ratingOf).find? fun r => decide (r.uid = u) && decide (r.iid = i)).map fun r => Val.num r.x := by
    intro l hl
    induction l with
    | nil => rfl
    | cons r l ih =>
      have ih := ih fun x hx => hl x (List.mem_cons_of_mem _ hx)
      simp only [List.find?_cons, List.map_cons, ratingOf] at ih ⊢
      cases decide (idCell (r.get "uid") = u) && decide (idCell (r.get "iid") = i) with
      | true =>
        simp only [Option.map_some]
        rw [(fresh_cells h (hl r List.mem_cons_self)).2.2]
        rfl
      | false => exact ih
  constructor
  · rw [key ds.rows fun _ hr => hr]
    unfold interactionOf
    rw [Option.map_map]
    rfl
  · rw [key ds.rows fun _ hr => hr]
    unfold interactionOf
    rw [Option.map_map]
    congr 2
    apply List.find?_congr
    intro r _
    rw [Bool.eq_iff_iff]
    simp only [Bool.and_eq_true, decide_eq_true_eq]
    exact and_comm

theorem ratCell_sum (l : List Row) :
    ((l.map fun r => r.get "interaction").map ratCell).sum = ((l.map ratingOf).map (·.x)).sum := by
  rw [List.map_map, List.map_map]
  rfl

/-- `_predict_default` is the average over the list of records. -/
theorem C63_predict_default (ds : Mem) (h : Fresh ds) (K : KKind) (o : Nat) :
    predictDefault K (ratingsOf ds) o = (defaultMem K ds o).map some := by
  have main : ∀ c, (c = "uid" ∨ c = "iid") → c ∈ ds.cols → K.otherCol = c →
      defaultMem K ds o =
      if ((rowsWith c o ds.rows).map ratingOf).length = 0 then .error .zeroDiv
      else .ok ((((rowsWith c o ds.rows).map ratingOf).map (·.x)).sum /
        (((rowsWith c o ds.rows).map ratingOf).length : ℚ)) := by
    intro c hid hc e
    unfold defaultMem
    rw [e, idSelect_ok hc hid]
    have hi : "interaction" ∈ ds.copy.cols := h.hasInter
    simp only [Mem.valuesOf, handleColumns, List.all_cons, List.all_nil, Bool.and_true, hi, decide_true, if_true,
      Except.map, Mem.len, ratCell_sum, List.length_map]
  have split_map : ∀ l : List Rating, (if l.length = 0 then (.error .zeroDiv : Except Err (Option ℚ))
        else .ok (some ((l.map (·.x)).sum / (l.length : ℚ)))) =
      (if l.length = 0 then (.error .zeroDiv : Except Err ℚ)
        else .ok ((l.map (·.x)).sum / (l.length : ℚ))).map some := by
    intro l
    split <;> rfl
  cases K with
  | user =>
    rw [main "iid" (.inr rfl) h.ids.item.hasCol rfl, rowsWith_iid h]
    exact split_map _
  | item =>
    rw [main "uid" (.inl rfl) h.ids.user.hasCol rfl, rowsWith_uid h]
    exact split_map _

/-- The records of a neighbour. -/
theorem C64_neighbour_records (ds : Mem) (h : Fresh ds) (u : Nat) :
    neighbourRecords ds u =
      .ok (((ratingsOf ds).filter fun r => r.uid = u).map fun r => (Val.num (r.iid : ℚ), Val.num r.x)) := by
  unfold neighbourRecords
  rw [idSelect_ok h.ids.user.hasCol (.inl rfl), ← rowsWith_uid h]
  have hi : "interaction" ∈ ds.copy.cols := h.hasInter
  have hj : "iid" ∈ ds.copy.cols := h.ids.item.hasCol
  simp only [handleColumns, List.all_cons, List.all_nil, Bool.and_true, hi, hj, decide_true, if_true, Except.map,
    List.map_map]
  congr 1
  apply List.map_congr_left
  intro r hr
  have hr : r ∈ ds.rows := (List.mem_filter.1 hr).1
  obtain ⟨_, h2, h3⟩ := fresh_cells h hr
  simp only [Function.comp_apply, ratingOf]
  rw [← h2, ← h3]

/-- The items a user has records with. -/
theorem C64_rated (ds : Mem) (h : Fresh ds) (u : Nat) :
    ratedIids ds u = .ok (((ratingsOf ds).filter fun r => r.uid = u).map fun r => Val.num (r.iid : ℚ)) := by
  rw [ratedIids_ok h.ids, ← rowsWith_uid h, List.map_map]
  congr 1
  apply List.map_congr_left
  intro r hr
  have hr : r ∈ ds.rows := (List.mem_filter.1 hr).1
  simp only [Function.comp_apply, ratingOf]
  exact (fresh_cells h hr).2.1

/-- The interaction of a user with an item, looked up among the records of the user. -/
theorem C64_own_interaction (ds : Mem) (h : Fresh ds) (u i : Nat) :
    ownInteraction ds u i =
      .ok ((((ratingsOf ds).filter fun r => r.uid = u).find? fun r => r.iid = i).map fun r => Val.num r.x) := by
  unfold ownInteraction
  rw [idSelect_ok h.ids.user.hasCol (.inl rfl)]
  have hi : "interaction" ∈ ds.copy.cols := h.hasInter
  have hj : "iid" ∈ ds.copy.cols := h.ids.item.hasCol
  simp only [Mem.selectOne, handleColumns, List.all_cons, List.all_nil, Bool.and_true, hi, decide_true, if_true, bind,
    Except.bind]
  rw [idRows (ds := { ds.copy with rows := rowsWith "uid" u ds.rows }) hj (by decide) (.inr rfl) i]
  rw [← rowsWith_uid h]
  have key : ∀ l : List Row, (∀ r ∈ l, r ∈ ds.rows) →
      (rowsWith "iid" i l).head?.map (fun r => r.get "interaction") =
      ((l.map ratingOf).find? fun r => r.iid = i).map fun r => Val.num r.x := by
    intro l hl
    induction l with
    | nil => rfl
    | cons r l ih =>
      have ih := ih fun x hx => hl x (List.mem_cons_of_mem _ hx)
      obtain ⟨_, h2, h3⟩ := fresh_cells h (hl r List.mem_cons_self)
      simp only [rowsWith, List.filter_cons, List.find?_cons, List.map_cons, ratingOf] at ih ⊢
      by_cases e : idCell (r.get "iid") = i
      · have e' : r.get "iid" = .num (i : ℚ) := (idCell_iff h2 i).2 e
        rw [if_pos (decide_eq_true e')]
        simp only [e, decide_true, List.head?_cons, Option.map_some]
        exact congrArg some h3
      · have e' : ¬ r.get "iid" = .num (i : ℚ) := fun c => e ((idCell_iff h2 i).1 c)
        rw [if_neg (by simpa using e')]
        simp only [e, decide_false]
        exact ih
  have hk := key (rowsWith "uid" u ds.rows) fun r hr => (List.mem_filter.1 hr).1
  rw [← hk]
  simp only
  cases (rowsWith "iid" i (rowsWith "uid" u ds.rows)).head? <;> rfl

/-- Two users, two items, one of them rated by both. -/
def exKnnMem : Mem :=
  (mkMem .obj [(.str "ann", .str "x", 4), (.str "bob", .str "x", 2), (.str "bob", .str "y", 5)]).assignIds.1

theorem exKnnMem_fresh : Fresh exKnnMem :=
  ⟨assignIds_idsOk _ (by decide) (by decide), by
    have : exKnnMem.userMap = (exKnnMem.rows.map (·.get "user")).dedup := by decide +kernel
    intro v hv
    rw [this, List.mem_dedup, List.mem_map] at hv
    exact hv, by
    have : exKnnMem.itemMap = (exKnnMem.rows.map (·.get "item")).dedup := by decide +kernel
    intro v hv
    rw [this, List.mem_dedup, List.mem_map] at hv
    exact hv, by decide +kernel, by
    have e : exKnnMem.rows.map (·.get "interaction") = [.num 4, .num 2, .num 5] := by decide +kernel
    intro r hr
    have : r.get "interaction" ∈ exKnnMem.rows.map (·.get "interaction") := List.mem_map.2 ⟨r, hr, rfl⟩
    rw [e] at this
    simp only [List.mem_cons, List.not_mem_nil, or_false] at this
    rcases this with h | h | h <;> exact ⟨_, h⟩⟩

example : ratingsOf exKnnMem = [⟨0, 0, 4⟩, ⟨1, 0, 2⟩, ⟨1, 1, 5⟩] ∧
    (interactionMem exKnnMem 1 0).toOption = some (some (.num 2)) ∧
    (interactionMem exKnnMem 0 1).toOption = some none ∧
    (defaultMem .user exKnnMem 0).toOption = some 3 ∧ (defaultMem .user exKnnMem 7).toOption = none ∧
    (ownInteraction exKnnMem 1 1).toOption = some (some (.num 5)) := by decide +kernel

end DRec
