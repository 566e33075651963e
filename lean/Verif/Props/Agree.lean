import Verif.Props.Recommender

/-!
# C106: recommending, ranking and predicting agree
-/

namespace DRec

open Spec

/-- The ranking methods of the package: the general one, CDAE's and Caser's. -/
inductive Spec.OwnRank (ds : Mem) : RankFn → Prop
  | base (f : PredictFn ℚ) : OwnRank ds (baseRank ds f)
  | cdae (preds : Nat → List ℚ) : OwnRank ds (cdaeRank ds preds)
  | caser (preds : Nat → List ℚ) : OwnRank ds (caserRank ds preds)

/-- All of them sort first and cut afterwards. -/
theorem ownRank_take {ds : Mem} {rk : RankFn} (h : OwnRank ds rk) (uid : Nat) (iids : List Nat)
    (novelty : Bool) : ∃ full : Except Err (List (ℚ × Nat)), ∀ n,
      rk uid iids n novelty = full.map (List.take n) := by
  cases h with
  | base f =>
    cases hc : candidates ds uid iids novelty with
    | error e => exact ⟨.error e, fun n => by simp [baseRank, hc, Except.map]⟩
    | ok cand =>
      cases hm : cand.mapM (scored f uid) with
      | error e => exact ⟨.error e, fun n => by simp [baseRank, hc, hm, Except.map]⟩
      | ok preds =>
        exact ⟨.ok ((preds.filterMap id).insertionSort pairGe), fun n => by
          simp [baseRank, hc, hm, Except.map, nlargest]⟩
  | cdae preds =>
    refine ⟨(cdaeItems ds uid iids novelty).map fun keep =>
      ((preds uid).zipIdx.filter fun p => p.2 ∈ keep).insertionSort pairGe, fun n => ?_⟩
    unfold cdaeRank
    cases cdaeItems ds uid iids novelty <;> rfl
  | caser preds =>
    cases hr : ratedIids ds uid with
    | error e => exact ⟨.error e, fun n => by simp [caserRank, hr, Except.map]⟩
    | ok own =>
      cases novelty with
      | true =>
        exact ⟨.ok (((preds uid).zipIdx.filter fun p =>
          p.2 ∈ iids.filter fun i => .num (i : ℚ) ∉ own).insertionSort pairGe), fun n => by
          simp only [caserRank, hr, if_true]; rfl⟩
      | false =>
        exact ⟨.ok ((preds uid).zipIdx.insertionSort pairGe), fun n => by
          simp only [caserRank, hr]; rfl⟩

theorem toRaw_append (ds : Mem) (l l' : List (ℚ × Nat)) (b : List (ℚ × Option Val))
    (h : toRaw ds (l ++ l') = .ok b) :
    ∃ a c, toRaw ds l = .ok a ∧ a.length = l.length ∧ b = a ++ c := by
  unfold toRaw at *
  induction l generalizing b with
  | nil => exact ⟨[], b, rfl, rfl, rfl⟩
  | cons p l ih =>
    rw [List.cons_append, List.mapM_cons] at h
    rw [List.mapM_cons]
    cases hp : (ds.iidToItem p.2).map fun v => (p.1, v) with
    | error e => rw [hp] at h; cases h
    | ok x =>
      rw [hp] at h
      simp only [bind, Except.bind] at h ⊢
      cases hm : List.mapM (fun p : ℚ × Nat => (ds.iidToItem p.2).map fun v => (p.1, v)) (l ++ l') with
      | error e => rw [hm] at h; cases h
      | ok b' =>
        rw [hm] at h
        simp only [pure, Except.pure, Except.ok.injEq] at h
        subst h
        obtain ⟨a, c, h1, h2, rfl⟩ := ih b' hm
        exact ⟨x :: a, c, by rw [h1]; rfl, by simp [h2], rfl⟩

/-- **C106.** Asking for fewer recommendations gives the front part of the longer list, for every model,
dataset and threshold. -/
theorem C106_prefix (ds : Mem) (rk : RankFn) (h : OwnRank ds rk) (x : Lit) (novelty : Bool)
    (threshold : Option ℚ) (n m : Nat) (hnm : n ≤ m) (b : List (ℚ × Option Val))
    (hb : recommend ds rk x (some m) novelty threshold = .ok b) :
    ∃ a, recommend ds rk x (some n) novelty threshold = .ok a ∧ a <+: b ∧
      (threshold = none → a = b.take n) := by
  unfold recommend at hb ⊢
  cases hu : ds.userToUid x with
  | error e => rw [hu] at hb; cases hb
  | ok o =>
    cases o with
    | none => rw [hu] at hb; cases hb
    | some uid =>
      rw [hu] at hb
      simp only [Option.getD_some] at hb ⊢
      obtain ⟨full, hf⟩ := ownRank_take h uid (List.range (nItemsOf ds)) novelty
      unfold recommendIids at hb ⊢
      rw [hf] at hb ⊢
      cases full with
      | error e => cases hb
      | ok l =>
        simp only [Except.map] at hb ⊢
        have hsplit : l.take m = l.take n ++ (l.take m).drop n := by
          conv_lhs => rw [← List.take_append_drop n (l.take m)]
          rw [List.take_take, Nat.min_eq_left hnm]
        cases threshold with
        | none =>
          simp only at hb ⊢
          rw [hsplit] at hb
          obtain ⟨a, c, h1, h2, rfl⟩ := toRaw_append ds _ _ _ hb
          refine ⟨a, h1, List.prefix_append _ _, fun _ => ?_⟩
          by_cases hl : n ≤ l.length
          · rw [List.take_left' (by rw [h2]; simp [hl])]
          · have hd : (l.take m).drop n = [] := List.drop_eq_nil_of_le (by simp; omega)
            rw [hd, List.append_nil, h1] at hb
            have e : a = a ++ c := by simpa using hb
            rw [← e, List.take_of_length_le (by rw [h2]; simp)]
        | some t =>
          simp only at hb ⊢
          rw [hsplit, List.filter_append] at hb
          obtain ⟨a, c, h1, h2, rfl⟩ := toRaw_append ds _ _ _ hb
          exact ⟨a, h1, List.prefix_append _ _, fun h => by cases h⟩

/-! ## Ranking everything -/

/-- `items` names every item of the dataset once, in any order. -/
def Spec.NamesAll (ds : Mem) (items : List Lit) : Prop :=
  ∃ vals, List.Forall₂ (NamesItem ds) items vals ∧ vals.Perm ds.itemMap

theorem knownIids_names {ds : Mem} (hids : ds.hasIds = true) (skip : Bool) {items : List Lit}
    {vals : List Val} (h : List.Forall₂ (NamesItem ds) items vals) :
    ∃ iids, knownIids ds skip items = .ok iids ∧ iids.map (ds.itemMap[·]?) = vals.map some := by
  induction h with
  | nil => exact ⟨[], rfl, rfl⟩
  | cons h1 _ ih =>
    obtain ⟨i, h2, h3⟩ := h1
    obtain ⟨iids, h4, h5⟩ := ih
    rw [iidToItem_iff hids] at h3
    exact ⟨i :: iids, by simp [knownIids, h2, h4, Except.map], by simp [h3, h5]⟩

theorem knownIids_all_perm {ds : Mem} (h : IdsOk ds) (skip : Bool) {items : List Lit}
    (hall : NamesAll ds items) :
    ∃ iids, knownIids ds skip items = .ok iids ∧ iids.Perm (List.range ds.itemMap.length) := by
  obtain ⟨vals, h1, h2⟩ := hall
  obtain ⟨iids, h3, h4⟩ := knownIids_names h.has skip h1
  refine ⟨iids, h3, ?_⟩
  have hn : iids.Nodup := by
    apply List.Nodup.of_map (ds.itemMap[·]?)
    rw [h4]
    exact (h2.nodup_iff.2 h.item.nodup).map (Option.some_injective _)
  have hlt : ∀ i ∈ iids, i ∈ List.range ds.itemMap.length := by
    intro i hi
    have : ds.itemMap[i]? ∈ vals.map some := by rw [← h4]; exact List.mem_map_of_mem hi
    obtain ⟨v, _, e⟩ := List.mem_map.1 this
    exact List.mem_range.2 (List.getElem?_eq_some_iff.1 e.symm).1
  refine (List.subperm_of_subset hn hlt).perm_of_length_le ?_
  have := congrArg List.length h4
  simp only [List.length_map] at this
  rw [List.length_range, this, h2.length_eq]

theorem rank_recommend {ds : Mem} (h : Fresh ds) {rk : RankFn} {items : List Lit} (hall : NamesAll ds items)
    (x : Lit) (novelty skip : Bool) (n : Option Nat) (hn : n.getD 0 ≤ ds.itemMap.length)
    (hperm : ∀ uid iids n, ds.userToUid x = .ok (some uid) → iids.Perm (List.range ds.itemMap.length) →
      rk uid iids n novelty = rk uid (List.range ds.itemMap.length) n novelty) :
    rank ds rk x items novelty skip n = recommend ds rk x n novelty none := by
  obtain ⟨iids, h1, h2⟩ := knownIids_all_perm h.ids skip hall
  have hl : iids.length = ds.itemMap.length := by rw [h2.length_eq, List.length_range]
  have hN : nItemsOf ds = ds.itemMap.length := countDistinct_eq ds "item" "iid" ds.itemMap h.ids.item h.items
  unfold rank recommend
  cases hu : ds.userToUid x with
  | error e => rfl
  | ok o =>
    cases o with
    | none => rfl
    | some uid =>
      simp only [h1, hl, hN, recommendIids]
      rw [if_neg (by cases n with
        | none => simp
        | some n => simp at hn ⊢; exact hn)]
      rw [hperm uid iids _ hu h2]
      cases rk uid (List.range ds.itemMap.length) (n.getD ds.itemMap.length) novelty <;> rfl

/-- **C106.** Ranking all items, given in any order, is the same as recommending (any `n` up to the number
of items, or none). -/
theorem C106_rank_all (ds : Mem) (h : Fresh ds) (f : PredictFn ℚ) (x : Lit)
    (hs : ∀ uid, ds.userToUid x = .ok (some uid) → Scores ds f uid) (items : List Lit)
    (hall : NamesAll ds items) (novelty skip : Bool) (n : Option Nat) (hn : n.getD 0 ≤ ds.itemMap.length) :
    rank ds (baseRank ds f) x items novelty skip n = recommend ds (baseRank ds f) x n novelty none := by
  refine rank_recommend h hall x novelty skip n hn fun uid iids m hu hp => ?_
  have hsc : ∀ i ∈ List.range ds.itemMap.length, ∃ p, f (some uid) (some i) = .ok p := fun i hi =>
    hs uid hu i _ ((iidToItem_iff h.ids.has).2 (rawItem_of_lt (List.mem_range.1 hi)))
  obtain ⟨c, c1, c2, c3, c4⟩ := baseRank_ok h.ids m novelty hsc
  obtain ⟨d, d1, d2, d3, d4⟩ := baseRank_ok (iids := iids) h.ids m novelty
    (fun i hi => hsc i (hp.mem_iff.1 hi))
  rw [c4, d4]
  congr 1
  apply nlargest_perm
  apply List.Perm.filterMap
  cases novelty with
  | false => rw [c2 rfl, d2 rfl]; exact hp
  | true =>
    rw [List.perm_ext_iff_of_nodup (d1 rfl) (c1 rfl)]
    intro i
    rw [c3, d3, hp.mem_iff]

/-- **C106** for CDAE. -/
theorem C106_rank_all_cdae (ds : Mem) (h : Fresh ds) (preds : Nat → List ℚ) (x : Lit) (items : List Lit)
    (hall : NamesAll ds items) (novelty skip : Bool) (n : Option Nat) (hn : n.getD 0 ≤ ds.itemMap.length) :
    rank ds (cdaeRank ds preds) x items novelty skip n =
      recommend ds (cdaeRank ds preds) x n novelty none := by
  refine rank_recommend h hall x novelty skip n hn fun uid iids m _ hp => ?_
  obtain ⟨c, c1, c2, c3⟩ := cdaeItems_ok h.ids uid iids novelty
  obtain ⟨d, d1, d2, d3⟩ := cdaeItems_ok h.ids uid (List.range ds.itemMap.length) novelty
  unfold cdaeRank
  rw [c1, d1]
  simp only [Except.map, Except.ok.injEq]
  congr 1
  apply List.filter_congr
  intro p _
  simp only [c3, d3, hp.mem_iff]

/-- **C106** for Caser. -/
theorem C106_rank_all_caser (ds : Mem) (h : Fresh ds) (preds : Nat → List ℚ) (x : Lit) (items : List Lit)
    (hall : NamesAll ds items) (novelty skip : Bool) (n : Option Nat) (hn : n.getD 0 ≤ ds.itemMap.length) :
    rank ds (caserRank ds preds) x items novelty skip n =
      recommend ds (caserRank ds preds) x n novelty none := by
  refine rank_recommend h hall x novelty skip n hn fun uid iids m _ hp => ?_
  unfold caserRank
  rw [ratedIids_ok h.ids]
  cases novelty with
  | false => rfl
  | true =>
    simp only [if_true, Except.ok.injEq]
    congr 1
    apply List.filter_congr
    intro p _
    simp only [List.mem_filter, hp.mem_iff]

/-! ## Scores are predictions -/

theorem baseRank_mem {ds : Mem} {f : PredictFn ℚ} {uid : Nat} {iids : List Nat} {n : Nat} {novelty : Bool}
    {l : List (ℚ × Nat)} (h : baseRank ds f uid iids n novelty = .ok l) :
    ∀ p ∈ l, f (some uid) (some p.2) = .ok (some p.1) := by
  unfold baseRank at h
  cases hc : candidates ds uid iids novelty with
  | error e => rw [hc] at h; cases h
  | ok cand =>
    rw [hc] at h
    simp only at h
    cases hm : cand.mapM (scored f uid) with
    | error e => rw [hm] at h; cases h
    | ok preds =>
      rw [hm] at h
      cases h
      intro p hp
      replace hp := (nlargest_subperm n _).subset hp
      simp only [List.mem_filterMap, id_eq] at hp
      obtain ⟨o, ho, rfl⟩ := hp
      clear hc
      induction cand generalizing preds with
      | nil => cases hm; cases ho
      | cons i cand ih =>
        rw [List.mapM_cons] at hm
        cases hi : scored f uid i with
        | error e => rw [hi] at hm; cases hm
        | ok o' =>
          rw [hi] at hm
          simp only [bind, Except.bind] at hm
          cases hm' : cand.mapM (scored f uid) with
          | error e => rw [hm'] at hm; cases hm
          | ok preds' =>
            rw [hm'] at hm
            cases hm
            rcases List.mem_cons.1 ho with rfl | ho
            · unfold scored at hi
              cases hf : f (some uid) (some i) with
              | error e => rw [hf] at hi; cases hi
              | ok q =>
                rw [hf] at hi
                simp only [Except.map, Except.ok.injEq, Option.map_eq_some_iff] at hi
                obtain ⟨s, rfl, rfl⟩ := hi
                exact hf
            · exact ih preds' hm' ho

/-- Every entry of the result comes from the entries of `_rank`. -/
theorem recommend_mem {ds : Mem} (h : IdsOk ds) {rk : RankFn} {x : Lit} {n : Option Nat} {novelty : Bool}
    {threshold : Option ℚ} {out : List (ℚ × Option Val)}
    (hout : recommend ds rk x n novelty threshold = .ok out) {s : ℚ} {item : Val}
    (hmem : (s, some item) ∈ out) :
    ∃ uid i l, ds.userToUid x = .ok (some uid) ∧
      rk uid (List.range (nItemsOf ds)) (n.getD (nItemsOf ds)) novelty = .ok l ∧ (s, i) ∈ l ∧
      ds.itemMap[i]? = some item := by
  unfold recommend at hout
  cases hu : ds.userToUid x with
  | error e => rw [hu] at hout; cases hout
  | ok o =>
    cases o with
    | none => rw [hu] at hout; cases hout
    | some uid =>
      rw [hu] at hout
      simp only [recommendIids] at hout
      cases hl : rk uid (List.range (nItemsOf ds)) (n.getD (nItemsOf ds)) novelty with
      | error e => rw [hl] at hout; cases hout
      | ok l =>
        rw [hl] at hout
        simp only [Except.map, toRaw_ok h.has, Except.ok.injEq] at hout
        subst hout
        obtain ⟨p, hp, e⟩ := List.mem_map.1 hmem
        refine ⟨uid, p.2, l, rfl, hl, ?_, (Prod.mk.inj e).2⟩
        rw [← (Prod.mk.inj e).1]
        cases threshold with
        | none => exact hp
        | some t => exact (List.mem_filter.1 hp).1

theorem rank_mem {ds : Mem} (h : IdsOk ds) {rk : RankFn} {x : Lit} {items : List Lit} {n : Option Nat}
    {novelty skip : Bool} {out : List (ℚ × Option Val)}
    (hout : rank ds rk x items novelty skip n = .ok out) {s : ℚ} {item : Val}
    (hmem : (s, some item) ∈ out) :
    ∃ uid i l iids m, ds.userToUid x = .ok (some uid) ∧ rk uid iids m novelty = .ok l ∧ (s, i) ∈ l ∧
      ds.itemMap[i]? = some item := by
  unfold rank at hout
  cases hu : ds.userToUid x with
  | error e => rw [hu] at hout; cases hout
  | ok o =>
    cases o with
    | none => rw [hu] at hout; cases hout
    | some uid =>
      rw [hu] at hout
      simp only at hout
      cases hk : knownIids ds skip items with
      | error e => rw [hk] at hout; cases hout
      | ok iids =>
        rw [hk] at hout
        simp only at hout
        split at hout
        · cases hout
        · cases hl : rk uid iids (n.getD iids.length) novelty with
          | error e => rw [hl] at hout; cases hout
          | ok l =>
            rw [hl] at hout
            simp only [toRaw_ok h.has, Except.ok.injEq] at hout
            subst hout
            obtain ⟨p, hp, e⟩ := List.mem_map.1 hmem
            refine ⟨uid, p.2, l, iids, _, rfl, hl, ?_, (Prod.mk.inj e).2⟩
            rw [← (Prod.mk.inj e).1]
            exact hp

theorem names_inj {ds : Mem} (h : IdsOk ds) {y : Lit} {item : Val} (hy : NamesItem ds y item) {i : Nat}
    (hi : ds.itemMap[i]? = some item) : ds.itemToIid y = .ok (some i) := by
  obtain ⟨j, h1, h2⟩ := hy
  rw [iidToItem_iff h.has] at h2
  obtain ⟨hj, e1⟩ := List.getElem?_eq_some_iff.1 h2
  obtain ⟨hi', e2⟩ := List.getElem?_eq_some_iff.1 hi
  have : j = i := (h.item.nodup.getElem_inj_iff).1 (e1.trans e2.symm)
  rwa [← this]

theorem predict_of {α : Type} {ds : Mem} {f : PredictFn α} {x y : Lit} {uid i : Nat} {s : α}
    (hu : ds.userToUid x = .ok (some uid)) (hi : ds.itemToIid y = .ok (some i))
    (hf : f (some uid) (some i) = .ok (some s)) (skip : Bool) :
    predict ds true f x y skip = .ok (some s) := by
  cases skip <;> simp [predict, tryPredict, assertKnown, hu, hi, hf, Except.toOption, Except.map]

/-- **C106.** The score of a recommended or ranked item is what `predict` returns for the user and that
item, however the caller writes its id. -/
theorem C106_scores (ds : Mem) (h : IdsOk ds) (f : PredictFn ℚ) (x y : Lit) (item : Val)
    (hy : NamesItem ds y item) (s : ℚ) (out : List (ℚ × Option Val)) (hmem : (s, some item) ∈ out)
    (hout : (∃ n novelty threshold, recommend ds (baseRank ds f) x n novelty threshold = .ok out) ∨
      ∃ items novelty skip n, rank ds (baseRank ds f) x items novelty skip n = .ok out) (skip : Bool) :
    predict ds true f x y skip = .ok (some s) := by
  obtain ⟨n, novelty, t, hout⟩ | ⟨items, novelty, sk, n, hout⟩ := hout
  · obtain ⟨uid, i, l, h1, h2, h3, h4⟩ := recommend_mem h hout hmem
    exact predict_of h1 (names_inj h hy h4) (baseRank_mem h2 _ h3) skip
  · obtain ⟨uid, i, l, iids, m, h1, h2, h3, h4⟩ := rank_mem h hout hmem
    exact predict_of h1 (names_inj h hy h4) (baseRank_mem h2 _ h3) skip

/-- **C106** for CDAE. -/
theorem C106_scores_cdae (ds : Mem) (h : IdsOk ds) (preds : Nat → List ℚ) (x y : Lit) (item : Val)
    (hy : NamesItem ds y item) (s : ℚ) (out : List (ℚ × Option Val)) (hmem : (s, some item) ∈ out)
    (hout : (∃ n novelty threshold, recommend ds (cdaeRank ds preds) x n novelty threshold = .ok out) ∨
      ∃ items novelty skip n, rank ds (cdaeRank ds preds) x items novelty skip n = .ok out) (skip : Bool) :
    predict ds true (cdaePredict preds) x y skip = .ok (some (.num s)) := by
  obtain ⟨n, novelty, t, hout⟩ | ⟨items, novelty, sk, n, hout⟩ := hout
  · obtain ⟨uid, i, l, h1, h2, h3, h4⟩ := recommend_mem h hout hmem
    exact predict_of h1 (names_inj h hy h4) (C66_cdae_predicts ds preds uid _ _ _ l h2 _ h3) skip
  · obtain ⟨uid, i, l, iids, m, h1, h2, h3, h4⟩ := rank_mem h hout hmem
    exact predict_of h1 (names_inj h hy h4) (C66_cdae_predicts ds preds uid _ _ _ l h2 _ h3) skip

/-! ## Examples -/

/-- All items scored alike: ties are broken the same way everywhere. -/
def exTie : PredictFn ℚ := fun _ i => .ok (i.map fun _ => 1)

example : NamesAll exRec [.int 30, .int 10, .int 20] := by
  refine ⟨[.num 30, .num 10, .num 20], ?_, by decide +kernel⟩
  exact .cons ⟨2, by decide +kernel, by decide +kernel⟩ (.cons ⟨0, by decide +kernel, by decide +kernel⟩
    (.cons ⟨1, by decide +kernel, by decide +kernel⟩ .nil))

example : recommend exRec (baseRank exRec exTie) (.int 2) (some 1) false none = .ok [(1, some (.num 30))] ∧
    recommend exRec (baseRank exRec exTie) (.int 2) (some 2) false none =
      .ok [(1, some (.num 30)), (1, some (.num 20))] ∧
    rank exRec (baseRank exRec exTie) (.int 2) [.int 30, .int 10, .int 20] false true (some 2) =
      .ok [(1, some (.num 30)), (1, some (.num 20))] ∧
    predict exRec true exTie (.int 2) (.int 30) false = .ok (some 1) := by decide +kernel

end DRec
