import Verif.Spec.Renaming
import Verif.Props.Transpose
import Verif.Props.Vectors
import Verif.Props.Recommender

/-! # C119: the names of users and items do not matter -/

namespace DRec

open Spec

theorem distinctVals_map (ρ : Val → Val) (l : List Val) (h : ∀ a ∈ l, ∀ b ∈ l, ρ a = ρ b → a = b) :
    distinctVals (l.map ρ) = (distinctVals l).map ρ := by
  induction l with
  | nil => rfl
  | cons v vs ih =>
    rw [List.map_cons, distinctVals, distinctVals, List.map_cons,
      ih fun a ha b hb => h a (List.mem_cons_of_mem _ ha) b (List.mem_cons_of_mem _ hb), List.filter_map]
    congr 2
    apply List.filter_congr
    intro a ha
    have ha' := (mem_distinctVals _ _).1 ha
    simp only [Function.comp_apply, ne_eq, decide_eq_decide]
    exact not_congr ⟨fun e => h a (List.mem_cons_of_mem _ ha') v List.mem_cons_self e, fun e => by rw [e]⟩

theorem idxOf_map_inj (ρ : Val → Val) (l : List Val) {v : Val} (h : ∀ a ∈ l, ρ a = ρ v → a = v) :
    (l.map ρ).idxOf (ρ v) = l.idxOf v := by
  induction l with
  | nil => rfl
  | cons a l ih =>
    rw [List.map_cons, List.idxOf_cons, List.idxOf_cons, ih fun b hb => h b (List.mem_cons_of_mem _ hb)]
    by_cases e : a = v
    · subst e
      rw [beq_self_eq_true, beq_self_eq_true]
    · have : ρ a ≠ ρ v := fun k => e (h a List.mem_cons_self k)
      rw [beq_false_of_ne e, beq_false_of_ne this]

section

variable {ρ σ : Val → Val} {m m' : Mem}

theorem renamed_maps (h : RawSet m) (h' : RawSet m') (hr : Renamed ρ σ m m') :
    m'.assignIds.1.userMap = m.assignIds.1.userMap.map ρ ∧ m'.assignIds.1.itemMap = m.assignIds.1.itemMap.map σ := by
  have hu : ∀ d : Mem, d.rows.map (·.get "user") = (d.rows.map rawTriple).map (·.1) := fun d => by rw [List.map_map]; rfl
  have hi : ∀ d : Mem, d.rows.map (·.get "item") = (d.rows.map rawTriple).map (·.2.1) := fun d => by rw [List.map_map]; rfl
  have eu : m'.rows.map (·.get "user") = (m.rows.map (·.get "user")).map ρ := by
    rw [hu, hu, hr.rows]; simp only [List.map_map]; rfl
  have ei : m'.rows.map (·.get "item") = (m.rows.map (·.get "item")).map σ := by
    rw [hi, hi, hr.rows]; simp only [List.map_map]; rfl
  rw [assignIds_eq _ h.user h.item, assignIds_eq _ h'.user h'.item]
  simp only [eu, ei]
  constructor
  · apply distinctVals_map
    intro a ha b hb
    obtain ⟨r, hr1, rfl⟩ := List.mem_map.1 ha
    obtain ⟨s, hs1, rfl⟩ := List.mem_map.1 hb
    exact hr.users r hr1 s hs1
  · apply distinctVals_map
    intro a ha b hb
    obtain ⟨r, hr1, rfl⟩ := List.mem_map.1 ha
    obtain ⟨s, hs1, rfl⟩ := List.mem_map.1 hb
    exact hr.items r hr1 s hs1

theorem idTriple_raw {d : Mem} (h : Fresh d) : d.rows.map idTriple = (d.rows.map rawTriple).map fun t =>
    (.num (d.userMap.idxOf t.1 : Nat), .num (d.itemMap.idxOf t.2.1 : Nat), t.2.2) := by
  rw [List.map_map]
  apply List.map_congr_left
  intro r hr
  simp only [idTriple, rawTriple, Function.comp_apply, (h.ids.user.code r hr).2, (h.ids.item.code r hr).2]

/-- **C119**, internal ids: the records of the renamed dataset get the same internal ids, and the internal ids stand for
the renamed users and items. -/
theorem C119_ids (ρ σ : Val → Val) (m m' : Mem) (h : RawSet m) (h' : RawSet m') (hr : Renamed ρ σ m m') :
    m'.assignIds.1.rows.map idTriple = m.assignIds.1.rows.map idTriple ∧
    ∀ k, (∀ user, m.assignIds.1.uidToUser k = .ok user → m'.assignIds.1.uidToUser k = .ok (user.map ρ)) ∧
      ∀ item, m.assignIds.1.iidToItem k = .ok item → m'.assignIds.1.iidToItem k = .ok (item.map σ) := by
  obtain ⟨e1, e2⟩ := renamed_maps h h' hr
  have f := assigned_fresh h
  have f' := assigned_fresh h'
  constructor
  · rw [idTriple_raw f, idTriple_raw f', assigned_raw h, assigned_raw h', hr.rows, e1, e2, List.map_map]
    apply List.map_congr_left
    intro t ht
    obtain ⟨r, hr1, rfl⟩ := List.mem_map.1 ht
    have k1 : ((m.assignIds.1.userMap).map ρ).idxOf (ρ (rawTriple r).1) = m.assignIds.1.userMap.idxOf (rawTriple r).1 := by
      apply idxOf_map_inj
      intro a ha e
      rw [assignIds_eq _ h.user h.item] at ha
      obtain ⟨s, hs, rfl⟩ := List.mem_map.1 ((mem_distinctVals _ _).1 ha)
      exact hr.users s hs r hr1 e
    have k2 : ((m.assignIds.1.itemMap).map σ).idxOf (σ (rawTriple r).2.1) =
        m.assignIds.1.itemMap.idxOf (rawTriple r).2.1 := by
      apply idxOf_map_inj
      intro a ha e
      rw [assignIds_eq _ h.user h.item] at ha
      obtain ⟨s, hs, rfl⟩ := List.mem_map.1 ((mem_distinctVals _ _).1 ha)
      exact hr.items s hs r hr1 e
    simp only [Function.comp_apply, k1, k2]
  · intro k
    simp only [Mem.uidToUser, Mem.iidToItem, f.ids.has, f'.ids.has, if_true, e1, e2, List.getElem?_map, Except.ok.injEq]
    exact ⟨fun user e => by rw [e], fun item e => by rw [e]⟩

/-- The ratings a nearest neighbour recommender reads. -/
theorem ratings_triple {d : Mem} : ratingsOf d = (d.rows.map idTriple).map fun t =>
    ⟨idCell t.1, idCell t.2.1, ratCell t.2.2⟩ := by
  rw [ratingsOf_eq, List.map_map]
  rfl

theorem renamed_ratings (h : RawSet m) (h' : RawSet m') (hr : Renamed ρ σ m m') :
    ratingsOf m'.assignIds.1 = ratingsOf m.assignIds.1 := by
  rw [ratings_triple, ratings_triple, (C119_ids ρ σ m m' h h' hr).1]

theorem sameUser_lookup {d d' : Mem} (f : Fresh d) (f' : Fresh d') (e : d'.userMap = d.userMap.map ρ) {x x' : Lit}
    (hx : SameUser ρ d d' x x') : ∃ o, d.userToUid x = .ok o ∧ d'.userToUid x' = .ok o := by
  rcases hx with ⟨u, u', user, ⟨h1, h2⟩, h3, h4⟩ | ⟨h1, h2⟩
  · refine ⟨some u, h1, ?_⟩
    rw [uidToUser_iff f.ids.has] at h2
    rw [uidToUser_iff f'.ids.has] at h4
    have h5 : d'.userMap[u]? = some (ρ user) := by rw [e, List.getElem?_map, h2]; rfl
    have hlt : u < d'.userMap.length := (List.getElem?_eq_some_iff.1 h5).1
    have := (List.getElem?_inj hlt f'.ids.user.nodup).1 (h5.trans h4.symm)
    rw [h3, this]
  · exact ⟨none, h1, h2⟩

theorem sameItem_lookup {d d' : Mem} (f : Fresh d) (f' : Fresh d') (e : d'.itemMap = d.itemMap.map σ) {y y' : Lit}
    (hy : SameItem σ d d' y y') : ∃ o, d.itemToIid y = .ok o ∧ d'.itemToIid y' = .ok o := by
  rcases hy with ⟨item, ⟨i, h1, h2⟩, i', h3, h4⟩ | ⟨h1, h2⟩
  · refine ⟨some i, h1, ?_⟩
    rw [iidToItem_iff f.ids.has] at h2
    rw [iidToItem_iff f'.ids.has] at h4
    have h5 : d'.itemMap[i]? = some (σ item) := by rw [e, List.getElem?_map, h2]; rfl
    have hlt : i < d'.itemMap.length := (List.getElem?_eq_some_iff.1 h5).1
    have := (List.getElem?_inj hlt f'.ids.item.nodup).1 (h5.trans h4.symm)
    rw [h3, this]
  · exact ⟨none, h1, h2⟩

/-- **C119**, predictions: a method `_predict` that depends on the internal ids alone gives the same value for a user and
an item of the original dataset and the renamed ones of the other dataset. -/
theorem C119_predict (ρ σ : Val → Val) (m m' : Mem) (h : RawSet m) (h' : RawSet m') (hr : Renamed ρ σ m m') {α : Type}
    (f : PredictFn α) (x x' y y' : Lit) (hx : SameUser ρ m.assignIds.1 m'.assignIds.1 x x')
    (hy : SameItem σ m.assignIds.1 m'.assignIds.1 y y') (fitted skip : Bool) :
    predict m'.assignIds.1 fitted f x' y' skip = predict m.assignIds.1 fitted f x y skip := by
  obtain ⟨e1, e2⟩ := renamed_maps h h' hr
  obtain ⟨o, o1, o2⟩ := sameUser_lookup (assigned_fresh h) (assigned_fresh h') e1 hx
  obtain ⟨q, q1, q2⟩ := sameItem_lookup (assigned_fresh h) (assigned_fresh h') e2 hy
  unfold predict tryPredict
  rw [o1, o2, q1, q2]

/-- **C119**, predictions of the nearest neighbour recommenders. -/
theorem C119_predict_knn (ρ σ : Val → Val) (m m' : Mem) (h : RawSet m) (h' : RawSet m') (hr : Renamed ρ σ m m')
    (cfg : KnnCfg) (x x' y y' : Lit) (hx : SameUser ρ m.assignIds.1 m'.assignIds.1 x x')
    (hy : SameItem σ m.assignIds.1 m'.assignIds.1 y y') (skip : Bool) :
    predict m'.assignIds.1 true (knnPredict cfg (ratingsOf m'.assignIds.1)
      (fitKnn cfg (ratingsOf m'.assignIds.1) Knn.init)) x' y' skip =
    predict m.assignIds.1 true (knnPredict cfg (ratingsOf m.assignIds.1)
      (fitKnn cfg (ratingsOf m.assignIds.1) Knn.init)) x y skip := by
  rw [renamed_ratings h h' hr]
  exact C119_predict ρ σ m m' h h' hr _ x x' y y' hx hy true skip

/-! ## Ranking -/

theorem rated_triple (d : Mem) (uid : Nat) : (rowsWith "uid" uid d.rows).map (·.get "iid") =
    ((d.rows.map idTriple).filter fun t => t.1 = .num (uid : ℚ)).map (·.2.1) := by
  rw [List.filter_map, List.map_map]
  rfl

theorem nlargest_zip_keep (l : List ℚ) (n : Nat) {k k' : List Nat} (h : ∀ i, i ∈ k ↔ i ∈ k') :
    nlargest n (l.zipIdx.filter fun p => p.2 ∈ k) = nlargest n (l.zipIdx.filter fun p => p.2 ∈ k') := by
  have : (l.zipIdx.filter fun p => p.2 ∈ k) = l.zipIdx.filter fun p => p.2 ∈ k' :=
    List.filter_congr fun p _ => by simp only [h]
  rw [this]

theorem sameRecommender_eq {d d' : Mem} (f : Fresh d) (f' : Fresh d')
    (ht : d'.rows.map idTriple = d.rows.map idTriple) {rk rk' : RankFn} (h : SameRecommender d d' rk rk')
    (uid : Nat) (iids : List Nat) (n : Nat) (novelty : Bool) : rk' uid iids n novelty = rk uid iids n novelty := by
  have hrated : (rowsWith "uid" uid d'.rows).map (·.get "iid") = (rowsWith "uid" uid d.rows).map (·.get "iid") := by
    rw [rated_triple, rated_triple, ht]
  cases h with
  | knn cfg => rw [ratings_triple (d := d'), ht, ← ratings_triple]
  | base p =>
    unfold baseRank candidates
    rw [ratedIids_ok f.ids, ratedIids_ok f'.ids, hrated]
  | cdae p =>
    unfold cdaeRank
    obtain ⟨k, e1, _, e2⟩ := cdaeItems_ok f.ids uid iids novelty
    obtain ⟨k', e1', _, e2'⟩ := cdaeItems_ok f'.ids uid iids novelty
    rw [e1, e1']
    simp only [Except.map]
    rw [nlargest_zip_keep]
    intro i
    rw [e2, e2', hrated]
  | caser p =>
    unfold caserRank
    rw [ratedIids_ok f.ids, ratedIids_ok f'.ids, hrated]

theorem knownIids_same {d d' : Mem} {skip : Bool} {ys ys' : List Lit}
    (h : List.Forall₂ (fun y y' => ∃ o, d.itemToIid y = .ok o ∧ d'.itemToIid y' = .ok o) ys ys') :
    knownIids d' skip ys' = knownIids d skip ys := by
  induction h with
  | nil => rfl
  | cons hy _ ih =>
    obtain ⟨o, h1, h2⟩ := hy
    rw [knownIids, knownIids, h1, h2, ih]

theorem toRaw_renamed {d d' : Mem} (f : Fresh d) (f' : Fresh d') (e : d'.itemMap = d.itemMap.map σ) (l : List (ℚ × Nat)) :
    toRaw d' l = renameItems σ (toRaw d l) := by
  rw [toRaw_ok f.ids.has, toRaw_ok f'.ids.has, renameItems, Except.map, e, List.map_map]
  simp only [List.getElem?_map]
  rfl

/-- **C119** for `rank`: the same items under their new names, with the same scores and in the same order. -/
theorem C119_rank (ρ σ : Val → Val) (m m' : Mem) (h : RawSet m) (h' : RawSet m') (hr : Renamed ρ σ m m') (rk rk' : RankFn)
    (hk : SameRecommender m.assignIds.1 m'.assignIds.1 rk rk') (x x' : Lit)
    (hx : SameUser ρ m.assignIds.1 m'.assignIds.1 x x') (ys ys' : List Lit)
    (hy : List.Forall₂ (SameItem σ m.assignIds.1 m'.assignIds.1) ys ys') (novelty skip : Bool) (n : Option Nat) :
    rank m'.assignIds.1 rk' x' ys' novelty skip n = renameItems σ (rank m.assignIds.1 rk x ys novelty skip n) := by
  obtain ⟨e1, e2⟩ := renamed_maps h h' hr
  have f := assigned_fresh h
  have f' := assigned_fresh h'
  have ht := (C119_ids ρ σ m m' h h' hr).1
  obtain ⟨o, o1, o2⟩ := sameUser_lookup f f' e1 hx
  have hkn : knownIids m'.assignIds.1 skip ys' = knownIids m.assignIds.1 skip ys :=
    knownIids_same (hy.imp fun _ _ hy => sameItem_lookup f f' e2 hy)
  unfold rank
  rw [o1, o2, hkn]
  cases o with
  | none => rfl
  | some uid =>
    cases knownIids m.assignIds.1 skip ys with
    | error e => rfl
    | ok iids =>
      simp only [sameRecommender_eq f f' ht hk]
      split
      · rfl
      · cases rk uid iids (n.getD iids.length) novelty with
        | error e => rfl
        | ok l => exact toRaw_renamed f f' e2 l

/-- **C119** for `recommend`: the same items under their new names, with the same scores and in the same order. -/
theorem C119_recommend (ρ σ : Val → Val) (m m' : Mem) (h : RawSet m) (h' : RawSet m') (hr : Renamed ρ σ m m')
    (rk rk' : RankFn) (hk : SameRecommender m.assignIds.1 m'.assignIds.1 rk rk') (x x' : Lit)
    (hx : SameUser ρ m.assignIds.1 m'.assignIds.1 x x') (n : Option Nat) (novelty : Bool) (t : Option ℚ) :
    recommend m'.assignIds.1 rk' x' n novelty t = renameItems σ (recommend m.assignIds.1 rk x n novelty t) := by
  obtain ⟨e1, e2⟩ := renamed_maps h h' hr
  have f := assigned_fresh h
  have f' := assigned_fresh h'
  have ht := (C119_ids ρ σ m m' h h' hr).1
  obtain ⟨o, o1, o2⟩ := sameUser_lookup f f' e1 hx
  have hn : nItemsOf m'.assignIds.1 = nItemsOf m.assignIds.1 := by
    unfold nItemsOf
    rw [countDistinct_eq _ _ _ _ f.ids.item f.items, countDistinct_eq _ _ _ _ f'.ids.item f'.items, e2, List.length_map]
  unfold recommend
  rw [o1, o2, hn]
  cases o with
  | none => rfl
  | some uid =>
    simp only [recommendIids, sameRecommender_eq f f' ht hk]
    cases rk uid (List.range (nItemsOf m.assignIds.1)) (n.getD (nItemsOf m.assignIds.1)) novelty with
    | error e => rfl
    | ok l => exact toRaw_renamed f f' e2 _

/-- **C119**, interaction vectors: sequences of requests get the same answers on both datasets. -/
theorem C119_vectors (ρ σ : Val → Val) (m m' : Mem) (h : RawSet m) (h' : RawSet m') (hr : Renamed ρ σ m m')
    (qs : List VecReq) (hq : ∀ q ∈ qs, q.Known m.assignIds.1)
    (hu : 2 ≤ m.assignIds.1.userMap.length ∨ ∀ q ∈ qs, ∃ u, q = .user u) (hc : m.cache = none) (hc' : m'.cache = none) :
    (serveAll m'.assignIds.1 qs).2 = (serveAll m.assignIds.1 qs).2 := by
  obtain ⟨e1, e2⟩ := renamed_maps h h' hr
  have f := assigned_fresh h
  have f' := assigned_fresh h'
  have ht := (C119_ids ρ σ m m' h h' hr).1
  have c : m.assignIds.1.cache = none := by rw [assignIds_eq _ h.user h.item]; exact hc
  have c' : m'.assignIds.1.cache = none := by rw [assignIds_eq _ h'.user h'.item]; exact hc'
  have hp : ∀ u i, pairTotal m'.assignIds.1.rows u i = pairTotal m.assignIds.1.rows u i := by
    have : ∀ (d : Mem) u i, pairTotal d.rows u i = (((d.rows.map idTriple).filter fun t =>
        t.1 = .num (u : Nat) ∧ t.2.1 = .num (i : Nat)).map fun t => numCell t.2.2).sum := by
      intro d u i
      rw [List.filter_map, List.map_map]
      rfl
    intro u i
    rw [this, this, ht]
  rw [C15_vectors_partial _ f c qs hq hu, C15_vectors_partial _ f' c' qs]
  · apply List.map_congr_left
    intro q _
    cases q with
    | user u => simp only [vecSpec, e2, List.length_map, hp]
    | item i => simp only [vecSpec, e1, List.length_map, hp]
  · intro q hq'
    have := hq q hq'
    cases q with
    | user u => simpa only [VecReq.Known, e1, List.length_map] using this
    | item i => simpa only [VecReq.Known, e2, List.length_map] using this
  · simpa only [e1, List.length_map] using hu

end

/-- Texts become numbers: the recommendations for "bob" are those for user 7, renamed. -/
example :
    let m := mkMem .obj [(.str "ann", .str "x", 3), (.str "bob", .str "x", 3), (.str "bob", .str "y", 5),
      (.str "ann", .str "z", 4)]
    let m' := mkMem .int [(.num 9, .num 1, 3), (.num 7, .num 1, 3), (.num 7, .num 2, 5), (.num 9, .num 0, 4)]
    let ρ : Val → Val := fun v => if v = .str "ann" then .num 9 else .num 7
    let σ : Val → Val := fun v => if v = .str "x" then .num 1 else if v = .str "y" then .num 2 else .num 0
    RawSet m ∧ RawSet m' ∧ Renamed ρ σ m m' ∧ SameUser ρ m.assignIds.1 m'.assignIds.1 (.str "bob") (.int 7) ∧
    List.Forall₂ (SameItem σ m.assignIds.1 m'.assignIds.1) [.str "z", .str "w"] [.int 0, .int 5] ∧
    recommend m'.assignIds.1 (knnRank (exOrder 2) (ratingsOf m'.assignIds.1)
      (fitKnn (exOrder 2) (ratingsOf m'.assignIds.1) Knn.init)) (.int 7) none true none = .ok [(4, some (.num 0))] ∧
    recommend m.assignIds.1 (knnRank (exOrder 2) (ratingsOf m.assignIds.1)
      (fitKnn (exOrder 2) (ratingsOf m.assignIds.1) Knn.init)) (.str "bob") none true none = .ok [(4, some (.str "z"))] := by
  intro m m' ρ σ
  have raw : ∀ (d : DType) (rows : List (Val × Val × ℚ)), RawSet (mkMem d rows) := by
    intro d rows
    refine ⟨by simp [mkMem], by simp [mkMem], by simp [mkMem], fun r hr => ?_⟩
    obtain ⟨p, _, rfl⟩ := List.mem_map.1 hr
    exact ⟨p.1.2.2, rfl⟩
  refine ⟨raw _ _, raw _ _, ⟨by decide +kernel, ?_, ?_⟩, .inl ⟨1, 1, .str "bob", ⟨?_, ?_⟩, ?_, ?_⟩,
    .cons (.inl ⟨.str "z", ⟨2, ?_, ?_⟩, 2, ?_, ?_⟩) (.cons (.inr ⟨?_, ?_⟩) .nil), ?_, ?_⟩
  all_goals decide +kernel

end DRec
