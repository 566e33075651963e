import Verif.Spec.Transpose
import Verif.Props.RowOrder

/-! # C112: user and item neighbourhoods are mirror images -/

namespace DRec

open Spec

/-- The rating with the ids exchanged. -/
def swapRating (r : Rating) : Rating := ⟨r.iid, r.uid, r.x⟩

section

variable (cfg : KnnCfg) (rs : List Rating)

theorem other_own (r : Rating) : (otherClass cfg).kind.own (swapRating r) = cfg.kind.own r := by
  unfold otherClass swapRating
  cases cfg.kind <;> rfl

theorem other_other (r : Rating) : (otherClass cfg).kind.other (swapRating r) = cfg.kind.other r := by
  unfold otherClass swapRating
  cases cfg.kind <;> rfl

theorem swap_entries : matrixEntries (otherClass cfg).kind (rs.map swapRating) = matrixEntries cfg.kind rs := by
  unfold matrixEntries
  rw [List.map_map]
  apply List.map_congr_left
  intro r _
  simp only [Function.comp_apply, other_own, other_other]
  rfl

theorem swap_rated (a : Nat) : ratedBy (otherClass cfg).kind (rs.map swapRating) a = ratedBy cfg.kind rs a := by
  unfold ratedBy
  congr 1
  rw [List.filter_map, List.map_map]
  simp only [Function.comp_def, other_own, other_other]

theorem swap_coRated (a b : Nat) : coRated (otherClass cfg).kind (rs.map swapRating) a b = coRated cfg.kind rs a b := by
  unfold coRated
  rw [swap_rated, swap_rated]

theorem swap_ownIds : ownIds (otherClass cfg).kind (rs.map swapRating) = ownIds cfg.kind rs := by
  unfold ownIds
  rw [List.map_map]
  simp only [Function.comp_def, other_own]

theorem swap_sims (old : Nat × Nat → Option ℚ) :
    computeSims (otherClass cfg) (rs.map swapRating) old = computeSims cfg rs old := by
  unfold computeSims
  rw [swap_entries]
  have : addSim (otherClass cfg) (rs.map swapRating) = addSim cfg rs := by
    funext s e
    unfold addSim
    rw [swap_coRated]
    rfl
  rw [this]
  rfl

theorem swap_fit (M : Knn) : fitKnn (otherClass cfg) (rs.map swapRating) M = fitKnn cfg rs M := by
  unfold fitKnn computeNbrs
  rw [swap_sims, swap_ownIds]
  rfl

theorem swap_interaction (a b : Nat) :
    interactionOf (otherClass cfg).kind (rs.map swapRating) a b = interactionOf cfg.kind rs a b := by
  unfold interactionOf
  rw [List.find?_map, Option.map_map]
  simp only [Function.comp_def, other_own, other_other]
  rfl

theorem swap_default (o : Nat) : predictDefault (otherClass cfg).kind (rs.map swapRating) o = predictDefault cfg.kind rs o := by
  unfold predictDefault
  simp only [List.filter_map, Function.comp_def, other_other, List.length_map, List.map_map]
  rfl

theorem swap_own (M : Knn) (a b : Nat) :
    predictOwn (otherClass cfg) (rs.map swapRating) M a b = predictOwn cfg rs M a b := by
  unfold predictOwn
  split
  · rfl
  · next nb hnb =>
    unfold finishPred
    have : usedPairs (otherClass cfg).kind (rs.map swapRating) nb b = usedPairs cfg.kind rs nb b := by
      unfold usedPairs
      simp only [swap_interaction]
    rw [this, swap_default]
    rfl

theorem swap_predict (u i : Option Nat) :
    knnPredict (otherClass cfg) (rs.map swapRating) (fitKnn (otherClass cfg) (rs.map swapRating) Knn.init) i u =
      knnPredict cfg rs (fitKnn cfg rs Knn.init) u i := by
  rw [swap_fit]
  cases u with
  | none => cases i <;> rfl
  | some u =>
    cases i with
    | none => rfl
    | some i =>
      simp only [knnPredict]
      have ho : (otherClass cfg).kind = match cfg.kind with | .user => .item | .item => .user := rfl
      rw [ho]
      cases cfg.kind with
      | user => exact swap_own cfg rs _ u i
      | item => exact swap_own cfg rs _ i u

end

/-! ## Datasets -/

theorem assigned_raw {m : Mem} (h : RawSet m) : m.assignIds.1.rows.map rawTriple = m.rows.map rawTriple := by
  rw [assignIds_eq _ h.user h.item]
  simp only [List.map_map]
  apply List.map_congr_left
  intro r _
  simp only [rawTriple, Function.comp_apply, stamp_get]
  simp

theorem assigned_maps {m m' : Mem} (h : RawSet m) (h' : RawSet m') (ht : Transposed m m') :
    m'.assignIds.1.userMap = m.assignIds.1.itemMap ∧ m'.assignIds.1.itemMap = m.assignIds.1.userMap := by
  have hu : ∀ d : Mem, d.rows.map (·.get "user") = (d.rows.map rawTriple).map (·.1) := fun d => by rw [List.map_map]; rfl
  have hi : ∀ d : Mem, d.rows.map (·.get "item") = (d.rows.map rawTriple).map (·.2.1) := fun d => by rw [List.map_map]; rfl
  rw [assignIds_eq _ h.user h.item, assignIds_eq _ h'.user h'.item]
  simp only [hu, hi, ht.rows, List.map_map]
  exact ⟨rfl, rfl⟩

theorem assigned_fresh {m : Mem} (h : RawSet m) : Fresh m.assignIds.1 :=
  C15_fresh_after_assign m h.user h.item h.inter h.numbers

theorem swap_ratings {m m' : Mem} (h : RawSet m) (h' : RawSet m') (ht : Transposed m m') :
    ratingsOf m'.assignIds.1 = (ratingsOf m.assignIds.1).map swapRating := by
  rw [ratingsOf_raw (assigned_fresh h), ratingsOf_raw (assigned_fresh h'), assigned_raw h, assigned_raw h', ht.rows]
  simp only [List.map_map]
  obtain ⟨e1, e2⟩ := assigned_maps h h' ht
  apply List.map_congr_left
  intro t _
  simp only [Function.comp_apply, rawRating, swapRating, e1, e2]

theorem assigned_dtype {m : Mem} (h : RawSet m) :
    m.assignIds.1.dtype "user" = m.dtype "user" ∧ m.assignIds.1.dtype "item" = m.dtype "item" := by
  rw [assignIds_eq _ h.user h.item]
  exact ⟨rfl, rfl⟩

theorem swap_lookup {m m' : Mem} (h : RawSet m) (h' : RawSet m') (ht : Transposed m m') (x : Lit) :
    m'.assignIds.1.userToUid x = m.assignIds.1.itemToIid x ∧ m'.assignIds.1.itemToIid x = m.assignIds.1.userToUid x := by
  have f := assigned_fresh h
  have f' := assigned_fresh h'
  obtain ⟨e1, e2⟩ := assigned_maps h h' ht
  unfold Mem.userToUid Mem.itemToIid
  rw [if_pos f.ids.has, if_pos f'.ids.has, if_pos f.ids.user.hasRaw, if_pos f'.ids.user.hasRaw,
    if_pos f.ids.has, if_pos f'.ids.has, if_pos f.ids.item.hasRaw, if_pos f'.ids.item.hasRaw, e1, e2,
    (assigned_dtype h).1, (assigned_dtype h).2, (assigned_dtype h').1, (assigned_dtype h').2, ht.users, ht.items]
  exact ⟨rfl, rfl⟩

theorem swap_try {m m' : Mem} (h : RawSet m) (h' : RawSet m') (ht : Transposed m m') {f f' : PredictFn ℚ}
    (hf : ∀ u i, f' i u = f u i) (x y : Lit) :
    (tryPredict m'.assignIds.1 f' y x).toOption = (tryPredict m.assignIds.1 f x y).toOption := by
  unfold tryPredict
  rw [(swap_lookup h h' ht y).1, (swap_lookup h h' ht x).2]
  cases m.assignIds.1.userToUid x with
  | error e => cases m.assignIds.1.itemToIid y <;> rfl
  | ok u =>
    cases m.assignIds.1.itemToIid y with
    | error e => rfl
    | ok i => simp only [hf]

/-- **C112.** Exchange users and items in the training data and give the data to the other class with the same arguments:
every prediction is the same, with user and item exchanged.  Without `skip_errors` a prediction raises for one exactly
when it raises for the other. -/
theorem C112_mirror (cfg : KnnCfg) (m m' : Mem) (h : RawSet m) (h' : RawSet m') (ht : Transposed m m') (x y : Lit) :
    let ds := m.assignIds.1
    let ds' := m'.assignIds.1
    let f := knnPredict cfg (ratingsOf ds) (fitKnn cfg (ratingsOf ds) Knn.init)
    let f' := knnPredict (otherClass cfg) (ratingsOf ds') (fitKnn (otherClass cfg) (ratingsOf ds') Knn.init)
    predict ds' true f' y x true = predict ds true f x y true ∧
    (predict ds' true f' y x false).toOption = (predict ds true f x y false).toOption := by
  intro ds ds' f f'
  have hf : ∀ u i, f' i u = f u i := by
    intro u i
    simp only [f, f', ds, ds']
    rw [swap_ratings h h' ht]
    exact swap_predict cfg _ u i
  have htry := swap_try h h' ht hf x y
  constructor
  · simp only [predict, Bool.true_eq_false, if_false, if_true]
    rw [show (tryPredict ds' f' y x).toOption = _ from htry]
  · simp only [predict, Bool.true_eq_false, Bool.false_eq_true, if_false]
    rw [show ds'.userToUid y = ds.itemToIid y from (swap_lookup h h' ht y).1,
      show ds'.itemToIid x = ds.userToUid x from (swap_lookup h h' ht x).2]
    have hmap : ∀ e : Except Err ℚ, (e.map some).toOption = e.toOption.map some := by
      intro e; cases e <;> rfl
    cases assertKnown (ds.userToUid x) with
    | error e => cases assertKnown (ds.itemToIid y) <;> rfl
    | ok _ =>
      cases assertKnown (ds.itemToIid y) with
      | error e => rfl
      | ok _ => simp only [hmap]; rw [show (tryPredict ds' f' y x).toOption = _ from htry]

/-- Two users and two items; exchanged.  The item recommender predicts for the exchanged records what the user
recommender predicts. -/
example :
    let m := mkMem .obj [(.str "ann", .str "x", 3), (.str "bob", .str "x", 3), (.str "bob", .str "y", 5)]
    let m' := mkMem .obj [(.str "x", .str "ann", 3), (.str "x", .str "bob", 3), (.str "y", .str "bob", 5)]
    RawSet m ∧ RawSet m' ∧ Transposed m m' ∧ (otherClass (exOrder 2)).kind = .item ∧
    predict m.assignIds.1 true (knnPredict (exOrder 2) (ratingsOf m.assignIds.1)
      (fitKnn (exOrder 2) (ratingsOf m.assignIds.1) Knn.init)) (.str "ann") (.str "y") true = .ok (some 5) := by
  have raw : ∀ rows : List (Val × Val × ℚ), RawSet (mkMem .obj rows) := by
    intro rows
    refine ⟨by simp [mkMem], by simp [mkMem], by simp [mkMem], fun r hr => ?_⟩
    obtain ⟨p, _, rfl⟩ := List.mem_map.1 hr
    exact ⟨p.1.2.2, rfl⟩
  exact ⟨raw _, raw _, ⟨by decide +kernel, rfl, rfl⟩, rfl, of_toOption (by decide +kernel)⟩

end DRec
