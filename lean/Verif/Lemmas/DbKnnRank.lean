import Verif.Lemmas.DbKnn

/-! # Nearest neighbour recommenders on a database dataset: what they compute -/

namespace DRec.Conc

open Spec

/-- A recommender can be fitted on database dataset `i`, which shows `m`: it has internal ids and stands on a table of
its own. -/
structure FittedOn (w : World) (i : Nat) (m : Mem) (T : Option (String → DType)) (B : Nat) : Prop where
  shows : ShowsMem w i m T B
  ok : MemOk m
  fresh : Fresh m
  nums : Numbers m T
  types : ∃ ty, T = some ty ∧ ty "user" = m.dtype "user" ∧ ty "item" = m.dtype "item" ∧ ty "user" ≠ .float ∧
    ty "item" ≠ .float
  table : ∃ x, w.insts i = some x ∧ x.queries < 2 ∧ x.state = .table

theorem FittedOn.keep {w w' : World} {i : Nat} {m : Mem} {T : Option (String → DType)} {B : Nat} (h : FittedOn w i m T B)
    (hk : Keeps w w' i) : FittedOn w' i m T B := by
  obtain ⟨x, h1, h2, h3⟩ := h.table
  obtain ⟨x', a1, _, _, a2, _, a3⟩ := hk.2 x h1
  exact ⟨h.shows.keep hk, h.ok, h.fresh, h.nums, h.types, x', a1, by omega, a3 h3⟩

theorem except_bind_ok {α β : Type} (x : α) (f : α → Except Err β) : (Except.ok x : Except Err α).bind f = f x := rfl

/-! ## Records read -/

theorem found_map {m : Mem} {cs : List String} (hc : "interaction" ∈ m.cols) (hcs : "interaction" ∈ cs) (o : Option Row) :
    foundCell (.one (o.map fun r => (r.toRec m.cols).filter fun q => q.1 ∈ cs)) = (o.map ratingOf).map (·.x) := by
  cases o with
  | none => rfl
  | some r =>
    simp only [Option.map_some, foundCell]
    rw [lookup_pick hc hcs]
    rfl

theorem find_pair {m : Mem} (h : Fresh m) (K : KKind) (own other : Nat) :
    (((m.rows.find? fun r => decide (r.get "uid" = .num ((pairIds K own other).1 : ℚ)) &&
      decide (r.get "iid" = .num ((pairIds K own other).2 : ℚ))).map ratingOf).map (·.x)) =
      interactionOf K (ratingsOf m) own other := by
  unfold interactionOf
  rw [ratingsOf_eq, List.find?_map]
  congr 2
  apply List.find?_congr
  intro r hr
  rw [Bool.eq_iff_iff]
  obtain ⟨h1, h2, _⟩ := fresh_cells h hr
  cases K <;> simp only [pairIds, Function.comp_apply, Bool.and_eq_true, decide_eq_true_eq, KKind.own, KKind.other, ratingOf,
    idCell_iff h1, idCell_iff h2]
  · exact ⟨fun h => ⟨decide_eq_true h.1, decide_eq_true h.2⟩, fun h => ⟨of_decide_eq_true h.1, of_decide_eq_true h.2⟩⟩
  · exact ⟨fun h => ⟨decide_eq_true h.2, decide_eq_true h.1⟩, fun h => ⟨of_decide_eq_true h.2, of_decide_eq_true h.1⟩⟩

theorem sat_pair (u i : Nat) (r : Row) : Sat (pairWritten u i) r ↔
    (decide (r.get "uid" = .num (u : ℚ)) && decide (r.get "iid" = .num (i : ℚ))) = true := by
  simp [Sat, pairWritten, Holds, SLit.value]

section
variable {β : Type} {names : List String} {S : List Nat} {w0 : World} {ds : Nat} {m : Mem} {T : Option (String → DType)}
  {B : Nat}

theorem at_shared (hds : ds ∈ S) (hS0 : ∀ k ∈ S, (w0.insts k).isSome) (hs : ShowsMem w0 ds m T B) :
    At S (sharedInv w0 S) ds m T B :=
  fun _ _ h => ⟨⟨Or.inl hds, hs.keep (h ds hds)⟩, fun k hk => (h k hk).alive (hS0 k hk)⟩

theorem at_own {j : Nat} (hS0 : ∀ k ∈ S, (w0.insts k).isSome) : At S (ownInv w0 S j m T B) j m T B :=
  fun _ _ h => ⟨⟨Or.inr h.2.1, h.2.2⟩, fun k hk => (h.1 k hk).alive (hS0 k hk)⟩

theorem delivers_pairs (hn : NamesOk names) (hds : ds ∈ S) (hS0 : ∀ k ∈ S, (w0.insts k).isSome)
    (hf : FittedOn w0 ds m T B) (K : KKind) (other : Nat) : ∀ (ps : List (ℚ × Nat)) (acc : List (ℚ × ℚ)),
    DeliversIn names S (sharedInv w0 S) (fun k : List (ℚ × ℚ) → DbProg β => dbPairs K ds other k ps acc)
      (.ok (acc ++ usedPairs K (ratingsOf m) ps other))
  | [], acc => by
    have := deliversIn_ok (names := names) (S := S) (inv := sharedInv w0 S) (β := β) acc
    simpa [dbPairs, usedPairs] using this
  | p :: ps, acc => by
    have hxc : "interaction" ∈ m.cols := hf.nums.cols _ (by simp)
    have h1 := DeliversIn.bind (shared_stable w0 S)
      (delivers_one (β := β) (cs := none) hn (at_shared hds hS0 hf.shows) hf.nums (by simp [pairWritten])
        (pairWritten_fits (pairIds K p.2 other).1 (pairIds K p.2 other).2) (fun _ h => h) (fun r _ => sat_pair _ _ r)
        (pairQuery_written _ _))
      (Q := fun res k => match foundCell res with
        | none => dbPairs K ds other k ps acc
        | some x => dbPairs K ds other k ps (acc ++ [(x, p.1)]))
      (res' := fun _ => .ok (acc ++ usedPairs K (ratingsOf m) (p :: ps) other)) (by
        intro res hres
        cases hres
        simp only [Option.getD_none]
        rw [found_map hxc hxc, find_pair hf.fresh]
        unfold usedPairs
        rw [List.filterMap_cons]
        cases interactionOf K (ratingsOf m) p.2 other with
        | none => exact delivers_pairs hn hds hS0 hf K other ps acc
        | some x =>
          have := delivers_pairs hn hds hS0 hf K other ps (acc ++ [(x, p.1)])
          simpa [usedPairs] using this)
    exact h1

theorem column_cells {cols cs : List String} {c : String} (hc : c ∈ cols) (hcs : c ∈ cs) (rows : List Row) :
    columnOf c (.recs (rows.map fun r => (r.toRec cols).filter fun q => q.1 ∈ cs)) = rows.map (·.get c) := by
  simp only [columnOf, List.map_map]
  apply List.map_congr_left
  intro r _
  exact lookup_pick hc hcs r

theorem rowsWith_other {m : Mem} (h : Fresh m) (K : KKind) (k : Nat) :
    (rowsWith K.otherCol k m.rows).map ratingOf = (ratingsOf m).filter fun r => K.other r = k := by
  cases K with
  | user => exact rowsWith_iid h k
  | item => exact rowsWith_uid h k

theorem delivers_default (hn : NamesOk names) (hds : ds ∈ S) (hS0 : ∀ k ∈ S, (w0.insts k).isSome)
    (hf : FittedOn w0 ds m T B) (K : KKind) (other : Nat) :
    DeliversIn names S (sharedInv w0 S) (fun k : Option ℚ → DbProg β => dbDefault K ds other k)
      (predictDefault K (ratingsOf m) other) := by
  have hxc : "interaction" ∈ m.cols := hf.nums.cols _ (by simp)
  refine delivers_within hn hds hS0 hf.shows hf.nums (c := K.otherCol) (by cases K <;> simp [KKind.otherCol]) other
    (P := fun d k => .read d (.values (some ["interaction"])) fun res => .len d fun n =>
      if n = 0 then .ret (.error .zeroDiv) else k (some (((columnOf "interaction" res).map ratCell).sum / (n : ℚ)))) ?_
  intro j _
  have h1 := DeliversIn.bind (own_stable w0 S j _ T B)
    (delivers_values (β := β) hn (at_own (j := j) (m := { m with rows := rowsWith K.otherCol other m.rows }) (T := T)
      (B := B) hS0) hf.nums.full (cs := ["interaction"]) (by simpa using hxc))
    (Q := fun res k => .len j fun n =>
      if n = 0 then .ret (.error .zeroDiv) else k (some (((columnOf "interaction" res).map ratCell).sum / (n : ℚ))))
    (res' := fun _ => predictDefault K (ratingsOf m) other) (by
      intro res hres
      cases hres
      rw [column_cells hxc (by simp)]
      refine DeliversIn.bind (own_stable w0 S j _ T B) (delivers_len (at_own hS0))
        (Q := fun n k => if n = 0 then .ret (.error .zeroDiv) else k _)
        (res' := fun _ => predictDefault K (ratingsOf m) other) ?_
      intro n hn'
      cases hn'
      rw [ratCell_sum]
      unfold predictDefault
      simp only [← rowsWith_other hf.fresh, List.length_map]
      split
      · exact deliversIn_error _
      · exact deliversIn_ok _)
  exact h1

theorem delivers_end (hn : NamesOk names) (hds : ds ∈ S) (hS0 : ∀ k ∈ S, (w0.insts k).isSome)
    (hf : FittedOn w0 ds m T B) (cfg : KnnCfg) (l : List (ℚ × ℚ)) (other : Nat) :
    DeliversIn names S (sharedInv w0 S) (fun k : Option ℚ → DbProg β => dbKnnEnd cfg ds l other k)
      (finishPred cfg (ratingsOf m) l other) := by
  unfold dbKnnEnd finishPred
  split
  · exact delivers_default hn hds hS0 hf cfg.kind other
  · exact deliversIn_ok _

theorem delivers_own (hn : NamesOk names) (hds : ds ∈ S) (hS0 : ∀ k ∈ S, (w0.insts k).isSome)
    (hf : FittedOn w0 ds m T B) (cfg : KnnCfg) (M : Knn) (own other : Nat) :
    DeliversIn names S (sharedInv w0 S) (fun k : Option ℚ → DbProg β => dbPredictOwn cfg ds M own other k)
      (predictOwn cfg (ratingsOf m) M own other) := by
  unfold dbPredictOwn predictOwn
  cases M.nbrs own with
  | none => exact deliversIn_error _
  | some nb =>
    refine DeliversIn.bind (shared_stable w0 S) (delivers_pairs hn hds hS0 hf cfg.kind other nb [])
      (Q := fun l k => dbKnnEnd cfg ds l other k)
      (res' := fun l => finishPred cfg (ratingsOf m) l other) fun l _ => delivers_end hn hds hS0 hf cfg l other

theorem delivers_predict (hn : NamesOk names) (hds : ds ∈ S) (hS0 : ∀ k ∈ S, (w0.insts k).isSome)
    (hf : FittedOn w0 ds m T B) (cfg : KnnCfg) (M : Knn) (u i : Option Nat) :
    DeliversIn names S (sharedInv w0 S) (fun k : Option ℚ → DbProg β => dbKnnPredict cfg ds M u i k)
      (knnPredict cfg (ratingsOf m) M u i) := by
  cases u with
  | none => cases i <;> exact deliversIn_ok _
  | some u =>
    cases i with
    | none => exact deliversIn_ok _
    | some i =>
      unfold dbKnnPredict knnPredict
      cases cfg.kind with
      | user => exact delivers_own hn hds hS0 hf cfg M u i
      | item => exact delivers_own hn hds hS0 hf cfg M i u

/-! ## Ranking -/

theorem delivers_rated (hn : NamesOk names) (hds : ds ∈ S) (hS0 : ∀ k ∈ S, (w0.insts k).isSome)
    (hf : FittedOn w0 ds m T B) (uid : Nat) :
    DeliversIn names S (sharedInv w0 S) (fun k : List Val → DbProg β => dbRated ds uid k)
      (.ok (((ratingsOf m).filter fun r => r.uid = uid).map fun r => Val.num (r.iid : ℚ))) := by
  have hic : "iid" ∈ m.cols := hf.nums.cols _ (by simp)
  refine delivers_within hn hds hS0 hf.shows hf.nums (c := "uid") (by simp) uid
    (P := fun d k => .read d (.values (some ["iid"])) fun res => k (columnOf "iid" res)) ?_
  intro j _
  refine DeliversIn.bind (own_stable w0 S j _ T B)
    (delivers_values (β := β) hn (at_own (j := j) (m := { m with rows := rowsWith "uid" uid m.rows }) (T := T)
      (B := B) hS0) hf.nums.full (cs := ["iid"]) (by simpa using hic))
    (Q := fun res k => k (columnOf "iid" res))
    (res' := fun _ => .ok (((ratingsOf m).filter fun r => r.uid = uid).map fun r => Val.num (r.iid : ℚ))) ?_
  intro res hres
  cases hres
  rw [column_cells hic (by simp), ← rowsWith_uid hf.fresh, List.map_map]
  have e : (rowsWith "uid" uid m.rows).map (·.get "iid") =
      (rowsWith "uid" uid m.rows).map ((fun r : Rating => Val.num (r.iid : ℚ)) ∘ ratingOf) := by
    apply List.map_congr_left
    intro r hr
    exact (fresh_cells hf.fresh (List.mem_filter.1 hr).1).2.1
  rw [e]
  exact deliversIn_ok _

theorem novel_eq (iids : List Nat) (l : List Rating) :
    novelIids iids (l.map fun r => Val.num (r.iid : ℚ)) = iids.dedup.filter fun i => i ∉ l.map (·.iid) := by
  unfold novelIids
  apply List.filter_congr
  intro i _
  rw [decide_eq_decide]
  simp only [List.mem_map, not_exists, not_and, Val.num.injEq, Nat.cast_inj]

theorem delivers_items (hn : NamesOk names) (hds : ds ∈ S) (hS0 : ∀ k ∈ S, (w0.insts k).isSome)
    (hf : FittedOn w0 ds m T B) (uid : Nat) (iids : List Nat) (novelty : Bool) :
    DeliversIn names S (sharedInv w0 S) (fun k : List Nat → DbProg β => dbKnnItems ds uid iids novelty k)
      (.ok (knnItems (ratingsOf m) uid iids novelty)) := by
  unfold dbKnnItems knnItems
  cases novelty with
  | false => exact deliversIn_ok _
  | true =>
    simp only [if_true]
    refine DeliversIn.bind (shared_stable w0 S) (delivers_rated hn hds hS0 hf uid)
      (Q := fun rated k => k (novelIids iids rated))
      (res' := fun _ => .ok (iids.dedup.filter fun i => i ∉ ((ratingsOf m).filter fun r => r.uid = uid).map (·.iid))) ?_
    intro l hl
    cases hl
    rw [novel_eq]
    exact deliversIn_ok _

theorem item_pairs {cols : List String} (h1 : "iid" ∈ cols) (h2 : "interaction" ∈ cols) (rows : List Row) :
    itemPairs (.recs (rows.map fun r => (r.toRec cols).filter fun q => q.1 ∈ ["iid", "interaction"])) =
      (rows.map ratingOf).map fun r => (r.iid, r.x) := by
  simp only [itemPairs, recsOf, List.map_map]
  apply List.map_congr_left
  intro r _
  simp only [Function.comp_apply]
  rw [lookup_pick h1 (by simp), lookup_pick h2 (by simp)]
  rfl

theorem delivers_triples (hn : NamesOk names) (hds : ds ∈ S) (hS0 : ∀ k ∈ S, (w0.insts k).isSome)
    (hf : FittedOn w0 ds m T B) (keep : List Nat) : ∀ (ps : List (ℚ × Nat)) (acc : List (Nat × ℚ × ℚ)),
    DeliversIn names S (sharedInv w0 S) (fun k : List (Nat × ℚ × ℚ) → DbProg β => dbTriples ds keep k ps acc)
      (.ok (acc ++ neighbourTriples (ratingsOf m) ps keep))
  | [], acc => by
    have := deliversIn_ok (names := names) (S := S) (inv := sharedInv w0 S) (β := β) acc
    simpa [dbTriples, neighbourTriples] using this
  | p :: ps, acc => by
    have hic : "iid" ∈ m.cols := hf.nums.cols _ (by simp)
    have hxc : "interaction" ∈ m.cols := hf.nums.cols _ (by simp)
    have h0 : DeliversIn names S (sharedInv w0 S) (fun k : ReadRes → DbProg β =>
        .select ds (idQuery "uid" p.2) fun d => .read d (.values (some ["iid", "interaction"])) fun res => .close d (k res))
        (.ok (.recs ((rowsWith "uid" p.2 m.rows).map fun r => (r.toRec m.cols).filter fun q => q.1 ∈ ["iid", "interaction"]))) := by
      refine delivers_within hn hds hS0 hf.shows hf.nums (c := "uid") (by simp) p.2
        (P := fun d k => .read d (.values (some ["iid", "interaction"])) k) ?_
      intro j _
      exact delivers_values hn (at_own (j := j) (m := { m with rows := rowsWith "uid" p.2 m.rows }) (T := T)
        (B := B) hS0) hf.nums.full (cs := ["iid", "interaction"]) (by simpa using ⟨hic, hxc⟩)
    refine DeliversIn.bind (shared_stable w0 S) h0
      (Q := fun res k => dbTriples ds keep k ps
        (acc ++ ((itemPairs res).filter fun q => q.1 ∈ keep).map fun q => (q.1, q.2, p.1)))
      (res' := fun _ => .ok (acc ++ neighbourTriples (ratingsOf m) (p :: ps) keep)) ?_
    intro res hres
    cases hres
    rw [item_pairs hic hxc, rowsWith_uid hf.fresh]
    have := delivers_triples hn hds hS0 hf keep ps (acc ++ ((((ratingsOf m).filter fun r => r.uid = p.2).map fun r =>
      (r.iid, r.x)).filter fun q => q.1 ∈ keep).map fun q => (q.1, q.2, p.1))
    have e : ((((ratingsOf m).filter fun r => r.uid = p.2).map fun r => (r.iid, r.x)).filter fun q => q.1 ∈ keep).map
        (fun q => (q.1, q.2, p.1)) =
        ((ratingsOf m).filter fun r => decide (r.uid = p.2) && decide (r.iid ∈ keep)).map fun r => (r.iid, r.x, p.1) := by
      rw [List.filter_map, List.map_map, List.filter_filter]
      congr 1
      apply List.filter_congr
      intro r _
      simp [Bool.and_comm]
    rw [e] at this ⊢
    simpa [neighbourTriples] using this

theorem delivers_userRank (hn : NamesOk names) (hds : ds ∈ S) (hS0 : ∀ k ∈ S, (w0.insts k).isSome)
    (hf : FittedOn w0 ds m T B) (cfg : KnnCfg) (M : Knn) (uid : Nat) (iids : List Nat) (n : Nat) (novelty : Bool) :
    DeliversIn names S (sharedInv w0 S) (fun k : List (ℚ × Nat) → DbProg β => dbUserRank cfg ds M uid iids n novelty k)
      (userRank cfg (ratingsOf m) M uid iids n novelty) := by
  have h1 := DeliversIn.bind (shared_stable w0 S) (delivers_items hn hds hS0 hf uid iids novelty)
    (Q := fun keep (k : List (ℚ × Nat) → DbProg β) => match M.nbrs uid with
      | none => .ret (.error .keyError)
      | some nb => dbTriples ds keep (fun ts =>
          dbScores (fun i k => dbKnnEnd cfg ds ((ts.filter fun t => t.1 = i).map (·.2)) i fun p => k (p.map fun s => (s, i)))
            (fun preds => k (nlargest n (preds.filterMap id))) (ts.map (·.1)).dedup []) nb [])
    (res' := fun _ => userRank cfg (ratingsOf m) M uid iids n novelty) (by
      intro keep hkeep
      cases hkeep
      unfold userRank
      cases M.nbrs uid with
      | none => exact deliversIn_error _
      | some nb =>
        simp only
        refine DeliversIn.bind (shared_stable w0 S) (delivers_triples hn hds hS0 hf _ nb [])
          (Q := fun ts (k : List (ℚ × Nat) → DbProg β) => dbScores
            (fun i k => dbKnnEnd cfg ds ((ts.filter fun t => t.1 = i).map (·.2)) i fun p => k (p.map fun s => (s, i)))
            (fun preds => k (nlargest n (preds.filterMap id))) (ts.map (·.1)).dedup [])
          (res' := fun ts => ((ts.map (·.1)).dedup.mapM fun i =>
            knnScored cfg (ratingsOf m) ((ts.filter fun t => t.1 = i).map (·.2)) i i).map
              fun preds => nlargest n (preds.filterMap id)) ?_
        intro ts _
        have := DeliversIn.bind (shared_stable w0 S)
          (delivers_scores (shared_stable w0 S) (β := β) (names := names)
            (score := fun i k => dbKnnEnd cfg ds ((ts.filter fun t => t.1 = i).map (·.2)) i fun p => k (p.map fun s => (s, i)))
            (res := fun i => knnScored cfg (ratingsOf m) ((ts.filter fun t => t.1 = i).map (·.2)) i i) (by
              intro i
              have := DeliversIn.bind (shared_stable w0 S)
                (delivers_end hn hds hS0 hf cfg ((ts.filter fun t => t.1 = i).map (·.2)) i (β := β))
                (Q := fun p k => k (p.map fun s => (s, i))) (res' := fun p => .ok (p.map fun s => (s, i)))
                fun p _ => deliversIn_ok _
              exact this) (ts.map (·.1)).dedup [])
          (Q := fun preds k => k (nlargest n (preds.filterMap id)))
          (res' := fun preds => .ok (nlargest n (preds.filterMap id))) fun p _ => deliversIn_ok _
        have e : ∀ r : Except Err (List (Option (ℚ × Nat))), (r.map fun l => [] ++ l).bind
            (fun preds => Except.ok (nlargest n (preds.filterMap id))) = r.map fun preds => nlargest n (preds.filterMap id) := by
          intro r
          cases r <;> rfl
        rw [e] at this
        exact this)
  exact h1

theorem delivers_ownPairs (hn : NamesOk names) (hS0 : ∀ k ∈ S, (w0.insts k).isSome) (hf : FittedOn w0 ds m T B)
    (uid j : Nat) : ∀ (ps : List (ℚ × Nat)) (acc : List (ℚ × ℚ)),
    DeliversIn names S (ownInv w0 S j { m with rows := rowsWith "uid" uid m.rows } T B)
      (fun k : List (ℚ × ℚ) → DbProg β => dbOwnPairs j (((ratingsOf m).filter fun r => r.uid = uid).map fun r =>
        Val.num (r.iid : ℚ)) k ps acc)
      (.ok (acc ++ ps.filterMap fun p => if p.2 ∈ ((ratingsOf m).filter fun r => r.uid = uid).map (·.iid) then
        (((ratingsOf m).filter fun r => r.uid = uid).find? fun r => r.iid = p.2).map fun r => (r.x, p.1) else none))
  | [], acc => by
    have := deliversIn_ok (names := names) (S := S)
      (inv := ownInv w0 S j { m with rows := rowsWith "uid" uid m.rows } T B) (β := β) acc
    simpa [dbOwnPairs] using this
  | p :: ps, acc => by
    have hxc : "interaction" ∈ m.cols := hf.nums.cols _ (by simp)
    have hmem : (Val.num (p.2 : ℚ) ∈ ((ratingsOf m).filter fun r => r.uid = uid).map fun r => Val.num (r.iid : ℚ)) ↔
        p.2 ∈ ((ratingsOf m).filter fun r => r.uid = uid).map (·.iid) := by
      simp only [List.mem_map, Val.num.injEq, Nat.cast_inj]
    unfold dbOwnPairs
    rw [List.filterMap_cons]
    by_cases hp : p.2 ∈ ((ratingsOf m).filter fun r => r.uid = uid).map (·.iid)
    · simp only [if_pos hp, if_pos (hmem.2 hp)]
      have hfind : (((rowsWith "uid" uid m.rows).find? fun r => decide (r.get "iid" = .num (p.2 : ℚ))).map ratingOf) =
          ((ratingsOf m).filter fun r => r.uid = uid).find? fun r => r.iid = p.2 := by
        rw [← rowsWith_uid hf.fresh, List.find?_map]
        congr 1
        apply List.find?_congr
        intro r hr
        rw [Bool.eq_iff_iff]
        simp only [Function.comp_apply, decide_eq_true_eq, ratingOf]
        rw [idCell_iff (fresh_cells hf.fresh (List.mem_filter.1 hr).1).2.1]
        exact ⟨decide_eq_true, of_decide_eq_true⟩
      refine DeliversIn.bind (own_stable w0 S j _ T B)
        (delivers_one (β := β) (cs := some ["interaction"]) hn
          (at_own (j := j) (m := { m with rows := rowsWith "uid" uid m.rows }) (T := T) (B := B) hS0)
          (hf.nums.filter fun r => decide (r.get "uid" = .num (uid : ℚ))) (by simp)
          (eqWritten_fits (c := "iid") (by simp) p.2) (by simpa using hxc)
          (Q := fun r => decide (r.get "iid" = .num (p.2 : ℚ))) (fun r _ => by have := sat_eq "iid" p.2 r; exact_mod_cast this)
          (idQuery_written p.2))
        (Q := fun res k => match foundCell res with
          | none => dbOwnPairs j (((ratingsOf m).filter fun r => r.uid = uid).map fun r => Val.num (r.iid : ℚ)) k ps acc
          | some x => dbOwnPairs j (((ratingsOf m).filter fun r => r.uid = uid).map fun r => Val.num (r.iid : ℚ)) k ps
            (acc ++ [(x, p.1)]))
        (res' := fun _ => .ok _) ?_
      intro res hres
      cases hres
      simp only [Option.getD_some]
      rw [found_map hxc (by simp), hfind]
      cases ((ratingsOf m).filter fun r => r.uid = uid).find? fun r => r.iid = p.2 with
      | none => exact delivers_ownPairs hn hS0 hf uid j ps acc
      | some r =>
        have := delivers_ownPairs hn hS0 hf uid j ps (acc ++ [(r.x, p.1)])
        simpa using this
    · simp only [if_neg hp, if_neg fun h => hp (hmem.1 h)]
      exact delivers_ownPairs hn hS0 hf uid j ps acc

theorem delivers_itemRank (hn : NamesOk names) (hds : ds ∈ S) (hS0 : ∀ k ∈ S, (w0.insts k).isSome)
    (hf : FittedOn w0 ds m T B) (cfg : KnnCfg) (M : Knn) (uid : Nat) (iids : List Nat) (n : Nat) (novelty : Bool) :
    DeliversIn names S (sharedInv w0 S) (fun k : List (ℚ × Nat) → DbProg β => dbItemRank cfg ds M uid iids n novelty k)
      (itemRank cfg (ratingsOf m) M uid iids n novelty) := by
  have hic : "iid" ∈ m.cols := hf.nums.cols _ (by simp)
  refine DeliversIn.bind (shared_stable w0 S) (delivers_items hn hds hS0 hf uid iids novelty)
    (Q := fun keep (k : List (ℚ × Nat) → DbProg β) => .select ds (idQuery "uid" uid) fun uds =>
      .read uds (.values (some ["iid"])) fun own =>
      dbScores (fun i k =>
          match M.nbrs i with
          | none => .ret (.error .keyError)
          | some nb => dbOwnPairs uds (columnOf "iid" own)
              (fun l => dbKnnEnd cfg ds l uid fun p => k (p.map fun s => (s, i))) nb [])
        (fun preds => .close uds (k (nlargest n (preds.filterMap id)))) keep [])
    (res' := fun keep => (keep.mapM (itemScored cfg (ratingsOf m) M uid)).map fun preds => nlargest n (preds.filterMap id)) ?_
  intro keep _
  refine delivers_within hn hds hS0 hf.shows hf.nums (c := "uid") (by simp) uid
    (P := fun uds k => .read uds (.values (some ["iid"])) fun own =>
      dbScores (fun i k =>
          match M.nbrs i with
          | none => .ret (.error .keyError)
          | some nb => dbOwnPairs uds (columnOf "iid" own)
              (fun l => dbKnnEnd cfg ds l uid fun p => k (p.map fun s => (s, i))) nb [])
        (fun preds => k (nlargest n (preds.filterMap id))) keep []) ?_
  intro j _
  refine DeliversIn.bind (own_stable w0 S j _ T B)
    (delivers_values (β := β) hn (at_own (j := j) (m := { m with rows := rowsWith "uid" uid m.rows }) (T := T)
      (B := B) hS0) hf.nums.full (cs := ["iid"]) (by simpa using hic))
    (Q := fun own (k : List (ℚ × Nat) → DbProg β) => dbScores (fun i k =>
          match M.nbrs i with
          | none => .ret (.error .keyError)
          | some nb => dbOwnPairs j (columnOf "iid" own)
              (fun l => dbKnnEnd cfg ds l uid fun p => k (p.map fun s => (s, i))) nb [])
        (fun preds => k (nlargest n (preds.filterMap id))) keep [])
    (res' := fun _ => (keep.mapM (itemScored cfg (ratingsOf m) M uid)).map fun preds => nlargest n (preds.filterMap id)) ?_
  intro res hres
  cases hres
  have e : (rowsWith "uid" uid m.rows).map (·.get "iid") =
      ((ratingsOf m).filter fun r => r.uid = uid).map fun r => Val.num (r.iid : ℚ) := by
    rw [← rowsWith_uid hf.fresh, List.map_map]
    apply List.map_congr_left
    intro r hr
    exact (fresh_cells hf.fresh (List.mem_filter.1 hr).1).2.1
  rw [column_cells hic (by simp), e]
  have := DeliversIn.bind (own_stable w0 S j { m with rows := rowsWith "uid" uid m.rows } T B)
    (delivers_scores (own_stable w0 S j _ T B) (β := β) (names := names)
      (score := fun i k =>
          match M.nbrs i with
          | none => .ret (.error .keyError)
          | some nb => dbOwnPairs j (((ratingsOf m).filter fun r => r.uid = uid).map fun r => Val.num (r.iid : ℚ))
              (fun l => dbKnnEnd cfg ds l uid fun p => k (p.map fun s => (s, i))) nb [])
      (res := itemScored cfg (ratingsOf m) M uid) (by
        intro i
        unfold itemScored
        cases M.nbrs i with
        | none => exact deliversIn_error _
        | some nb =>
          simp only
          refine DeliversIn.bind (own_stable w0 S j _ T B) (delivers_ownPairs hn hS0 hf uid j nb [])
            (Q := fun l (k : Option (ℚ × Nat) → DbProg β) => dbKnnEnd cfg ds l uid fun p => k (p.map fun s => (s, i)))
            (res' := fun l => knnScored cfg (ratingsOf m) l uid i) ?_
          intro l _
          exact DeliversIn.bind (own_stable w0 S j _ T B) (delivers_end hn hds hS0 hf cfg l uid (β := β)).toOwn
            (Q := fun p k => k (p.map fun s => (s, i))) (res' := fun p => .ok (p.map fun s => (s, i)))
            fun p _ => deliversIn_ok _) keep [])
    (Q := fun preds k => k (nlargest n (preds.filterMap id)))
    (res' := fun preds => .ok (nlargest n (preds.filterMap id))) fun p _ => deliversIn_ok _
  have e2 : ∀ r : Except Err (List (Option (ℚ × Nat))), (r.map fun l => [] ++ l).bind
      (fun preds => Except.ok (nlargest n (preds.filterMap id))) = r.map fun preds => nlargest n (preds.filterMap id) := by
    intro r
    cases r <;> rfl
  rw [e2] at this
  exact this

theorem delivers_knnRank (hn : NamesOk names) (hds : ds ∈ S) (hS0 : ∀ k ∈ S, (w0.insts k).isSome)
    (hf : FittedOn w0 ds m T B) (cfg : KnnCfg) (M : Knn) (uid : Nat) (iids : List Nat) (n : Nat) (novelty : Bool) :
    DeliversIn names S (sharedInv w0 S) (fun k : List (ℚ × Nat) → DbProg β => dbKnnRank cfg ds M uid iids n novelty k)
      (knnRank cfg (ratingsOf m) M uid iids n novelty) := by
  unfold dbKnnRank knnRank
  cases cfg.kind with
  | user => exact delivers_userRank hn hds hS0 hf cfg M uid iids n novelty
  | item => exact delivers_itemRank hn hds hS0 hf cfg M uid iids n novelty

theorem delivers_baseRank (hn : NamesOk names) (hds : ds ∈ S) (hS0 : ∀ k ∈ S, (w0.insts k).isSome)
    (hf : FittedOn w0 ds m T B) (f : PredictFn ℚ) (uid : Nat) (iids : List Nat) (n : Nat) (novelty : Bool) :
    DeliversIn names S (sharedInv w0 S) (fun k : List (ℚ × Nat) → DbProg β => dbBaseRank ds f uid iids n novelty k)
      (baseRank m f uid iids n novelty) := by
  have go : ∀ cand : List Nat, DeliversIn names S (sharedInv w0 S) (fun k : List (ℚ × Nat) → DbProg β =>
      withResult (cand.mapM (scored f uid)) fun preds => k (nlargest n (preds.filterMap id)))
      (match cand.mapM (scored f uid) with | .error e => .error e | .ok preds => .ok (nlargest n (preds.filterMap id))) := by
    intro cand
    cases cand.mapM (scored f uid) with
    | error e => exact deliversIn_error e
    | ok p => exact deliversIn_ok _
  unfold dbBaseRank baseRank candidates
  cases novelty with
  | false => exact go iids
  | true =>
    simp only [if_true]
    rw [C64_rated m hf.fresh]
    refine DeliversIn.bind (shared_stable w0 S) (delivers_rated hn hds hS0 hf uid)
      (Q := fun rated (k : List (ℚ × Nat) → DbProg β) => withResult ((novelIids iids rated).mapM (scored f uid)) fun preds =>
        k (nlargest n (preds.filterMap id)))
      (res' := fun rated => match (novelIids iids rated).mapM (scored f uid) with
        | .error e => .error e | .ok preds => .ok (nlargest n (preds.filterMap id))) fun rated _ => go _

end

end DRec.Conc
