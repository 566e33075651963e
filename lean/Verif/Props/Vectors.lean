import Verif.Lemmas.Matrix
import Verif.Props.MemOps

/-!
# C15, C16, C17: interaction vectors of the in-memory dataset
-/

namespace DRec

open Spec

/-- One request: right answer, caches stay good, nothing else changes. -/
theorem serve_ok (ds : Mem) (h : Fresh ds) (hc : CacheOk ds) (q : VecReq) (hq : q.Known ds)
    (hu : 2 ≤ ds.userMap.length ∨ ∃ u, q = .user u) :
    (serve ds q).2 = .ok (vecSpec ds q) ∧ CacheOk (serve ds q).1 ∧
      (serve ds q).1.cols = ds.cols ∧ (serve ds q).1.rows = ds.rows ∧
      (serve ds q).1.hasIds = ds.hasIds ∧ (serve ds q).1.userMap = ds.userMap ∧
      (serve ds q).1.itemMap = ds.itemMap := by
  cases q with
  | user u =>
    have hlt : u < ds.userMap.length := hq
    have h1 : ds.uidToUser u = .ok (some ds.userMap[u]) := by
      simp [Mem.uidToUser, h.ids.has, hlt]
    simp only [serve, Mem.userVec, h1]
    rcases hc with hc | ⟨hc1, hc2⟩ | ⟨hc1, hc2⟩
    · simp only [hc, buildMatrix_ok ds h]
      refine ⟨?_, Or.inr (Or.inl ⟨rfl, rfl⟩), by trivial, by trivial, by trivial, by trivial, by trivial⟩
      have : u < (fullMat ds).nrows := hlt
      simp only [this, if_true, fullMat_row ds h u hlt]
    · simp only [hc1]
      by_cases hn : (fullMat ds).nrows ≤ 1
      · simp only [hn, if_true]
        exact ⟨userVecSlow_ok ds h u, Or.inr (Or.inr ⟨hn, rfl⟩), by trivial, by trivial, by trivial, by trivial, by trivial⟩
      · simp only [hn, if_false]
        have : u < (fullMat ds).nrows := hlt
        simp only [this, if_true, fullMat_row ds h u hlt]
        exact ⟨by trivial, Or.inr (Or.inl ⟨hc1, hc2⟩), by trivial, by trivial, by trivial, by trivial, by trivial⟩
    · simp only [hc2, zeroMat, le_refl, if_true]
      exact ⟨userVecSlow_ok ds h u, Or.inr (Or.inr ⟨hc1, rfl⟩), by trivial, by trivial, by trivial, by trivial, by trivial⟩
  | item i =>
    have hlt : i < ds.itemMap.length := hq
    have hn : 2 ≤ ds.userMap.length := by
      rcases hu with hu | ⟨u, hu⟩
      · exact hu
      · cases hu
    have h1 : ds.iidToItem i = .ok (some ds.itemMap[i]) := by
      simp [Mem.iidToItem, h.ids.has, hlt]
    have hin : i < (fullMat ds).ncols := hlt
    simp only [serve, Mem.itemVec, h1]
    rcases hc with hc | ⟨hc1, hc2⟩ | ⟨hc1, hc2⟩
    · simp only [hc, buildMatrix_ok ds h]
      refine ⟨?_, Or.inr (Or.inl ⟨rfl, rfl⟩), by trivial, by trivial, by trivial, by trivial, by trivial⟩
      simp only [hin, if_true, fullMat_col ds h i]
    · have hn' : ¬ (fullMat ds).nrows ≤ 1 := by
        have : (fullMat ds).nrows = ds.userMap.length := rfl
        omega
      simp only [hc1, hc2, hn', if_false, hin, if_true, fullMat_col ds h i]
      exact ⟨trivial, Or.inr (Or.inl ⟨hc1, hc2⟩), trivial, trivial, trivial, trivial, trivial⟩
    · omega

/-- **C15** (partial).  Full property: on a dataset with freshly assigned ids every requested vector
is right, whatever was requested before.  Proved for every sequence of requests when there are at
least two users, and for user vectors also with a single user.  Item vectors of a single-user dataset
go wrong on the second request, see `C15_single_user_item_vector_fails`. -/
theorem C15_vectors_partial (ds : Mem) (h : Fresh ds) (hc : ds.cache = none) (qs : List VecReq)
    (hq : ∀ q ∈ qs, q.Known ds) (hu : 2 ≤ ds.userMap.length ∨ ∀ q ∈ qs, ∃ u, q = .user u) :
    (serveAll ds qs).2 = qs.map fun q => .ok (vecSpec ds q) := by
  have gen : ∀ (d : Mem), Fresh d → CacheOk d → d.rows = ds.rows → d.userMap = ds.userMap →
      d.itemMap = ds.itemMap →
      ∀ qs : List VecReq, (∀ q ∈ qs, q.Known ds) →
        (2 ≤ ds.userMap.length ∨ ∀ q ∈ qs, ∃ u, q = .user u) →
      (serveAll d qs).2 = qs.map fun q => .ok (vecSpec ds q) := by
    intro d hf hco hr hum him qs
    induction qs generalizing d with
    | nil => intros; rfl
    | cons q qs ih =>
      intro hq hu
      have hqd : q.Known d := by
        have := hq q (by simp)
        cases q
        · show _ < d.userMap.length
          rw [hum]; exact this
        · show _ < d.itemMap.length
          rw [him]; exact this
      obtain ⟨g1, g2, g3, g4, g5, g6, g7⟩ := serve_ok d hf hco q hqd (by
        rcases hu with hu | hu
        · left; rw [hum]; exact hu
        · right; exact hu q (by simp))
      have hv : vecSpec d q = vecSpec ds q := by
        cases q <;> simp only [vecSpec, hr, hum, him]
      simp only [serveAll, List.map_cons, g1, hv]
      congr 1
      apply ih _ (fresh_congr hf g3 g4 g5 g6 g7) g2 (g4.trans hr) (g6.trans hum) (g7.trans him)
      · intro q' hq'; exact hq q' (by simp [hq'])
      · rcases hu with hu | hu
        · exact Or.inl hu
        · exact Or.inr fun q' hq' => hu q' (by simp [hq'])
  exact gen ds h (Or.inl hc) rfl rfl rfl qs hq hu

/-- **C15.** Right after assigning ids a dataset with numeric interactions is in the state the theorem
above asks for. -/
theorem C15_fresh_after_assign (ds : Mem) (hu : "user" ∈ ds.cols) (hi : "item" ∈ ds.cols)
    (hx : "interaction" ∈ ds.cols) (hn : ∀ r ∈ ds.rows, ∃ q, r.get "interaction" = .num q) :
    Fresh ds.assignIds.1 := by
  have hok := assignIds_idsOk ds hu hi
  have heq := assignIds_eq ds hu hi
  refine ⟨hok, ?_, ?_, ?_, ?_⟩
  · intro v hv
    rw [heq] at hv ⊢
    simp only [mem_distinctVals, List.mem_map] at hv
    obtain ⟨r, hr, rfl⟩ := hv
    exact ⟨_, List.mem_map_of_mem hr, by rw [stamp_get]; simp⟩
  · intro v hv
    rw [heq] at hv ⊢
    simp only [mem_distinctVals, List.mem_map] at hv
    obtain ⟨r, hr, rfl⟩ := hv
    exact ⟨_, List.mem_map_of_mem hr, by rw [stamp_get]; simp⟩
  · rw [heq]; simp [mem_addCol, hx]
  · intro r hr
    rw [heq] at hr
    obtain ⟨r0, h0, rfl⟩ := List.mem_map.1 hr
    obtain ⟨q, hq⟩ := hn r0 h0
    exact ⟨q, by rw [stamp_get]; simpa using hq⟩

/-- **C15.** With at most one record per pair an entry is the interaction of that record, and 0 when
there is none. -/
theorem C15_entry_is_the_record (rows : List Row) (u i : Nat) :
    (∀ r, rows.filter (fun r => r.get "uid" = .num (u : ℚ) ∧ r.get "iid" = .num (i : ℚ)) = [r] →
      pairTotal rows u i = numCell (r.get "interaction")) ∧
    ((∀ r ∈ rows, ¬ (r.get "uid" = .num (u : ℚ) ∧ r.get "iid" = .num (i : ℚ))) →
      pairTotal rows u i = 0) := by
  constructor
  · intro r hr
    unfold pairTotal
    rw [hr]; simp
  · intro h
    have : rows.filter (fun r => r.get "uid" = .num (u : ℚ) ∧ r.get "iid" = .num (i : ℚ)) = [] := by
      rw [List.filter_eq_nil_iff]; intro r hr; simpa using h r hr
    unfold pairTotal
    rw [this]; rfl

/-- **C15 fails** for item vectors of a dataset with one user: the first request is right, the second
raises, because the fallback indexes the single-column result by the item id. -/
theorem C15_single_user_item_vector_fails : ∃ ds : Mem, Fresh ds ∧ ds.cache = none ∧
    (serveAll ds [.item 1, .item 1]).2 = [.ok [4], .error .outOfRange] :=
  ⟨(mkMem .obj [(.str "u", .str "a", 3), (.str "u", .str "b", 4)]).assignIds.1,
    C15_fresh_after_assign _ (by decide) (by decide) (by decide)
      (by
        intro r hr
        simp only [mkMem, List.zipIdx_cons, List.zipIdx_nil, List.map_cons, List.map_nil,
          List.mem_cons, List.not_mem_nil, or_false] at hr
        rcases hr with rfl | rfl
        · exact ⟨3, by decide⟩
        · exact ⟨4, by decide⟩), rfl, by decide +kernel⟩

/-- **C15**, texts: when the interaction of some record is a text that is no number, every request for a vector
raises. -/
theorem C15_text_raises (ds : Mem) (h : IdsOk ds) (hu : ∀ v ∈ ds.userMap, ∃ r ∈ ds.rows, r.get "user" = v)
    (hc : ds.cache = none) (r : Row) (hr : r ∈ ds.rows) (s : String)
    (hs : r.get "interaction" = .str s) (hn : pyFloat s.toList = none) (q : VecReq) :
    ∃ e, (serve ds q).2 = .error e := by
  have hb : ∃ e, ds.buildMatrix = .error e := by
    unfold Mem.buildMatrix
    rw [if_pos h.has]
    split
    · rw [countDistinct_eq ds "user" "uid" _ h.user hu]
      obtain ⟨h1, h2⟩ := h.user.code r hr
      have h3 := List.mem_range.2 (List.idxOf_lt_length_of_mem h1)
      generalize ds.userMap.idxOf (r.get "user") = k at h2 h3
      cases hm : (List.range ds.userMap.length).mapM (fun u =>
          (rowsWith "uid" u ds.rows).mapM fun r => (rowEntry "iid" r).map fun p => (u, p.1, p.2)) with
      | error e => exact ⟨e, by simp only [hm, bind, Except.bind]⟩
      | ok l =>
        exfalso
        rw [mapM_ok_iff] at hm
        have h4 := List.mem_map_of_mem (f := fun u =>
          (rowsWith "uid" u ds.rows).mapM fun r => (rowEntry "iid" r).map fun p => (u, p.1, p.2)) h3
        rw [hm] at h4
        obtain ⟨l2, _, h5⟩ := List.mem_map.1 h4
        rw [eq_comm, mapM_ok_iff] at h5
        have h6 : r ∈ rowsWith "uid" k ds.rows :=
          List.mem_filter.2 ⟨hr, by simp [h2]⟩
        have h7 := List.mem_map_of_mem (f := fun r => (rowEntry "iid" r).map fun p => (k, p.1, p.2)) h6
        rw [h5] at h7
        obtain ⟨e, _, h8⟩ := List.mem_map.1 h7
        have h9 : ∃ x, rowEntry "iid" r = .error x := by
          unfold rowEntry
          simp only [hs, Val.toRat?, hn]
          split
          · rename_i hx; cases hx
          · exact ⟨_, rfl⟩
        obtain ⟨x, h9⟩ := h9
        rw [h9] at h8
        cases h8
    · exact ⟨_, rfl⟩
  obtain ⟨e, hb⟩ := hb
  cases q with
  | user u =>
    simp only [serve, Mem.userVec, hc, hb]
    split <;> exact ⟨_, rfl⟩
  | item i =>
    simp only [serve, Mem.itemVec, hc, hb]
    split <;> exact ⟨_, rfl⟩

/-- Records with text interactions. -/
def exTexts (xs : List String) : Mem :=
  let row (p : String × Nat) : Row :=
    mkRow p.2 [("user", .str (if p.2 = 0 then "u" else "v")), ("item", .str "a"), ("interaction", .str p.1)]
  { mkMem .obj [] with rows := xs.zipIdx.map row }

/-- A dataset with a text interaction that is no number; one where all are numbers has vectors. -/
example : (∃ r ∈ (exTexts ["3", "good"]).assignIds.1.rows, r.get "interaction" = .str "good") ∧
    (serve (exTexts ["3", "good"]).assignIds.1 (.user 0)).2 = .error .typeError ∧
    (serve (exTexts ["3", "4.5"]).assignIds.1 (.item 0)).2 = .ok [3, 9 / 2] := by decide +kernel

/-- A three-record dataset with ids. -/
def exIds : Mem := exUnsorted.assignIds.1

theorem exIds_fresh : Fresh exIds :=
  C15_fresh_after_assign _ (by decide) (by decide) (by decide) (by
    intro r hr
    simp only [exUnsorted, mkMem, List.zipIdx_cons, List.zipIdx_nil, List.map_cons, List.map_nil,
      List.mem_cons, List.not_mem_nil, or_false] at hr
    rcases hr with rfl | rfl | rfl
    · exact ⟨3, by decide⟩
    · exact ⟨1, by decide⟩
    · exact ⟨5, by decide⟩)

/-- The hypotheses are met by a dataset with two users and a mixed request sequence. -/
example : Fresh exIds ∧ exIds.cache = none ∧ 2 ≤ exIds.userMap.length ∧
    (serveAll exIds [.user 0, .item 2, .user 1]).2 = [.ok [3, 0, 5], .ok [5, 0], .ok [0, 1, 0]] :=
  ⟨exIds_fresh, rfl, by decide +kernel, by decide +kernel⟩

/-! ## C16 -/

/-- **C16** (partial).  Full property: after any in-place modification the vectors describe the
current records.  Proved for `apply` on the interaction column with a cached matrix: the next vector
of every user is computed from the new values.  For in-place select, drop and unique it is false
(`C16_stale_after_in_place_drop`). -/
theorem C16_apply_refreshes_partial (ds : Mem) (h : Fresh ds) (f : Val → Option Val) (g : Val → Val)
    (hne : ds.rows ≠ [])
    (hf : ∀ r ∈ ds.rows, f (r.get "interaction") = some (g (r.get "interaction")) ∧
      ∃ q, g (r.get "interaction") = .num q)
    (hcache : ds.cache.isSome = true) (hu2 : 2 ≤ ds.userMap.length) :
    ∃ d, ds.apply "interaction" f = (d, none) ∧
      d.rows.map (·.get "interaction") = ds.rows.map (fun r => g (r.get "interaction")) ∧
      ∀ q, q.Known d → (serve d q).2 = .ok (vecSpec d q) := by
  have hm : ds.rows.mapM (fun r => (f (r.get "interaction")).map fun v => r.set "interaction" v) =
      some (ds.rows.map fun r => r.set "interaction" (g (r.get "interaction"))) := by
    apply mapM_option_some
    intro r hr
    rw [(hf r hr).1]; rfl
  let d1 : Mem := { ds with
      rows := ds.rows.map fun r => r.set "interaction" (g (r.get "interaction"))
      dtype := fun d => if d = "interaction" then newDType (ds.dtype "interaction")
        ((ds.rows.map fun r => r.set "interaction" (g (r.get "interaction"))).map (·.get "interaction"))
        else ds.dtype d }
  have hset : ∀ (r : Row) (c : String), c ≠ "interaction" →
      (r.set "interaction" (g (r.get "interaction"))).get c = r.get c := by
    intro r c hc
    rw [Row.get_set _ _ _ _ (by decide), if_neg hc]
  have hfresh : Fresh d1 := by
    refine ⟨⟨h.ids.has, ⟨h.ids.user.nodup, h.ids.user.hasRaw, h.ids.user.hasCol, ?_⟩,
      ⟨h.ids.item.nodup, h.ids.item.hasRaw, h.ids.item.hasCol, ?_⟩⟩, ?_, ?_, h.hasInter, ?_⟩
    · intro r hr
      obtain ⟨r0, h0, rfl⟩ := List.mem_map.1 hr
      rw [hset _ _ (by decide), hset _ _ (by decide)]
      exact h.ids.user.code r0 h0
    · intro r hr
      obtain ⟨r0, h0, rfl⟩ := List.mem_map.1 hr
      rw [hset _ _ (by decide), hset _ _ (by decide)]
      exact h.ids.item.code r0 h0
    · intro v hv
      obtain ⟨r, hr, he⟩ := h.users v hv
      exact ⟨_, List.mem_map_of_mem hr, by rw [hset _ _ (by decide)]; exact he⟩
    · intro v hv
      obtain ⟨r, hr, he⟩ := h.items v hv
      exact ⟨_, List.mem_map_of_mem hr, by rw [hset _ _ (by decide)]; exact he⟩
    · intro r hr
      obtain ⟨r0, h0, rfl⟩ := List.mem_map.1 hr
      obtain ⟨_, q, hq⟩ := hf r0 h0
      exact ⟨q, by rw [Row.get_set _ _ _ _ (by decide)]; simpa using hq⟩
  have hb := buildMatrix_ok d1 hfresh
  refine ⟨{ d1 with cache := some (fullMat d1), cacheT := some (fullMat d1) }, ?_, ?_, ?_⟩
  · unfold Mem.apply
    rw [if_pos h.hasInter, if_neg (by decide)]
    cases hrows : ds.rows with
    | nil => exact absurd hrows hne
    | cons r0 rest =>
      obtain ⟨h0, q, hq⟩ := hf r0 (by simp [hrows])
      rw [hrows] at hm
      simp only [h0, hq, hm, hcache, and_self, if_true]
      have e : ({ ds with
          rows := (r0 :: rest).map fun r => r.set "interaction" (g (r.get "interaction"))
          dtype := fun d => if d = "interaction" then newDType (ds.dtype "interaction")
            (((r0 :: rest).map fun r => r.set "interaction" (g (r.get "interaction"))).map (·.get "interaction"))
            else ds.dtype d } : Mem) = d1 := by
        simp only [d1, hrows]
      rw [e, hb]
      simp only [d1, hrows]
  · simp only [d1, List.map_map]
    apply List.map_congr_left
    intro r _
    simp [Row.get_set _ _ _ _ (show "interaction" ≠ "rid" by decide)]
  · intro q hq
    have hfr := fresh_congr (b := { d1 with cache := some (fullMat d1), cacheT := some (fullMat d1) })
      hfresh rfl rfl rfl rfl rfl
    exact (serve_ok _ hfr (Or.inr (Or.inl ⟨rfl, rfl⟩)) q hq (Or.inl hu2)).1

/-- **C16.** Operations that return a new dataset never carry a matrix over. -/
theorem C16_copies_start_uncached (ds : Mem) :
    ds.copy.cache = none ∧ (∀ q d, ds.select q = .ok d → d.cache = none) ∧
    (∀ ids keep, (ds.drop ids keep).cache = none) ∧
    (∀ cs d, ds.unique cs = .ok d → d.cache = none) := by
  refine ⟨rfl, ?_, fun _ _ => rfl, ?_⟩
  · intro q d h
    rw [Mem.select_iff] at h
    rw [h.2]; rfl
  · intro cs d h
    unfold Mem.unique at h
    cases hc : handleColumns ds.cols cs with
    | error e => rw [hc] at h; cases h
    | ok l => rw [hc] at h; cases h; rfl

/-- **C16 fails**: after a vector request, dropping a record in place leaves the old vector. -/
theorem C16_stale_after_in_place_drop : ∃ ds : Mem, Fresh ds ∧
    let d := (serve ds (.user 0)).1.dropInPlace [2] false
    (d.rows.map (·.rid)) = [0, 1] ∧ (serve d (.user 0)).2 = .ok [3, 0, 5] ∧
    pairTotal d.rows 0 2 = 0 :=
  ⟨exIds, exIds_fresh, by decide +kernel, by decide +kernel, by decide +kernel⟩

example : Fresh (serve exIds (.user 0)).1 ∧ (serve exIds (.user 0)).1.cache.isSome = true ∧
    2 ≤ (serve exIds (.user 0)).1.userMap.length ∧ (serve exIds (.user 0)).1.rows ≠ [] := by
  obtain ⟨_, _, g3, g4, g5, g6, g7⟩ := serve_ok exIds exIds_fresh (Or.inl rfl) (.user 0)
    (by show 0 < exIds.userMap.length; decide +kernel) (Or.inr ⟨0, rfl⟩)
  exact ⟨fresh_congr exIds_fresh g3 g4 g5 g6 g7, by decide +kernel, by decide +kernel, by decide +kernel⟩

/-! ## C17 -/

/-- **C17** (partial).  Full property: on any filtered dataset the vector of every user present can be
requested and is correct.  Proved when the filter leaves at least one record of every user and item;
otherwise it is false (`C17_filtered_vector_raises`, `C17_filtered_vector_wrong_size`). -/
theorem C17_filtered_vectors_partial (ds d : Mem) (h : Fresh ds)
    (hd : (∃ q, ds.select q = .ok d) ∨ (∃ ids keep, d = ds.drop ids keep))
    (hu : ∀ v ∈ ds.userMap, ∃ r ∈ d.rows, r.get "user" = v)
    (hi : ∀ v ∈ ds.itemMap, ∃ r ∈ d.rows, r.get "item" = v)
    (qs : List VecReq) (hq : ∀ q ∈ qs, q.Known d) (hu2 : 2 ≤ ds.userMap.length) :
    (serveAll d qs).2 = qs.map fun q => .ok (vecSpec d q) := by
  have key : d.cols = ds.cols ∧ d.hasIds = ds.hasIds ∧ d.userMap = ds.userMap ∧
      d.itemMap = ds.itemMap ∧ d.rows ⊆ ds.rows ∧ d.cache = none := by
    rcases hd with ⟨q, hq⟩ | ⟨ids, keep, rfl⟩
    · rw [Mem.select_iff] at hq
      obtain ⟨_, rfl⟩ := hq
      exact ⟨rfl, rfl, rfl, rfl, List.filter_sublist.subset, rfl⟩
    · refine ⟨rfl, rfl, rfl, rfl, ?_, rfl⟩
      cases keep
      · exact (C05_drop_keep ds ids).2.1.subset
      · exact (C05_drop_keep ds ids).2.2.1.subset
  obtain ⟨k1, k2, k3, k4, k5, k6⟩ := key
  have hf : Fresh d := by
    refine ⟨idsOk_sub h.ids k1 k2 k3 k4 k5, ?_, ?_, k1 ▸ h.hasInter, ?_⟩
    · rw [k3]; exact hu
    · rw [k4]; exact hi
    · intro r hr; exact h.numeric r (k5 hr)
  exact C15_vectors_partial d hf k6 qs hq (Or.inl (k3 ▸ hu2))

/-- **C17 fails**: after dropping all records of user 0, asking for user 1 raises. -/
theorem C17_filtered_vector_raises : ∃ ds : Mem, Fresh ds ∧
    ((ds.drop [0, 2] false).rows.map (·.get "uid")) = [.num 1] ∧
    (serve (ds.drop [0, 2] false) (.user 1)).2 = .error .outOfRange :=
  ⟨exIds, exIds_fresh, by decide +kernel, by decide +kernel⟩

/-- **C17 fails**: after dropping item 1, the vector of user 0 (items 0 and 2) raises. -/
theorem C17_filtered_vector_wrong_size : ∃ ds : Mem, Fresh ds ∧
    ((ds.drop [1] false).rows.map (·.get "uid")) = [.num 0, .num 0] ∧
    (serve (ds.drop [1] false) (.user 0)).2 = .error .outOfRange :=
  ⟨exIds, exIds_fresh, by decide +kernel, by decide +kernel⟩

/-- A filter that keeps every user and item. -/
def exDup : Mem := (mkMem .obj [(.str "u", .str "a", 3), (.str "v", .str "b", 1),
  (.str "u", .str "b", 5), (.str "v", .str "b", 2)]).assignIds.1

example : (∀ v ∈ exDup.userMap, ∃ r ∈ (exDup.drop [3] false).rows, r.get "user" = v) ∧
    (∀ v ∈ exDup.itemMap, ∃ r ∈ (exDup.drop [3] false).rows, r.get "item" = v) ∧
    (exDup.drop [3] false).rows.length = 3 := by
  have h1 : exDup.userMap = [.str "u", .str "v"] := by decide +kernel
  have h2 : exDup.itemMap = [.str "a", .str "b"] := by decide +kernel
  have h3 : (exDup.drop [3] false).rows.map (·.get "user") = [.str "u", .str "v", .str "u"] := by
    decide +kernel
  have h4 : (exDup.drop [3] false).rows.map (·.get "item") = [.str "a", .str "b", .str "b"] := by
    decide +kernel
  refine ⟨?_, ?_, by decide +kernel⟩
  · intro v hv
    have : v ∈ (exDup.drop [3] false).rows.map (·.get "user") := by
      rw [h1] at hv; rw [h3]; revert hv; simp; tauto
    obtain ⟨r, hr, he⟩ := List.mem_map.1 this
    exact ⟨r, hr, he⟩
  · intro v hv
    have : v ∈ (exDup.drop [3] false).rows.map (·.get "item") := by
      rw [h2] at hv; rw [h4]; revert hv; simp
    obtain ⟨r, hr, he⟩ := List.mem_map.1 this
    exact ⟨r, hr, he⟩

end DRec
