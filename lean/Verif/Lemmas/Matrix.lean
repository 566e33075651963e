import Verif.Lemmas.MemIds
import Verif.Lemmas.Dedup
import Verif.Lemmas.MemQuery

/-! # Lemmas about the interaction matrix -/

namespace DRec

open Spec

theorem toNat?_num (k : ℕ) : Val.toNat? (.num (k : ℚ)) = some k := by
  simp [Val.toNat?]

/-- Internal id of a row in a numbering. -/
def codeNat (m : List Val) (raw : String) (r : Row) : Nat := m.idxOf (r.get raw)

/-- The number of distinct internal ids is the number of known raw ids. -/
theorem countDistinct_eq (ds : Mem) (raw idc : String) (m : List Val) (h : IdsFor ds raw idc m)
    (hall : ∀ v ∈ m, ∃ r ∈ ds.rows, r.get raw = v) :
    countDistinct idc ds.rows = m.length := by
  unfold countDistinct
  rw [dedupGo_length]
  have : ((List.range m.length).map fun k : ℕ => [Val.num (k : ℚ)]).length = m.length := by simp
  rw [← this]
  apply List.Perm.length_eq
  rw [List.perm_ext_iff_of_nodup (List.nodup_dedup _)]
  · intro k
    rw [List.mem_dedup]
    simp only [List.mem_map, List.mem_range]
    constructor
    · rintro ⟨r, hr, rfl⟩
      obtain ⟨h1, h2⟩ := h.code r hr
      exact ⟨m.idxOf (r.get raw), List.idxOf_lt_length_of_mem h1, by simp [keyOn, h2]⟩
    · rintro ⟨k, hk, rfl⟩
      obtain ⟨r, hr, he⟩ := hall m[k] (List.getElem_mem hk)
      refine ⟨r, hr, ?_⟩
      simp only [keyOn, List.map_cons, List.map_nil, (h.code r hr).2, he,
        h.nodup.idxOf_getElem]
  · apply List.Nodup.map _ List.nodup_range
    intro a b hab
    simpa using hab

theorem rowEntry_ok (ds : Mem) (h : Fresh ds) (r : Row) (hr : r ∈ ds.rows) :
    rowEntry "iid" r = .ok (codeNat ds.itemMap "item" r, numCell (r.get "interaction")) := by
  obtain ⟨q, hq⟩ := h.numeric r hr
  simp only [rowEntry, (h.ids.item.code r hr).2, toNat?_num, hq, Val.toRat?, numCell, codeNat]

theorem mapM_except_ok {α β : Type} (f : α → Except Err β) (g : α → β) (l : List α)
    (h : ∀ a ∈ l, f a = .ok (g a)) : l.mapM f = .ok (l.map g) := by
  rw [mapM_ok_iff, List.map_map]
  exact List.map_congr_left h

/-- Triples contributed by a user. -/
def userTriples (ds : Mem) (u : Nat) : List (Nat × Nat × ℚ) :=
  (rowsWith "uid" u ds.rows).map fun r =>
    (u, codeNat ds.itemMap "item" r, numCell (r.get "interaction"))

theorem mem_rowsWith {c : String} {k : Nat} {rs : List Row} {r : Row} (h : r ∈ rowsWith c k rs) :
    r ∈ rs := (List.mem_filter.1 h).1

theorem all_triples_inside (ds : Mem) (h : Fresh ds) :
    (((List.range ds.userMap.length).map (userTriples ds)).flatten).all
      (fun e => e.1 < ds.userMap.length && e.2.1 < ds.itemMap.length) = true := by
  rw [List.all_eq_true]
  intro e he
  rw [List.mem_flatten] at he
  obtain ⟨l, hl, he⟩ := he
  obtain ⟨u, hu, rfl⟩ := List.mem_map.1 hl
  obtain ⟨r, hr, rfl⟩ := List.mem_map.1 he
  have hr' := mem_rowsWith hr
  simp only [Bool.and_eq_true, decide_eq_true_eq]
  exact ⟨List.mem_range.1 hu, List.idxOf_lt_length_of_mem (h.ids.item.code r hr').1⟩

/-- The matrix of a fresh dataset. -/
def fullMat (ds : Mem) : Mat :=
  ⟨ds.userMap.length, ds.itemMap.length, ((List.range ds.userMap.length).map (userTriples ds)).flatten⟩

theorem buildMatrix_ok (ds : Mem) (h : Fresh ds) : ds.buildMatrix = .ok (fullMat ds) := by
  unfold Mem.buildMatrix
  rw [if_pos h.ids.has, if_pos ⟨h.ids.user.hasCol, h.ids.item.hasCol, h.hasInter⟩]
  rw [countDistinct_eq ds "user" "uid" _ h.ids.user h.users,
    countDistinct_eq ds "item" "iid" _ h.ids.item h.items]
  have : (List.range ds.userMap.length).mapM (fun u =>
      (rowsWith "uid" u ds.rows).mapM fun r => (rowEntry "iid" r).map fun p => (u, p.1, p.2)) =
      .ok ((List.range ds.userMap.length).map (userTriples ds)) := by
    apply mapM_except_ok
    intro u _
    apply mapM_except_ok
    intro r hr
    rw [rowEntry_ok ds h r (mem_rowsWith hr)]
    rfl
  simp only [this, bind, Except.bind, mkMat, all_triples_inside ds h, if_true]
  rfl

theorem iid_eq_iff (ds : Mem) (h : Fresh ds) (r : Row) (hr : r ∈ ds.rows) (i : Nat) :
    r.get "iid" = .num (i : ℚ) ↔ codeNat ds.itemMap "item" r = i := by
  rw [(h.ids.item.code r hr).2]
  simp [codeNat]

theorem uid_eq_iff (ds : Mem) (h : Fresh ds) (r : Row) (hr : r ∈ ds.rows) (u : Nat) :
    r.get "uid" = .num (u : ℚ) ↔ codeNat ds.userMap "user" r = u := by
  rw [(h.ids.user.code r hr).2]
  simp [codeNat]

theorem filter_userTriples (ds : Mem) (h : Fresh ds) (u' u i : Nat) :
    (userTriples ds u').filter (fun e => e.1 = u ∧ e.2.1 = i) =
      if u' = u then (ds.rows.filter fun r => r.get "uid" = .num (u : ℚ) ∧ r.get "iid" = .num (i : ℚ)).map
        (fun r => (u, i, numCell (r.get "interaction"))) else [] := by
  unfold userTriples
  rw [List.filter_map]
  by_cases hu : u' = u
  · subst hu
    simp only [if_true, rowsWith, List.filter_filter]
    rw [List.filter_congr (q := fun r => decide (r.get "uid" = .num (u' : ℚ) ∧ r.get "iid" = .num (i : ℚ)))]
    · apply List.map_congr_left
      intro r hr
      rw [List.mem_filter] at hr
      have h2 := hr.2
      simp only [decide_eq_true_eq] at h2
      rw [(iid_eq_iff ds h r hr.1 i).1 h2.2]
    · intro r hr
      have := iid_eq_iff ds h r hr i
      simp only [Function.comp_apply, true_and, ← this]
      rw [Bool.and_comm]
      simp
  · rw [if_neg hu]
    simp [Function.comp_def, hu]

theorem flatten_filter_range (ds : Mem) (h : Fresh ds) (n u i : Nat) :
    (((List.range n).map (userTriples ds)).flatten).filter (fun e => e.1 = u ∧ e.2.1 = i) =
      if u < n then (ds.rows.filter fun r => r.get "uid" = .num (u : ℚ) ∧ r.get "iid" = .num (i : ℚ)).map
        (fun r => (u, i, numCell (r.get "interaction"))) else [] := by
  induction n with
  | zero => simp
  | succ n ih =>
    rw [List.range_succ, List.map_append, List.flatten_append, List.filter_append, ih]
    simp only [List.map_cons, List.map_nil, List.flatten_cons, List.flatten_nil, List.append_nil,
      filter_userTriples ds h]
    by_cases h1 : u < n
    · have : ¬ n = u := by omega
      simp [h1, this, Nat.lt_succ_of_lt h1]
    · by_cases h2 : n = u
      · subst h2; simp
      · have h3 : ¬ u < n + 1 := by omega
        simp [h1, h2, h3]

theorem fullMat_entry (ds : Mem) (h : Fresh ds) (u i : Nat) (hu : u < ds.userMap.length) :
    (fullMat ds).entry u i = pairTotal ds.rows u i := by
  unfold Mat.entry fullMat pairTotal
  simp only
  rw [flatten_filter_range ds h, if_pos hu, List.map_map]
  rfl

theorem fullMat_row (ds : Mem) (h : Fresh ds) (u : Nat) (hu : u < ds.userMap.length) :
    (fullMat ds).row u = vecSpec ds (.user u) := by
  unfold Mat.row vecSpec
  apply List.map_congr_left
  intro i _
  exact fullMat_entry ds h u i hu

theorem fullMat_col (ds : Mem) (h : Fresh ds) (i : Nat) :
    (fullMat ds).col i = vecSpec ds (.item i) := by
  unfold Mat.col vecSpec
  apply List.map_congr_left
  intro u hu
  exact fullMat_entry ds h u i (List.mem_range.1 hu)

/-- The memory-saving path for user vectors is right on fresh datasets. -/
theorem userVecSlow_ok (ds : Mem) (h : Fresh ds) (u : Nat) :
    ds.userVecSlow u = .ok (vecSpec ds (.user u)) := by
  unfold Mem.userVecSlow
  have h1 : (rowsWith "uid" u ds.rows).mapM (rowEntry "iid") =
      .ok ((rowsWith "uid" u ds.rows).map fun r =>
        (codeNat ds.itemMap "item" r, numCell (r.get "interaction"))) := by
    apply mapM_except_ok
    intro r hr
    exact rowEntry_ok ds h r (mem_rowsWith hr)
  rw [h1, countDistinct_eq ds "item" "iid" _ h.ids.item h.items]
  have hin : (((rowsWith "uid" u ds.rows).map fun r =>
        (codeNat ds.itemMap "item" r, numCell (r.get "interaction"))).map
        fun p => ((0 : Nat), p.1, p.2)).all
      (fun e => e.1 < 1 && e.2.1 < ds.itemMap.length) = true := by
    rw [List.all_eq_true]
    intro e he
    simp only [List.mem_map, exists_exists_and_eq_and] at he
    obtain ⟨r, hr, rfl⟩ := he
    simp only [Bool.and_eq_true, decide_eq_true_eq]
    exact ⟨by omega, List.idxOf_lt_length_of_mem (h.ids.item.code r (mem_rowsWith hr)).1⟩
  simp only [bind, Except.bind, mkMat, hin, if_true, Except.ok.injEq]
  unfold Mat.row vecSpec
  apply List.map_congr_left
  intro i _
  simp only [Mat.entry, pairTotal, List.map_map, List.filter_map, rowsWith, List.filter_filter]
  rw [List.filter_congr (q := fun r => decide (r.get "uid" = .num (u : ℚ) ∧ r.get "iid" = .num (i : ℚ)))]
  · rfl
  · intro r hr
    have := iid_eq_iff ds h r hr i
    simp only [Function.comp_apply, true_and, ← this]
    rw [Bool.and_comm]
    simp

/-- Caches reachable by requests on a fresh dataset. -/
def CacheOk (ds : Mem) : Prop :=
  (ds.cache = none) ∨ (ds.cache = some (fullMat ds) ∧ ds.cacheT = some (fullMat ds)) ∨
    (ds.userMap.length ≤ 1 ∧ ds.cache = some zeroMat)

theorem fresh_congr {a b : Mem} (h : Fresh a) (h1 : b.cols = a.cols) (h2 : b.rows = a.rows)
    (h3 : b.hasIds = a.hasIds) (h4 : b.userMap = a.userMap) (h5 : b.itemMap = a.itemMap) :
    Fresh b := by
  refine ⟨idsOk_sub h.ids h1 h3 h4 h5 (by rw [h2]; exact List.Subset.refl _), ?_, ?_, h1 ▸ h.hasInter, ?_⟩
  · intro v hv; rw [h2]; exact h.users v (h4 ▸ hv)
  · intro v hv; rw [h2]; exact h.items v (h5 ▸ hv)
  · intro r hr; exact h.numeric r (h2 ▸ hr)

end DRec
