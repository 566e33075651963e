import Verif.Props.QueryIds
import Verif.Lemmas.Dedup
import Mathlib.Data.Rat.Floor
import Mathlib.Tactic.Linarith
import Mathlib.Tactic.NormNum

/-!
# C05, C06, C10, C11, C12, C13, C14: operations of the in-memory dataset
-/

namespace DRec

open Spec

/-! ## C05 -/

/-- **C05.** For every dataset and every list of record ids: the two results keep order and values
(sublists), hold every record exactly once between them (permutation), and a record is kept by
`keep=True` exactly when its id is listed and by the plain drop exactly when it is not.  In place the
same rows remain. -/
theorem C05_drop_keep (ds : Mem) (ids : List Nat) :
    ((ds.drop ids false).rows ++ (ds.drop ids true).rows).Perm ds.rows ∧
    (ds.drop ids false).rows.Sublist ds.rows ∧ (ds.drop ids true).rows.Sublist ds.rows ∧
    (∀ r, r ∈ (ds.drop ids false).rows ↔ r ∈ ds.rows ∧ r.rid ∉ ids) ∧
    (∀ r, r ∈ (ds.drop ids true).rows ↔ r ∈ ds.rows ∧ r.rid ∈ ids) ∧
    (∀ keep, (ds.dropInPlace ids keep).rows = (ds.drop ids keep).rows) ∧
    (∀ keep, (ds.drop ids keep).cols = ds.cols ∧ (ds.dropInPlace ids keep).cols = ds.cols) := by
  refine ⟨?_, List.filter_sublist, List.filter_sublist, ?_, ?_, fun _ => rfl, fun _ => ⟨rfl, rfl⟩⟩
  · simp only [Mem.drop, dropRows, if_true, Bool.false_eq_true, if_false]
    have := List.filter_append_perm (fun r : Row => !decide (r.rid ∈ ids)) ds.rows
    simpa using this
  · intro r; simp [Mem.drop, dropRows]
  · intro r; simp [Mem.drop, dropRows]

/-- **C05.** Only the set of ids that occur in the dataset matters: repetitions, order and unknown
ids have no effect. -/
theorem C05_unknown_ids (ds : Mem) (ids ids' : List Nat) (keep : Bool)
    (h : ∀ r ∈ ds.rows, r.rid ∈ ids ↔ r.rid ∈ ids') :
    (ds.drop ids keep).rows = (ds.drop ids' keep).rows := by
  cases keep <;> simp only [Mem.drop, dropRows, if_true, Bool.false_eq_true, if_false] <;>
    apply List.filter_congr <;> intro r hr <;> simp [h r hr]

example : ((exText.drop [1, 1, 99] false).rows.map (·.rid)) = [0, 2] ∧
    ((exText.drop [1, 1, 99] true).rows.map (·.rid)) = [1] ∧
    ∀ r ∈ exText.rows, r.rid ∈ [1, 1, 99] ↔ r.rid ∈ [1] := by decide

/-! ## C06 -/

/-- **C06.** `unique(cs)` for any columns of the dataset (with at least one besides `rid`): the rows
are unchanged rows in order; their values on `cs` are pairwise distinct; every combination occurring
in the dataset occurs; and the record kept is the earliest one.  In place gives the same rows. -/
theorem C06_unique (ds : Mem) (cs : List String) (hcs : ∀ c ∈ cs, c ∈ ds.cols)
    (_hne : ∃ c ∈ cs, c ≠ "rid") :
    ∃ d d', ds.unique (some cs) = .ok d ∧ ds.uniqueInPlace (some cs) = .ok d' ∧
      d'.rows = d.rows ∧
      d.rows.Sublist ds.rows ∧
      (let key := fun r : Row => (cs.filter (· ≠ "rid")).map r.get
       (d.rows.map key).Nodup ∧
       (∀ r ∈ ds.rows, ∃ r' ∈ d.rows, key r' = key r) ∧
       (∀ pre r post, ds.rows = pre ++ r :: post → key r ∉ pre.map key → r ∈ d.rows) ∧
       ds.countUnique (some cs) = .ok (ds.rows.map key).dedup.length) ∧
      (∀ c, c ∈ d.cols ↔ c ∈ cs ∨ c = "rid") := by
  have hall : cs.all (· ∈ ds.cols) = true := by simpa using hcs
  have hcols : (if "rid" ∈ cs then cs else cs ++ ["rid"]).filter (· ≠ "rid")
      = cs.filter (· ≠ "rid") := by
    split
    · rfl
    · simp [List.filter_append]
  have hkey : keyOn ((if "rid" ∈ cs then cs else cs ++ ["rid"]).filter (· ≠ "rid")) =
      fun r : Row => (cs.filter (· ≠ "rid")).map r.get := by
    rw [hcols]; rfl
  refine ⟨ds.copy.uniqueOn cs, ds.uniqueOn cs, by simp [Mem.unique, handleColumns, hall, Except.map],
    by simp [Mem.uniqueInPlace, handleColumns, hall, Except.map], rfl, dedupGo_sublist _ _ _, ?_, ?_⟩
  · refine ⟨?_, ?_, ?_, ?_⟩
    · rw [← hkey]; exact dedupGo_keys_nodup _ _ _
    · intro r hr
      rw [← hkey]; exact dedupGo_covers _ _ _ r hr (by simp)
    · intro pre r post hsplit hnot
      rw [← hkey] at hnot
      have := dedupGo_first _ pre post r [] hnot (by simp)
      rw [← hsplit] at this
      exact this
    · simp only [Mem.countUnique, Mem.unique, handleColumns, hall, if_true, Except.map, Mem.len]
      rw [← hkey]
      exact congrArg _ (dedupGo_length _ _)
  · intro c
    simp only [Mem.uniqueOn]
    split
    · constructor
      · exact Or.inl
      · rintro (h | rfl) <;> assumption
    · simp

/-- **C06.** Applying `unique` twice with the same columns gives the same rows and columns. -/
theorem C06_idempotent (ds d : Mem) (cs : List String) (h : ds.unique (some cs) = .ok d) :
    ∃ d2, d.unique (some cs) = .ok d2 ∧ d2.rows = d.rows ∧ d2.cols = d.cols := by
  unfold Mem.unique handleColumns at h
  by_cases hall : cs.all (· ∈ ds.cols) = true
  · simp only [hall, if_true, Except.map, Except.ok.injEq] at h
    subst h
    have hall2 : cs.all (· ∈ (ds.copy.uniqueOn cs).cols) = true := by
      rw [List.all_eq_true]
      intro c hc
      rw [decide_eq_true_eq]
      simp only [Mem.uniqueOn]
      split
      · exact hc
      · simp [hc]
    refine ⟨(ds.copy.uniqueOn cs).copy.uniqueOn cs, by
      simp only [Mem.unique, handleColumns, hall2, if_true, Except.map], ?_, rfl⟩
    exact dedupGo_id _ _ _ (dedupGo_keys_nodup _ _ _) (by simp)
  · simp [hall, Except.map] at h

example : (∀ c ∈ ["user"], c ∈ exText.cols) ∧ (∃ c ∈ ["user"], c ≠ "rid") ∧
    ((exText.copy.uniqueOn ["user"]).rows.map (·.rid)) = [0, 1] := by decide

/-! ## C10 -/

/-- **C10.** After `assign_internal_ids` (any dataset with a user and an item column):
the id of a record whose user appears for the first time is the number of distinct users before it,
two records share a uid exactly when they share the user, all ids are below the number `n` of
distinct users and each of `0..n-1` occurs; record ids, order and other values are untouched. -/
theorem C10_user_ids (ds : Mem) (hu : "user" ∈ ds.cols) (hi : "item" ∈ ds.cols) :
    ∃ d, ds.assignIds = (d, none) ∧ d.hasIds = true ∧
      d.rows.map (·.rid) = ds.rows.map (·.rid) ∧
      (∀ c, c ≠ "uid" → c ≠ "iid" → d.rows.map (·.get c) = ds.rows.map (·.get c)) ∧
      (∀ pre r post, d.rows = pre ++ r :: post → r.get "user" ∉ pre.map (·.get "user") →
        r.get "uid" = .num ((pre.map (·.get "user")).dedup.length : ℕ)) ∧
      (∀ r ∈ d.rows, ∀ r' ∈ d.rows, r.get "uid" = r'.get "uid" ↔ r.get "user" = r'.get "user") ∧
      (∀ r ∈ d.rows, ∃ k : ℕ, r.get "uid" = .num k ∧ k < (d.rows.map (·.get "user")).dedup.length) ∧
      (∀ k < (d.rows.map (·.get "user")).dedup.length, ∃ r ∈ d.rows, r.get "uid" = .num (k : ℕ)) := by
  have hok := assignIds_idsOk ds hu hi
  have heq := assignIds_eq ds hu hi
  set da := ds.assignIds.1 with hda
  have hrows : da.rows = ds.rows.map (stamp (distinctVals (ds.rows.map (·.get "user")))
        (distinctVals (ds.rows.map (·.get "item")))) := by rw [hda, heq]
  have hcol : ∀ c, c ≠ "uid" → c ≠ "iid" → da.rows.map (·.get c) = ds.rows.map (·.get c) := by
    intro c h1 h2
    rw [hrows, List.map_map]
    apply List.map_congr_left
    intro r _
    simp only [Function.comp_apply, stamp_get, if_neg h1, if_neg h2]
  have hmap : da.userMap = distinctVals (da.rows.map (·.get "user")) := by
    rw [hcol "user" (by decide) (by decide), hda, heq]
  refine ⟨da, ?_, hok.has, ?_, hcol, ?_, ?_, ?_, ?_⟩
  · have : ds.assignIds.2 = none := by rw [heq]
    rw [hda, ← this]
  · rw [hrows, List.map_map]; rfl
  · intro pre r post hsplit hnot
    have hr : r ∈ da.rows := by rw [hsplit]; simp
    rw [(hok.user.code r hr).2, hmap, hsplit, List.map_append, List.map_cons,
      idxOf_distinctVals_first _ _ _ hnot]
  · intro r hr r' hr'
    rw [(hok.user.code r hr).2, (hok.user.code r' hr').2]
    simp only [Val.num.injEq, Nat.cast_inj]
    exact List.idxOf_inj (hok.user.code r hr).1
  · intro r hr
    refine ⟨_, (hok.user.code r hr).2, ?_⟩
    rw [← length_distinctVals, ← hmap]
    exact List.idxOf_lt_length_of_mem (hok.user.code r hr).1
  · intro k hk
    rw [← length_distinctVals, ← hmap] at hk
    have hmem : da.userMap[k] ∈ da.rows.map (·.get "user") := by
      have := List.getElem_mem hk
      rw [← mem_distinctVals, ← hmap]; exact this
    obtain ⟨r, hr, he⟩ := List.mem_map.1 hmem
    refine ⟨r, hr, ?_⟩
    rw [(hok.user.code r hr).2]
    rw [he, hok.user.nodup.idxOf_getElem]

/-- **C10**, items: the same for `iid`. -/
theorem C10_item_ids (ds : Mem) (hu : "user" ∈ ds.cols) (hi : "item" ∈ ds.cols) :
    ∃ d, ds.assignIds = (d, none) ∧
      (∀ pre r post, d.rows = pre ++ r :: post → r.get "item" ∉ pre.map (·.get "item") →
        r.get "iid" = .num ((pre.map (·.get "item")).dedup.length : ℕ)) ∧
      (∀ r ∈ d.rows, ∀ r' ∈ d.rows, r.get "iid" = r'.get "iid" ↔ r.get "item" = r'.get "item") ∧
      (∀ r ∈ d.rows, ∃ k : ℕ, r.get "iid" = .num k ∧ k < (d.rows.map (·.get "item")).dedup.length) ∧
      (∀ k < (d.rows.map (·.get "item")).dedup.length, ∃ r ∈ d.rows, r.get "iid" = .num (k : ℕ)) := by
  have hok := assignIds_idsOk ds hu hi
  have heq := assignIds_eq ds hu hi
  set da := ds.assignIds.1 with hda
  have hrows : da.rows = ds.rows.map (stamp (distinctVals (ds.rows.map (·.get "user")))
        (distinctVals (ds.rows.map (·.get "item")))) := by rw [hda, heq]
  have hcol : ∀ c, c ≠ "uid" → c ≠ "iid" → da.rows.map (·.get c) = ds.rows.map (·.get c) := by
    intro c h1 h2
    rw [hrows, List.map_map]
    apply List.map_congr_left
    intro r _
    simp only [Function.comp_apply, stamp_get, if_neg h1, if_neg h2]
  have hmap : da.itemMap = distinctVals (da.rows.map (·.get "item")) := by
    rw [hcol "item" (by decide) (by decide), hda, heq]
  refine ⟨da, ?_, ?_, ?_, ?_, ?_⟩
  · have : ds.assignIds.2 = none := by rw [heq]
    rw [hda, ← this]
  · intro pre r post hsplit hnot
    have hr : r ∈ da.rows := by rw [hsplit]; simp
    rw [(hok.item.code r hr).2, hmap, hsplit, List.map_append, List.map_cons,
      idxOf_distinctVals_first _ _ _ hnot]
  · intro r hr r' hr'
    rw [(hok.item.code r hr).2, (hok.item.code r' hr').2]
    simp only [Val.num.injEq, Nat.cast_inj]
    exact List.idxOf_inj (hok.item.code r hr).1
  · intro r hr
    refine ⟨_, (hok.item.code r hr).2, ?_⟩
    rw [← length_distinctVals, ← hmap]
    exact List.idxOf_lt_length_of_mem (hok.item.code r hr).1
  · intro k hk
    rw [← length_distinctVals, ← hmap] at hk
    have hmem : da.itemMap[k] ∈ da.rows.map (·.get "item") := by
      have := List.getElem_mem hk
      rw [← mem_distinctVals, ← hmap]; exact this
    obtain ⟨r, hr, he⟩ := List.mem_map.1 hmem
    refine ⟨r, hr, ?_⟩
    rw [(hok.item.code r hr).2]
    rw [he, hok.item.nodup.idxOf_getElem]

/-- The raw id a caller passes for a stored value: an integer for integer columns, a string for text
columns. -/
def RawFor (d : DType) (x : Lit) (v : Val) : Prop :=
  match d, x, v with
  | .int, .int n, .num q => q = n
  | .obj, .str s, .str t => s = t
  | _, _, _ => False

theorem normId_of_rawFor {d : DType} {x : Lit} {v : Val} (h : RawFor d x v) :
    normId d x = .ok v := by
  unfold RawFor at h
  split at h
  · subst h; rfl
  · subst h; rfl
  · exact h.elim

/-- **C10.** On every dataset with consistent ids (in particular right after assignment, or filtered
later), converting the raw id of a record's user gives that record's `uid`, converting back gives the
user; the same for items. -/
theorem C10_conversions_inverse (ds : Mem) (h : IdsOk ds) (r : Row) (hr : r ∈ ds.rows) :
    (∀ x, RawFor (ds.dtype "user") x (r.get "user") →
      ∃ k : ℕ, ds.userToUid x = .ok (some k) ∧ r.get "uid" = .num k ∧
        ds.uidToUser k = .ok (some (r.get "user"))) ∧
    (∀ x, RawFor (ds.dtype "item") x (r.get "item") →
      ∃ k : ℕ, ds.itemToIid x = .ok (some k) ∧ r.get "iid" = .num k ∧
        ds.iidToItem k = .ok (some (r.get "item"))) := by
  constructor
  · intro x hx
    obtain ⟨h1, h2⟩ := h.user.code r hr
    refine ⟨_, ?_, h2, ?_⟩
    · simp [Mem.userToUid, h.has, h.user.hasRaw, normId_of_rawFor hx, Except.map, lookupCode, h1]
    · have := List.idxOf_lt_length_of_mem h1
      simp [Mem.uidToUser, h.has, this]
  · intro x hx
    obtain ⟨h1, h2⟩ := h.item.code r hr
    refine ⟨_, ?_, h2, ?_⟩
    · simp [Mem.itemToIid, h.has, h.item.hasRaw, normId_of_rawFor hx, Except.map, lookupCode, h1]
    · have := List.idxOf_lt_length_of_mem h1
      simp [Mem.iidToItem, h.has, this]

/-- **C10.** The other direction of the inverse: an internal id that converts to a user is the id of
that user. -/
theorem C10_back_and_forth (ds : Mem) (h : IdsOk ds) (k : ℕ) (v : Val) (x : Lit) :
    (ds.uidToUser k = .ok (some v) → RawFor (ds.dtype "user") x v →
      ds.userToUid x = .ok (some k)) ∧
    (ds.iidToItem k = .ok (some v) → RawFor (ds.dtype "item") x v →
      ds.itemToIid x = .ok (some k)) := by
  constructor
  · intro hk hx
    simp only [Mem.uidToUser, h.has, if_true, Except.ok.injEq] at hk
    obtain ⟨hlt, he⟩ := List.getElem?_eq_some_iff.1 hk
    have hm : v ∈ ds.userMap := he ▸ List.getElem_mem hlt
    simp only [Mem.userToUid, h.has, h.user.hasRaw, normId_of_rawFor hx, if_true, Except.map,
      lookupCode, hm]
    rw [← he, h.user.nodup.idxOf_getElem]
  · intro hk hx
    simp only [Mem.iidToItem, h.has, if_true, Except.ok.injEq] at hk
    obtain ⟨hlt, he⟩ := List.getElem?_eq_some_iff.1 hk
    have hm : v ∈ ds.itemMap := he ▸ List.getElem_mem hlt
    simp only [Mem.itemToIid, h.has, h.item.hasRaw, normId_of_rawFor hx, if_true, Except.map,
      lookupCode, hm]
    rw [← he, h.item.nodup.idxOf_getElem]

example : "user" ∈ exUnsorted.cols ∧ "item" ∈ exUnsorted.cols ∧ IdsOk exUnsorted.assignIds.1 ∧
    (exUnsorted.assignIds.1.rows.map (·.get "uid")) = [.num 0, .num 1, .num 0] ∧
    RawFor (exUnsorted.dtype "user") (.str "v") (.str "v") ∧
    exUnsorted.assignIds.1.uidToUser 1 = .ok (some (.str "v")) :=
  ⟨by decide, by decide, assignIds_idsOk _ (by decide) (by decide), by decide +kernel,
    by simp [RawFor, exUnsorted, mkMem], by decide +kernel⟩

/-! ## C11 -/

/-- **C11** (partial).  Full property: without internal ids every conversion raises; with internal ids
unknown raw ids and internal ids outside `0..n-1` give `None`, never the id of something else, and an
integer column rejects a raw id that is not an integer.  Proved here for integer and string arguments;
a non-integral float argument is truncated instead of rejected, see `C11_float_is_truncated`. -/
theorem C11_out_of_range_partial (ds : Mem) :
    (ds.hasIds = false → ∀ x k, ds.userToUid x = .error .noIds ∧ ds.itemToIid x = .error .noIds ∧
      ds.uidToUser k = .error .noIds ∧ ds.iidToItem k = .error .noIds) ∧
    (IdsOk ds →
      (∀ k, ds.userMap.length ≤ k → ds.uidToUser k = .ok none) ∧
      (∀ k, ds.itemMap.length ≤ k → ds.iidToItem k = .ok none) ∧
      (∀ x v, RawFor (ds.dtype "user") x v → v ∉ ds.userMap → ds.userToUid x = .ok none) ∧
      (∀ x v, RawFor (ds.dtype "item") x v → v ∉ ds.itemMap → ds.itemToIid x = .ok none) ∧
      (∀ x v k, RawFor (ds.dtype "user") x v → ds.userToUid x = .ok (some k) →
        ds.uidToUser k = .ok (some v)) ∧
      (∀ x v k, RawFor (ds.dtype "item") x v → ds.itemToIid x = .ok (some k) →
        ds.iidToItem k = .ok (some v)) ∧
      (ds.dtype "user" = .int → ∀ s : String, pyInt s.toList = none →
        ∃ e, ds.userToUid (.str s) = .error e) ∧
      (ds.dtype "item" = .int → ∀ s : String, pyInt s.toList = none →
        ∃ e, ds.itemToIid (.str s) = .error e)) := by
  constructor
  · intro h x k
    simp [Mem.userToUid, Mem.itemToIid, Mem.uidToUser, Mem.iidToItem, h]
  · intro h
    refine ⟨?_, ?_, ?_, ?_, ?_, ?_, ?_, ?_⟩
    · intro k hk; simp [Mem.uidToUser, h.has, hk]
    · intro k hk; simp [Mem.iidToItem, h.has, hk]
    · intro x v hx hv
      simp [Mem.userToUid, h.has, h.user.hasRaw, normId_of_rawFor hx, Except.map, lookupCode, hv]
    · intro x v hx hv
      simp [Mem.itemToIid, h.has, h.item.hasRaw, normId_of_rawFor hx, Except.map, lookupCode, hv]
    · intro x v k hx hk
      by_cases hv : v ∈ ds.userMap
      · simp only [Mem.userToUid, h.has, h.user.hasRaw, normId_of_rawFor hx, Except.map, lookupCode,
          hv, if_true, Except.ok.injEq, Option.some.injEq] at hk
        subst hk
        have := List.idxOf_lt_length_of_mem hv
        simp [Mem.uidToUser, h.has, this]
      · simp [Mem.userToUid, h.has, h.user.hasRaw, normId_of_rawFor hx, Except.map, lookupCode,
          hv] at hk
    · intro x v k hx hk
      by_cases hv : v ∈ ds.itemMap
      · simp only [Mem.itemToIid, h.has, h.item.hasRaw, normId_of_rawFor hx, Except.map, lookupCode,
          hv, if_true, Except.ok.injEq, Option.some.injEq] at hk
        subst hk
        have := List.idxOf_lt_length_of_mem hv
        simp [Mem.iidToItem, h.has, this]
      · simp [Mem.itemToIid, h.has, h.item.hasRaw, normId_of_rawFor hx, Except.map, lookupCode,
          hv] at hk
    · intro hd s hs
      exact ⟨.badValue, by
        simp [Mem.userToUid, h.has, h.user.hasRaw, hd, normId, Lit.toInt, hs, Except.map]⟩
    · intro hd s hs
      exact ⟨.badValue, by
        simp [Mem.itemToIid, h.has, h.item.hasRaw, hd, normId, Lit.toInt, hs, Except.map]⟩

/-- **C11 fails** for float arguments: on an integer column `user_to_uid(3.7)` is the id of user 3. -/
theorem C11_float_is_truncated : ∃ ds : Mem, IdsOk ds ∧ ds.dtype "user" = .int ∧
    (∀ r ∈ ds.rows, r.get "user" ≠ .num (37 / 10)) ∧
    ds.userToUid (.flt (37 / 10)) = .ok (some 1) ∧ ds.uidToUser 1 = .ok (some (.num 3)) :=
  ⟨(mkMem .int [(.num 5, .num 1, 1), (.num 3, .num 2, 1)]).assignIds.1,
    assignIds_idsOk _ (by decide) (by decide), by decide, by decide +kernel, by decide +kernel,
    by decide +kernel⟩

/-- On an integer column a float argument is looked up as the nearest whole number towards zero. -/
theorem C11_float_partial (ds : Mem) (q : ℚ) (n : Int) (hp : 0 ≤ q → (n : ℚ) ≤ q ∧ q < n + 1)
    (hm : q ≤ 0 → (n : ℚ) - 1 < q ∧ q ≤ n) :
    (ds.dtype "user" = .int → ds.userToUid (.flt q) = ds.userToUid (.int n)) ∧
      (ds.dtype "item" = .int → ds.itemToIid (.flt q) = ds.itemToIid (.int n)) := by
  have h : (Lit.flt q).toInt = (Lit.int n).toInt := by
    simp only [Lit.toInt]
    congr 1
    split
    · rename_i hq
      obtain ⟨a, b⟩ := hp hq
      exact (Int.floor_eq_iff (a := q)).2 ⟨a, b⟩
    · rename_i hq
      obtain ⟨a, b⟩ := hm (le_of_not_ge hq)
      have : (-q).floor = -n := (Int.floor_eq_iff (a := -q)).2 (by
        push_cast
        constructor <;> linarith)
      rw [this, neg_neg]
  constructor
  · intro hd; simp only [Mem.userToUid, hd, normId, h]
  · intro hd; simp only [Mem.itemToIid, hd, normId, h]

theorem toString_int_no_dot (k : Int) : '.' ∉ (toString k).toList := by
  cases k with
  | ofNat n =>
    show '.' ∉ (Nat.repr n).toList
    rw [Nat.repr, String.toList_ofList]
    exact natText_no_dot n
  | negSucc n =>
    show '.' ∉ ("-" ++ Nat.repr (n + 1)).toList
    rw [String.toList_append, List.mem_append, Nat.repr, String.toList_ofList]
    rintro (h | h)
    · simp at h
    · rw [String.toList_ofList] at h
      exact natText_no_dot (n + 1) h

/-- On a column of texts numbers are looked up by what they print as: an integer finds the user with its digits, a
float has the digits `.0` after them and finds no user with an integer for a name. -/
theorem C11_number_in_text_column (ds : Mem) (h : IdsOk ds) (n : Int) :
    (ds.dtype "user" = .obj → ds.userToUid (.int n) = ds.userToUid (.str (toString n)) ∧
      ds.userToUid (.flt n) = ds.userToUid (.str (toString n ++ ".0")) ∧
      ((∀ v ∈ ds.userMap, ∃ k : Int, v = .str (toString k)) → ds.userToUid (.flt n) = .ok none)) ∧
    (ds.dtype "item" = .obj → ds.itemToIid (.int n) = ds.itemToIid (.str (toString n)) ∧
      ds.itemToIid (.flt n) = ds.itemToIid (.str (toString n ++ ".0")) ∧
      ((∀ v ∈ ds.itemMap, ∃ k : Int, v = .str (toString k)) → ds.itemToIid (.flt n) = .ok none)) := by
  have hden : ((n : ℚ)).den = 1 := by simp
  have hdot : ∀ k : Int, toString k ≠ toString n ++ ".0" := by
    intro k e
    have h1 : '.' ∈ (toString k).toList := by rw [e]; simp
    exact absurd h1 (toString_int_no_dot k)
  constructor
  · intro hd
    refine ⟨by simp [Mem.userToUid, hd, normId, Lit.pyStr], by simp [Mem.userToUid, hd, normId, Lit.pyStr, hden], ?_⟩
    intro hv
    have : Val.str (toString n ++ ".0") ∉ ds.userMap := by
      intro hm
      obtain ⟨k, hk⟩ := hv _ hm
      exact hdot k (Val.str.inj hk).symm
    simp only [Mem.userToUid, h.has, h.user.hasRaw, hd, normId, Lit.pyStr, hden, if_true, Except.map, lookupCode,
      Rat.num_intCast, if_neg this]
  · intro hd
    refine ⟨by simp [Mem.itemToIid, hd, normId, Lit.pyStr], by simp [Mem.itemToIid, hd, normId, Lit.pyStr, hden], ?_⟩
    intro hv
    have : Val.str (toString n ++ ".0") ∉ ds.itemMap := by
      intro hm
      obtain ⟨k, hk⟩ := hv _ hm
      exact hdot k (Val.str.inj hk).symm
    simp only [Mem.itemToIid, h.has, h.item.hasRaw, hd, normId, Lit.pyStr, hden, if_true, Except.map, lookupCode,
      Rat.num_intCast, if_neg this]

/-- A user called "1". -/
example : let ds := (mkMem .obj [(.str "1", .str "a", 1)]).assignIds.1
    ds.dtype "user" = .obj ∧ ds.userToUid (.int 1) = .ok (some 0) ∧ ds.userToUid (.flt 1) = .ok none := by
  decide +kernel

/-- Users -2 and -1: the argument -1.5 means user -1. -/
example : (mkMem .int [(.num (-2), .num 1, 1), (.num (-1), .num 2, 1)]).assignIds.1.userToUid (.flt (-3 / 2)) =
      .ok (some 1) ∧ ((-3 / 2 : ℚ) ≤ 0 → (((-1 : Int) : ℚ)) - 1 < -3 / 2 ∧ (-3 / 2 : ℚ) ≤ ((-1 : Int) : ℚ)) := by
  refine ⟨by decide +kernel, fun _ => by norm_num⟩

example : IdsOk (mkMem .int [(.num 5, .num 1, 1)]).assignIds.1 ∧ pyInt "x1".toList = none ∧
    RawFor .int (.int 7) (.num 7) ∧ Val.num 7 ∉ (mkMem .int [(.num 5, .num 1, 1)]).assignIds.1.userMap :=
  ⟨assignIds_idsOk _ (by decide) (by decide), by decide, by simp [RawFor], by decide +kernel⟩

/-! ## C12 -/

/-- **C12.** Any selection or drop keeps the stored internal ids of the remaining records (rows are a
sublist, unchanged), the id mapping, and the consistency of ids. -/
theorem C12_ids_survive_filtering (ds : Mem) (h : IdsOk ds) :
    (∀ q d, ds.select q = .ok d → IdsOk d ∧ d.rows.Sublist ds.rows ∧
      (∀ k, d.uidToUser k = ds.uidToUser k) ∧ (∀ k, d.iidToItem k = ds.iidToItem k) ∧
      (∀ x, d.userToUid x = ds.userToUid x) ∧ (∀ x, d.itemToIid x = ds.itemToIid x)) ∧
    (∀ q d, ds.selectInPlace q = .ok d → IdsOk d ∧ d.rows.Sublist ds.rows) ∧
    (∀ ids keep, IdsOk (ds.drop ids keep) ∧ (ds.drop ids keep).rows.Sublist ds.rows ∧
      (∀ k, (ds.drop ids keep).uidToUser k = ds.uidToUser k) ∧
      (∀ k, (ds.drop ids keep).iidToItem k = ds.iidToItem k)) ∧
    (∀ cs d, ds.unique (some cs) = .ok d → ["user", "item", "uid", "iid"] ⊆ cs →
      IdsOk d ∧ d.rows.Sublist ds.rows) := by
  refine ⟨?_, ?_, ?_, ?_⟩
  · intro q d hq
    rw [Mem.select_iff] at hq
    obtain ⟨_, rfl⟩ := hq
    exact ⟨idsOk_sub h rfl rfl rfl rfl List.filter_sublist.subset, List.filter_sublist, fun _ => rfl,
      fun _ => rfl, fun _ => rfl, fun _ => rfl⟩
  · intro q d hq
    unfold Mem.selectInPlace at hq
    cases hq' : ds.applyQuery q with
    | error e => rw [hq'] at hq; cases hq
    | ok rs =>
      rw [hq'] at hq
      cases hq
      rw [Mem.applyQuery_iff] at hq'
      rw [hq'.2]
      exact ⟨idsOk_sub h rfl rfl rfl rfl List.filter_sublist.subset, List.filter_sublist⟩
  · intro ids keep
    have hs : (ds.drop ids keep).rows.Sublist ds.rows := by
      cases keep
      · exact (C05_drop_keep ds ids).2.1
      · exact (C05_drop_keep ds ids).2.2.1
    exact ⟨idsOk_sub h rfl rfl rfl rfl hs.subset, hs, fun _ => rfl, fun _ => rfl⟩
  · intro cs d hd hsub
    have hcs : ∀ c ∈ cs, c ∈ ds.cols := by
      unfold Mem.unique handleColumns at hd
      by_cases hall : cs.all (· ∈ ds.cols) = true
      · simpa using hall
      · simp [hall, Except.map] at hd
    obtain ⟨d1, d2, h1, _, _, hs, _, hc⟩ := C06_unique ds cs hcs ⟨_, hsub (by simp), (by decide : "user" ≠ "rid")⟩
    rw [hd] at h1
    cases h1
    have hall : cs.all (· ∈ ds.cols) = true := by simpa using hcs
    have hd' : d = ds.copy.uniqueOn cs := by
      have := hd
      simp only [Mem.unique, handleColumns, hall, if_true, Except.map, Except.ok.injEq] at this
      exact this.symm
    have e1 : d.hasIds = ds.hasIds := by rw [hd']; rfl
    have e2 : d.userMap = ds.userMap := by rw [hd']; rfl
    have e3 : d.itemMap = ds.itemMap := by rw [hd']; rfl
    refine ⟨⟨e1 ▸ h.has, ⟨e2 ▸ h.user.nodup, (hc _).2 (Or.inl (hsub (by simp))),
      (hc _).2 (Or.inl (hsub (by simp))), ?_⟩, ⟨e3 ▸ h.item.nodup, (hc _).2 (Or.inl (hsub (by simp))),
      (hc _).2 (Or.inl (hsub (by simp))), ?_⟩⟩, hs⟩
    · intro r hr; rw [e2]; exact h.user.code r (hs.subset hr)
    · intro r hr; rw [e3]; exact h.item.code r (hs.subset hr)

/-- **C12.** Assigning again after filtering makes ids consecutive again: every dataset with user and
item columns, whatever ids it had, gets consistent ids over exactly its own users and items. -/
theorem C12_reassign (ds : Mem) (h : IdsOk ds) :
    IdsOk ds.assignIds.1 ∧ ds.assignIds.2 = none ∧ ds.assignIds.1.cols = ds.cols ∧
    ds.assignIds.1.userMap.Nodup ∧
    (∀ v, v ∈ ds.assignIds.1.userMap ↔ ∃ r ∈ ds.rows, r.get "user" = v) ∧
    (∀ v, v ∈ ds.assignIds.1.itemMap ↔ ∃ r ∈ ds.rows, r.get "item" = v) := by
  have heq := assignIds_eq ds h.user.hasRaw h.item.hasRaw
  refine ⟨assignIds_idsOk ds h.user.hasRaw h.item.hasRaw, by rw [heq], ?_, ?_, ?_, ?_⟩
  · rw [heq]; simp [addCol, h.user.hasCol, h.item.hasCol]
  · rw [heq]; exact nodup_distinctVals _
  · intro v; rw [heq]; simp [mem_distinctVals]
  · intro v; rw [heq]; simp [mem_distinctVals]

/-- **C12.** Removing the ids after assigning them restores the columns and all record values. -/
theorem C12_remove_restores (ds : Mem) (hu : "user" ∈ ds.cols) (hi : "item" ∈ ds.cols)
    (h1 : "uid" ∉ ds.cols) (h2 : "iid" ∉ ds.cols) :
    ∃ d, ds.assignIds.1.removeIds = (d, none) ∧ d.cols = ds.cols ∧ d.hasIds = false ∧
      d.rows.map (·.rid) = ds.rows.map (·.rid) ∧
      ∀ c ∈ ds.cols, d.rows.map (·.get c) = ds.rows.map (·.get c) := by
  have heq := assignIds_eq ds hu hi
  have hc1 : ds.assignIds.1.cols = ds.cols ++ ["uid", "iid"] := by
    rw [heq]; simp [addCol, h1, h2]
  refine ⟨{ ds.assignIds.1 with hasIds := false
                                cols := (ds.assignIds.1.cols.erase "uid").erase "iid" }, ?_, ?_, rfl,
    ?_, ?_⟩
  · have m1 : "uid" ∈ ds.assignIds.1.cols := by rw [hc1]; simp
    have m2 : "iid" ∈ ds.assignIds.1.cols := by rw [hc1]; simp
    simp [Mem.removeIds, m1, m2]
  · simp only [hc1]
    rw [List.erase_append_right _ h1]
    have : List.erase ["uid", "iid"] "uid" = ["iid"] := by decide
    rw [this, List.erase_append_right _ h2]
    simp
  · rw [heq]; simp only [List.map_map]; rfl
  · intro c hc
    rw [heq]; simp only [List.map_map]
    apply List.map_congr_left
    intro r _
    have n1 : c ≠ "uid" := fun h => h1 (h ▸ hc)
    have n2 : c ≠ "iid" := fun h => h2 (h ▸ hc)
    simp only [Function.comp_apply, stamp_get, if_neg n1, if_neg n2]

example : IdsOk exUnsorted.assignIds.1 ∧ "uid" ∉ exUnsorted.cols ∧ "iid" ∉ exUnsorted.cols :=
  ⟨assignIds_idsOk _ (by decide) (by decide), by decide, by decide⟩

/-! ## C13 -/

/-- **C13** (partial).  Full property: `user_to_uid(u)` is not `None` exactly when some record of the
dataset has user `u`, also after filtering.  Proved for datasets right after assigning ids; for
filtered datasets it is false (`C13_stale_after_filter`). -/
theorem C13_membership_partial (ds : Mem) (hu : "user" ∈ ds.cols) (hi : "item" ∈ ds.cols)
    (x : Lit) (v : Val) :
    (RawFor (ds.dtype "user") x v →
      ((∃ k, ds.assignIds.1.userToUid x = .ok (some k)) ↔ ∃ r ∈ ds.assignIds.1.rows, r.get "user" = v)) ∧
    (RawFor (ds.dtype "item") x v →
      ((∃ k, ds.assignIds.1.itemToIid x = .ok (some k)) ↔
        ∃ r ∈ ds.assignIds.1.rows, r.get "item" = v)) := by
  have hok := assignIds_idsOk ds hu hi
  have heq := assignIds_eq ds hu hi
  have hdu : ds.assignIds.1.dtype "user" = ds.dtype "user" := by rw [heq]; rfl
  have hdi : ds.assignIds.1.dtype "item" = ds.dtype "item" := by rw [heq]; rfl
  have hmu : ∀ v, v ∈ ds.assignIds.1.userMap ↔ ∃ r ∈ ds.assignIds.1.rows, r.get "user" = v := by
    intro v; rw [heq]
    simp only [mem_distinctVals, List.mem_map, exists_exists_and_eq_and, stamp_get]
    simp
  have hmi : ∀ v, v ∈ ds.assignIds.1.itemMap ↔ ∃ r ∈ ds.assignIds.1.rows, r.get "item" = v := by
    intro v; rw [heq]
    simp only [mem_distinctVals, List.mem_map, exists_exists_and_eq_and, stamp_get]
    simp
  constructor
  · intro hx
    rw [← hmu]
    rw [← hdu] at hx
    constructor
    · rintro ⟨k, hk⟩
      by_contra hv
      simp [Mem.userToUid, hok.has, hok.user.hasRaw, normId_of_rawFor hx, Except.map, lookupCode,
        hv] at hk
    · intro hv
      exact ⟨_, by simp only [Mem.userToUid, hok.has, hok.user.hasRaw, normId_of_rawFor hx,
        Except.map, lookupCode, hv, if_true]; rfl⟩
  · intro hx
    rw [← hmi]
    rw [← hdi] at hx
    constructor
    · rintro ⟨k, hk⟩
      by_contra hv
      simp [Mem.itemToIid, hok.has, hok.item.hasRaw, normId_of_rawFor hx, Except.map, lookupCode,
        hv] at hk
    · intro hv
      exact ⟨_, by simp only [Mem.itemToIid, hok.has, hok.item.hasRaw, normId_of_rawFor hx,
        Except.map, lookupCode, hv, if_true]; rfl⟩

/-- **C13 fails** after filtering: dropping the only record of user `'v'` leaves its id in place. -/
theorem C13_stale_after_filter : ∃ ds : Mem, IdsOk ds ∧
    (∀ r ∈ ds.rows, r.get "user" ≠ .str "v") ∧ ds.userToUid (.str "v") = .ok (some 1) :=
  ⟨exUnsorted.assignIds.1.drop [1] false,
    ((C12_ids_survive_filtering _ (assignIds_idsOk _ (by decide) (by decide))).2.2.1 [1] false).1,
    by decide +kernel, by decide +kernel⟩

example : RawFor (exUnsorted.dtype "user") (.str "u") (.str "u") := by
  simp [RawFor, exUnsorted, mkMem]

/-! ## C14 -/

theorem mapM_option_some {α β : Type} (f : α → Option β) (g : α → β) (l : List α)
    (h : ∀ a ∈ l, f a = some (g a)) : l.mapM f = some (l.map g) := by
  induction l with
  | nil => rfl
  | cons a l ih =>
    rw [List.mapM_cons, h a (by simp), ih fun x hx => h x (by simp [hx])]
    rfl

theorem mapM_option_none {α β : Type} (f : α → Option β) (l : List α) (a : α) (ha : a ∈ l)
    (h : f a = none) : l.mapM f = none := by
  induction l with
  | nil => simp at ha
  | cons b l ih =>
    rw [List.mapM_cons]
    rcases List.mem_cons.1 ha with rfl | ha
    · rw [h]; rfl
    · cases f b with
      | none => rfl
      | some x => rw [ih ha]; rfl

/-- **C14.** `apply(c, f)` on a non-identifier column of a dataset with records, with `f` giving a number or text on
every value of it: replaces the value `v` of column `c` by `f v` in every record, leaves the other columns, the
record ids, the order and the internal ids alone.  It raises only while rebuilding a cached interaction matrix. -/
theorem C14_apply (ds : Mem) (c : String) (f : Val → Option Val) (g : Val → Val)
    (hc : c ∈ ds.cols) (hid : c ∉ ["rid", "uid", "iid", "user", "item"]) (hne : ds.rows ≠ [])
    (hf : ∀ r ∈ ds.rows, f (r.get c) = some (g (r.get c)) ∧ g (r.get c) ≠ .null) :
    ∃ d err, ds.apply c f = (d, err) ∧ (err = none ∨ c = "interaction" ∧ ds.cache ≠ none) ∧ d.cols = ds.cols ∧
      d.rows.map (·.rid) = ds.rows.map (·.rid) ∧
      d.rows.map (·.get c) = ds.rows.map (fun r => g (r.get c)) ∧
      (∀ e, e ≠ c → d.rows.map (·.get e) = ds.rows.map (·.get e)) ∧
      d.hasIds = ds.hasIds ∧ d.userMap = ds.userMap ∧ d.itemMap = ds.itemMap := by
  have hrid : c ≠ "rid" := fun h => hid (by simp [h])
  have hm : ds.rows.mapM (fun r => (f (r.get c)).map fun v => r.set c v) =
      some (ds.rows.map fun r => r.set c (g (r.get c))) := by
    apply mapM_option_some
    intro r hr
    rw [(hf r hr).1]; rfl
  have hrows' : ∃ d err, ds.apply c f = (d, err) ∧ (err = none ∨ c = "interaction" ∧ ds.cache ≠ none) ∧
      d.rows = (ds.rows.map fun r => r.set c (g (r.get c))) ∧ d.cols = ds.cols ∧
      d.hasIds = ds.hasIds ∧ d.userMap = ds.userMap ∧ d.itemMap = ds.itemMap := by
    unfold Mem.apply
    rw [if_pos hc, if_neg hid]
    cases hrows : ds.rows with
    | nil => exact absurd hrows hne
    | cons r0 rest =>
      have h0 := hf r0 (by simp [hrows])
      simp only [h0.1]
      rw [hrows] at hm
      simp only [hm]
      cases hg : g (r0.get c) with
      | null => exact absurd hg h0.2
      | num q =>
        simp only
        split
        · rename_i hk
          have hk' : ds.cache ≠ none := by rintro h; rw [h] at hk; simp at hk
          split
          · exact ⟨_, _, rfl, Or.inl rfl, rfl, rfl, rfl, rfl, rfl⟩
          · exact ⟨_, _, rfl, Or.inr ⟨hk.1, hk'⟩, rfl, rfl, rfl, rfl, rfl⟩
        · exact ⟨_, _, rfl, Or.inl rfl, rfl, rfl, rfl, rfl, rfl⟩
      | str q =>
        simp only
        split
        · rename_i hk
          have hk' : ds.cache ≠ none := by rintro h; rw [h] at hk; simp at hk
          split
          · exact ⟨_, _, rfl, Or.inl rfl, rfl, rfl, rfl, rfl, rfl⟩
          · exact ⟨_, _, rfl, Or.inr ⟨hk.1, hk'⟩, rfl, rfl, rfl, rfl, rfl⟩
        · exact ⟨_, _, rfl, Or.inl rfl, rfl, rfl, rfl, rfl, rfl⟩
  obtain ⟨d, err, h1, h2, h3, h4, h5, h6, h7⟩ := hrows'
  refine ⟨d, err, h1, h2, h4, ?_, ?_, ?_, h5, h6, h7⟩
  · rw [h3]; simp only [List.map_map]; rfl
  · rw [h3]
    simp only [List.map_map]
    apply List.map_congr_left
    intro r _
    simp [Row.get_set _ _ _ _ hrid]
  · intro e he
    rw [h3]
    simp only [List.map_map]
    apply List.map_congr_left
    intro r _
    simp [Row.get_set _ _ _ _ hrid, he]

/-- Without a cached matrix it returns. -/
theorem C14_returns (ds : Mem) (c : String) (f : Val → Option Val) (g : Val → Val)
    (hc : c ∈ ds.cols) (hid : c ∉ ["rid", "uid", "iid", "user", "item"]) (hne : ds.rows ≠ [])
    (hf : ∀ r ∈ ds.rows, f (r.get c) = some (g (r.get c)) ∧ g (r.get c) ≠ .null)
    (hcache : ds.cache = none) :
    ∃ d, ds.apply c f = (d, none) ∧ d.cols = ds.cols ∧
      d.rows.map (·.rid) = ds.rows.map (·.rid) ∧
      d.rows.map (·.get c) = ds.rows.map (fun r => g (r.get c)) ∧
      (∀ e, e ≠ c → d.rows.map (·.get e) = ds.rows.map (·.get e)) ∧
      d.hasIds = ds.hasIds ∧ d.userMap = ds.userMap ∧ d.itemMap = ds.itemMap := by
  obtain ⟨d, err, h1, h2, h3⟩ := C14_apply ds c f g hc hid hne hf
  rcases h2 with rfl | h2
  · exact ⟨d, h1, h3⟩
  · exact absurd hcache h2.2

/-- A dataset without records: `apply` raises and changes nothing. -/
theorem C14_empty (ds : Mem) (c : String) (f : Val → Option Val) (hc : c ∈ ds.cols) (h : ds.rows = []) :
    ∃ e, ds.apply c f = (ds, some e) := by
  unfold Mem.apply
  rw [if_pos hc]
  split
  · exact ⟨_, rfl⟩
  · rw [h]; exact ⟨_, rfl⟩

/-- The rebuilding of the matrix can raise after the records have changed: interactions turned into texts while a
matrix is cached. -/
theorem C14_raises_after_change : ∃ (ds d : Mem) (e : Err), ds.cache ≠ none ∧
    ds.apply "interaction" (fun _ => some (.str "a")) = (d, some e) ∧
    d.rows.map (·.get "interaction") = ds.rows.map (fun _ => .str "a") ∧
    d.rows.map (·.get "interaction") ≠ ds.rows.map (·.get "interaction") ∧ d.cache = none := by
  refine ⟨(exUnsorted.assignIds.1.userVec 0).1,
    ((exUnsorted.assignIds.1.userVec 0).1.apply "interaction" fun _ => some (.str "a")).1, .applyFailed,
    by decide +kernel, ?_, ?_⟩
  · exact Prod.ext rfl (by decide +kernel)
  · decide +kernel

/-- **C14**, types: after an `apply` that succeeds the column is an object column exactly when some record does not have a
number in it, and the types of the other columns are what they were. -/
theorem C14_types (ds : Mem) (c : String) (f : Val → Option Val) (d : Mem) (h : ds.apply c f = (d, none)) :
    (d.dtype c = .obj ↔ ∃ r ∈ d.rows, ∀ q, r.get c ≠ .num q) ∧ ∀ e, e ≠ c → d.dtype e = ds.dtype e := by
  have key : ∀ (rs : List Row), newDType (ds.dtype c) (rs.map (·.get c)) = .obj ↔ ∃ r ∈ rs, ∀ q, r.get c ≠ .num q := by
    intro rs
    unfold newDType
    split
    · rename_i ha
      constructor
      · intro hx
        split at hx
        · cases hx
        · exact absurd hx ‹_›
      · rintro ⟨r, hr, hq⟩
        have := List.all_eq_true.1 ha _ (List.mem_map.2 ⟨r, hr, rfl⟩)
        cases hv : r.get c with
        | num q => exact absurd hv (hq q)
        | null => rw [hv] at this; cases this
        | str t => rw [hv] at this; cases this
    · rename_i ha
      refine ⟨fun _ => ?_, fun _ => rfl⟩
      simp only [List.all_eq_true, List.mem_map, forall_exists_index, and_imp, forall_apply_eq_imp_iff₂, not_forall] at ha
      obtain ⟨r, hr, hv⟩ := ha
      refine ⟨r, hr, fun q hq => hv ?_⟩
      rw [hq]
  unfold Mem.apply at h
  split at h
  · split at h
    · cases h
    · split at h
      · cases h
      · split at h
        · cases h
        · cases h
        · split at h
          · cases h
          · simp only at h
            split at h
            · split at h
              · cases h
                exact ⟨by simpa using key _, fun e he => by simp [he]⟩
              · cases h
            · cases h
              exact ⟨by simpa using key _, fun e he => by simp [he]⟩
  · cases h

/-- The type changes when texts are written. -/
example : ((exUnsorted.apply "interaction" fun _ => some (.str "a")).1.dtype "interaction") = .obj ∧
    (exUnsorted.apply "interaction" fun _ => some (.str "a")).2 = none ∧
    ((exUnsorted.apply "interaction" fun _ => some (.num 1)).1.dtype "interaction") ≠ .obj := by decide

/-- **C14.** Identifier columns and unknown columns are rejected, and if the function raises on any
record the call raises; in all these cases the dataset is unchanged. -/
theorem C14_rejects_unchanged (ds : Mem) (c : String) (f : Val → Option Val)
    (h : c ∉ ds.cols ∨ c ∈ ["rid", "uid", "iid", "user", "item"] ∨
      ∃ r ∈ ds.rows, f (r.get c) = none) :
    ∃ e, ds.apply c f = (ds, some e) := by
  unfold Mem.apply
  by_cases hc : c ∈ ds.cols
  · rw [if_pos hc]
    by_cases hid : c ∈ ["rid", "uid", "iid", "user", "item"]
    · rw [if_pos hid]; exact ⟨_, rfl⟩
    · rw [if_neg hid]
      rcases h with h | h | ⟨r, hr, hfr⟩
      · exact absurd hc h
      · exact absurd h hid
      · cases hrows : ds.rows with
        | nil => simp [hrows] at hr
        | cons r0 rest =>
          simp only
          rw [hrows] at hr
          have hm : (r0 :: rest).mapM (fun r => (f (r.get c)).map fun v => r.set c v) = none :=
            mapM_option_none _ _ r hr (by simp [hfr])
          cases hf0 : f (r0.get c) with
          | none => exact ⟨_, rfl⟩
          | some v =>
            cases v <;> simp only [hm] <;> exact ⟨_, rfl⟩
  · rw [if_neg hc]; exact ⟨_, rfl⟩

/-- A function that raises on text. -/
def exSucc : Val → Option Val
  | .num q => some (.num (q + 1))
  | _ => none

example : "interaction" ∈ exText.cols ∧
    "interaction" ∉ ["rid", "uid", "iid", "user", "item"] ∧ exText.rows ≠ [] ∧
    (∀ r ∈ exText.rows, exSucc (r.get "interaction") ≠ none) ∧
    (∃ r ∈ exText.rows, exSucc (r.get "user") = none) ∧ exText.cache = none := by
  refine ⟨by decide, by decide, by decide, by decide, ?_, rfl⟩
  exact ⟨_, List.mem_cons_self, by decide⟩

end DRec
