import Verif.Spec.Splits
import Verif.Lemmas.Threads
import Verif.Lemmas.Random
import Verif.Props.MemOps
import Verif.Props.Query

/-! # Lemmas about splits -/

namespace DRec

open Spec

/-! ## The shared variables after a complete run -/

theorem applyLog_split (log : List SAct) (m : (v : SVar) → v.Ty) :
    applyLog (log.map SAct.sec) m .rem = m .rem ++ log.flatMap removedBy ∧
    applyLog (log.map SAct.sec) m .test = m .test ++ log.flatMap testedBy ∧
    applyLog (log.map SAct.sec) m .done = m .done + log.countP counts := by
  induction log generalizing m with
  | nil => exact ⟨(List.append_nil _).symm, (List.append_nil _).symm, rfl⟩
  | cons a log ih =>
    obtain ⟨h1, h2, h3⟩ := ih (applySec m a.sec)
    simp only [List.map_cons]
    show applyLog (log.map SAct.sec) (applySec m a.sec) .rem = _ ∧
      applyLog (log.map SAct.sec) (applySec m a.sec) .test = _ ∧
      applyLog (log.map SAct.sec) (applySec m a.sec) .done = _
    rw [h1, h2, h3]
    cases a <;>
      simp [applySec, SAct.sec, removedBy, testedBy, counts, Function.update,
        List.countP_cons]
    exact Nat.add_right_comm _ _ _

theorem splitRun_mem {tasks : List (List SAct)} {m : (v : SVar) → v.Ty} (h : SplitRun tasks m) :
    (m .rem).Perm (tasks.flatten.flatMap removedBy) ∧
    (m .test).Perm (tasks.flatten.flatMap testedBy) ∧
    m .done = tasks.flatten.countP counts := by
  obtain ⟨n, c, hs, hc, rfl⟩ := h
  obtain ⟨log, hp, hm⟩ := steps_serial_map SAct.sec splitInit tasks hs hc
  obtain ⟨h1, h2, h3⟩ := applyLog_split log splitInit
  rw [hm, h1, h2, h3]
  refine ⟨?_, ?_, ?_⟩
  · simpa [splitInit] using hp.flatMap_right removedBy
  · simpa [splitInit] using hp.flatMap_right testedBy
  · rw [hp.countP_eq]; simp [splitInit]

theorem splitRun_exists (tasks : List (List SAct)) : ∃ m, SplitRun tasks m := by
  obtain ⟨n, d, h1, h2⟩ := steps_extend (init_inv splitInit (tasks.map (List.map SAct.sec)))
  exact ⟨d.mem, n, d, h1, h2, rfl⟩

/-! ## Per-user view of the result -/

theorem rid_inj {ds : Mem} (h : RidsUnique ds) {r r' : Row} (hr : r ∈ ds.rows) (hr' : r' ∈ ds.rows)
    (e : r.rid = r'.rid) : r = r' :=
  List.inj_on_of_nodup_map h hr hr' e

theorem mem_recordsOf {rows : List Row} {v : Val} {r : Row} :
    r ∈ recordsOf rows v ↔ r ∈ rows ∧ r.get "user" = v := by simp [recordsOf]

/-- A task only handles records of its own user. -/
def OwnRecords (ds : Mem) (p : Val × List SAct) : Prop :=
  ∀ a ∈ p.2, ∀ i ∈ removedBy a ++ testedBy a, ∃ r ∈ recordsOf ds.rows p.1, r.rid = i

theorem own_ids {ds : Mem} (hu : RidsUnique ds) {ps : List (Val × List SAct)}
    (hk : (ps.map (·.1)).Nodup) (ho : ∀ p ∈ ps, OwnRecords ds p) (g : SAct → List Nat)
    (hg : ∀ a, g a ⊆ removedBy a ++ testedBy a) {p : Val × List SAct} (hp : p ∈ ps) {r : Row}
    (hr : r ∈ recordsOf ds.rows p.1) :
    r.rid ∈ (ps.map (·.2)).flatten.flatMap g ↔ r.rid ∈ p.2.flatMap g := by
  simp only [List.mem_flatMap, List.mem_flatten, List.mem_map]
  constructor
  · rintro ⟨a, ⟨l, ⟨q, hq, rfl⟩, ha⟩, hi⟩
    obtain ⟨r', hr', e⟩ := ho q hq a ha _ (hg a hi)
    rw [mem_recordsOf] at hr hr'
    have := rid_inj hu hr'.1 hr.1 e
    subst this
    have hqp : q = p := List.inj_on_of_nodup_map hk hq hp (by rw [← hr'.2, ← hr.2])
    subst hqp
    exact ⟨a, ha, hi⟩
  · rintro ⟨a, ha, hi⟩
    exact ⟨a, ⟨p.2, ⟨p, hp, rfl⟩, ha⟩, hi⟩

/-- What a user contributes to the two sets. -/
theorem split_user {ds : Mem} (hu : RidsUnique ds) {ps : List (Val × List SAct)}
    (hk : (ps.map (·.1)).Nodup) (ho : ∀ p ∈ ps, OwnRecords ds p) {m : (v : SVar) → v.Ty}
    (hm : SplitRun (ps.map (·.2)) m) {p : Val × List SAct} (hp : p ∈ ps) :
    recordsOf (splitFinish ds m).1.rows p.1 = (recordsOf ds.rows p.1).filter (fun r =>
      r.rid ∉ p.2.flatMap removedBy ∧ r.rid ∉ p.2.flatMap testedBy) ∧
    recordsOf (splitFinish ds m).2.rows p.1 = (recordsOf ds.rows p.1).filter (fun r =>
      r.rid ∈ p.2.flatMap testedBy) := by
  obtain ⟨h1, h2, _⟩ := splitRun_mem hm
  have e1 : ∀ r ∈ recordsOf ds.rows p.1, r.rid ∈ m .rem ↔ r.rid ∈ p.2.flatMap removedBy := by
    intro r hr
    rw [h1.mem_iff]
    exact own_ids hu hk ho _ (fun a => List.subset_append_left _ _) hp hr
  have e2 : ∀ r ∈ recordsOf ds.rows p.1, r.rid ∈ m .test ↔ r.rid ∈ p.2.flatMap testedBy := by
    intro r hr
    rw [h2.mem_iff]
    exact own_ids hu hk ho _ (fun a => List.subset_append_right _ _) hp hr
  constructor
  · simp only [splitFinish, Mem.drop, dropRows, Bool.false_eq_true, if_false, recordsOf]
    rw [List.filter_comm]
    apply List.filter_congr
    intro r hr
    have hr' : r ∈ recordsOf ds.rows p.1 := hr
    have a1 := e1 r hr'
    have a2 := e2 r hr'
    have e : r.rid ∈ m .rem ++ m .test ↔
        ¬ (r.rid ∉ p.2.flatMap removedBy ∧ r.rid ∉ p.2.flatMap testedBy) := by
      rw [List.mem_append, a1, a2]; tauto
    rw [← decide_not]
    exact decide_eq_decide.2 (by rw [e, not_not])
  · simp only [splitFinish, Mem.drop, dropRows, if_true, recordsOf]
    rw [List.filter_comm]
    apply List.filter_congr
    intro r hr
    have hr' : r ∈ recordsOf ds.rows p.1 := hr
    exact decide_eq_decide.2 (e2 r hr')

theorem split_disjoint (ds : Mem) (m : (v : SVar) → v.Ty) :
    Spec.Disjoint ds (splitFinish ds m).1 (splitFinish ds m).2 := by
  refine ⟨(C05_drop_keep ds _).2.1, (C05_drop_keep ds _).2.2.1, ?_⟩
  intro r hr r' hr' e
  simp only [splitFinish] at hr hr'
  rw [(C05_drop_keep ds _).2.2.2.1] at hr
  rw [(C05_drop_keep ds _).2.2.2.2.1] at hr'
  exact hr.2 (List.mem_append_right _ (e ▸ hr'.2))

/-! ## Reading users -/

theorem uniqueVals_user {ds : Mem} {c : String} (hc : c ∈ ds.cols) (hrid : c ≠ "rid") :
    ∃ us, uniqueVals ds c = .ok us ∧ us.Nodup ∧ (∀ v, v ∈ us ↔ ∃ r ∈ ds.rows, r.get c = v) := by
  obtain ⟨d, d', h1, _, _, hsub, ⟨hn, hcov, _, _⟩, _⟩ := C06_unique ds [c] (by simpa using hc)
    ⟨c, by simp, hrid⟩
  refine ⟨d.rows.map (·.get c), by simp [uniqueVals, h1, Except.map], ?_, ?_⟩
  · simp only [List.filter_cons, hrid, ne_eq, not_false_eq_true, decide_true, if_true,
      List.filter_nil, List.map_cons, List.map_nil] at hn
    have : d.rows.map (fun r => [r.get c]) = (d.rows.map (·.get c)).map (fun v => [v]) := by simp
    rw [this] at hn
    exact List.Nodup.of_map _ hn
  · intro v
    rw [List.mem_map]
    constructor
    · rintro ⟨r, hr, rfl⟩; exact ⟨r, hsub.subset hr, rfl⟩
    · rintro ⟨r, hr, rfl⟩
      obtain ⟨r', hr', e⟩ := hcov r hr
      refine ⟨r', hr', ?_⟩
      simpa [hrid] using e

theorem userRows_int {ds : Mem} (h : IntUsers ds) (n : Int) :
    userRows ds (.num n) = .ok (recordsOf ds.rows (.num n)) := by
  obtain ⟨⟨d, hd, hr, _⟩, _⟩ := C01_select_exact ds [([], ⟨"user", .eq, .int n⟩, [])]
    ⟨by simp, by
      intro w hw
      simp only [List.mem_singleton] at hw
      subst hw
      exact ⟨by simp [Blank], by simp [Blank], (by decide : NameOk "user"), trivial⟩⟩
    (by
      intro w hw
      simp only [List.mem_singleton] at hw
      subst hw
      exact ⟨h.hasUser, by simp [Fits, SLit.isStr], by simp [Direct, h.int]⟩)
    (by
      intro w hw r hr
      simp only [List.mem_singleton] at hw
      subst hw
      simp [Comparable])
  unfold userRows
  have e : "user == ".toList ++ cellText (.num (n : ℚ)) =
      queryText [([], ⟨"user", .eq, .int n⟩, [])] := by
    simp only [queryText, SCond.text, SLit.text, List.nil_append, List.append_nil, cellText]
    rw [if_pos (by simp)]
    rfl
  rw [e, hd]
  simp only [Except.map, hr, recordsOf, Except.ok.injEq]
  apply List.filter_congr
  intro r _
  simp [Sat, Holds, SLit.value]

/-! ## Counting sampled records -/

theorem sampled_count {rows : List Row} (hn : (rows.map (·.rid)).Nodup) {S : List Nat} (hs : S.Nodup)
    (hsub : S ⊆ rows.map (·.rid)) :
    (rows.filter fun r => r.rid ∈ S).length = S.length := by
  rw [← List.length_map (f := fun r : Row => r.rid)]
  apply List.Perm.length_eq
  rw [List.perm_ext_iff_of_nodup ((List.filter_sublist.map _).nodup hn) hs]
  intro i
  simp only [List.mem_map, List.mem_filter, decide_eq_true_eq]
  constructor
  · rintro ⟨r, ⟨_, h⟩, rfl⟩; exact h
  · intro h
    obtain ⟨r, hr, rfl⟩ := List.mem_map.1 (hsub h)
    exact ⟨r, ⟨hr, h⟩, rfl⟩

theorem recordsOf_rids {ds : Mem} (hu : RidsUnique ds) (v : Val) :
    ((recordsOf ds.rows v).map (·.rid)).Nodup := (List.filter_sublist.map _).nodup hu

/-! ## The heap -/

theorem heapStep_perm (k : Nat) (h : List (ℚ × Nat)) (x : ℚ × Nat) :
    (heapStep k h x).Perm (x :: if h.length < k then h else h.tail) := by
  unfold heapStep
  split <;> exact List.perm_orderedInsert _ _ _

theorem heap_inv (k : Nat) (hk : 0 < k) (xs : List (ℚ × Nat)) (h : List (ℚ × Nat)) (hh : h.length ≤ k) :
    (xs.foldl (heapStep k) h).Subperm (h ++ xs) ∧
    (xs.foldl (heapStep k) h).length = min k (h.length + xs.length) := by
  induction xs generalizing h with
  | nil => simp only [List.foldl_nil, List.append_nil, List.length_nil]; exact ⟨.refl _, by omega⟩
  | cons x xs ih =>
    have hp := heapStep_perm k h x
    have hl := hp.length_eq
    have hle : (heapStep k h x).length ≤ k ∧
        (heapStep k h x).length = min k (h.length + 1) := by
      split at hl <;> simp only [List.length_cons, List.length_tail] at hl <;> omega
    obtain ⟨h1, h2⟩ := ih (heapStep k h x) hle.1
    simp only [List.foldl_cons, List.length_cons]
    refine ⟨h1.trans ?_, by rw [h2, hle.2]; omega⟩
    have hsub : (heapStep k h x).Subperm (x :: h) := by
      refine hp.subperm.trans ?_
      split
      · exact .refl _
      · exact (List.subperm_cons x).2 (List.tail_sublist h).subperm
    have : (h ++ x :: xs).Perm ((x :: h) ++ xs) := by
      simp
    exact (((List.subperm_append_right xs).2 hsub)).trans this.symm.subperm

theorem latestRids_sample (label : String) {k : Nat} (hk : 0 < k) (rows : List Row)
    (hl : k < rows.length) (hn : (rows.map (·.rid)).Nodup) :
    (latestRids label k rows).Nodup ∧ latestRids label k rows ⊆ rows.map (·.rid) ∧
      (latestRids label k rows).length = k := by
  obtain ⟨h1, h2⟩ := heap_inv k hk (rows.map fun r => (sortKey label r, r.rid)) [] (by simp)
  have h3 : ((List.foldl (heapStep k) [] (rows.map fun r => (sortKey label r, r.rid))).map Prod.snd).Subperm
      (([] ++ rows.map fun r => (sortKey label r, r.rid)).map Prod.snd) := by
    obtain ⟨l, hp, hs⟩ := h1
    exact ⟨l.map Prod.snd, hp.map _, hs.map _⟩
  simp only [List.nil_append, List.map_map] at h3
  have e : (rows.map ((fun p : ℚ × Nat => p.2) ∘ fun r => (sortKey label r, r.rid))) =
      rows.map (·.rid) := rfl
  rw [e] at h3
  refine ⟨?_, h3.subset, ?_⟩
  · obtain ⟨l, hp, hs⟩ := h3
    exact hp.nodup_iff.1 (hs.nodup hn)
  · simp only [latestRids, List.length_map] at *
    rw [h2]; simp; omega

/-! ## Datasets for the examples -/

/-- Columns of the example datasets, with integer ids. -/
def exSplitOf (rows : List (Nat × Int × Int × Int)) : Mem where
  cols := ["user", "item", "interaction", "timestamp", "rid"]
  dtype c := if c = "user" ∨ c = "item" then .int else .float
  rows := rows.map fun p => mkRow p.1 [("user", .num p.2.1), ("item", .num p.2.2.1), ("interaction", .num 1),
    ("timestamp", .num p.2.2.2)]
  hasIds := false
  userMap := []
  itemMap := []
  cache := none
  cacheT := none

theorem exSplitOf_int (rows : List (Nat × Int × Int × Int)) : IntUsers (exSplitOf rows) := by
  refine ⟨by simp [exSplitOf], by simp [exSplitOf], ?_⟩
  intro r hr
  simp only [exSplitOf, List.mem_map] at hr
  obtain ⟨p, _, rfl⟩ := hr
  exact ⟨p.2.1, by simp [mkRow, Row.get]⟩

/-- Record id, user, item, timestamp: user 7 has three records in ascending order of time, user 9 one. -/
def exSplit : Mem := exSplitOf [(0, 7, 1, 3), (1, 9, 1, 1), (2, 7, 2, 5), (3, 7, 3, 5)]

theorem exSplit_ok : IntUsers exSplit ∧ RidsUnique exSplit := ⟨exSplitOf_int _, by unfold RidsUnique; decide⟩

/-- A silent run ends for every dataset for which there are tasks. -/
theorem leaveKOut_exists {ds : Mem} {k : KArg} {minN : Nat} {last : Option String} {rngs : Nat → Nat → Nat}
    {tasks : List (List SAct)} (h : leaveKTasks ds k minN last rngs = .ok tasks) :
    ∃ train test, LeaveKOut ds k minN last rngs false train test := by
  obtain ⟨m, hm⟩ := splitRun_exists tasks
  exact ⟨_, _, tasks, m, h, hm, by simp, rfl⟩

theorem exSplit_runs (k : KArg) (hk : k.valid = true) (minN : Nat) (last : Option String)
    (rngs : Nat → Nat → Nat) : ∃ train test, LeaveKOut exSplit k minN last rngs false train test := by
  obtain ⟨us, hus, _⟩ := uniqueVals_user exSplit_ok.1.hasUser (by decide)
  exact leaveKOut_exists (tasks := us.zipIdx.map fun p => leaveKUser exSplit k minN last (rngs p.2) p.1)
    (by simp [leaveKTasks, hk, hus, Except.map])

end DRec
