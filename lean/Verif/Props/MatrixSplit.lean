import Verif.Props.SplitThreads

/-!
# C38: matrix_split
-/

namespace DRec

open Spec

theorem matrixTasks_ok {ds : Mem} {ur ir : ℚ} {minN : Nat} {rngU rngI : Nat → Nat}
    {tasks : List (List SAct)} (h : matrixTasks ds ur ir minN rngU rngI = .ok tasks) :
    ∃ us is, uniqueVals ds "user" = .ok us ∧ uniqueVals ds "item" = .ok is ∧
      (0 < ur ∧ ur ≤ 1) ∧ (0 < ir ∧ ir ≤ 1) ∧
      tasks = us.map (matrixUser ds minN (drawn us ur rngU) (drawn is ir rngI)) := by
  unfold matrixTasks at h
  split at h
  · rename_i hr
    cases hu : uniqueVals ds "user" with
    | error e => rw [hu] at h; cases h
    | ok us =>
      cases hi : uniqueVals ds "item" with
      | error e => rw [hu, hi] at h; cases h
      | ok is =>
        rw [hu, hi] at h
        simp only [Except.bind, Except.map, Except.ok.injEq] at h
        exact ⟨us, is, rfl, rfl, hr.1, hr.2, h.symm⟩
  · cases h

theorem filter_item_lt (rows : List Row) (I : List Val) :
    ((rows.filter fun r => r.get "item" ∈ I).map (·.rid)).length < rows.length ↔
      ∃ r ∈ rows, r.get "item" ∉ I := by
  rw [List.length_map]
  constructor
  · intro h
    by_contra hc
    push Not at hc
    rw [List.filter_eq_self.2 (by simpa using hc)] at h
    omega
  · rintro ⟨r, hr, hn⟩
    refine lt_of_le_of_ne (List.length_filter_le _ _) ?_
    intro e
    rw [List.length_filter_eq_length_iff] at e
    simpa using hn (by simpa using e r hr)

theorem checks_none (rows : List Row) (f : SAct → List Nat) (hf : f .check = []) :
    (rows.map fun _ => SAct.check).flatMap f = [] := by
  rw [List.flatMap_eq_nil_iff]
  intro a ha
  obtain ⟨_, _, rfl⟩ := List.mem_map.1 ha
  exact hf

/-- Ids handled by the task of a user. -/
theorem matrixUser_ids {ds : Mem} (h : IntUsers ds) (minN : Nat) (U I : List Val) {v : Val}
    (hv : ∃ r ∈ ds.rows, r.get "user" = v) :
    (matrixUser ds minN U I v).flatMap removedBy =
      (if (recordsOf ds.rows v).length < minN then (recordsOf ds.rows v).map (·.rid) else []) ∧
    (matrixUser ds minN U I v).flatMap testedBy =
      (if ¬ (recordsOf ds.rows v).length < minN ∧ v ∈ U ∧ ∃ r ∈ recordsOf ds.rows v, r.get "item" ∉ I
        then ((recordsOf ds.rows v).filter fun r => r.get "item" ∈ I).map (·.rid) else []) ∧
    (matrixUser ds minN U I v).countP counts = 1 := by
  obtain ⟨r, hr, rfl⟩ := hv
  obtain ⟨n, hn⟩ := h.whole r hr
  have hcount : ∀ rows : List Row, (rows.map fun _ => SAct.check).countP counts = 0 := by
    intro rows; simp [List.countP_eq_zero, counts]
  unfold matrixUser
  rw [hn, userRows_int h n]
  simp only
  by_cases b1 : (recordsOf ds.rows (.num (n : ℚ))).length < minN
  · simp [b1, removedBy, testedBy, counts]
  · by_cases b2 : Val.num (n : ℚ) ∈ U
    · by_cases b3 : ∃ r ∈ recordsOf ds.rows (.num (n : ℚ)), r.get "item" ∉ I
      · have b4 := (filter_item_lt _ I).2 b3
        rw [if_neg b1, if_pos b2, if_pos b4, if_neg b1, if_pos ⟨b1, b2, b3⟩]
        refine ⟨?_, ?_, ?_⟩
        · rw [List.flatMap_append, checks_none _ _ rfl]; simp [removedBy]
        · rw [List.flatMap_append, checks_none _ _ rfl]; simp [testedBy]
        · rw [List.countP_append, hcount]; simp [counts]
      · have b4 : ¬ _ := fun h => b3 ((filter_item_lt (recordsOf ds.rows (.num (n : ℚ))) I).1 h)
        rw [if_neg b1, if_pos b2, if_neg b4, if_neg b1, if_neg (fun h => b3 h.2.2)]
        refine ⟨?_, ?_, ?_⟩
        · rw [List.flatMap_append, checks_none _ _ rfl]; simp [removedBy]
        · rw [List.flatMap_append, checks_none _ _ rfl]; simp [testedBy]
        · rw [List.countP_append, hcount]; simp [counts]
    · rw [if_neg b1, if_neg b2, if_neg b1, if_neg (fun h => b2 h.2.1)]
      simp [removedBy, testedBy, counts]

theorem matrix_own {ds : Mem} (h : IntUsers ds) (minN : Nat) (U I : List Val) {us : List Val}
    (hus : ∀ v, v ∈ us ↔ ∃ r ∈ ds.rows, r.get "user" = v) :
    ∀ p ∈ us.map (fun v => (v, matrixUser ds minN U I v)), OwnRecords ds p := by
  intro p hp
  obtain ⟨v, hv, rfl⟩ := List.mem_map.1 hp
  obtain ⟨e1, e2, _⟩ := matrixUser_ids h minN U I ((hus v).1 hv)
  intro a ha i hi
  simp only at ha ⊢
  have hin : ∀ S : List Row, S ⊆ recordsOf ds.rows v → i ∈ S.map (·.rid) →
      ∃ r ∈ recordsOf ds.rows v, r.rid = i := by
    intro S hS hi
    obtain ⟨r, hr, rfl⟩ := List.mem_map.1 hi
    exact ⟨r, hS hr, rfl⟩
  rw [List.mem_append] at hi
  rcases hi with hi | hi
  · have hm : i ∈ (matrixUser ds minN U I v).flatMap removedBy := List.mem_flatMap.2 ⟨a, ha, hi⟩
    rw [e1] at hm
    split at hm
    · exact hin _ (fun _ h => h) hm
    · simp at hm
  · have hm : i ∈ (matrixUser ds minN U I v).flatMap testedBy := List.mem_flatMap.2 ⟨a, ha, hi⟩
    rw [e2] at hm
    split at hm
    · exact hin _ List.filter_sublist.subset hm
    · simp at hm

theorem drawn_draw {ds : Mem} {c : String} {us : List Val} (hnd : us.Nodup)
    (hmem : ∀ v, v ∈ us ↔ ∃ r ∈ ds.rows, r.get c = v) {ratio : ℚ} (hr : 0 < ratio ∧ ratio ≤ 1)
    (hs : (ds.rows.map (·.get c)).dedup.length ≤ 2 ^ 53) (rng : Nat → Nat) : Draw ds c ratio (drawn us ratio rng) := by
  have hlen : us.length = (ds.rows.map (·.get c)).dedup.length := by
    apply List.Perm.length_eq
    rw [List.perm_ext_iff_of_nodup hnd (List.nodup_dedup _)]
    intro v; rw [hmem]; simp
  have h1 := shareOf_cast (n := us.length) hr.1.le
  have h2 := shareOf_le hr.1.le hr.2 (hlen ▸ hs)
  refine ⟨pySample_nodup _ _ _ hnd, fun v hv => (hmem v).1 (pySample_subset _ _ _ hv), ?_⟩
  unfold drawn
  rw [pySample_length _ _ _ (by omega), ← hlen]
  omega

theorem matrix_result {ds : Mem} (h : IntUsers ds) (hu : RidsUnique ds) {ur ir : ℚ}
    {minN : Nat} {rngU rngI : Nat → Nat} {verbose : Bool} {train test : Mem}
    (hr : MatrixSplit ds ur ir minN rngU rngI verbose train test) {us is : List Val}
    (hus : uniqueVals ds "user" = .ok us) (his : uniqueVals ds "item" = .ok is) :
    MatrixResult ds minN (drawn us ur rngU) (drawn is ir rngI) train test := by
  obtain ⟨tasks, m, ht, hm, _, hf⟩ := hr
  obtain ⟨us', is', hus', his', _, _, rfl⟩ := matrixTasks_ok ht
  rw [hus] at hus'; cases hus'
  rw [his] at his'; cases his'
  obtain ⟨us2, hus2, hnd, hmem⟩ := uniqueVals_user h.hasUser (by decide)
  rw [hus] at hus2; cases hus2
  generalize drawn us ur rngU = U at *
  generalize drawn is ir rngI = I at *
  have hsub := split_disjoint ds m
  rw [hf] at hsub
  refine ⟨hsub, ?_⟩
  intro r hrm
  have hv : ∃ r' ∈ ds.rows, r'.get "user" = r.get "user" := ⟨r, hrm, rfl⟩
  have hp : (r.get "user", matrixUser ds minN U I (r.get "user")) ∈
      us.map (fun v => (v, matrixUser ds minN U I v)) :=
    List.mem_map.2 ⟨_, (hmem _).2 hv, rfl⟩
  have hfst : (us.map (fun v => (v, matrixUser ds minN U I v))).map (·.1) = us := by
    rw [List.map_map]; exact List.map_id us
  have hsnd : (us.map (fun v => (v, matrixUser ds minN U I v))).map (·.2) =
      us.map (matrixUser ds minN U I) := by simp
  obtain ⟨e1, e2⟩ := split_user hu (by rw [hfst]; exact hnd) (matrix_own h minN U I hmem)
    (by rw [hsnd]; exact hm) hp
  rw [hf] at e1 e2
  simp only at e1 e2
  obtain ⟨i1, i2, _⟩ := matrixUser_ids h minN U I hv
  rw [i1, i2] at e1
  rw [i2] at e2
  have hR : r ∈ recordsOf ds.rows (r.get "user") := mem_recordsOf.2 ⟨hrm, rfl⟩
  have tTest : r ∈ test.rows ↔ r ∈ recordsOf test.rows (r.get "user") := by
    rw [mem_recordsOf]; simp
  have tTrain : r ∈ train.rows ↔ r ∈ recordsOf train.rows (r.get "user") := by
    rw [mem_recordsOf]; simp
  have hrid : ∀ S : List Row, S ⊆ recordsOf ds.rows (r.get "user") →
      (r.rid ∈ S.map (·.rid) ↔ r ∈ S) := by
    intro S hS
    rw [List.mem_map]
    constructor
    · rintro ⟨r', hr', e⟩
      rw [← rid_inj hu (mem_recordsOf.1 (hS hr')).1 hrm e]; exact hr'
    · exact fun hr' => ⟨r, hr', rfl⟩
  have key : r ∈ test.rows ↔ minN ≤ (recordsOf ds.rows (r.get "user")).length ∧
      r.get "user" ∈ U ∧ r.get "item" ∈ I ∧
      ∃ r' ∈ recordsOf ds.rows (r.get "user"), r'.get "item" ∉ I := by
    rw [tTest, e2, List.mem_filter, decide_eq_true_eq]
    split
    · rename_i hc
      rw [hrid _ List.filter_sublist.subset, List.mem_filter, decide_eq_true_eq]
      constructor
      · rintro ⟨_, _, hi⟩; exact ⟨by omega, hc.2.1, hi, hc.2.2⟩
      · rintro ⟨_, _, hi, _⟩; exact ⟨hR, hR, hi⟩
    · rename_i hc
      constructor
      · rintro ⟨_, hh⟩; simp at hh
      · rintro ⟨a, b, _, d⟩; exact absurd ⟨by omega, b, d⟩ hc
  refine ⟨key, ?_⟩
  rw [key, tTrain, e1, List.mem_filter, decide_eq_true_eq]
  by_cases b1 : (recordsOf ds.rows (r.get "user")).length < minN
  · rw [if_pos b1, hrid _ (fun _ h => h)]
    constructor
    · rintro ⟨_, hh, _⟩; exact absurd hR hh
    · rintro ⟨hh, _⟩; omega
  · rw [if_neg b1]
    constructor
    · rintro ⟨_, _, hh⟩
      refine ⟨by omega, ?_⟩
      rintro ⟨_, b, c, d⟩
      rw [if_pos ⟨b1, b, d⟩, hrid _ List.filter_sublist.subset, List.mem_filter] at hh
      exact hh ⟨hR, by simpa using c⟩
    · rintro ⟨_, hh⟩
      refine ⟨hR, by simp, ?_⟩
      split
      · rename_i hc
        rw [hrid _ List.filter_sublist.subset, List.mem_filter, decide_eq_true_eq]
        rintro ⟨_, c⟩
        exact hh ⟨by omega, hc.2.1, c, hc.2.2⟩
      · simp

/-- **C38** (partial: integer user ids; for text ids no user is split, as in
`C37_text_ids_not_split`).  For all ratios, minimum, random outcomes and interleavings there are drawn
users and items, of the requested share, such that a record is in test exactly when its user and item
were drawn, its user has enough records and not all of the user's items were drawn; every other record
of a user with enough records is in train; every test user is in train. -/
theorem C38_matrix_split_partial (ds : Mem) (h : IntUsers ds) (hu : RidsUnique ds) (hs : ds.rows.length ≤ 2 ^ 53)
    (hi : "item" ∈ ds.cols) (ur ir : ℚ) (minN : Nat) (rngU rngI : Nat → Nat) (verbose : Bool)
    (train test : Mem) (hr : MatrixSplit ds ur ir minN rngU rngI verbose train test) :
    ∃ U I, Draw ds "user" ur U ∧ Draw ds "item" ir I ∧ MatrixResult ds minN U I train test ∧
      ∀ r ∈ test.rows, ∃ r' ∈ train.rows, r'.get "user" = r.get "user" := by
  obtain ⟨us, hus, hnd, hmem⟩ := uniqueVals_user h.hasUser (by decide)
  obtain ⟨is, his, hndi, hmemi⟩ := uniqueVals_user hi (by decide)
  have hres := matrix_result h hu hr hus his
  obtain ⟨tasks, m, ht, _⟩ := hr
  obtain ⟨us', is', _, _, hr1, hr2, _⟩ := matrixTasks_ok ht
  have hd : ∀ c : String, (ds.rows.map (·.get c)).dedup.length ≤ 2 ^ 53 := fun c =>
    ((List.dedup_sublist _).length_le.trans (by rw [List.length_map])).trans hs
  refine ⟨_, _, drawn_draw hnd hmem hr1 (hd _) rngU, drawn_draw hndi hmemi hr2 (hd _) rngI, hres, ?_⟩
  intro r hrt
  have hrm := hres.1.2.1.subset hrt
  obtain ⟨a, _, _, r', hr', hn⟩ := ((hres.2 r hrm).1).1 hrt
  rw [mem_recordsOf] at hr'
  refine ⟨r', ((hres.2 r' hr'.1).2).2 ⟨by rw [hr'.2]; exact a, ?_⟩, hr'.2⟩
  intro hc
  exact hn (((hres.2 r' hr'.1).1).1 hc).2.2.1

/-- **C38.** Every draw of the right size happens for some random outcome. -/
theorem C38_every_draw (ds : Mem) (h : IntUsers ds) (hu : RidsUnique ds) (hi : "item" ∈ ds.cols)
    (ur ir : ℚ) (minN : Nat) (U I : List Val) (hU : Draw ds "user" ur U) (hI : Draw ds "item" ir I) :
    ∃ rngU rngI, ∀ verbose train test, MatrixSplit ds ur ir minN rngU rngI verbose train test →
      MatrixResult ds minN U I train test := by
  obtain ⟨us, hus, hnd, hmem⟩ := uniqueVals_user h.hasUser (by decide)
  obtain ⟨is, his, hndi, hmemi⟩ := uniqueVals_user hi (by decide)
  have reach : ∀ (c : String) (vs U : List Val) (ratio : ℚ), vs.Nodup →
      (∀ v, v ∈ vs ↔ ∃ r ∈ ds.rows, r.get c = v) → Draw ds c ratio U → ∃ s, drawn vs ratio s = U := by
    intro c vs U ratio hvn hvm hd
    have hlen : vs.length = (ds.rows.map (·.get c)).dedup.length := by
      apply List.Perm.length_eq
      rw [List.perm_ext_iff_of_nodup hvn (List.nodup_dedup _)]
      intro v; rw [hvm]; simp
    obtain ⟨s, hs⟩ := pySample_reach U vs
      (List.subperm_of_subset hd.1 fun v hv => (hvm v).2 (hd.2.1 v hv))
    refine ⟨s, ?_⟩
    unfold drawn
    have : shareOf vs.length ratio = U.length := by
      have := hd.2.2
      rw [← hlen] at this
      rw [shareOf, ← this]
      rfl
    rw [this, hs]
  obtain ⟨rngU, e1⟩ := reach "user" us U ur hnd hmem hU
  obtain ⟨rngI, e2⟩ := reach "item" is I ir hndi hmemi hI
  refine ⟨rngU, rngI, fun verbose train test hr => ?_⟩
  have := matrix_result h hu hr hus his
  rwa [e1, e2] at this

/-- **C37** for `matrix_split` (partial: integer user ids). -/
theorem C37_matrix_split_finishes_partial (ds : Mem) (h : IntUsers ds) (hi : "item" ∈ ds.cols)
    (ur ir : ℚ) (hur : 0 < ur ∧ ur ≤ 1) (hir : 0 < ir ∧ ir ≤ 1) (minN : Nat)
    (rngU rngI : Nat → Nat) :
    (∃ tasks, matrixTasks ds ur ir minN rngU rngI = .ok tasks ∧
      ∀ m, SplitRun tasks m → m .done = tasks.length) ∧
    ∀ verbose, ∃ train test, MatrixSplit ds ur ir minN rngU rngI verbose train test := by
  obtain ⟨us, hus, hnd, hmem⟩ := uniqueVals_user h.hasUser (by decide)
  obtain ⟨is, his, hndi, hmemi⟩ := uniqueVals_user hi (by decide)
  have key : ∃ tasks, matrixTasks ds ur ir minN rngU rngI = .ok tasks ∧
      ∀ m, SplitRun tasks m → m .done = tasks.length := by
    refine ⟨us.map (matrixUser ds minN (drawn us ur rngU) (drawn is ir rngI)), ?_, ?_⟩
    · simp [matrixTasks, hus, his, hur, hir, Except.map, Except.bind]
    · intro m hm
      rw [(splitRun_mem hm).2.2, flatten_count, sum_ones]
      · simp
      · intro x hx
        simp only [List.map_map, List.mem_map] at hx
        obtain ⟨v, hv, rfl⟩ := hx
        exact (matrixUser_ids h minN _ _ ((hmem v).1 hv)).2.2
  refine ⟨key, fun verbose => ?_⟩
  obtain ⟨tasks, ht, hd⟩ := key
  obtain ⟨m, hm⟩ := splitRun_exists tasks
  exact ⟨_, _, tasks, m, ht, hm, fun _ => hd m hm, rfl⟩

/-- **C38.** Ratios outside `(0, 1]` are rejected. -/
theorem C38_rejects (ds : Mem) (ur ir : ℚ) (minN : Nat) (rngU rngI : Nat → Nat)
    (hr : ¬ ((0 < ur ∧ ur ≤ 1) ∧ (0 < ir ∧ ir ≤ 1))) :
    matrixTasks ds ur ir minN rngU rngI = .error .assertion := by
  unfold matrixTasks
  rw [if_neg hr]

example : IntUsers exSplit ∧ RidsUnique exSplit ∧ "item" ∈ exSplit.cols ∧
    Draw exSplit "user" (1 / 2) [.num 7] ∧ Draw exSplit "item" (2 / 3) [.num 3, .num 1] ∧
    ∃ train test, MatrixSplit exSplit (1 / 2) (2 / 3) 1 (fun i => i) (fun i => i) true train test := by
  refine ⟨exSplit_ok.1, exSplit_ok.2, by decide, ⟨by decide, ?_, by decide +kernel⟩,
    ⟨by decide, ?_, by decide +kernel⟩,
    (C37_matrix_split_finishes_partial exSplit exSplit_ok.1 (by decide) _ _ (by decide +kernel)
      (by decide +kernel) 1 _ _).2 true⟩
  · intro v hv
    have e : ∀ v ∈ [Val.num 7], v ∈ exSplit.rows.map (·.get "user") := by decide +kernel
    simpa using e v hv
  · intro v hv
    have e : ∀ v ∈ [Val.num 3, Val.num 1], v ∈ exSplit.rows.map (·.get "item") := by decide +kernel
    simpa using e v hv

end DRec
