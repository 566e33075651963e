import Verif.Lemmas.Float
import Verif.Lemmas.Splits
import Mathlib.Tactic.Linarith

/-!
# C33, C34, C36, C37: leave_k_out and the threads of the splits
-/

namespace DRec

open Spec

/-! ## Tasks of leave_k_out -/

/-- The tasks with their users. -/
def leaveKPairs (ds : Mem) (k : KArg) (minN : Nat) (last : Option String) (rngs : Nat → Nat → Nat)
    (us : List Val) : List (Val × List SAct) :=
  us.zipIdx.map fun p => (p.1, leaveKUser ds k minN last (rngs p.2) p.1)

theorem leaveKPairs_fst (ds : Mem) (k : KArg) (minN : Nat) (last : Option String)
    (rngs : Nat → Nat → Nat) (us : List Val) :
    (leaveKPairs ds k minN last rngs us).map (·.1) = us := by
  simp only [leaveKPairs, List.map_map]
  exact List.zipIdx_map_fst 0 us

theorem leaveKTasks_ok {ds : Mem} {k : KArg} {minN : Nat} {last : Option String}
    {rngs : Nat → Nat → Nat} {tasks : List (List SAct)} (h : leaveKTasks ds k minN last rngs = .ok tasks) :
    ∃ us, uniqueVals ds "user" = .ok us ∧ k.valid = true ∧
      tasks = (leaveKPairs ds k minN last rngs us).map (·.2) := by
  unfold leaveKTasks at h
  split at h
  · cases hu : uniqueVals ds "user" with
    | error e => rw [hu] at h; cases h
    | ok us =>
      rw [hu] at h
      simp only [Except.map, Except.ok.injEq] at h
      refine ⟨us, rfl, by assumption, ?_⟩
      rw [← h, leaveKPairs, List.map_map]
      rfl
  · cases h

/-- What a task does with the records of its user. -/
theorem leaveKTask_cases (cols : List String) (minN k : Nat) (last : Option String) (rng : Nat → Nat)
    (rows : List Row) (hn : (rows.map (·.rid)).Nodup) (hl : ∀ l, last = some l → l ∈ cols) :
    (rows.length < minN →
      leaveKTask cols minN k last rng rows = [.remove (rows.map (·.rid)), .count]) ∧
    (minN ≤ rows.length → k < rows.length → 0 < k → ∃ S : List Nat, S.Nodup ∧ S ⊆ rows.map (·.rid) ∧
      S.length = k ∧ leaveKTask cols minN k last rng rows = [.toTest S, .count]) ∧
    (minN ≤ rows.length → (rows.length ≤ k ∨ k = 0) →
      leaveKTask cols minN k last rng rows = [.count]) := by
  refine ⟨fun h => by simp [leaveKTask, h], fun h1 h2 h3 => ?_, fun h1 h2 => ?_⟩
  · unfold leaveKTask
    rw [if_neg (by omega), if_pos ⟨h2, h3⟩]
    cases last with
    | none =>
      exact ⟨_, pySample_nodup _ _ _ hn, pySample_subset _ _ _,
        pySample_length _ _ _ (by rw [List.length_map]; omega), rfl⟩
    | some l =>
      obtain ⟨a, b, c⟩ := latestRids_sample l h3 rows h2 hn
      refine ⟨_, a, b, c, ?_⟩
      simp [hl l rfl]
  · unfold leaveKTask
    rw [if_neg (by omega), if_neg (by omega)]

/-- The task of a user of a dataset with integer ids. -/
theorem leaveKUser_int {ds : Mem} (h : IntUsers ds) (k : KArg) (minN : Nat) (last : Option String)
    (rng : Nat → Nat) {v : Val} (hv : ∃ r ∈ ds.rows, r.get "user" = v) :
    leaveKUser ds k minN last rng v = leaveKTask ds.cols minN (k.amount (recordsOf ds.rows v).length)
      last rng (recordsOf ds.rows v) := by
  obtain ⟨r, hr, rfl⟩ := hv
  obtain ⟨n, hn⟩ := h.whole r hr
  unfold leaveKUser
  rw [hn, userRows_int h n]

theorem leaveKPairs_own {ds : Mem} (h : IntUsers ds) (hu : RidsUnique ds) (k : KArg) (minN : Nat)
    (last : Option String) (hl : LabelOk ds last) (rngs : Nat → Nat → Nat) {us : List Val}
    (hus : ∀ v, v ∈ us ↔ ∃ r ∈ ds.rows, r.get "user" = v) :
    ∀ p ∈ leaveKPairs ds k minN last rngs us, OwnRecords ds p := by
  intro p hp
  simp only [leaveKPairs, List.mem_map] at hp
  obtain ⟨q, hq, rfl⟩ := hp
  have hv := (hus q.1).1 (List.fst_mem_of_mem_zipIdx hq)
  intro a ha i hi
  simp only at ha ⊢
  rw [leaveKUser_int h _ _ _ _ hv] at ha
  have hl' : ∀ l, last = some l → l ∈ ds.cols := by rintro l rfl; exact hl
  obtain ⟨c1, c2, c3⟩ := leaveKTask_cases ds.cols minN (k.amount (recordsOf ds.rows q.1).length) last
    (rngs q.2) (recordsOf ds.rows q.1) (recordsOf_rids hu q.1) hl'
  have key : ∀ S : List Nat, S ⊆ (recordsOf ds.rows q.1).map (·.rid) → i ∈ S →
      ∃ r ∈ recordsOf ds.rows q.1, r.rid = i := by
    intro S hS hi
    obtain ⟨r, hr, rfl⟩ := List.mem_map.1 (hS hi)
    exact ⟨r, hr, rfl⟩
  by_cases b1 : (recordsOf ds.rows q.1).length < minN
  · rw [c1 b1] at ha
    simp only [List.mem_cons, List.not_mem_nil, or_false] at ha
    rcases ha with rfl | rfl
    · simp only [removedBy, testedBy, List.append_nil] at hi
      exact key _ (fun _ h => h) hi
    · simp [removedBy, testedBy] at hi
  · by_cases b2 : k.amount (recordsOf ds.rows q.1).length < (recordsOf ds.rows q.1).length ∧
        0 < k.amount (recordsOf ds.rows q.1).length
    · obtain ⟨S, _, hS, _, e⟩ := c2 (by omega) b2.1 b2.2
      rw [e] at ha
      simp only [List.mem_cons, List.not_mem_nil, or_false] at ha
      rcases ha with rfl | rfl
      · simp only [removedBy, testedBy, List.nil_append] at hi
        exact key S hS hi
      · simp [removedBy, testedBy] at hi
    · rw [c3 (by omega) (by omega)] at ha
      simp only [List.mem_cons, List.not_mem_nil, or_false] at ha
      subst ha
      simp [removedBy, testedBy] at hi

theorem recordsOf_nonuser {ds : Mem} {v : Val} (h : ¬ ∃ r ∈ ds.rows, r.get "user" = v) (t : List Row)
    (ht : t.Sublist ds.rows) : recordsOf t v = [] := by
  simp only [recordsOf, List.filter_eq_nil_iff, decide_eq_true_eq]
  intro r hr e
  exact h ⟨r, ht.subset hr, e⟩

theorem filter_partition (rows : List Row) (S : List Nat) :
    ((rows.filter fun r => r.rid ∉ S) ++ rows.filter fun r => r.rid ∈ S).Perm rows := by
  have := List.filter_append_perm (fun r : Row => decide (r.rid ∉ S)) rows
  simpa using this

/-- The records of the `i`-th user in the two sets in terms of the sections of its task. -/
theorem leaveK_view_at {ds : Mem} (h : IntUsers ds) (hu : RidsUnique ds) {k : KArg} {minN : Nat}
    {last : Option String} (hl : LabelOk ds last) {rngs : Nat → Nat → Nat} {verbose : Bool}
    {train test : Mem} (hr : LeaveKOut ds k minN last rngs verbose train test) {us : List Val}
    (hus : uniqueVals ds "user" = .ok us) {v : Val} {i : Nat} (hi : us[i]? = some v) :
    ∃ acts, acts = leaveKTask ds.cols minN (k.amount (recordsOf ds.rows v).length) last (rngs i)
        (recordsOf ds.rows v) ∧
      recordsOf train.rows v = (recordsOf ds.rows v).filter (fun r =>
        r.rid ∉ acts.flatMap removedBy ∧ r.rid ∉ acts.flatMap testedBy) ∧
      recordsOf test.rows v = (recordsOf ds.rows v).filter (fun r => r.rid ∈ acts.flatMap testedBy) := by
  obtain ⟨tasks, m, ht, hm, _, hf⟩ := hr
  obtain ⟨us', hus', _, rfl⟩ := leaveKTasks_ok ht
  rw [hus] at hus'
  cases hus'
  obtain ⟨us', hus', hnd, hmem⟩ := uniqueVals_user h.hasUser (by decide)
  rw [hus] at hus'
  cases hus'
  have hp : (v, leaveKUser ds k minN last (rngs i) v) ∈ leaveKPairs ds k minN last rngs us := by
    simp only [leaveKPairs, List.mem_map]
    refine ⟨(v, i), ?_, rfl⟩
    rw [List.mem_zipIdx_iff_getElem?]
    exact hi
  obtain ⟨e1, e2⟩ := split_user hu (by rw [leaveKPairs_fst]; exact hnd)
    (leaveKPairs_own h hu k minN last hl rngs hmem) hm hp
  rw [hf] at e1 e2
  simp only at e1 e2
  rw [leaveKUser_int h _ _ _ _ ((hmem v).1 (List.mem_of_getElem? hi))] at e1 e2
  exact ⟨_, rfl, e1, e2⟩

/-- A user's records in the two sets in terms of the sections of its task. -/
theorem leaveK_view {ds : Mem} (h : IntUsers ds) (hu : RidsUnique ds) {k : KArg} {minN : Nat}
    {last : Option String} (hl : LabelOk ds last) {rngs : Nat → Nat → Nat} {verbose : Bool}
    {train test : Mem} (hr : LeaveKOut ds k minN last rngs verbose train test) {v : Val}
    (hv : ∃ r ∈ ds.rows, r.get "user" = v) :
    ∃ i acts, acts = leaveKTask ds.cols minN (k.amount (recordsOf ds.rows v).length) last (rngs i)
        (recordsOf ds.rows v) ∧
      recordsOf train.rows v = (recordsOf ds.rows v).filter (fun r =>
        r.rid ∉ acts.flatMap removedBy ∧ r.rid ∉ acts.flatMap testedBy) ∧
      recordsOf test.rows v = (recordsOf ds.rows v).filter (fun r => r.rid ∈ acts.flatMap testedBy) := by
  obtain ⟨us, hus, hnd, hmem⟩ := uniqueVals_user h.hasUser (by decide)
  obtain ⟨i, hi⟩ := List.getElem?_of_mem ((hmem v).2 hv)
  exact ⟨i, leaveK_view_at h hu hl hr hus hi⟩

/-- Per-user result of `leave_k_out`. -/
theorem leaveK_users {ds : Mem} (h : IntUsers ds) (hu : RidsUnique ds) (k : KArg) (minN : Nat)
    (last : Option String) (hl : LabelOk ds last) (rngs : Nat → Nat → Nat) (verbose : Bool)
    (train test : Mem) (hr : LeaveKOut ds k minN last rngs verbose train test) (v : Val) :
    let n := (recordsOf ds.rows v).length
    (n < minN → recordsOf train.rows v = [] ∧ recordsOf test.rows v = []) ∧
    (minN ≤ n → (n ≤ k.amount n ∨ k.amount n = 0) →
      recordsOf train.rows v = recordsOf ds.rows v ∧ recordsOf test.rows v = []) ∧
    (minN ≤ n → k.amount n < n → 0 < k.amount n → (recordsOf test.rows v).length = k.amount n ∧
      (recordsOf train.rows v ++ recordsOf test.rows v).Perm (recordsOf ds.rows v)) := by
  intro n
  by_cases hv : ∃ r ∈ ds.rows, r.get "user" = v
  · obtain ⟨i, acts, rfl, e1, e2⟩ := leaveK_view h hu hl hr hv
    rw [e1, e2]
    have hl' : ∀ l, last = some l → l ∈ ds.cols := by rintro l rfl; exact hl
    obtain ⟨c1, c2, c3⟩ := leaveKTask_cases ds.cols minN (k.amount (recordsOf ds.rows v).length) last
      (rngs i) (recordsOf ds.rows v) (recordsOf_rids hu v) hl'
    refine ⟨fun b => ?_, fun b1 b2 => ?_, fun b1 b2 b3 => ?_⟩
    · rw [c1 b]
      simp only [List.flatMap_cons, removedBy, testedBy, List.flatMap_nil, List.append_nil,
        List.filter_eq_nil_iff, List.not_mem_nil, decide_false, not_false_eq_true, and_true,
        decide_eq_true_eq, not_not, Bool.false_eq_true, implies_true]
      exact fun r hr => List.mem_map_of_mem hr
    · rw [c3 b1 b2]
      simp [removedBy, testedBy]
    · obtain ⟨S, q1, q2, q3, q4⟩ := c2 b1 b2 b3
      rw [q4]
      simp only [List.flatMap_cons, removedBy, testedBy, List.flatMap_nil, List.append_nil,
        List.not_mem_nil, not_false_eq_true, true_and]
      exact ⟨(sampled_count (recordsOf_rids hu v) q1 q2).trans q3, filter_partition _ S⟩
  · obtain ⟨tasks, m, _, _, _, hf⟩ := hr
    obtain ⟨s1, s2, _⟩ := split_disjoint ds m
    rw [hf] at s1 s2
    have a1 := recordsOf_nonuser hv _ s1
    have a2 := recordsOf_nonuser hv _ s2
    have a3 := recordsOf_nonuser hv ds.rows (List.Sublist.refl _)
    have hn : n = 0 := by simp only [n, a3, List.length_nil]
    rw [a1, a2, a3]
    exact ⟨fun _ => ⟨rfl, rfl⟩, fun _ _ => ⟨rfl, rfl⟩, fun _ b _ => absurd b (by omega)⟩

theorem leaveK_shape {ds : Mem} {k : KArg} {minN : Nat}
    {last : Option String} {rngs : Nat → Nat → Nat} {verbose : Bool}
    {train test : Mem} (hr : LeaveKOut ds k minN last rngs verbose train test) :
    Spec.Disjoint ds train test ∧ train.cols = ds.cols ∧ test.cols = ds.cols := by
  obtain ⟨tasks, m, _, _, _, hf⟩ := hr
  have hsub := split_disjoint ds m
  rw [hf] at hsub
  have e1 := congrArg (fun p : Mem × Mem => p.1.cols) hf
  have e2 := congrArg (fun p : Mem × Mem => p.2.cols) hf
  exact ⟨hsub, e1.symm, e2.symm⟩

/-! ## C33 -/

/-- **C33** (partial: integer user ids; the full property is for every dataset and fails for text ids,
`C37_text_ids_not_split`).  For every `k > 0`, minimum, random outcome and interleaving: users with too
few records are in neither set, the others have `k` records in test and the rest in train, or are
entirely in train when they have at most `k`. -/
theorem C33_leave_k_out_partial (ds : Mem) (h : IntUsers ds) (hu : RidsUnique ds) (k : Nat) (hk : 0 < k)
    (minN : Nat) (last : Option String) (hl : LabelOk ds last) (rngs : Nat → Nat → Nat)
    (verbose : Bool) (train test : Mem) (hr : LeaveKOut ds (.fixed k) minN last rngs verbose train test) :
    Spec.Disjoint ds train test ∧ (train.cols = ds.cols ∧ test.cols = ds.cols) ∧
    (∀ v,
      ((recordsOf ds.rows v).length < minN →
        recordsOf train.rows v = [] ∧ recordsOf test.rows v = []) ∧
      (minN ≤ (recordsOf ds.rows v).length → (recordsOf ds.rows v).length ≤ k →
        recordsOf train.rows v = recordsOf ds.rows v ∧ recordsOf test.rows v = []) ∧
      (minN ≤ (recordsOf ds.rows v).length → k < (recordsOf ds.rows v).length →
        (recordsOf test.rows v).length = k ∧
        (recordsOf train.rows v ++ recordsOf test.rows v).Perm (recordsOf ds.rows v))) ∧
    ∀ r ∈ test.rows, ∃ r' ∈ train.rows, r'.get "user" = r.get "user" := by
  have key := leaveK_users h hu (.fixed k) minN last hl rngs verbose train test hr
  simp only [KArg.amount, Int.toNat_natCast] at key
  refine ⟨(leaveK_shape hr).1, (leaveK_shape hr).2, ?_, ?_⟩
  · intro v
    obtain ⟨k1, k2, k3⟩ := key v
    exact ⟨k1, fun a b => k2 a (Or.inl b), fun a b => k3 a b hk⟩
  · intro r hr'
    obtain ⟨k1, k2, k3⟩ := key (r.get "user")
    have hmem : r ∈ recordsOf test.rows (r.get "user") := mem_recordsOf.2 ⟨hr', rfl⟩
    by_cases b1 : (recordsOf ds.rows (r.get "user")).length < minN
    · rw [(k1 b1).2] at hmem; simp at hmem
    · by_cases b2 : (recordsOf ds.rows (r.get "user")).length ≤ k
      · rw [(k2 (by omega) (Or.inl b2)).2] at hmem; simp at hmem
      · obtain ⟨c1, c2⟩ := k3 (by omega) (by omega) hk
        have := c2.length_eq
        rw [List.length_append] at this
        have hne : recordsOf train.rows (r.get "user") ≠ [] := by
          intro e; rw [e, List.length_nil] at this; omega
        obtain ⟨r', hr''⟩ := List.exists_mem_of_ne_nil _ hne
        exact ⟨r', (mem_recordsOf.1 hr'').1, (mem_recordsOf.1 hr'').2⟩

example : IntUsers exSplit ∧ RidsUnique exSplit ∧ LabelOk exSplit (some "timestamp") ∧
    (recordsOf exSplit.rows (.num 7)).length = 3 ∧ (recordsOf exSplit.rows (.num 9)).length = 1 ∧
    ∃ train test, LeaveKOut exSplit (.fixed 2) 1 (some "timestamp") (fun _ i => i) false train test :=
  ⟨exSplit_ok.1, exSplit_ok.2, by show "timestamp" ∈ exSplit.cols; decide, by decide +kernel,
    by decide +kernel, exSplit_runs (.fixed 2) rfl 1 _ _⟩

/-- **C33.** Other values of `k` are rejected. -/
theorem C33_rejects (ds : Mem) (k : Int) (hk : k ≤ 0) (minN : Nat) (last : Option String)
    (rngs : Nat → Nat → Nat) : leaveKTasks ds (.fixed k) minN last rngs = .error .assertion := by
  unfold leaveKTasks
  rw [if_neg (by simp [KArg.valid]; omega)]

/-! ## C34 -/

/-- **C34** (partial: integer user ids).  With a ratio `q` strictly between 0 and 1 every user with enough records has
`⌊n·q⌋` of its `n` records in test (the product in floating point) and the rest in train, so every user of the test set
is in the train set. -/
theorem C34_leave_ratio_out_partial (ds : Mem) (h : IntUsers ds) (hu : RidsUnique ds) (q : ℚ)
    (hd : IsDouble q) (hq : 0 < q ∧ q < 1) (minN : Nat) (last : Option String) (hl : LabelOk ds last)
    (rngs : Nat → Nat → Nat) (verbose : Bool) (train test : Mem)
    (hr : LeaveKOut ds (.ratio q) minN last rngs verbose train test) :
    Spec.Disjoint ds train test ∧
    (∀ v,
      ((recordsOf ds.rows v).length < minN →
        recordsOf train.rows v = [] ∧ recordsOf test.rows v = []) ∧
      (minN ≤ (recordsOf ds.rows v).length →
        ((recordsOf test.rows v).length : Int) = (toFloat ((recordsOf ds.rows v).length * q)).floor ∧
        (recordsOf train.rows v ++ recordsOf test.rows v).Perm (recordsOf ds.rows v))) ∧
    ∀ r ∈ test.rows, ∃ r' ∈ train.rows, r'.get "user" = r.get "user" := by
  have key := leaveK_users h hu (.ratio q) minN last hl rngs verbose train test hr
  have main : ∀ v, minN ≤ (recordsOf ds.rows v).length →
      (recordsOf test.rows v).length = (KArg.ratio q).amount (recordsOf ds.rows v).length ∧
      (recordsOf train.rows v ++ recordsOf test.rows v).Perm (recordsOf ds.rows v) := by
    intro v hm
    obtain ⟨_, k2, k3⟩ := key v
    by_cases b : 0 < (KArg.ratio q).amount (recordsOf ds.rows v).length
    · have hn : 0 < (recordsOf ds.rows v).length := by
        rcases Nat.eq_zero_or_pos (recordsOf ds.rows v).length with e | e
        · rw [e] at b; simp [KArg.amount, shareOf_zero] at b
        · exact e
      exact k3 hm (shareOf_lt hd hq.1 hq.2 hn) b
    · obtain ⟨e1, e2⟩ := k2 hm (Or.inr (by omega))
      rw [e1, e2]
      refine ⟨by simp; omega, by simp⟩
  refine ⟨(leaveK_shape hr).1, fun v => ⟨(key v).1, fun hm => ?_⟩, ?_⟩
  · refine ⟨?_, (main v hm).2⟩
    rw [(main v hm).1]
    exact shareOf_cast hq.1.le
  · intro r hr'
    have hmem : r ∈ recordsOf test.rows (r.get "user") := mem_recordsOf.2 ⟨hr', rfl⟩
    by_cases b1 : (recordsOf ds.rows (r.get "user")).length < minN
    · rw [((key _).1 b1).2] at hmem; simp at hmem
    · obtain ⟨c1, c2⟩ := main (r.get "user") (by omega)
      have hl2 := c2.length_eq
      rw [List.length_append] at hl2
      have hpos := List.length_pos_of_mem hmem
      have hlt := shareOf_lt hd hq.1 hq.2 (n := (recordsOf ds.rows (r.get "user")).length) (by omega)
      simp only [KArg.amount] at c1
      have hne : recordsOf train.rows (r.get "user") ≠ [] := by
        intro e; rw [e, List.length_nil] at hl2; omega
      obtain ⟨r', hr''⟩ := List.exists_mem_of_ne_nil _ hne
      exact ⟨r', (mem_recordsOf.1 hr'').1, (mem_recordsOf.1 hr'').2⟩

example : IntUsers exSplit ∧ RidsUnique exSplit ∧ LabelOk exSplit none ∧
    IsDouble (3 / 8 : ℚ) ∧ (toFloat ((recordsOf exSplit.rows (.num 7)).length * (3 / 8 : ℚ))).floor = 1 ∧
    (toFloat ((recordsOf exSplit.rows (.num 9)).length * (3 / 8 : ℚ))).floor = 0 ∧
    ∃ train test, LeaveKOut exSplit (.ratio (3 / 8)) 0 none (fun _ i => i) false train test :=
  ⟨exSplit_ok.1, exSplit_ok.2, trivial, ⟨3, -3, by decide, by decide +kernel⟩, by decide +kernel, by decide +kernel,
    exSplit_runs (.ratio (3 / 8)) (by decide +kernel) 0 _ _⟩

/-- **C34.** Ratios outside `(0, 1)` are rejected. -/
theorem C34_rejects (ds : Mem) (q : ℚ) (hq : ¬ (0 < q ∧ q < 1)) (minN : Nat) (last : Option String)
    (rngs : Nat → Nat → Nat) : leaveKTasks ds (.ratio q) minN last rngs = .error .assertion := by
  unfold leaveKTasks
  rw [if_neg (by simpa [KArg.valid] using hq)]

example : ¬ ((0 : ℚ) < 1 ∧ (1 : ℚ) < 1) := by decide +kernel

end DRec
