import Verif.Props.Splits
import Verif.Lemmas.Text

/-!
# C36, C37: interleavings of the split tasks, termination, text ids
-/

namespace DRec

open Spec

/-! ## C36 -/

/-- **C36.** For all tasks and every interleaving that runs them to the end, the shared lists hold
exactly what the tasks put in and the counter is the number of counted tasks: no update is lost. -/
theorem C36_no_lost_update (tasks : List (List SAct)) (m : (v : SVar) → v.Ty) (h : SplitRun tasks m) :
    (m .rem).Perm (tasks.flatten.flatMap removedBy) ∧
    (m .test).Perm (tasks.flatten.flatMap testedBy) ∧
    m .done = tasks.flatten.countP counts := splitRun_mem h

theorem splitFinish_congr (ds : Mem) (m m' : (v : SVar) → v.Ty) (h1 : (m .rem).Perm (m' .rem))
    (h2 : (m .test).Perm (m' .test)) : splitFinish ds m = splitFinish ds m' := by
  have e1 : ∀ i, i ∈ m .rem ++ m .test ↔ i ∈ m' .rem ++ m' .test := by
    intro i; exact (h1.append h2).mem_iff
  have e2 : ∀ i, i ∈ m .test ↔ i ∈ m' .test := fun i => h2.mem_iff
  simp only [splitFinish, Mem.drop, dropRows, Bool.false_eq_true, if_false, if_true, e1, e2]

/-- **C36.** For every dataset, arguments and random outcome, `leave_k_out` returns the same train and
test set for all interleavings (hence for every number of worker threads). -/
theorem C36_leave_k_out (ds : Mem) (k : KArg) (minN : Nat) (last : Option String)
    (rngs : Nat → Nat → Nat) (v v' : Bool) (train test train' test' : Mem)
    (h : LeaveKOut ds k minN last rngs v train test)
    (h' : LeaveKOut ds k minN last rngs v' train' test') : train = train' ∧ test = test' := by
  obtain ⟨tasks, m, h1, h2, _, h3⟩ := h
  obtain ⟨tasks', m', h1', h2', _, h3'⟩ := h'
  rw [h1] at h1'
  cases h1'
  obtain ⟨a1, a2, _⟩ := splitRun_mem h2
  obtain ⟨b1, b2, _⟩ := splitRun_mem h2'
  have := splitFinish_congr ds m m' (a1.trans b1.symm) (a2.trans b2.symm)
  rw [h3, h3'] at this
  exact Prod.mk.inj this

/-- **C36.** The same for `matrix_split`. -/
theorem C36_matrix_split (ds : Mem) (userRatio itemRatio : ℚ) (minN : Nat) (rngU rngI : Nat → Nat)
    (v v' : Bool) (train test train' test' : Mem)
    (h : MatrixSplit ds userRatio itemRatio minN rngU rngI v train test)
    (h' : MatrixSplit ds userRatio itemRatio minN rngU rngI v' train' test') :
    train = train' ∧ test = test' := by
  obtain ⟨tasks, m, h1, h2, _, h3⟩ := h
  obtain ⟨tasks', m', h1', h2', _, h3'⟩ := h'
  rw [h1] at h1'
  cases h1'
  obtain ⟨a1, a2, _⟩ := splitRun_mem h2
  obtain ⟨b1, b2, _⟩ := splitRun_mem h2'
  have := splitFinish_congr ds m m' (a1.trans b1.symm) (a2.trans b2.symm)
  rw [h3, h3'] at this
  exact Prod.mk.inj this

example : ∃ train test, LeaveKOut exSplit (.fixed 1) 0 none (fun _ i => i) false train test :=
  exSplit_runs _ rfl _ _ _

/-! ## C37 -/

/-- Tasks never get stuck: as long as one is unfinished some task can make a step, no execution is
longer than four steps per section, and one run to the end exists. -/
theorem C37_no_deadlock (tasks : List (List SAct)) (n : Nat) (c : Cfg SVar.Ty)
    (h : Steps n (splitStart tasks) c) :
    (¬ c.Complete → ∃ i d, c.step i = some d) ∧ n ≤ 4 * tasks.flatten.length ∧
    ∃ m, SplitRun tasks m := by
  refine ⟨steps_progress (steps_inv (init_inv _ _) h), ?_, splitRun_exists tasks⟩
  have := steps_bounded h
  have e : (splitStart tasks).size = 4 * tasks.flatten.length := by
    simp only [splitStart, Cfg.size, Cfg.init, List.map_map]
    clear this h
    induction tasks with
    | nil => rfl
    | cons t ts ih =>
      simp only [List.map_cons, List.sum_cons, ih, Function.comp, Th.size, List.length_map,
        List.flatten_cons, List.length_append]
      omega
  omega

theorem flatten_count (tasks : List (List SAct)) :
    tasks.flatten.countP counts = (tasks.map (List.countP counts)).sum := by
  induction tasks with
  | nil => rfl
  | cons t ts ih => simp [List.countP_append, ih]

theorem sum_ones (l : List Nat) (h : ∀ x ∈ l, x = 1) : l.sum = l.length := by
  induction l with
  | nil => rfl
  | cons x xs ih =>
    simp only [List.sum_cons, List.length_cons]
    rw [ih fun y hy => h y (by simp [hy]), h x (by simp)]
    omega

theorem sum_lt (l : List Nat) (h : ∀ x ∈ l, x ≤ 1) (h0 : 0 ∈ l) : l.sum < l.length := by
  have hle : ∀ l : List Nat, (∀ x ∈ l, x ≤ 1) → l.sum ≤ l.length := by
    intro l h
    induction l with
    | nil => simp
    | cons x xs ih =>
      have := ih fun y hy => h y (by simp [hy])
      have := h x (by simp)
      simp only [List.sum_cons, List.length_cons]; omega
  induction l with
  | nil => simp at h0
  | cons x xs ih =>
    simp only [List.sum_cons, List.length_cons]
    have hx := h x (by simp)
    have hxs := hle xs fun y hy => h y (by simp [hy])
    rcases List.mem_cons.1 h0 with rfl | h0
    · omega
    · have := ih (fun y hy => h y (by simp [hy])) h0; omega

theorem leaveKTask_count_le (cols : List String) (minN k : Nat) (last : Option String)
    (rng : Nat → Nat) (rows : List Row) :
    (leaveKTask cols minN k last rng rows).countP counts ≤ 1 := by
  unfold leaveKTask
  split
  · simp [counts]
  · split
    · split
      · split <;> simp [counts]
      · simp [counts]
    · simp [counts]

theorem leaveKTask_count (cols : List String) (minN k : Nat) (last : Option String)
    (rng : Nat → Nat) (rows : List Row) (hl : ∀ l, last = some l → l ∈ cols) :
    (leaveKTask cols minN k last rng rows).countP counts = 1 := by
  unfold leaveKTask
  split
  · simp [counts]
  · split
    · split
      · rename_i l
        rw [if_pos (hl l rfl)]
        simp [counts]
      · simp [counts]
    · simp [counts]

theorem leaveKUser_count_le (ds : Mem) (k : KArg) (minN : Nat) (last : Option String)
    (rng : Nat → Nat) (v : Val) : (leaveKUser ds k minN last rng v).countP counts ≤ 1 := by
  unfold leaveKUser
  split
  · simp
  · exact leaveKTask_count_le _ _ _ _ _ _

/-- **C37** (partial: integer user ids; the full property covers text ids and is false for them,
`C37_text_ids_hang`).  `leave_k_out` starts for every valid `k`, every run to the end leaves the
counter at the number of tasks, so the waiting loop ends, and there is such a run. -/
theorem C37_leave_k_out_finishes_partial (ds : Mem) (h : IntUsers ds) (k : KArg) (hk : k.valid = true)
    (minN : Nat) (last : Option String) (hl : LabelOk ds last) (rngs : Nat → Nat → Nat) :
    (∃ tasks, leaveKTasks ds k minN last rngs = .ok tasks ∧
      ∀ m, SplitRun tasks m → m .done = tasks.length) ∧
    ∀ verbose, ∃ train test, LeaveKOut ds k minN last rngs verbose train test := by
  obtain ⟨us, hus, hnd, hmem⟩ := uniqueVals_user h.hasUser (by decide)
  have key : ∃ tasks, leaveKTasks ds k minN last rngs = .ok tasks ∧
      ∀ m, SplitRun tasks m → m .done = tasks.length := by
    refine ⟨us.zipIdx.map fun p => leaveKUser ds k minN last (rngs p.2) p.1, ?_, ?_⟩
    · simp [leaveKTasks, hk, hus, Except.map]
    · intro m hm
      rw [(splitRun_mem hm).2.2, flatten_count, sum_ones]
      · simp
      · intro x hx
        simp only [List.map_map, List.mem_map] at hx
        obtain ⟨p, hp, rfl⟩ := hx
        have hv := (hmem p.1).1 (List.fst_mem_of_mem_zipIdx hp)
        simp only [Function.comp]
        rw [leaveKUser_int h _ _ _ _ hv]
        exact leaveKTask_count _ _ _ _ _ _ (by rintro l rfl; exact hl)
  refine ⟨key, fun verbose => ?_⟩
  obtain ⟨tasks, ht, hd⟩ := key
  obtain ⟨m, hm⟩ := splitRun_exists tasks
  exact ⟨_, _, tasks, m, ht, hm, fun _ => hd m hm, rfl⟩

/-- At every moment the counter is at most the number of counting sections. -/
theorem split_done_le {tasks : List (List SAct)} {n : Nat} {c : Cfg SVar.Ty}
    (h : Steps n (splitStart tasks) c) : c.mem .done ≤ tasks.flatten.countP counts := by
  obtain ⟨log, h1, h2⟩ := (steps_inv (init_inv splitInit (tasks.map (List.map SAct.sec))) h).log
  rw [← List.map_flatten] at h2
  obtain ⟨l', h3, h4⟩ := perm_map_inv SAct.sec h2
  obtain ⟨l1, l2, rfl, rfl, -⟩ := List.append_eq_map_iff.1 h4
  rw [h1, (applyLog_split l1 splitInit).2.2, ← h3.countP_eq, List.countP_append]
  simp [splitInit]

/-- **C37 fails**: as soon as the records of one user cannot be selected, the counter never reaches the
number of tasks in any execution, so the waiting loop of `leave_k_out` never ends. -/
theorem C37_failed_user_hangs (ds : Mem) (k : KArg) (minN : Nat) (last : Option String)
    (rngs : Nat → Nat → Nat) (tasks : List (List SAct))
    (ht : leaveKTasks ds k minN last rngs = .ok tasks) (hc : "user" ∈ ds.cols)
    (r : Row) (hr : r ∈ ds.rows) (e : Err) (he : userRows ds (r.get "user") = .error e) :
    (∀ n c, Steps n (splitStart tasks) c → c.mem .done < tasks.length) ∧
    ∀ train test, ¬ LeaveKOut ds k minN last rngs true train test := by
  obtain ⟨us, hus, hv, rfl⟩ := leaveKTasks_ok ht
  obtain ⟨us', hus', hnd, hmem⟩ := uniqueVals_user hc (by decide)
  rw [hus] at hus'
  cases hus'
  have hlt : ((leaveKPairs ds k minN last rngs us).map (·.2)).flatten.countP counts <
      ((leaveKPairs ds k minN last rngs us).map (·.2)).length := by
    rw [flatten_count]
    have := sum_lt (((leaveKPairs ds k minN last rngs us).map (·.2)).map (List.countP counts)) ?_ ?_
    · simpa using this
    · intro x hx
      simp only [leaveKPairs, List.map_map, List.mem_map] at hx
      obtain ⟨p, _, rfl⟩ := hx
      exact leaveKUser_count_le _ _ _ _ _ _
    · have hvu := (hmem (r.get "user")).2 ⟨r, hr, rfl⟩
      obtain ⟨i, hi, e'⟩ := List.getElem_of_mem hvu
      simp only [leaveKPairs, List.map_map, List.mem_map]
      refine ⟨(r.get "user", i), ?_, ?_⟩
      · rw [List.mem_zipIdx_iff_getElem?]
        simpa [hi] using e'
      · simp [leaveKUser, he]
  have main : ∀ n c, Steps n (splitStart ((leaveKPairs ds k minN last rngs us).map (·.2))) c →
      c.mem .done < ((leaveKPairs ds k minN last rngs us).map (·.2)).length :=
    fun n c hs => lt_of_le_of_lt (split_done_le hs) hlt
  refine ⟨main, ?_⟩
  rintro train test ⟨tasks', m, ht', ⟨n, c, hs, _, rfl⟩, hd, _⟩
  rw [ht] at ht'
  cases ht'
  exact absurd (hd rfl) (main n c hs).ne

/-! ### Text ids -/

theorem alnum_clean {c : Char} (h : c.isAlphanum = true) :
    c ≠ ',' ∧ c ≠ '.' ∧ c ≠ ' ' ∧ c.isWhitespace = false := by
  refine ⟨?_, ?_, ?_, ?_⟩
  · rintro rfl; revert h; decide
  · rintro rfl; revert h; decide
  · rintro rfl; revert h; decide
  · cases hw : c.isWhitespace with
    | false => rfl
    | true =>
      simp only [Char.isWhitespace, Bool.or_eq_true, decide_eq_true_eq, or_assoc] at hw
      rcases hw with rfl | rfl | rfl | rfl <;> revert h <;> decide

theorem plainWord_clean {s : String} (h : PlainWord s) :
    ∀ x ∈ s.toList, x.isAlphanum = true := by
  obtain ⟨c, cs, e, h1, h2⟩ := h
  rw [e]
  intro x hx
  rcases List.mem_cons.1 hx with rfl | hx
  · simp [Char.isAlphanum, h1]
  · exact h2 x hx

theorem alpha_not_digit {c : Char} (h : c.isAlpha = true) : c.isDigit = false := by
  simp only [Char.isAlpha, Char.isUpper, Char.isLower, Char.isDigit, Bool.or_eq_true,
    Bool.and_eq_true, decide_eq_true_eq, Bool.and_eq_false_imp, decide_eq_false_iff_not] at *
  intro _ h2
  rcases h with ⟨h, _⟩ | ⟨h, _⟩
  · exact absurd (UInt32.le_trans h h2) (by decide)
  · exact absurd (UInt32.le_trans h h2) (by decide)

theorem pyEval_word {s : String} (h : PlainWord s) : pyEval s.toList = none := by
  have hclean := plainWord_clean h
  obtain ⟨c, cs, e, h1, h2⟩ := h
  rw [e] at hclean ⊢
  have hdig : isDigits (c :: cs) = false := by simp [isDigits, alpha_not_digit h1]
  have hsign : signOf (c :: cs) = (false, c :: cs) := by
    unfold signOf
    split
    · rename_i e; cases e; exact absurd h1 (by decide)
    · rename_i e; cases e; exact absurd h1 (by decide)
    · rfl
  have hfloat : pyFloat (c :: cs) = none := by
    unfold pyFloat
    rw [hsign]
    simp only [Option.map_eq_none_iff]
    unfold pyDecimal
    rw [pySplit_none '.' (c :: cs) (fun hm => (alnum_clean (hclean _ hm)).2.1 rfl)]
    simp [hdig]
  unfold pyEval
  split
  · rename_i e; cases e; exact absurd h1 (by decide)
  · rename_i e; cases e; exact absurd h1 (by decide)
  · rw [hsign]
    simp [hdig, hfloat]

/-- Integers written with superfluous zeros are not Python. -/
theorem pyEval_zero {s : List Char} (h : ZeroNumber s) : pyEval s = none := by
  obtain ⟨cs, rfl, h2, x, hx, hx0⟩ := h
  unfold pyEval
  split
  · rename_i e; cases e
  · rename_i e; cases e
  · have hsign : signOf ('0' :: cs) = (false, '0' :: cs) := rfl
    rw [hsign]
    have hdig : isDigits ('0' :: cs) = true := by
      simp only [isDigits, List.isEmpty_cons, Bool.not_false, List.all_cons, Bool.true_and, Bool.and_eq_true]
      exact ⟨by decide, List.all_eq_true.2 h2⟩
    have hall : ('0' :: cs).all (· = '0') = false := by
      rw [List.all_eq_false]
      exact ⟨x, List.mem_cons_of_mem _ hx, by simpa using hx0⟩
    simp only [hdig, if_true, List.head?_cons, hall]
    rfl

/-- The per-user query of the splits fails for a text id of letters and digits that is not a Python expression. -/
theorem userRows_unread {ds : Mem} (hc : "user" ∈ ds.cols) (hd : ds.dtype "user" = .obj) {s : String}
    (hclean : ∀ x ∈ s.toList, x.isAlphanum = true) (hne : s.toList ≠ []) (hev : pyEval s.toList = none) :
    ∃ e, userRows ds (.str s) = .error e := by
  have hcomma : ',' ∉ "user == ".toList ++ s.toList := by
    rw [List.mem_append]
    rintro (h | h)
    · revert h; decide
    · exact (alnum_clean (hclean _ h)).1 rfl
  have hsplit := pySplit_none ',' _ hcomma
  have hparse : parseSegment ("user == ".toList ++ s.toList) = .ok ⟨"user", "==", s.toList⟩ := by
    unfold parseSegment
    have hst := strip_pad [] ("user == ".toList ++ s.toList) [] (by simp [Blank]) (by simp [Blank])
      (by
        intro x hx
        have : ("user == ".toList ++ s.toList).head? = some 'u' := rfl
        rw [this] at hx; cases hx; decide)
      (by
        intro x hx
        rw [List.getLast?_append] at hx
        cases hg : s.toList.getLast? with
        | none => exact absurd (List.getLast?_eq_none_iff.1 hg) hne
        | some z =>
          rw [hg] at hx
          simp only [Option.some_or, Option.some.injEq] at hx
          subst hx
          exact (alnum_clean (hclean _ (List.mem_of_getLast? hg))).2.2.2)
    simp only [List.nil_append, List.append_nil] at hst
    rw [hst]
    have e : "user == ".toList ++ s.toList = "user".toList ++ ' ' :: ("==".toList ++ ' ' :: s.toList) := rfl
    rw [e, pySplit_append _ _ _ (by decide), pySplit_append _ _ _ (by decide), pySplit_none]
    · rfl
    · exact fun hm => (alnum_clean (hclean _ hm)).2.2.1 rfl
  have hseg : ¬ ∀ t ∈ pySplit ',' ("user == ".toList ++ s.toList), ds.SegOk t := by
    rw [hsplit]
    intro h
    obtain ⟨t, ht, _⟩ := h _ (List.mem_singleton.2 rfl)
    unfold Mem.segTest at ht
    rw [hparse] at ht
    simp [bind, Except.bind, Mem.readCond, hc, Mem.parseValue, Mem.colDType, hd, hev] at ht
  unfold userRows
  cases hsel : ds.select ("user == ".toList ++ cellText (.str s)) with
  | error e => exact ⟨e, rfl⟩
  | ok d =>
    rw [Mem.select_iff] at hsel
    exact absurd hsel.1 hseg

/-- The per-user query of the splits fails for a text id that is a plain word. -/
theorem userRows_word {ds : Mem} (hc : "user" ∈ ds.cols) (hd : ds.dtype "user" = .obj) {s : String}
    (hs : PlainWord s) : ∃ e, userRows ds (.str s) = .error e := by
  refine userRows_unread hc hd (plainWord_clean hs) ?_ (pyEval_word hs)
  obtain ⟨c, cs, e, _, _⟩ := hs
  rw [e]
  exact List.cons_ne_nil _ _

/-- **C37 fails** for text ids that are numbers written with leading zeros, such as `007`: no execution of `leave_k_out` with
its progress bar ever returns. -/
theorem C37_zero_ids_hang (ds : Mem) (hc : "user" ∈ ds.cols) (hd : ds.dtype "user" = .obj)
    (r : Row) (hr : r ∈ ds.rows) (s : String) (hs : ZeroNumber s.toList) (hrs : r.get "user" = .str s)
    (k : KArg) (minN : Nat) (last : Option String) (rngs : Nat → Nat → Nat) (train test : Mem) :
    ¬ LeaveKOut ds k minN last rngs true train test := by
  intro h
  obtain ⟨tasks, m, ht, _⟩ := id h
  have hev := pyEval_zero hs
  obtain ⟨cs, e, h2, _⟩ := hs
  obtain ⟨e, he⟩ := userRows_unread hc hd (s := s) (by
    intro x hx
    rw [e] at hx
    rcases List.mem_cons.1 hx with rfl | hx
    · decide
    · simp [Char.isAlphanum, h2 x hx]) (by rw [e]; exact List.cons_ne_nil _ _) hev
  rw [← hrs] at he
  exact (C37_failed_user_hangs ds k minN last rngs tasks ht hc r hr e he).2 train test h

/-- Numbers written with leading zeros as text ids. -/
example : let ds := mkMem .obj [(.str "007", .num 1, 2), (.str "bob", .num 1, 3)]
    "user" ∈ ds.cols ∧ ds.dtype "user" = .obj ∧ (∃ r ∈ ds.rows, r.get "user" = .str "007") ∧ ZeroNumber "007".toList :=
  ⟨by decide, by decide, by decide +kernel, ['0', '7'], by decide, by decide, '7', by decide, by decide⟩

/-- **C37 fails** for text ids: when a user id is a plain word, no execution of `leave_k_out` with its
progress bar ever returns. -/
theorem C37_text_ids_hang (ds : Mem) (hc : "user" ∈ ds.cols) (hd : ds.dtype "user" = .obj)
    (r : Row) (hr : r ∈ ds.rows) (s : String) (hs : PlainWord s) (hrs : r.get "user" = .str s)
    (k : KArg) (minN : Nat) (last : Option String) (rngs : Nat → Nat → Nat) (train test : Mem) :
    ¬ LeaveKOut ds k minN last rngs true train test := by
  intro h
  obtain ⟨tasks, m, ht, _⟩ := id h
  obtain ⟨e, he⟩ := userRows_word hc hd hs
  rw [← hrs] at he
  exact (C37_failed_user_hangs ds k minN last rngs tasks ht hc r hr e he).2 train test h

/-- **C37, C33 fail** for text ids: when all user ids are plain words, a silent `leave_k_out` returns
the whole dataset as train set and an empty test set, whatever `k` and the minimum are. -/
theorem C37_text_ids_not_split (ds : Mem) (hc : "user" ∈ ds.cols) (hd : ds.dtype "user" = .obj)
    (hw : ∀ r ∈ ds.rows, ∃ s, PlainWord s ∧ r.get "user" = .str s)
    (k : KArg) (minN : Nat) (last : Option String) (rngs : Nat → Nat → Nat) (train test : Mem)
    (h : LeaveKOut ds k minN last rngs false train test) : train.rows = ds.rows ∧ test.rows = [] := by
  obtain ⟨tasks, m, ht, hm, _, hf⟩ := h
  obtain ⟨us, hus, hv, rfl⟩ := leaveKTasks_ok ht
  obtain ⟨us', hus', hnd, hmem⟩ := uniqueVals_user hc (by decide)
  rw [hus] at hus'
  cases hus'
  have hall : ∀ t ∈ (leaveKPairs ds k minN last rngs us).map (·.2), t = [] := by
    intro t htm
    simp only [leaveKPairs, List.map_map, List.mem_map] at htm
    obtain ⟨p, hp, rfl⟩ := htm
    obtain ⟨r, hr, e⟩ := (hmem p.1).1 (List.fst_mem_of_mem_zipIdx hp)
    obtain ⟨s, hs, e2⟩ := hw r hr
    obtain ⟨e', he⟩ := userRows_word hc hd hs
    simp [Function.comp, leaveKUser, ← e, e2, he]
  obtain ⟨h1, h2, _⟩ := splitRun_mem hm
  have hflat : ((leaveKPairs ds k minN last rngs us).map (·.2)).flatten = [] := by
    rw [List.flatten_eq_nil_iff]; exact hall
  rw [hflat] at h1 h2
  have e1 : m .rem = [] := by simpa using h1
  have e2 : m .test = [] := by simpa using h2
  have a := congrArg (fun p : Mem × Mem => p.1.rows) hf
  have b := congrArg (fun p : Mem × Mem => p.2.rows) hf
  simp only [splitFinish, e1, e2] at a b
  rw [← a, ← b]
  simp [Mem.drop, dropRows]

/-- Two users named by words. -/
def exWords : Mem := mkMem .obj [(.str "ann", .num 1, 2), (.str "bob", .num 1, 3), (.str "ann", .num 2, 4)]

example : IntUsers exSplit ∧ (KArg.fixed 2).valid = true ∧ LabelOk exSplit none :=
  ⟨exSplit_ok.1, rfl, trivial⟩

theorem exWords_plain : ∀ r ∈ exWords.rows, ∃ s, PlainWord s ∧ r.get "user" = .str s := by
  have e : exWords.rows.map (·.get "user") = [.str "ann", .str "bob", .str "ann"] := by decide +kernel
  intro r hr
  have : r.get "user" ∈ exWords.rows.map (·.get "user") := List.mem_map.2 ⟨r, hr, rfl⟩
  rw [e] at this
  simp only [List.mem_cons, List.not_mem_nil, or_false] at this
  rcases this with h | h | h <;> rw [h]
  · exact ⟨"ann", ⟨'a', ['n', 'n'], by decide, by decide, by decide⟩, rfl⟩
  · exact ⟨"bob", ⟨'b', ['o', 'b'], by decide, by decide, by decide⟩, rfl⟩
  · exact ⟨"ann", ⟨'a', ['n', 'n'], by decide, by decide, by decide⟩, rfl⟩

/-- The failing executions exist: a silent run of `leave_k_out` on text ids returns. -/
example : "user" ∈ exWords.cols ∧ exWords.dtype "user" = .obj ∧ exWords.rows.length = 3 ∧
    (∀ r ∈ exWords.rows, ∃ s, PlainWord s ∧ r.get "user" = .str s) ∧
    ∃ train test, LeaveKOut exWords (.fixed 1) 0 none (fun _ i => i) false train test := by
  have hc : "user" ∈ exWords.cols := by decide
  refine ⟨hc, by decide, by decide, exWords_plain, ?_⟩
  obtain ⟨us, hus, _⟩ := uniqueVals_user hc (by decide)
  exact leaveKOut_exists (tasks := us.zipIdx.map fun p => leaveKUser exWords (.fixed 1) 0 none (fun i => i) p.1)
    (by simp [leaveKTasks, KArg.valid, hus, Except.map])

end DRec
