import Verif.Lemmas.DbSplits
import Verif.Props.Both

/-!
# C102: splitting a database dataset gives what splitting in memory gives

`C102_random_split` is the full claim for `random_split`.  `C102_leave_k_out_partial` and
`C102_matrix_split_partial` hold for integer user ids and when the limit of direct interactions is not reached while
the tasks run (`Spec.PoolSafe`: always when the dataset has no pending filter); `C102_returns_partial` says when
`leave_k_out` returns.  Missing from the full claim: other datasets.  For them it is false: `C102_fails_filtered` is a
filtered dataset and an interleaving where a record is moved to the test set that must stay in the train set, and by
`C102_raises` a dataset that was filtered before and has many records cannot be split at all.
-/

namespace DRec.Conc

open Spec

theorem reached_good {names : List String} {w : World} (h : Reached names w) : NamesOk names ∧ Good names w := by
  obtain ⟨cols, types, rows, ops, hn, hcols, hrid, hsort, ha, rfl⟩ := h
  obtain ⟨g1, _⟩ := ofCsv_good hn types rows hcols hrid hsort
  exact ⟨hn, (history_good hn g1 ops [] (by simpa using ha)).1⟩

theorem sameData_mem {w : World} {i : Nat} {x : Inst} {m : Mem} (h : SameData w i x m) : MemOk m :=
  ⟨h.full.1 (by simp), h.sorted, h.cache⟩

theorem unique_length {m : Mem} {c : String} (hc : c ∈ m.cols) (hr : c ≠ "rid") :
    ∃ vs, uniqueVals m c = .ok vs ∧ vs.length = distinct m c ∧ ∀ v ∈ vs, ∃ r ∈ m.rows, r.get c = v := by
  obtain ⟨vs, h1, h2, h3⟩ := uniqueVals_user hc hr
  refine ⟨vs, h1, ?_, fun v hv => (h3 v).1 hv⟩
  unfold distinct
  apply List.Perm.length_eq
  rw [List.perm_ext_iff_of_nodup h2 (List.nodup_dedup _)]
  intro v
  simp [h3 v]

theorem splitInto_of {w w1 s w2 w' : World} {train test : Nat} {a b : Mem}
    (h1 : ∀ k q, plainOf w k = some q → plainOf w1 k = some q)
    (h2 : ∀ k q, plainOf w1 k = some q → plainOf s k = some q)
    (h3 : ∀ k q, plainOf s k = some q → plainOf w2 k = some q)
    (h4 : ∀ k q, plainOf w2 k = some q → (plainOf w k = some q ∨ k = train ∨ k = test) → plainOf w' k = some q)
    (ht : plainOf w2 train = some (memPlain a)) (hs : plainOf w2 test = some (memPlain b)) :
    SplitInto w w' train test a b :=
  ⟨h4 _ _ ht (Or.inr (Or.inl rfl)), h4 _ _ hs (Or.inr (Or.inr rfl)),
    fun k q hk => h4 k q (h3 k q (h2 k q (h1 k q hk))) (Or.inl hk)⟩

/-- After any admissible history, `leave_k_out` on a database dataset with integer user ids returns, in every
interleaving of its tasks, what it returns on the same records in memory; all datasets show what they showed. -/
theorem C102_leave_k_out_partial (names : List String) (w : World) (hw : Reached names w) (i : Nat) (x : Inst)
    (m : Mem) (hm : SameData w i x m) (hu : IntUsers m) (hty : ∀ ty, x.types = some ty → ty "user" = .int)
    (hsafe : PoolSafe x 1 (distinct m "user")) (k : KArg) (minN : Nat) (last : Option String)
    (rngs : Nat → Nat → Nat) (verbose : Bool) (w' : World) (train test : Nat)
    (h : DbLeaveKOut w i k minN last rngs verbose w' train test) :
    ∃ mtrain mtest, LeaveKOut m k minN last rngs verbose mtrain mtest ∧ SplitInto w w' train test mtrain mtest := by
  obtain ⟨hn, hg⟩ := reached_good hw
  obtain ⟨hk, w1, j, us, x1, s, mem, w2, e1, ex, hpool, hrun, hverb, hfin, rfl⟩ := h
  have hmem := sameData_mem hm
  obtain ⟨vs, hvs, hlen, hin⟩ := unique_length hu.hasUser (by decide)
  obtain ⟨g1, hq, ⟨q, p1⟩, hj, hji, y, hy, hy1, hy2, hy3⟩ :=
    dbUnique_good hn hg hmem hm.shows hm.object hu.hasUser (by decide) e1
  rw [hvs] at hq; cases hq
  rw [ex] at hy; cases hy
  have keep1 : ∀ k q, plainOf w k = some q → plainOf w1 k = some q := by
    intro k q hk
    have : k ≠ j := by rintro rfl; rw [hj] at hk; cases hk
    rw [p1]; simp [setAt, this, hk]
  have hlim : x1.state = .table ∨ x1.direct + us.length < 4 := by
    rcases hy3 with h3 | ⟨h3, h4, h5⟩
    · exact Or.inl h3
    · rcases hsafe with h6 | h6 | h6
      · exact Or.inl (h3.trans h6)
      · omega
      · exact Or.inr (by omega)
  obtain ⟨g2, htasks, keep2⟩ := pool_result hn g1 (keep1 _ _ hm.shows) ex hu (by rw [hy1]; exact hty) hm.full hin hlim
    hpool
  obtain ⟨g3, t1, t2, n1, n2, keep3⟩ := dbFinish_good hn g2 hmem (keep2 _ _ (keep1 _ _ hm.shows)) hfin
  have hcols : x1.columns = m.cols := by
    obtain ⟨x', _, _, hx', _, _, hpe⟩ := plain_inv g1 (keep1 _ _ hm.shows)
    rw [ex] at hx'; cases hx'
    exact (congrArg Plain.cols hpe).symm
  have htl : (s.tasks.zipIdx.map fun p => dbLeaveKUser x1.columns k minN last (rngs p.2) p.1) =
      us.zipIdx.map fun p => leaveKUser m k minN last (rngs p.2) p.1 := by
    rw [htasks, List.zipIdx_map, List.map_map, hcols]
    apply List.map_congr_left
    intro p hp
    simp only [Function.comp_apply, Prod.map, id]
    exact dbLeaveKUser_eq hu hmem.rid _ _ _ _ (hin _ (List.fst_mem_of_mem_zipIdx hp))
  rw [htl] at hrun
  have hjs : ∃ q, plainOf w2 j = some q := ⟨q, keep3 _ _ (keep2 _ _ (by rw [p1]; simp [setAt]))⟩
  obtain ⟨q', hq'⟩ := hjs
  obtain ⟨_, keep4⟩ := close_plain g3 hq'
  refine ⟨(splitFinish m mem).1, (splitFinish m mem).2, ⟨_, mem, by simp [leaveKTasks, hk, hvs, Except.map], hrun, ?_,
    rfl⟩, splitInto_of keep1 keep2 keep3 ?_ t1 t2⟩
  · intro hv
    rw [hverb hv]
    simp
  · intro k q hk ho
    refine keep4 k q ?_ hk
    have hjp : plainOf s.w j = some q ∨ ∃ q', plainOf s.w j = some q' := Or.inr ⟨_, keep2 _ _ (by rw [p1]; simp [setAt]; rfl)⟩
    rintro rfl
    rcases ho with ho | rfl | rfl
    · rw [hj] at ho; cases ho
    · rcases hjp with h | ⟨_, h⟩ <;> (rw [n1] at h; cases h)
    · rcases hjp with h | ⟨_, h⟩ <;> (rw [n2] at h; cases h)

/-- The same for `matrix_split`. -/
theorem C102_matrix_split_partial (names : List String) (w : World) (hw : Reached names w) (i : Nat) (x : Inst)
    (m : Mem) (hm : SameData w i x m) (hu : IntUsers m) (hty : ∀ ty, x.types = some ty → ty "user" = .int)
    (hsafe : PoolSafe x 2 (distinct m "user")) (userRatio itemRatio : ℚ) (minN : Nat)
    (rngU rngI : Nat → Nat) (verbose : Bool) (w' : World) (train test : Nat)
    (h : DbMatrixSplit w i userRatio itemRatio minN rngU rngI verbose w' train test) :
    ∃ mtrain mtest, MatrixSplit m userRatio itemRatio minN rngU rngI verbose mtrain mtest ∧
      SplitInto w w' train test mtrain mtest := by
  obtain ⟨hn, hg⟩ := reached_good hw
  obtain ⟨hk, w0, j0, us, w1, j, is, s, mem, w2, e0, e1, hpool, hrun, hverb, hfin, rfl⟩ := h
  have hmem := sameData_mem hm
  have hi : "item" ∈ m.cols := hm.full.1 (by simp)
  obtain ⟨vs, hvs, hlen, hin⟩ := unique_length hu.hasUser (by decide)
  obtain ⟨vi, hvi, _, _⟩ := unique_length hi (by decide)
  obtain ⟨g0, hq0, ⟨q0, p0⟩, hj0, hji0, z, hz, hz1, hz2, hz3⟩ :=
    dbUnique_good hn hg hmem hm.shows hm.object hu.hasUser (by decide) e0
  rw [hvs] at hq0; cases hq0
  have keep0 : ∀ k q, plainOf w k = some q → plainOf w0 k = some q := by
    intro k q hk
    have : k ≠ j0 := by rintro rfl; rw [hj0] at hk; cases hk
    rw [p0]; simp [setAt, this, hk]
  obtain ⟨g1, hq, ⟨q, p1⟩, hj, hji, y, hy, hy1, hy2, hy3⟩ :=
    dbUnique_good hn g0 hmem (keep0 _ _ hm.shows) hz hi (by decide) e1
  rw [hvi] at hq; cases hq
  have keep1' : ∀ k q, plainOf w0 k = some q → plainOf w1 k = some q := by
    intro k q hk
    have : k ≠ j := by rintro rfl; rw [hj] at hk; cases hk
    rw [p1]; simp [setAt, this, hk]
  have keep1 : ∀ k q, plainOf w k = some q → plainOf w1 k = some q := fun k q hk => keep1' k q (keep0 k q hk)
  have hlim : y.state = .table ∨ y.direct + us.length < 4 := by
    rcases hy3 with h3 | ⟨h3, h4, h5⟩
    · exact Or.inl h3
    · rcases hz3 with z3 | ⟨z3, z4, z5⟩
      · exact Or.inl (h3.trans z3)
      · rcases hsafe with h6 | h6 | h6
        · exact Or.inl (h3.trans (z3.trans h6))
        · omega
        · exact Or.inr (by omega)
  obtain ⟨g2, htasks, keep2⟩ := pool_result hn g1 (keep1 _ _ hm.shows) hy hu (by rw [hy1, hz1]; exact hty) hm.full hin
    hlim hpool
  obtain ⟨g3, t1, t2, n1, n2, keep3⟩ := dbFinish_good hn g2 hmem (keep2 _ _ (keep1 _ _ hm.shows)) hfin
  have htl : ((us.zip s.tasks).map fun p => dbMatrixUser minN (drawn us userRatio rngU) (drawn is itemRatio rngI)
      p.1 p.2) = us.map (matrixUser m minN (drawn us userRatio rngU) (drawn is itemRatio rngI)) := by
    rw [htasks, List.zip_map_right, List.map_map]
    have : us.zip us = us.map fun v => (v, v) := by
      generalize us = vs
      induction vs with
      | nil => rfl
      | cons v vs ih => simp [ih]
    rw [this, List.map_map]
    apply List.map_congr_left
    intro v hv
    simp only [Function.comp_apply, Prod.map, id]
    exact dbMatrixUser_eq hu hmem.rid hi _ _ _ (hin v hv)
  rw [htl] at hrun
  have hsj : plainOf s.w j = some q := keep2 _ _ (by rw [p1]; simp [setAt])
  have hsj0 : plainOf s.w j0 = some q0 := keep2 _ _ (keep1' _ _ (by rw [p0]; simp [setAt]))
  obtain ⟨g4, keep4⟩ := close_plain g3 (keep3 _ _ hsj)
  have hne : j0 ≠ j := by
    rintro rfl
    rw [p0] at hj
    simp [setAt] at hj
  obtain ⟨g5, keep5⟩ := close_plain g4 (keep4 j0 _ hne (keep3 _ _ hsj0))
  refine ⟨(splitFinish m mem).1, (splitFinish m mem).2, ⟨_, mem, by
    simp only [matrixTasks]
    rw [if_pos hk, hvs, hvi]
    rfl, hrun, ?_, rfl⟩, splitInto_of keep1 keep2 keep3 ?_ t1 t2⟩
  · intro hv
    rw [hverb hv]
    simp
  · intro k q hk ho
    have a1 : k ≠ j := by
      rintro rfl
      rcases ho with ho | rfl | rfl
      · rw [keep0 _ _ ho] at hj; cases hj
      · rw [n1] at hsj; cases hsj
      · rw [n2] at hsj; cases hsj
    have a2 : k ≠ j0 := by
      rintro rfl
      rcases ho with ho | rfl | rfl
      · rw [hj0] at ho; cases ho
      · rw [n1] at hsj0; cases hsj0
      · rw [n2] at hsj0; cases hsj0
    exact keep5 k q a2 (keep4 k q a1 hk)

/-- `random_split` on a database dataset returns or raises as on the same records in memory, and the sets are the
same, for every dataset, ratio and outcome of the draw. -/
theorem C102_random_split (names : List String) (w : World) (hw : Reached names w) (i : Nat) (x : Inst) (m : Mem)
    (hm : SameData w i x m) (ratio : ℚ) (rng : Nat → Nat) :
    (∀ e, randomSplit m ratio rng = .error e → (dbRandomSplit w i ratio rng).2 = .error e) ∧
    ∀ mtrain mtest, randomSplit m ratio rng = .ok (mtrain, mtest) →
      ∃ w' train test, dbRandomSplit w i ratio rng = (w', .ok (train, test)) ∧
        SplitInto w w' train test mtrain mtest := by
  obtain ⟨hn, hg⟩ := reached_good hw
  obtain ⟨h1, h2⟩ := dbRandomSplit_good hn hg (sameData_mem hm) hm.shows hm.full ratio rng
  refine ⟨h1, fun a b hab => ?_⟩
  obtain ⟨w', train, test, e, _, f1, f2, f3⟩ := h2 a b hab
  exact ⟨w', train, test, e, f1, f2, f3⟩

/-! ## Returning -/

theorem poolRun_exists (w : World) (i : Nat) (us : List Val) : ∃ s, PoolRun w i us s := by
  obtain ⟨⟨meas, _, hdec⟩, hfin⟩ := C100_finishes i
  have key : ∀ (n : Nat) (s : State), meas s = n → Runs i (State.init w (us.map userQuery)) s →
      ∃ s', PoolRun w i us s' := by
    intro n
    induction n using Nat.strongRecOn with
    | ind n ih =>
      intro s hs hr
      by_cases hstep : ∀ k, s.step i k = none
      · exact ⟨s, hr, hfin s hstep⟩
      · simp only [not_forall] at hstep
        obtain ⟨k, hk⟩ := hstep
        cases hk' : s.step i k with
        | none => exact absurd hk' hk
        | some s' => exact ih (meas s') (by have := hdec s s' k hk'; omega) s' rfl (.step k hr hk')
  exact key _ _ rfl (.refl _)

theorem dbFinish_returns {names : List String} (hn : NamesOk names) {w : World} (hg : Good names w) {i : Nat} {m : Mem}
    (hp : plainOf w i = some (memPlain m)) (hf : FullCols m.cols) (mem : (v : SVar) → v.Ty) :
    ∃ w' a b, dbFinish w i mem = (w', .ok (a, b)) := by
  have drop1 : ∀ (w : World) (ids : List Nat) (keep : Bool), Good names w → plainOf w i = some (memPlain m) →
      ∃ w1 c, w.drop i ids keep true = (w1, .ok c) ∧ Good names w1 ∧ plainOf w1 i = some (memPlain m) := by
    intro w ids keep hg hp
    obtain ⟨c, hc⟩ := works_good hn hg (op := .drop i ids keep true) hp trivial hf
    simp only [runOp] at hc
    obtain ⟨g1, g2⟩ := step_good hn hg (op := .drop i ids keep true) trivial
    simp only [runOp, hc] at g1 g2
    obtain ⟨⟨_, s2⟩, p, _, s4⟩ := g2
    simp only [DbOp.inst] at s2
    exact ⟨(w.drop i ids keep true).1, c, by rw [← hc], g1, by rw [s4]; simp [setAt, Ne.symm s2, hp]⟩
  obtain ⟨w1, a, e1, g1, p1⟩ := drop1 w (mem .test) true hg hp
  obtain ⟨w2, b, e2, _⟩ := drop1 w1 (mem .rem ++ mem .test) false g1 p1
  unfold dbFinish
  rw [e1]
  simp only
  rw [e2]
  exact ⟨_, _, _, rfl⟩

/-- `leave_k_out` with valid arguments returns, also when verbose, unless the copy made for the users reduces
itself. -/
theorem C102_returns_partial (names : List String) (w : World) (hw : Reached names w) (i : Nat) (x : Inst)
    (m : Mem) (hm : SameData w i x m) (hu : IntUsers m) (hty : ∀ ty, x.types = some ty → ty "user" = .int)
    (hsafe : PoolSafe x 1 (distinct m "user")) (hred : ¬ UniqueReduces x (distinct m "user"))
    (k : KArg) (hk : k.valid = true) (minN : Nat) (last : Option String) (hl : LabelOk m last)
    (rngs : Nat → Nat → Nat) (verbose : Bool) :
    ∃ w' train test, DbLeaveKOut w i k minN last rngs verbose w' train test := by
  obtain ⟨hn, hg⟩ := reached_good hw
  have hmem := sameData_mem hm
  obtain ⟨vs, hvs, hlen, hin⟩ := unique_length hu.hasUser (by decide)
  obtain ⟨w1, j, e1⟩ := dbUnique_returns hn hg hmem hm.shows hm.object hm.full hu.hasUser (by decide) hvs
    (by rw [hlen]; exact hred)
  obtain ⟨g1, _, ⟨q, p1⟩, hj, hji, y, hy, hy1, hy2, hy3⟩ :=
    dbUnique_good hn hg hmem hm.shows hm.object hu.hasUser (by decide) e1
  have keep1 : plainOf w1 i = some (memPlain m) := by
    rw [p1]; simp [setAt, Ne.symm hji, hm.shows]
  have hlim : y.state = .table ∨ y.direct + vs.length < 4 := by
    rcases hy3 with h3 | ⟨h3, h4, h5⟩
    · exact Or.inl h3
    · rcases hsafe with h6 | h6 | h6
      · exact Or.inl (h3.trans h6)
      · omega
      · exact Or.inr (by omega)
  obtain ⟨s, hpool⟩ := poolRun_exists w1 i vs
  obtain ⟨g2, htasks, keep2⟩ := pool_result hn g1 keep1 hy hu (by rw [hy1]; exact hty) hm.full hin hlim hpool
  have hcols : y.columns = m.cols := by
    obtain ⟨x', _, _, hx', _, _, hpe⟩ := plain_inv g1 keep1
    rw [hy] at hx'; cases hx'
    exact (congrArg Plain.cols hpe).symm
  obtain ⟨mem, hrun⟩ := splitRun_exists (s.tasks.zipIdx.map fun p => dbLeaveKUser y.columns k minN last (rngs p.2) p.1)
  obtain ⟨w2, train, test, hfin⟩ := dbFinish_returns hn g2 (keep2 _ _ keep1) hm.full mem
  refine ⟨_, train, test, hk, w1, j, vs, y, s, mem, w2, e1, hy, hpool, hrun, fun _ => ?_, hfin, rfl⟩
  rw [(C36_no_lost_update _ _ hrun).2.2, flatten_count, sum_ones]
  · simp [htasks]
  · intro n hn
    simp only [List.map_map, List.mem_map, Function.comp_apply] at hn
    obtain ⟨p, hp, rfl⟩ := hn
    have := List.fst_mem_of_mem_zipIdx hp
    rw [htasks] at this
    obtain ⟨v, _, hv⟩ := List.mem_map.1 this
    rw [← hv, dbLeaveKUser]
    apply leaveKTask_count
    intro l hll
    subst hll
    rw [hcols]
    exact hl

/-- `matrix_split` with valid ratios returns, also when verbose, when the users and the items can be read. -/
theorem C102_matrix_returns_partial (names : List String) (w : World) (hw : Reached names w) (i : Nat) (x : Inst)
    (m : Mem) (hm : SameData w i x m) (hu : IntUsers m) (hty : ∀ ty, x.types = some ty → ty "user" = .int)
    (hsafe : PoolSafe x 2 (distinct m "user")) (w0 w1 : World) (j0 j : Nat) (us is : List Val)
    (e0 : dbUnique w i "user" = (w0, .ok (j0, us))) (e1 : dbUnique w0 i "item" = (w1, .ok (j, is)))
    (userRatio itemRatio : ℚ) (hr : (0 < userRatio ∧ userRatio ≤ 1) ∧ (0 < itemRatio ∧ itemRatio ≤ 1)) (minN : Nat)
    (rngU rngI : Nat → Nat) (verbose : Bool) :
    ∃ w' train test, DbMatrixSplit w i userRatio itemRatio minN rngU rngI verbose w' train test := by
  obtain ⟨hn, hg⟩ := reached_good hw
  have hmem := sameData_mem hm
  have hi : "item" ∈ m.cols := hm.full.1 (by simp)
  obtain ⟨vs, hvs, hlen, hin⟩ := unique_length hu.hasUser (by decide)
  obtain ⟨g0, hq0, ⟨q0, p0⟩, hj0, hji0, z, hz, hz1, hz2, hz3⟩ :=
    dbUnique_good hn hg hmem hm.shows hm.object hu.hasUser (by decide) e0
  rw [hvs] at hq0; cases hq0
  have keep0 : plainOf w0 i = some (memPlain m) := by rw [p0]; simp [setAt, Ne.symm hji0, hm.shows]
  obtain ⟨g1, hq, ⟨q, p1⟩, hj, hji, y, hy, hy1, hy2, hy3⟩ := dbUnique_good hn g0 hmem keep0 hz hi (by decide) e1
  have keep1 : plainOf w1 i = some (memPlain m) := by rw [p1]; simp [setAt, Ne.symm hji, keep0]
  have hlim : y.state = .table ∨ y.direct + us.length < 4 := by
    rcases hy3 with h3 | ⟨h3, h4, h5⟩
    · exact Or.inl h3
    · rcases hz3 with z3 | ⟨z3, z4, z5⟩
      · exact Or.inl (h3.trans z3)
      · rcases hsafe with h6 | h6 | h6
        · exact Or.inl (h3.trans (z3.trans h6))
        · omega
        · exact Or.inr (by omega)
  obtain ⟨s, hpool⟩ := poolRun_exists w1 i us
  obtain ⟨g2, htasks, keep2⟩ := pool_result hn g1 keep1 hy hu (by rw [hy1, hz1]; exact hty) hm.full hin hlim hpool
  obtain ⟨mem, hrun⟩ := splitRun_exists ((us.zip s.tasks).map fun p => dbMatrixUser minN (drawn us userRatio rngU)
    (drawn is itemRatio rngI) p.1 p.2)
  obtain ⟨w2, train, test, hfin⟩ := dbFinish_returns hn g2 (keep2 _ _ keep1) hm.full mem
  refine ⟨_, train, test, hr, w0, j0, us, w1, j, is, s, mem, w2, e0, e1, hpool, hrun, fun _ => ?_, hfin, rfl⟩
  rw [(C36_no_lost_update _ _ hrun).2.2, flatten_count, sum_ones]
  · simp [htasks]
  · intro n hn
    simp only [List.map_map, List.mem_map, Function.comp_apply] at hn
    obtain ⟨⟨v, ph⟩, hp, rfl⟩ := hn
    have := (List.of_mem_zip hp).2
    rw [htasks] at this
    obtain ⟨v', _, hv⟩ := List.mem_map.1 this
    rw [← hv]
    simp only [dbMatrixUser]
    have hcheck : ∀ l : List Rec, (l.map fun _ => SAct.check).countP counts = 0 := by
      intro l
      induction l with
      | nil => rfl
      | cons a l ih => simp [counts]
    split
    · simp [counts]
    · split
      · rw [List.countP_append, hcheck]
        split <;> simp [counts]
      · simp [counts]

/-- **The full claim is false**: with a dataset that was narrowed at least twice before, has no reduction due, and
has at least 5000 records more than users, `leave_k_out` raises `AssertionError`, for all arguments. -/
theorem C102_raises (names : List String) (w : World) (hw : Reached names w) (i : Nat) (x : Inst)
    (m : Mem) (hm : SameData w i x m) (hred : UniqueReduces x (distinct m "user"))
    (hst : x.state = .table ∨ x.direct < 3) :
    (dbUnique w i "user").2 = .error .assertion ∧
    ∀ k minN last rngs verbose w' train test, ¬ DbLeaveKOut w i k minN last rngs verbose w' train test := by
  obtain ⟨hn, hg⟩ := reached_good hw
  have hc : "user" ∈ m.cols := hm.full.1 (by simp)
  obtain ⟨vs, hvs, hlen, hin⟩ := unique_length hc (by decide)
  have h := (unique_outcome hn hg (sameData_mem hm) hm.shows hm.object hm.full hc (by decide) hvs).2 (by rw [hlen]; exact hred) hst
  have h2 : (dbUnique w i "user").2 = .error .assertion := by
    have e : w.unique i (some ["user"]) true = ((w.unique i (some ["user"]) true).1, .error .assertion) := by rw [← h]
    unfold dbUnique
    rw [e]
  refine ⟨h2, ?_⟩
  rintro k minN last rngs verbose w' train test ⟨_, w1, j, us, _, _, _, _, e1, _⟩
  rw [e1] at h2
  cases h2

/-! ## Large datasets -/

theorem plain_drop_nil (p : Plain) : p.drop [] false = p := by
  simp [Plain.drop]

theorem drop_nil {names : List String} (hn : NamesOk names) {w : World} (hg : Good names w) {i : Nat} {p : Plain}
    (hp : plainOf w i = some p) {x : Inst} (hx : w.insts i = some x) (hq : x.queries < 2) :
    Good names (runOp w (.drop i [] false false)).1 ∧ plainOf (runOp w (.drop i [] false false)).1 i = some p ∧
      ∃ st, (runOp w (.drop i [] false false)).1.insts i = some { x with queries := x.queries + 1, state := st } := by
  obtain ⟨g1, g2⟩ := step_good hn hg (op := .drop i [] false false) trivial
  obtain ⟨x', t, rows, hx', ht, hs, rfl⟩ := plain_inv hg hp
  rw [hx] at hx'; cases hx'
  obtain ⟨rows', hev, hpl⟩ := drop_eval hs [] false
  rw [plain_drop_nil] at hpl
  have hl : rows'.length = x.nRows := by
    have := congrArg (fun q : Plain => q.recs.length) hpl
    simp only [List.length_map] at this
    rw [hs.len, this]
  let st : Src := .sub x.columns x.state [if false then .ridIn [] else .ridNotIn []]
  have hr : w.drop i [] false false = (w.put i { x with queries := x.queries + 1, state := st }, .ok i) := by
    unfold World.drop World.inPlaceOrCopy World.dropOn World.update
    rw [if_neg (by simp)]
    simp only [hx, ht, hev, hl]
    have hns : ∀ g, ({ x with queries := x.queries + 1, nRows := x.nRows, state := st } : Inst).shouldReduce g = false := by
      intro g
      simp only [Inst.shouldReduce]
      rw [decide_eq_false (by omega : ¬ 3 ≤ x.queries + 1)]
      simp
    rw [hns]
    rfl
  simp only [runOp, hr] at g1 g2 ⊢
  refine ⟨g1, ?_, _, put_self _ _ _⟩
  obtain ⟨_, p', s3, s4⟩ := g2
  simp only [DbOp.inst] at s3
  rw [hp] at s3; cases s3
  rw [s4]
  simp only [setAt, if_true, DbOp.effect, plain_drop_nil]

/-- Importing any csv file with at least 5000 records more than users (and more than five records per four users) and
dropping nothing twice gives a dataset that `leave_k_out` cannot split. -/
theorem C102_raises_after_drops (names cols : List String) (types : String → DType) (rows : List Row) (m : Mem)
    (hn : tableCols ⊆ names ∧ "uid" ∈ names ∧ "iid" ∈ names) (hcols : cols ⊆ names) (hfull : FullCols cols)
    (hsort : rows.Pairwise fun a b => a.rid < b.rid)
    (hmc : m.cols = cols) (hmr : m.rows = rows) (hmi : m.hasIds = false) (hmx : m.cache = none)
    (h0 : 0 < distinct m "user") (h1 : (distinct m "user" : ℚ) / rows.length < 8 / 10)
    (h2 : distinct m "user" + 5000 ≤ rows.length) :
    ∃ w x, w = runOps (World.ofCsv cols types rows) [.drop 0 [] false false, .drop 0 [] false false] ∧
      SameData w 0 x m ∧ (dbUnique w 0 "user").2 = .error .assertion ∧
      ∀ k minN last rngs verbose w' train test, ¬ DbLeaveKOut w 0 k minN last rngs verbose w' train test := by
  have hrid : "rid" ∈ cols := hfull.1 (by simp)
  obtain ⟨g0, p0⟩ := ofCsv_good hn types rows hcols hrid hsort
  have q0 : plainOf (World.ofCsv cols types rows) 0 = some (memPlain m) := by
    rw [p0]; simp [memPlain, hmc, hmr, hmi]
  obtain ⟨g1, q1, st1, x1⟩ := drop_nil hn g0 q0 (x := ⟨cols, .table, 0, false, some types, rows.length, rows.length, 0, 0⟩)
    rfl (by simp)
  obtain ⟨g2, q2, st2, x2⟩ := drop_nil hn g1 q1 x1 (by simp)
  refine ⟨_, _, rfl, ⟨q2, x2, hmc ▸ hfull, hmr ▸ hsort, hmx⟩, ?_⟩
  exact C102_raises names _ ⟨cols, types, rows, [.drop 0 [] false false, .drop 0 [] false false], hn, hcols, hrid, hsort, ⟨trivial, trivial, trivial⟩, rfl⟩ 0 _ m
    ⟨q2, x2, hmc ▸ hfull, hmr ▸ hsort, hmx⟩ ⟨by simp, h0, h1, h2⟩ (Or.inr (by simp))

/-- 5001 records of one user. -/
def exLarge : Mem :=
  ⟨exDbCols, fun _ => .int, (List.range 5001).map fun n => exDbRow n 1 10 5, false, [], [], none, none⟩

theorem exLarge_distinct : distinct exLarge "user" = 1 := by
  unfold distinct exLarge
  simp only [List.map_map]
  have : ((fun r : Row => r.get "user") ∘ fun n => exDbRow n 1 10 5) = fun _ : Nat => Val.num 1 := by
    funext n
    simp [exDbRow, Row.get]
  rw [this, List.map_const', List.length_range, List.replicate_dedup (by decide)]
  rfl

example : FullCols exDbCols ∧ exLarge.rows.Pairwise (fun a b => a.rid < b.rid) ∧ 0 < distinct exLarge "user" ∧
    (distinct exLarge "user" : ℚ) / exLarge.rows.length < 8 / 10 ∧
    distinct exLarge "user" + 5000 ≤ exLarge.rows.length := by
  rw [exLarge_distinct]
  refine ⟨by unfold FullCols; decide, ?_, by decide, ?_, ?_⟩
  · simp only [exLarge, List.pairwise_map, exDbRow]
    exact List.pairwise_lt_range
  · simp only [exLarge, List.length_map, List.length_range]
    norm_num
  · simp [exLarge]

/-! ## Concrete datasets -/

deriving instance DecidableEq for SAct

/-- Two reads after filtering in place by `interaction > 3`. -/
def exSplitOps : List DbOp := [.select 0 exDbQuery false, .read 0 (.values none), .read 0 (.values none)]

/-- The filtered dataset: users 1 and 2 have one record each. -/
def exSplitWorld : World := runOps exWorld exSplitOps

/-- The same records in memory. -/
def exSplitMem : Mem :=
  ⟨exDbCols, fun _ => .int, [exDbRow 0 1 10 5, exDbRow 2 2 10 4], false, [], [], none, none⟩

theorem exSplit_reached : Reached exDbNames exSplitWorld := by
  refine ⟨exDbCols, _, _, exSplitOps, by decide, by decide, by decide, by decide, ?_, rfl⟩
  refine ⟨?_, trivial, trivial, trivial⟩
  intro p x hp hx
  have e : plainOf exWorld 0 = some ⟨exDbCols, [
      [("user", .num 1), ("item", .num 10), ("interaction", .num 5), ("rid", .num 0)],
      [("user", .num 1), ("item", .num 20), ("interaction", .num 3), ("rid", .num 1)],
      [("user", .num 2), ("item", .num 10), ("interaction", .num 4), ("rid", .num 2)]], false⟩ := by
    decide +kernel
  have hp' : plainOf exWorld 0 = some p := hp
  rw [e] at hp'
  cases hp'
  refine ⟨by decide, ?_⟩
  intro c hc
  simp only [exDbQuery, List.mem_singleton] at hc
  subst hc
  refine ⟨trivial, ?_, by decide⟩
  intro ty hty
  cases hx
  cases hty
  decide

theorem exSplit_same : ∃ x, SameData exSplitWorld 0 x exSplitMem ∧ x.direct = 2 ∧ x.state ≠ .table := by
  refine ⟨_, ⟨by decide +kernel, rfl, by unfold FullCols; decide, by decide, rfl⟩, rfl, by decide⟩

theorem exSplitMem_int : IntUsers exSplitMem := by
  refine ⟨by decide, rfl, ?_⟩
  intro r hr
  simp only [exSplitMem, List.mem_cons, List.not_mem_nil, or_false] at hr
  rcases hr with rfl | rfl
  · exact ⟨1, rfl⟩
  · exact ⟨2, rfl⟩

/-- The interleaving. -/
def exPoolState : State :=
  (State.init (dbUnique exSplitWorld 0 "user").1 ([.num 1, .num 2].map userQuery)).run 0
    [0, 1, 1, 1, 1, 1, 1, 1, 0, 0, 0, 0, 0, 0]

/-- The shared lists after it. -/
def exPoolMem : (v : SVar) → v.Ty
  | .rem => []
  | .test => [0]
  | .done => 2

/-- **The full claim is false.**  Both users have one record, so with `k = 1` nothing goes to the test set in memory.
On the database dataset there is an interleaving in which the record of user 1 goes to the test set: the task of user
1 has opened its copy when the other one makes the table of the dataset its own; the copy then misses the filter and
user 1 seems to have two records. -/
theorem C102_fails_filtered :
    (∃ mtrain mtest, LeaveKOut exSplitMem (.fixed 1) 0 none (fun _ _ => 0) true mtrain mtest) ∧
    (∀ mtrain mtest, LeaveKOut exSplitMem (.fixed 1) 0 none (fun _ _ => 0) true mtrain mtest →
      mtrain.rows.map (·.rid) = [0, 2] ∧ mtest.rows.map (·.rid) = []) ∧
    ∃ w' train test, DbLeaveKOut exSplitWorld 0 (.fixed 1) 0 none (fun _ _ => 0) true w' train test ∧
      w'.view train = .ok [[("user", .num 2), ("item", .num 10), ("interaction", .num 4), ("rid", .num 2)]] ∧
      w'.view test = .ok [[("user", .num 1), ("item", .num 10), ("interaction", .num 5), ("rid", .num 0)]] := by
  refine ⟨?_, ?_, ?_⟩
  · exact (C37_leave_k_out_finishes_partial exSplitMem exSplitMem_int (.fixed 1) rfl 0 none trivial _).2 true
  · rintro mtrain mtest ⟨tasks, mem, h1, h2, _, h3⟩
    have ht : leaveKTasks exSplitMem (.fixed 1) 0 none (fun _ _ => 0) = .ok [[.count], [.count]] := by decide +kernel
    rw [ht] at h1
    cases h1
    obtain ⟨p1, p2, _⟩ := splitRun_mem h2
    simp only [List.flatten_cons, List.flatten_nil, List.append_nil, List.cons_append, List.nil_append,
      List.flatMap_cons, List.flatMap_nil, removedBy, testedBy, List.perm_nil] at p1 p2
    have e : splitFinish exSplitMem mem = splitFinish exSplitMem splitInit :=
      splitFinish_congr _ _ _ (by rw [p1]; exact List.Perm.refl _) (by rw [p2]; exact List.Perm.refl _)
    rw [e] at h3
    obtain ⟨rfl, rfl⟩ := Prod.mk.inj h3
    exact ⟨by decide +kernel, by decide +kernel⟩
  · have e1 : dbUnique exSplitWorld 0 "user" =
        ((dbUnique exSplitWorld 0 "user").1, .ok (1, [.num 1, .num 2])) :=
      Prod.ext rfl (by decide +kernel)
    have hdone : ∀ ph ∈ exPoolState.tasks, ∃ r, ph = Phase.done r := by
      intro ph hph
      have : exPoolState.results.all Option.isSome = true := by decide +kernel
      simp only [State.results, List.all_map, List.all_eq_true, Function.comp_apply] at this
      have := this ph hph
      cases ph with
      | done r => exact ⟨r, rfl⟩
      | _ => cases this
    have hx : ∃ x1, (dbUnique exSplitWorld 0 "user").1.insts 0 = some x1 ∧ x1.columns = exDbCols := ⟨_, rfl, rfl⟩
    obtain ⟨x1, hx1, hxc⟩ := hx
    have ht : (exPoolState.tasks.zipIdx.map fun p => dbLeaveKUser x1.columns (.fixed 1) 0 none (fun _ => 0) p.1) =
        [[.toTest [0], .count], [.count]] := by
      rw [hxc]
      clear hx1 hxc x1
      decide +kernel
    obtain ⟨mem, hm⟩ := splitRun_exists [[.toTest [0], .count], [.count]]
    obtain ⟨p1, p2, p3⟩ := splitRun_mem hm
    simp only [List.flatten_cons, List.flatten_nil, List.append_nil, List.cons_append, List.nil_append,
      List.flatMap_cons, List.flatMap_nil, removedBy, testedBy, List.perm_nil, List.perm_singleton] at p1 p2
    have ef : dbFinish exPoolState.w 0 mem = ((dbFinish exPoolState.w 0 exPoolMem).1, .ok (5, 4)) := by
      have : dbFinish exPoolState.w 0 mem = dbFinish exPoolState.w 0 exPoolMem := by
        unfold dbFinish
        rw [p1, p2]
        rfl
      rw [this]
      exact Prod.ext rfl (by decide +kernel)
    exact ⟨_, 5, 4, ⟨rfl, _, 1, _, x1, exPoolState, mem, _, e1, hx1, ⟨runs_run 0 _ _, hdone⟩, by rw [ht]; exact hm,
      fun _ => by rw [p3]; rfl, ef, rfl⟩, by decide +kernel, by decide +kernel⟩

/-- The hypotheses of the other theorems hold for the dataset of three records after three reads, and for the
filtered dataset before the two reads when only two tasks follow. -/
example : Reached exDbNames (runOps exWorld exReads) ∧ IntUsers exBothMem ∧
    ∃ x, SameData (runOps exWorld exReads) 0 x exBothMem ∧ (∀ ty, x.types = some ty → ty "user" = .int) ∧
      PoolSafe x 1 (distinct exBothMem "user") ∧ PoolSafe x 2 (distinct exBothMem "user") ∧
      ¬ UniqueReduces x (distinct exBothMem "user") ∧ LabelOk exBothMem none := by
  refine ⟨⟨exDbCols, _, _, exReads, by decide, by decide, by decide, by decide, ⟨trivial, trivial, trivial, trivial⟩,
    rfl⟩, ⟨by decide, rfl, ?_⟩, _, ⟨by decide +kernel, rfl, by unfold FullCols; decide, by decide, rfl⟩, ?_, Or.inl rfl,
    Or.inl rfl, ?_, trivial⟩
  · intro r hr
    simp only [exBothMem, List.mem_cons, List.not_mem_nil, or_false] at hr
    rcases hr with rfl | rfl | rfl
    · exact ⟨1, rfl⟩
    · exact ⟨1, rfl⟩
    · exact ⟨2, rfl⟩
  · rintro ty h
    cases h
    rfl
  · rintro ⟨h, _⟩
    exact absurd h (by decide)

/-- A pending filter and no read yet: one interaction for the users and two for the tasks stay below the limit. -/
example : ∃ x, (runOps exWorld [.select 0 exDbQuery false]).insts 0 = some x ∧ x.state ≠ .table ∧
    PoolSafe x 1 (distinct exSplitMem "user") := by
  refine ⟨_, rfl, by decide, Or.inr (Or.inr ?_)⟩
  decide +kernel

/-- What the splits of the three records give. -/
example : (dbRandomSplit (runOps exWorld exReads) 0 (1 / 2) (fun _ => 1)).2 = .ok (2, 1) := by decide +kernel

end DRec.Conc
