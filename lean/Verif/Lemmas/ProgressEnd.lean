import Verif.Lemmas.Progress

/-! # Calls that share a counter under fair schedules -/

namespace DRec.Prog

variable {N : Nat} {n : Fin N → Nat} {verbose : Fin N → Bool}

/-- The call has submitted all its tasks. -/
def past (s : St N) (i : Fin N) : Prop := s.main i ≠ .start ∧ ∀ k, s.main i ≠ .submit k

theorem subs_past {s : St N} {i : Fin N} (h : past s i) : subs n s i = n i := by
  unfold subs
  split
  · rename_i e; exact absurd e h.1
  · rename_i k e; exact absurd e (h.2 k)
  · rfl

theorem main_other {s : St N} {a : Agent N} {i : Fin N} (h : a ≠ .main i) :
    (step n verbose s a).main i = s.main i := by
  cases a with
  | main b =>
    have hb : i ≠ b := by rintro rfl; exact h rfl
    simp only [step, mainStep]
    split <;> (try split_ifs) <;> simp [Function.update_of_ne hb]
  | task b j =>
    simp only [step, taskStep]
    split
    · rfl
    · rfl
    · split
      · rfl
      · split_ifs
        · split <;> rfl
        · rfl
    · rfl

theorem main_task {s : St N} (i b : Fin N) (j : Nat) : (taskStep s b j).main i = s.main i :=
  main_other (n := fun _ => 0) (verbose := fun _ => false) (a := .task b j) (by simp)

/-- A task changes by its own steps, and when it is submitted. -/
theorem task_other {s : St N} {a : Agent N} {i : Fin N} {j : Nat} (hinv : Inv n verbose s) (h : a ≠ .task i j)
    (hn : s.task i j ≠ .new) : (step n verbose s a).task i j = s.task i j := by
  cases a with
  | main b =>
    simp only [step, mainStep]
    split
    · rfl
    · rename_i k hm
      split_ifs
      · simp only [task_update]
        rw [if_neg]
        rintro ⟨rfl, rfl⟩
        exact hn ((hinv.new_iff _ _).2 (by simp [subs, hm]))
      · rfl
      · rfl
    · rfl
    · rfl
    · split_ifs <;> rfl
    · rfl
  | task b l =>
    have hb : ¬ (i = b ∧ j = l) := by rintro ⟨rfl, rfl⟩; exact h rfl
    simp only [step, taskStep]
    split
    · rfl
    · simp only [task_update, if_neg hb]
    · split
      · rfl
      · split_ifs
        · split
          · rfl
          · rfl
          · simp only [task_update, if_neg hb]
        · rfl
    · rfl

/-- The lock is only released by its holder. -/
theorem lock_other {s : St N} {a : Agent N} {i : Fin N} {j : Nat} {ph : Phase} (h : a ≠ .task i j)
    (hl : s.lock = some (i, j, ph)) : (step n verbose s a).lock = some (i, j, ph) := by
  cases a with
  | main b =>
    simp only [step, mainStep]
    split <;> (try split_ifs) <;> exact hl
  | task b l =>
    simp only [step, taskStep, hl]
    split
    · exact hl
    · rfl
    · split_ifs with e
      · obtain ⟨rfl, rfl⟩ := e; exact absurd rfl h
      · exact hl
    · exact hl

theorem task_done_step {s : St N} {a : Agent N} {i : Fin N} {j : Nat} (hinv : Inv n verbose s)
    (h : s.task i j = .done) : (step n verbose s a).task i j = .done := by
  by_cases e : a = .task i j
  · subst e; simp [step, taskStep, h]
  · rw [task_other hinv e (by simp [h]), h]

theorem past_step {s : St N} {a : Agent N} {i : Fin N} (h : past s i) : past (step n verbose s a) i := by
  by_cases e : a = .main i
  · subst e
    simp only [step, mainStep]
    split
    · rename_i e; exact absurd e h.1
    · rename_i k e; exact absurd e (h.2 k)
    · refine ⟨?_, ?_⟩ <;> simp only [Function.update_self] <;> split_ifs <;> simp
    · refine ⟨?_, ?_⟩ <;> simp only [Function.update_self] <;> split_ifs <;> simp
    · split_ifs
      · exact ⟨by simp, by simp⟩
      · exact h
    · exact h
  · unfold past
    rw [main_other e]
    exact h

theorem begun_step {s : St N} {a : Agent N} {i : Fin N} (h : s.main i ≠ .start) :
    (step n verbose s a).main i ≠ .start := by
  by_cases e : a = .main i
  · subst e
    simp only [step, mainStep]
    split
    · simp
    · split_ifs <;> simp
    · simp only [Function.update_self]; split_ifs <;> simp
    · simp only [Function.update_self]; split_ifs <;> simp
    · split_ifs
      · simp
      · exact h
    · exact h
  · rw [main_other e]
    exact h

section
variable {sched : Nat → Agent N}

local notation "σ" => run n verbose sched

theorem done_mono {t u : Nat} (htu : t ≤ u) {i : Fin N} {j : Nat} (h : (σ t).task i j = .done) :
    (σ u).task i j = .done := by
  induction u, htu using Nat.le_induction with
  | base => exact h
  | succ u _ ih => exact task_done_step (inv_run sched u) ih

theorem past_mono {t u : Nat} (htu : t ≤ u) {i : Fin N} (h : past (σ t) i) : past (σ u) i := by
  induction u, htu using Nat.le_induction with
  | base => exact h
  | succ u _ ih => exact past_step ih

theorem begun_mono {t u : Nat} (htu : t ≤ u) {i : Fin N} (h : (σ t).main i ≠ .start) : (σ u).main i ≠ .start := by
  induction u, htu using Nat.le_induction with
  | base => exact h
  | succ u _ ih => exact begun_step ih

/-- The next turn of a thread. -/
theorem next_turn {a : Agent N} (hf : ∀ t, ∃ u, t ≤ u ∧ sched u = a) (t : Nat) :
    ∃ u, t ≤ u ∧ sched u = a ∧ ∀ v, t ≤ v → v < u → sched v ≠ a := by
  classical
  have h := hf t
  refine ⟨Nat.find h, (Nat.find_spec h).1, (Nat.find_spec h).2, fun v hv hlt e => ?_⟩
  exact Nat.find_min h hlt ⟨hv, e⟩

theorem next_main (hf : Fair n sched) (i : Fin N) (t : Nat) :
    ∃ u, t ≤ u ∧ sched u = .main i ∧ (σ u).main i = (σ t).main i := by
  obtain ⟨u, h1, h2, h3⟩ := next_turn (hf.1 i) t
  refine ⟨u, h1, h2, ?_⟩
  have : ∀ v, t ≤ v → v ≤ u → (σ v).main i = (σ t).main i := by
    intro v hv
    induction v, hv using Nat.le_induction with
    | base => intro _; rfl
    | succ v hv ih =>
      intro hle
      rw [← ih (by omega)]
      exact main_other (h3 v hv (by omega))
  exact this u h1 le_rfl

theorem next_task (hf : Fair n sched) {i : Fin N} {j : Nat} (hj : j < n i) {t : Nat}
    (hn : (σ t).task i j ≠ .new) :
    ∃ u, t ≤ u ∧ sched u = .task i j ∧ (σ u).task i j = (σ t).task i j ∧
      ∀ ph, (σ t).lock = some (i, j, ph) → (σ u).lock = some (i, j, ph) := by
  obtain ⟨u, h1, h2, h3⟩ := next_turn (hf.2 i j hj) t
  refine ⟨u, h1, h2, ?_⟩
  have : ∀ v, t ≤ v → v ≤ u → (σ v).task i j = (σ t).task i j ∧
      ∀ ph, (σ t).lock = some (i, j, ph) → (σ v).lock = some (i, j, ph) := by
    intro v hv
    induction v, hv using Nat.le_induction with
    | base => intro _; exact ⟨rfl, fun _ h => h⟩
    | succ v hv ih =>
      intro hle
      obtain ⟨e1, e2⟩ := ih (by omega)
      refine ⟨?_, fun ph hl => lock_other (h3 v hv (by omega)) (e2 ph hl)⟩
      rw [← e1]
      exact task_other (inv_run sched v) (h3 v hv (by omega)) (by rw [e1]; exact hn)
  exact this u h1 le_rfl

theorem submit_past (hf : Fair n sched) (i : Fin N) :
    ∀ d t k, (σ t).main i = .submit k → n i - k ≤ d → ∃ u, t ≤ u ∧ past (σ u) i := by
  intro d
  induction d with
  | zero =>
    intro t k hm hd
    obtain ⟨u, h1, h2, h3⟩ := next_main hf i t
    refine ⟨u + 1, by omega, ?_⟩
    have e : σ (u + 1) = mainStep n verbose (σ u) i := by simp only [run, h2, step]
    rw [e]
    unfold past mainStep
    rw [h3, hm]
    simp only [if_neg (show ¬ k < n i by omega), Function.update_self]
    cases verbose i <;> simp
  | succ d ih =>
    intro t k hm hd
    obtain ⟨u, h1, h2, h3⟩ := next_main hf i t
    have e : σ (u + 1) = mainStep n verbose (σ u) i := by simp only [run, h2, step]
    by_cases hk : k < n i
    · have : (σ (u + 1)).main i = .submit (k + 1) := by
        rw [e]
        unfold mainStep
        rw [h3, hm]
        simp [if_pos hk]
      obtain ⟨v, hv, hp⟩ := ih (u + 1) (k + 1) this (by omega)
      exact ⟨v, by omega, hp⟩
    · refine ⟨u + 1, by omega, ?_⟩
      rw [e]
      unfold past mainStep
      rw [h3, hm]
      simp only [if_neg hk, Function.update_self]
      cases verbose i <;> simp

theorem eventually_past (hf : Fair n sched) (i : Fin N) : ∃ t, past (σ t) i := by
  obtain ⟨u, h1, h2, h3⟩ := next_main (verbose := verbose) hf i 0
  have : (σ (u + 1)).main i = .submit 0 := by
    have e : σ (u + 1) = mainStep n verbose (σ u) i := by simp only [run, h2, step]
    rw [e]
    unfold mainStep
    rw [h3]
    simp [run, init]
  obtain ⟨v, -, hv⟩ := submit_past hf i _ (u + 1) 0 this le_rfl
  exact ⟨v, hv⟩

theorem eventually_all_past (hf : Fair n sched) : ∃ t, ∀ i, past (σ t) i := by
  choose f hfp using fun i => eventually_past (verbose := verbose) hf i
  exact ⟨Finset.univ.sup f, fun i => past_mono (Finset.le_sup (Finset.mem_univ i)) (hfp i)⟩

theorem holder_valid {s : St N} (h : Inv n verbose s) {i : Fin N} {j : Nat} {ph : Phase}
    (hl : s.lock = some (i, j, ph)) : j < n i := by
  by_contra hj
  have h1 := h.locked i j ph hl
  have h2 := (h.new_iff i j).2 (by have := h.subs_le i; omega)
  rw [h1] at h2
  cases h2

/-- The holder of the lock finishes. -/
theorem release (hf : Fair n sched) {i : Fin N} {j t : Nat} {ph : Phase}
    (hl : (σ t).lock = some (i, j, ph)) : ∃ u, t ≤ u ∧ (σ u).task i j = .done := by
  have one : ∀ (ph : Phase) t, (σ t).lock = some (i, j, ph) → ∃ u, t ≤ u ∧
      σ (u + 1) = taskStep (σ u) i j ∧ (σ u).task i j = .worked ∧ (σ u).lock = some (i, j, ph) := by
    intro ph t hl
    have hw := (inv_run sched t).locked i j ph hl
    obtain ⟨u, h1, h2, h3, h4⟩ := next_task hf (holder_valid (inv_run sched t) hl)
      (t := t) (by rw [hw]; simp)
    exact ⟨u, h1, by simp only [run, h2, step], by rw [h3, hw], h4 ph hl⟩
  have hs : ∀ t, (σ t).lock = some (i, j, .stored) → ∃ u, t ≤ u ∧ (σ u).task i j = .done := by
    intro t hl
    obtain ⟨u, h1, h2, h3, h4⟩ := one _ t hl
    refine ⟨u + 1, by omega, ?_⟩
    rw [h2]
    simp only [taskStep, h3, h4]
    simp
  have hv : ∀ v t, (σ t).lock = some (i, j, .loaded v) → ∃ u, t ≤ u ∧ (σ u).task i j = .done := by
    intro v t hl
    obtain ⟨u, h1, h2, h3, h4⟩ := one _ t hl
    obtain ⟨w, h5, h6⟩ := hs (u + 1) (by rw [h2]; simp [taskStep, h3, h4])
    exact ⟨w, by omega, h6⟩
  cases ph with
  | stored => exact hs t hl
  | loaded v => exact hv v t hl
  | entered =>
    obtain ⟨u, h1, h2, h3, h4⟩ := one _ t hl
    obtain ⟨w, h5, h6⟩ := hv (σ u).counter (u + 1) (by rw [h2]; simp [taskStep, h3, h4])
    exact ⟨w, by omega, h6⟩

/-- The tasks that have not finished. -/
def undone (n : Fin N → Nat) (s : St N) : Finset ((_ : Fin N) × Nat) :=
  (Finset.univ.sigma fun i => Finset.range (n i)).filter fun p => s.task p.1 p.2 ≠ .done

theorem mem_undone {s : St N} {i : Fin N} {j : Nat} :
    (⟨i, j⟩ : (_ : Fin N) × Nat) ∈ undone n s ↔ j < n i ∧ s.task i j ≠ .done := by
  simp [undone]

theorem undone_lt {t u : Nat} (htu : t ≤ u) {i : Fin N} {j : Nat} (hj : j < n i)
    (h1 : (σ t).task i j ≠ .done) (h2 : (σ u).task i j = .done) :
    (undone n (σ u)).card < (undone n (σ t)).card := by
  apply Finset.card_lt_card
  rw [Finset.ssubset_iff_of_subset]
  · exact ⟨⟨i, j⟩, mem_undone.2 ⟨hj, h1⟩, fun h => (mem_undone.1 h).2 h2⟩
  · rintro ⟨a, b⟩ h
    obtain ⟨h3, h4⟩ := mem_undone.1 h
    exact mem_undone.2 ⟨h3, fun e => h4 (done_mono htu e)⟩

/-- While a task has not finished, another one finishes. -/
theorem some_finishes (hf : Fair n sched) {t : Nat} (hp : ∀ i, past (σ t) i) {i : Fin N} {j : Nat}
    (hj : j < n i) (hd : (σ t).task i j ≠ .done) :
    ∃ u, t ≤ u ∧ (undone n (σ u)).card < (undone n (σ t)).card := by
  have viaLock : ∀ v, t ≤ v → ∀ x, (σ v).lock = some x →
      ∃ u, t ≤ u ∧ (undone n (σ u)).card < (undone n (σ t)).card := by
    rintro v hv ⟨a, b, ph⟩ hl
    obtain ⟨u, h1, h2⟩ := release hf hl
    refine ⟨u, by omega, undone_lt (by omega) (holder_valid (inv_run sched v) hl) (fun e => ?_) h2⟩
    have := done_mono hv e
    rw [(inv_run sched v).locked a b ph hl] at this
    cases this
  have worked : ∀ v, t ≤ v → (σ v).task i j = .worked →
      ∃ u, t ≤ u ∧ (undone n (σ u)).card < (undone n (σ t)).card := by
    intro v hv hw
    obtain ⟨u, h1, h2, h3, -⟩ := next_task hf hj (t := v) (by rw [hw]; simp)
    cases hl : (σ u).lock with
    | some x => exact viaLock u (by omega) x hl
    | none =>
      refine viaLock (u + 1) (by omega) (i, j, .entered) ?_
      have e : σ (u + 1) = taskStep (σ u) i j := by simp only [run, h2, step]
      rw [e]
      simp only [taskStep, h3, hw, hl]
  have hnew : (σ t).task i j ≠ .new := by
    intro e
    have := ((inv_run sched t).new_iff i j).1 e
    rw [subs_past (hp i)] at this
    omega
  cases h : (σ t).task i j with
  | new => exact absurd h hnew
  | done => exact absurd h hd
  | worked => exact worked t le_rfl h
  | ready =>
    obtain ⟨u, h1, h2, h3, -⟩ := next_task hf hj (t := t) hnew
    refine worked (u + 1) (by omega) ?_
    have e : σ (u + 1) = taskStep (σ u) i j := by simp only [run, h2, step]
    rw [e]
    simp only [taskStep, h3, h]
    simp

theorem eventually_done (hf : Fair n sched) :
    ∃ t, (∀ i, past (σ t) i) ∧ ∀ i j, j < n i → (σ t).task i j = .done := by
  obtain ⟨t, ht⟩ := eventually_all_past (verbose := verbose) hf
  have : ∀ d t, (∀ i, past (σ t) i) → (undone n (σ t)).card ≤ d →
      ∃ t, (∀ i, past (σ t) i) ∧ ∀ i j, j < n i → (σ t).task i j = .done := by
    intro d
    induction d with
    | zero =>
      intro t hp hd
      refine ⟨t, hp, fun i j hj => ?_⟩
      by_contra h
      have := Finset.card_pos.2 ⟨_, mem_undone.2 ⟨hj, h⟩⟩
      omega
    | succ d ih =>
      intro t hp hd
      by_cases h : ∀ i j, j < n i → (σ t).task i j = .done
      · exact ⟨t, hp, h⟩
      · push Not at h
        obtain ⟨i, j, hj, hne⟩ := h
        obtain ⟨u, h1, h2⟩ := some_finishes hf hp hj hne
        exact ih u (fun i => past_mono h1 (hp i)) (by omega)
  exact this _ t ht le_rfl

end

/-- When all tasks have finished and all calls have submitted theirs, the counter does not change. -/
theorem counter_step {s : St N} (hinv : Inv n verbose s) (hp : ∀ i, past s i)
    (hd : ∀ i j, j < n i → s.task i j = .done) (a : Agent N) :
    (step n verbose s a).counter = s.counter := by
  cases a with
  | main i =>
    simp only [step, mainStep]
    split
    · rename_i e; exact absurd e (hp i).1
    · rename_i k e; exact absurd e ((hp i).2 k)
    · rfl
    · rfl
    · split_ifs <;> rfl
    · rfl
  | task i j =>
    simp only [step, taskStep]
    by_cases hj : j < n i
    · rw [hd i j hj]
    · rw [(hinv.new_iff i j).2 (by rw [subs_past (hp i)]; omega)]

/-- Tasks of call `i` that have incremented the counter. -/
def counted (n : Fin N → Nat) (s : St N) (i : Fin N) : Finset Nat :=
  (Finset.range (n i)).filter fun j => s.task i j = .done ∨ s.lock = some (i, j, .stored)

/-- The counter is at least the number of finished tasks of call `i`. -/
def Bound (n : Fin N → Nat) (i : Fin N) (s : St N) : Prop :=
  (counted n s i).card ≤ s.counter ∧ ∀ a b v, s.lock = some (a, b, .loaded v) → (counted n s i).card ≤ v

theorem counted_congr {s u : St N} {i : Fin N} (h1 : ∀ j, u.task i j = .done ↔ s.task i j = .done)
    (h2 : ∀ j, u.lock = some (i, j, .stored) ↔ s.lock = some (i, j, .stored)) : counted n u i = counted n s i := by
  ext j
  simp [counted, h1, h2]

theorem bound_step {s : St N} {i : Fin N} (hinv : Inv n verbose s) (hb : Bound n i s)
    (hs : ∀ j, s.main j ≠ .start) (a : Agent N) : Bound n i (step n verbose s a) := by
  cases a with
  | main b =>
    have hc : (mainStep n verbose s b).counter = s.counter ∧ (mainStep n verbose s b).lock = s.lock ∧
        ∀ j, (mainStep n verbose s b).task i j = .done ↔ s.task i j = .done := by
      unfold mainStep
      split
      · rename_i e; exact absurd e (hs b)
      · rename_i k hm
        split_ifs
        · refine ⟨rfl, rfl, fun j => ?_⟩
          simp only [task_update]
          split_ifs with e
          · obtain ⟨rfl, rfl⟩ := e
            rw [(hinv.new_iff i j).2 (by simp [subs, hm])]
            simp
          · rfl
        · exact ⟨rfl, rfl, fun j => Iff.rfl⟩
        · exact ⟨rfl, rfl, fun j => Iff.rfl⟩
      · exact ⟨rfl, rfl, fun j => Iff.rfl⟩
      · exact ⟨rfl, rfl, fun j => Iff.rfl⟩
      · split_ifs
        · exact ⟨rfl, rfl, fun j => Iff.rfl⟩
        · exact ⟨rfl, rfl, fun j => Iff.rfl⟩
      · exact ⟨rfl, rfl, fun j => Iff.rfl⟩
    obtain ⟨h1, h2, h3⟩ := hc
    have he : counted n (mainStep n verbose s b) i = counted n s i := counted_congr h3 (fun j => by rw [h2])
    refine ⟨?_, fun x y v hl => ?_⟩
    · simp only [step]; rw [he, h1]; exact hb.1
    · simp only [step] at *; rw [he]; exact hb.2 x y v (by rw [← h2]; exact hl)
  | task b l =>
    simp only [step, taskStep]
    split
    · exact hb
    · rename_i hr
      have he : counted n { s with
          task := Function.update s.task b (Function.update (s.task b) l .worked)
          log := Function.update s.log b (s.log b ++ [l]) } i = counted n s i := by
        apply counted_congr
        · intro j
          simp only [task_update]
          split_ifs with e
          · obtain ⟨rfl, rfl⟩ := e; rw [hr]; simp
          · rfl
        · intro j; rfl
      exact ⟨by rw [he]; exact hb.1, fun x y v hl => by rw [he]; exact hb.2 x y v hl⟩
    · rename_i hw
      split
      · rename_i hl
        have he : counted n { s with lock := some (b, l, .entered) } i = counted n s i := by
          apply counted_congr
          · intro j; rfl
          · intro j; simp [hl]
        exact ⟨by rw [he]; exact hb.1, fun x y v hl => by cases hl⟩
      · rename_i x y ph hl
        split_ifs with e
        · obtain ⟨rfl, rfl⟩ := e
          split
          · have he : counted n { s with lock := some (x, y, .loaded s.counter) } i = counted n s i := by
              apply counted_congr
              · intro j; rfl
              · intro j; simp [hl]
            exact ⟨by rw [he]; exact hb.1, fun p q v hv => by cases hv; rw [he]; exact hb.1⟩
          · rename_i v
            refine ⟨?_, fun p q v hv => by cases hv⟩
            have hle : counted n { s with counter := v + 1, lock := some (x, y, .stored) } i ⊆
                insert y (counted n s i) := by
              intro j hj
              simp only [counted, Finset.mem_filter, Finset.mem_range, Option.some.injEq, Prod.mk.injEq,
                Finset.mem_insert] at hj ⊢
              rcases hj with ⟨h1, h2 | ⟨-, rfl, -⟩⟩
              · exact Or.inr ⟨h1, Or.inl h2⟩
              · exact Or.inl rfl
            have := (Finset.card_le_card hle).trans (Finset.card_insert_le _ _)
            have := hb.2 x y v hl
            simp only
            omega
          · have he : counted n { s with
                lock := none
                task := Function.update s.task x (Function.update (s.task x) y .done) } i = counted n s i := by
              ext j
              simp only [counted, Finset.mem_filter, Finset.mem_range, task_update, hl, Option.some.injEq,
                Prod.mk.injEq, reduceCtorEq, or_false, and_true]
              refine and_congr_right fun _ => ?_
              split_ifs with e
              · obtain ⟨rfl, rfl⟩ := e; simp
              · refine ⟨Or.inl, fun h => h.elim id fun h => absurd ⟨h.1.symm, h.2.symm⟩ e⟩
            exact ⟨by rw [he]; exact hb.1, fun p q v hv => by cases hv⟩
        · exact hb
    · exact hb

end DRec.Prog
