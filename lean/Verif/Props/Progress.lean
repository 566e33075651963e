import Verif.Lemmas.ProgressEnd
import Mathlib.Tactic.FinCases

/-!
# C130: several evaluations or splits at the same time

All calls of one of the four functions share the counter their progress loops look at.
-/

namespace DRec.Prog

variable {N : Nat} {n : Fin N → Nat} {verbose : Fin N → Bool}

/-- **C130**, results: whatever the schedule and whatever the other calls do, a call that has returned has
done the work of each of its tasks exactly once. -/
theorem C130_results (n : Fin N → Nat) (verbose : Fin N → Bool) (sched : Nat → Agent N) (t : Nat) (i : Fin N)
    (h : (run n verbose sched t).main i = .returned) :
    ((run n verbose sched t).log i).Perm (List.range (n i)) := by
  have hinv := inv_run (n := n) (verbose := verbose) sched t
  refine (List.perm_ext_iff_of_nodup (hinv.log_nodup i) List.nodup_range).2 fun j => ?_
  rw [hinv.log_iff, List.mem_range]
  constructor
  · intro hj
    by_contra hlt
    have := (hinv.new_iff i j).2 (by have := hinv.subs_le i; omega)
    rw [this] at hj
    simp at hj
  · intro hj
    exact Or.inr (hinv.returned i h j hj)

/-- A call returns once all tasks are finished and the counter is not below its number of tasks. -/
theorem returns_of (sched : Nat → Agent N) (hf : Fair n sched) (t c : Nat) (i : Fin N)
    (hp : ∀ i, past (run n verbose sched t) i)
    (hd : ∀ i j, j < n i → (run n verbose sched t).task i j = .done)
    (hc : (run n verbose sched t).counter = c) (hi : verbose i = false ∨ n i ≤ c) :
    ∃ u, (run n verbose sched u).main i = .returned := by
  have hconst : ∀ u, t ≤ u → (run n verbose sched u).counter = c := by
    intro u hu
    induction u, hu using Nat.le_induction with
    | base => exact hc
    | succ u hu ih =>
      rw [← ih]
      exact counter_step (inv_run sched u) (fun i => past_mono hu (hp i)) (fun i j hj => done_mono hu (hd i j hj)) _
  have one : ∀ u, t ≤ u → ∃ v, u ≤ v ∧ (run n verbose sched v).main i = (run n verbose sched u).main i ∧
      run n verbose sched (v + 1) = mainStep n verbose (run n verbose sched v) i := by
    intro u hu
    obtain ⟨v, h1, h2, h3⟩ := next_main hf i u
    exact ⟨v, h1, h3, by simp only [run, h2, step]⟩
  have hjoin : ∀ u, t ≤ u → (run n verbose sched u).main i = .join →
      ∃ u, (run n verbose sched u).main i = .returned := by
    intro u hu hm
    obtain ⟨v, h1, h2, h3⟩ := one u hu
    refine ⟨v + 1, ?_⟩
    rw [h3]
    unfold mainStep
    rw [h2, hm]
    simp only
    rw [if_pos (fun j hj => done_mono (by omega) (hd i j hj))]
    simp
  by_cases hle : n i ≤ c
  · have htest : ∀ u, t ≤ u → (run n verbose sched u).main i = .test → c ≠ n i →
        ∃ u, (run n verbose sched u).main i = .returned := by
      intro u hu hm hne
      obtain ⟨v, h1, h2, h3⟩ := one u hu
      refine hjoin (v + 1) (by omega) ?_
      rw [h3]
      unfold mainStep
      rw [h2, hm]
      simp only [hconst v (by omega), Function.update_self]
      rw [if_neg (by omega)]
    have hcomp : ∀ u, t ≤ u → (run n verbose sched u).main i = .compare →
        ∃ u, (run n verbose sched u).main i = .returned := by
      intro u hu hm
      obtain ⟨v, h1, h2, h3⟩ := one u hu
      by_cases e : c = n i
      · refine hjoin (v + 1) (by omega) ?_
        rw [h3]
        unfold mainStep
        rw [h2, hm]
        simp only [hconst v (by omega), Function.update_self]
        rw [if_pos e]
      · refine htest (v + 1) (by omega) ?_ e
        rw [h3]
        unfold mainStep
        rw [h2, hm]
        simp only [hconst v (by omega), Function.update_self]
        rw [if_neg e]
    cases hm : (run n verbose sched t).main i with
    | start => exact absurd hm (hp i).1
    | submit k => exact absurd hm ((hp i).2 k)
    | returned => exact ⟨t, hm⟩
    | join => exact hjoin t le_rfl hm
    | compare => exact hcomp t le_rfl hm
    | test =>
      by_cases e : c = n i
      · obtain ⟨v, h1, h2, h3⟩ := one t le_rfl
        refine hcomp (v + 1) (by omega) ?_
        rw [h3]
        unfold mainStep
        rw [h2, hm]
        simp only [hconst v (by omega), Function.update_self]
        rw [if_pos (by omega)]
      · exact htest t le_rfl hm e
  · have hv : verbose i = false := hi.resolve_right hle
    have := (inv_run (n := n) (verbose := verbose) sched t).silent i hv
    cases hm : (run n verbose sched t).main i with
    | start => exact absurd hm (hp i).1
    | submit k => exact absurd hm ((hp i).2 k)
    | returned => exact ⟨t, hm⟩
    | join => exact hjoin t le_rfl hm
    | compare => exact absurd hm this.2
    | test => exact absurd hm this.1

/-- Calls without progress bar always return. -/
theorem C130_silent (n : Fin N → Nat) (verbose : Fin N → Bool) (sched : Nat → Agent N) (hf : Fair n sched)
    (i : Fin N) (hv : verbose i = false) : ∃ t, (run n verbose sched t).main i = .returned := by
  obtain ⟨t, hp, hd⟩ := eventually_done (verbose := verbose) hf
  exact returns_of sched hf t _ i hp hd rfl (Or.inl hv)

/-- **C130** (partial; the full property is that every call returns under every fair schedule, refuted by
`C130_hangs`).  The call that begins last returns, and so does every call that has no more tasks than it. -/
theorem C130_returns_partial (n : Fin N → Nat) (verbose : Fin N → Bool) (sched : Nat → Agent N)
    (hf : Fair n sched) (l : Fin N) (hl : BeginsLast n verbose sched l) (i : Fin N) (hi : n i ≤ n l) :
    ∃ t, (run n verbose sched t).main i = .returned := by
  obtain ⟨t0, h1, h2, h3⟩ := hl
  obtain ⟨t, hp, hd⟩ := eventually_done (verbose := verbose) hf
  have hbegun : ∀ j, (run n verbose sched (t0 + 1)).main j ≠ .start := by
    intro j
    by_cases e : j = l
    · subst e
      simp only [run, h1, step, mainStep, h2]
      simp
    · exact begun_step (h3 j e)
  have hb0 : Bound n l (run n verbose sched (t0 + 1)) := by
    have hinv := inv_run (n := n) (verbose := verbose) sched t0
    have hnew : ∀ j, (run n verbose sched t0).task l j = .new :=
      fun j => (hinv.new_iff l j).2 (by simp [subs, h2])
    have he : counted n (run n verbose sched (t0 + 1)) l = ∅ := by
      have e : run n verbose sched (t0 + 1) = { run n verbose sched t0 with
          counter := 0, main := Function.update (run n verbose sched t0).main l (.submit 0) } := by
        simp only [run, h1, step, mainStep, h2]
      rw [e]
      ext j
      simp only [counted, Finset.mem_filter, hnew, reduceCtorEq, false_or, Finset.notMem_empty, iff_false, not_and]
      intro _ hlk
      have := hinv.locked l j .stored hlk
      rw [hnew] at this
      cases this
    exact ⟨by rw [he]; simp, fun a b v _ => by rw [he]; simp⟩
  have hb : ∀ u, t0 + 1 ≤ u → Bound n l (run n verbose sched u) := by
    intro u hu
    induction u, hu using Nat.le_induction with
    | base => exact hb0
    | succ u hu ih => exact bound_step (inv_run sched u) ih (fun j => begun_mono hu (hbegun j)) _
  have hd' : ∀ i j, j < n i → (run n verbose sched (t + (t0 + 1))).task i j = .done :=
    fun i j hj => done_mono (by omega) (hd i j hj)
  have hfull : counted n (run n verbose sched (t + (t0 + 1))) l = Finset.range (n l) := by
    ext j
    simp only [counted, Finset.mem_filter, Finset.mem_range, and_iff_left_iff_imp]
    exact fun hj => Or.inl (hd' l j hj)
  have hc := (hb (t + (t0 + 1)) (by omega)).1
  rw [hfull, Finset.card_range] at hc
  exact returns_of sched hf (t + (t0 + 1)) _ i (fun i => past_mono (by omega) (hp i)) hd' rfl (Or.inr (by omega))

/-- Among the calls of a fair schedule one begins last, so the hypothesis of `C130_returns_partial` can always
be met. -/
theorem C130_one_begins_last (n : Fin (N + 1) → Nat) (verbose : Fin (N + 1) → Bool)
    (sched : Nat → Agent (N + 1)) (hf : Fair n sched) : ∃ l, BeginsLast n verbose sched l := by
  classical
  have hex : ∃ t, ∀ i, (run n verbose sched t).main i ≠ .start := by
    obtain ⟨t, ht⟩ := eventually_all_past (verbose := verbose) hf
    exact ⟨t, fun i => (ht i).1⟩
  obtain ⟨T, hT, hmin⟩ : ∃ T, (∀ i, (run n verbose sched T).main i ≠ .start) ∧
      ∀ u < T, ¬ ∀ i, (run n verbose sched u).main i ≠ .start :=
    ⟨Nat.find hex, Nat.find_spec hex, fun u hu => Nat.find_min hex hu⟩
  cases T with
  | zero => exact absurd rfl (hT 0)
  | succ T =>
    have := hmin T (by omega)
    push Not at this
    obtain ⟨l, hl⟩ := this
    have key : ∀ j, (run n verbose sched T).main j = .start → sched T = .main j := by
      intro j hj
      by_contra hne
      refine hT j ?_
      rw [show run n verbose sched (T + 1) = step n verbose (run n verbose sched T) (sched T) from rfl,
        main_other hne, hj]
    refine ⟨l, T, key l hl, hl, fun j hj h => hj ?_⟩
    have e := (key l hl).symm.trans (key j h)
    exact (Agent.main.inj e).symm

/-- One call alone always returns. -/
theorem C130_single (k : Nat) (v : Bool) (sched : Nat → Agent 1) (hf : Fair (fun _ => k) sched) :
    ∃ t, (run (fun _ => k) (fun _ => v) sched t).main 0 = .returned := by
  obtain ⟨l, hl⟩ := C130_one_begins_last (fun _ => k) (fun _ => v) sched hf
  exact C130_returns_partial _ _ sched hf l hl 0 le_rfl

/-- Calls with the same number of tasks (for instance evaluations of several recommenders with one test set)
all return. -/
theorem C130_same_size (k : Nat) (verbose : Fin N → Bool) (sched : Nat → Agent N)
    (hf : Fair (fun _ => k) sched) (i : Fin N) :
    ∃ t, (run (fun _ => k) verbose sched t).main i = .returned := by
  cases N with
  | zero => exact i.elim0
  | succ N =>
    obtain ⟨l, hl⟩ := C130_one_begins_last (fun _ => k) verbose sched hf
    exact C130_returns_partial _ _ sched hf l hl i le_rfl

/-- A call that waits in its loop while all tasks have finished, all calls have begun and the counter is below
its number of tasks, never returns. -/
theorem C130_stuck (n : Fin N → Nat) (verbose : Fin N → Bool) (sched : Nat → Agent N) (t : Nat) (i : Fin N)
    (hp : ∀ j, past (run n verbose sched t) j)
    (hd : ∀ a j, j < n a → (run n verbose sched t).task a j = .done)
    (hw : (run n verbose sched t).main i = .test ∨ (run n verbose sched t).main i = .compare)
    (hc : (run n verbose sched t).counter < n i) (u : Nat) (hu : t ≤ u) :
    (run n verbose sched u).main i = .test ∨ (run n verbose sched u).main i = .compare := by
  have : ((run n verbose sched u).main i = .test ∨ (run n verbose sched u).main i = .compare) ∧
      (run n verbose sched u).counter < n i := by
    induction u, hu using Nat.le_induction with
    | base => exact ⟨hw, hc⟩
    | succ u hu ih =>
      have hcs := counter_step (inv_run sched u) (fun i => past_mono hu (hp i))
        (fun a j hj => done_mono hu (hd a j hj)) (sched u)
      have er : run n verbose sched (u + 1) = step n verbose (run n verbose sched u) (sched u) := rfl
      rw [er]
      refine ⟨?_, by rw [hcs]; exact ih.2⟩
      by_cases e : sched u = .main i
      · rw [e]
        simp only [step, mainStep]
        rcases ih.1 with h | h
        · rw [h]
          simp only [Function.update_self]
          rw [if_pos (by omega)]
          exact Or.inr rfl
        · rw [h]
          simp only [Function.update_self]
          rw [if_neg (by omega)]
          exact Or.inl rfl
      · rw [main_other e]
        exact ih.1
  exact this.1

/-- The turns of `C130_hangs`: the first call submits two tasks and enters its loop, both tasks finish, then
the second call begins, submits its only task and the task finishes. -/
def hangTurns : List (Agent 2) :=
  List.replicate 4 (.main 0) ++ List.replicate 5 (.task 0 0) ++ List.replicate 5 (.task 0 1) ++
    List.replicate 3 (.main 1) ++ List.replicate 5 (.task 1 0)

theorem run_startsWith (n : Fin N → Nat) (verbose : Fin N → Bool) (l : List (Agent N)) (sched : Nat → Agent N)
    (h : StartsWith l sched) : ∀ t ≤ l.length,
    run n verbose sched t = (l.take t).foldl (step n verbose) (init N) := by
  intro t
  induction t with
  | zero => intro _; rfl
  | succ t ih =>
    intro ht
    rw [List.take_succ_eq_append_getElem (by omega), List.foldl_append, ← ih (by omega)]
    simp only [run, List.foldl_cons, List.foldl_nil]
    rw [h t (by omega)]

/-- **C130 fails**: two evaluations of two users and one user at the same time; the second one resets the
counter after the users of the first one were counted, and the first one waits for ever, however the threads
are scheduled afterwards. -/
theorem C130_hangs (sched : Nat → Agent 2) (h : StartsWith hangTurns sched) (t : Nat) :
    (run ![2, 1] ![true, true] sched t).main 0 ≠ .returned := by
  have e := run_startsWith ![2, 1] ![true, true] hangTurns sched h
  by_cases ht : t ≤ hangTurns.length
  · rw [e t ht]
    have : ∀ t ≤ hangTurns.length, ((hangTurns.take t).foldl (step ![2, 1] ![true, true]) (init 2)).main 0 ≠
        .returned := by decide +kernel
    exact this t ht
  · have ef := e hangTurns.length le_rfl
    have hm : ∀ i, ((hangTurns.take hangTurns.length).foldl (step ![2, 1] ![true, true]) (init 2)).main i =
        .test := by decide +kernel
    have hd : ∀ a : Fin 2, ∀ j < (![2, 1] : Fin 2 → Nat) a,
        ((hangTurns.take hangTurns.length).foldl (step ![2, 1] ![true, true]) (init 2)).task a j = .done := by
      decide +kernel
    have hc : ((hangTurns.take hangTurns.length).foldl (step ![2, 1] ![true, true]) (init 2)).counter = 1 := by
      decide +kernel
    have := C130_stuck ![2, 1] ![true, true] sched hangTurns.length 0
      (fun j => by rw [ef]; unfold past; rw [hm j]; simp) (fun a j hj => by rw [ef]; exact hd a j hj)
      (by rw [ef]; exact Or.inl (hm 0)) (by rw [ef, hc]; decide) t (by omega)
    rcases this with h | h <;> rw [h] <;> simp

/-! ## The hypotheses can be met -/

/-- Four threads in turn: two calls with one task each. -/
def roundRobin (t : Nat) : Agent 2 :=
  if t % 4 = 0 then .main 0 else if t % 4 = 1 then .main 1 else if t % 4 = 2 then .task 0 0 else .task 1 0

theorem roundRobin_fair : Fair ![1, 1] roundRobin := by
  refine ⟨fun i t => ?_, fun i j hj t => ?_⟩
  · fin_cases i
    · exact ⟨4 * t, by omega, by simp [roundRobin]⟩
    · exact ⟨4 * t + 1, by omega, by simp [roundRobin]⟩
  · fin_cases i
    · have : j = 0 := by simp at hj; omega
      subst this
      exact ⟨4 * t + 2, by omega, by simp [roundRobin, show (4 * t + 2) % 4 = 2 by omega]⟩
    · have : j = 0 := by simp at hj; omega
      subst this
      exact ⟨4 * t + 3, by omega, by simp [roundRobin, show (4 * t + 3) % 4 = 3 by omega]⟩

/-- In the round robin the second call begins last and both calls return. -/
example : BeginsLast ![1, 1] ![true, true] roundRobin 1 ∧
    (run ![1, 1] ![true, true] roundRobin 40).main 0 = .returned ∧
    (run ![1, 1] ![true, true] roundRobin 40).main 1 = .returned ∧
    (run ![1, 1] ![true, true] roundRobin 40).log 0 = [0] := by
  refine ⟨⟨1, rfl, by decide +kernel, ?_⟩, by decide +kernel, by decide +kernel, by decide +kernel⟩
  intro j hj
  fin_cases j
  · decide +kernel
  · exact absurd rfl hj

/-- Schedules that begin with the turns of `C130_hangs` exist, also fair ones. -/
example : ∃ sched, StartsWith hangTurns sched ∧ Fair ![2, 1] sched := by
  refine ⟨fun t => if h : t < hangTurns.length then hangTurns[t] else
    if t % 5 = 0 then .main 0 else if t % 5 = 1 then .main 1 else if t % 5 = 2 then .task 0 0 else
    if t % 5 = 3 then .task 0 1 else .task 1 0, fun t h => by simp [h], ?_, ?_⟩
  · have hlen : hangTurns.length = 22 := by decide
    intro i t
    fin_cases i
    · exact ⟨5 * (t + 22), by omega, by
        beta_reduce; rw [dif_neg (by omega), if_pos (by omega)]; rfl⟩
    · exact ⟨5 * (t + 22) + 1, by omega, by
        beta_reduce; rw [dif_neg (by omega), if_neg (by omega), if_pos (by omega)]; rfl⟩
  · have hlen : hangTurns.length = 22 := by decide
    intro i j hj t
    fin_cases i
    · have : j = 0 ∨ j = 1 := by simp at hj; omega
      rcases this with rfl | rfl
      · exact ⟨5 * (t + 22) + 2, by omega, by
          beta_reduce; rw [dif_neg (by omega), if_neg (by omega), if_neg (by omega), if_pos (by omega)]; rfl⟩
      · exact ⟨5 * (t + 22) + 3, by omega, by
          beta_reduce; rw [dif_neg (by omega), if_neg (by omega), if_neg (by omega), if_neg (by omega), if_pos (by omega)]; rfl⟩
    · have : j = 0 := by simp at hj; omega
      subst this
      exact ⟨5 * (t + 22) + 4, by omega, by
        beta_reduce; rw [dif_neg (by omega), if_neg (by omega), if_neg (by omega), if_neg (by omega), if_neg (by omega)]; rfl⟩

end DRec.Prog
