import Verif.Lemmas.DbThreads
import Verif.Props.DbHistory

/-!
# C100: threads that select from one database dataset do not disturb each other

`C100_tasks_partial` holds for every interleaving of any number of tasks on a dataset that has no pending filter
(`x0.state = .table`), or whose counter of direct interactions cannot reach the limit of four during the tasks.
Missing from the full claim: datasets with a pending filter and more tasks.  There the claim is false:
`C100_fails_interleaving` is a schedule of two tasks in which one gets records that are not in the dataset.
One after the other the same tasks are right (`C100_one_by_one`).
-/

namespace DRec.Conc

open Spec

theorem countP_set {α : Type} (f : α → Bool) : ∀ (l : List α) (k : Nat) (a b : α), l[k]? = some a →
    (l.set k b).countP f + (if f a then 1 else 0) = l.countP f + (if f b then 1 else 0)
  | [], k, a, b, h => by simp at h
  | x :: l, 0, a, b, h => by
    simp only [List.getElem?_cons_zero, Option.some.injEq] at h
    subst h
    simp only [List.set_cons_zero, List.countP_cons]
    omega
  | x :: l, k + 1, a, b, h => by
    simp only [List.getElem?_cons_succ] at h
    have := countP_set f l k a b h
    simp only [List.set_cons_succ, List.countP_cons]
    omega

theorem stepTask_stored {w w' : World} {i : Nat} {ph ph' : Phase} (h : stepTask w i ph = some (w', ph')) :
    (ph.stored = true → ph'.stored = true) ∧ (∀ q j d, ph = .loaded q j d → ph'.stored = true) := by
  cases ph with
  | done r => cases h
  | todo q => exact ⟨fun h => (by cases h), fun _ _ _ h => (by cases h)⟩
  | opened q j => exact ⟨fun h => (by cases h), fun _ _ _ h => (by cases h)⟩
  | copied q j => exact ⟨fun h => (by cases h), fun _ _ _ h => (by cases h)⟩
  | loaded q j d =>
    simp only [stepTask, Option.some.injEq] at h
    split at h <;> (obtain ⟨_, rfl⟩ := Prod.mk.inj h; exact ⟨fun _ => rfl, fun _ _ _ _ => rfl⟩)
  | counted q j =>
    simp only [stepTask, Option.some.injEq] at h
    split at h
    · obtain ⟨_, rfl⟩ := Prod.mk.inj h; exact ⟨fun _ => rfl, fun _ _ _ _ => rfl⟩
    · split at h
      · split at h <;> (obtain ⟨_, rfl⟩ := Prod.mk.inj h; exact ⟨fun _ => rfl, fun _ _ _ _ => rfl⟩)
      · obtain ⟨_, rfl⟩ := Prod.mk.inj h; exact ⟨fun _ => rfl, fun _ _ _ _ => rfl⟩
  | recorded q j =>
    simp only [stepTask, Option.some.injEq] at h
    split at h <;> (obtain ⟨_, rfl⟩ := Prod.mk.inj h; exact ⟨fun _ => rfl, fun _ _ _ _ => rfl⟩)
  | selected j =>
    simp only [stepTask, Option.some.injEq] at h
    obtain ⟨_, rfl⟩ := Prod.mk.inj h; exact ⟨fun _ => rfl, fun _ _ _ _ => rfl⟩

/-- How often the counter has been written. -/
def State.writes (s : State) : Nat := s.tasks.countP Phase.stored

/-- What holds in every state of every interleaving. -/
structure Inv (names : List String) (w0 : World) (x0 : Inst) (p : Plain) (wss : List Written) (i : Nat)
    (s : State) : Prop where
  own : Own names x0 p i s.w (x0.direct + s.writes)
  len : s.tasks.length = wss.length
  task : ∀ (k : Nat) ph ws, s.tasks[k]? = some ph → wss[k]? = some ws → TaskOk x0 p ws s.w ph
  notOwn : ∀ (k : Nat) ph, s.tasks[k]? = some ph → ph.obj ≠ some i
  cnt : ∀ (k : Nat) q j d, s.tasks[k]? = some (.loaded q j d) → x0.state = .table ∨ d ≤ x0.direct + s.writes
  dist : ∀ (k k' : Nat) ph ph' j, k ≠ k' → s.tasks[k]? = some ph → s.tasks[k']? = some ph' → ph.obj = some j →
    ph'.obj ≠ some j
  old : ∀ m z, m ≠ i → w0.insts m = some z → s.w.insts m = some z ∧ s.w.tables z.table = w0.tables z.table
  new : ∀ (k : Nat) ph j, s.tasks[k]? = some ph → ph.obj = some j → w0.insts j = none

theorem Inv.step {names : List String} (hn : NamesOk names) {w0 : World} {x0 : Inst} {p : Plain} {wss : List Written}
    {i : Nat} (hlim : x0.state = .table ∨ x0.direct + wss.length < 4)
    (hpre : ∀ ws ∈ wss, SelectPre names ws p x0.types) {s s' : State} {k : Nat} (h : Inv names w0 x0 p wss i s)
    (hs : s.step i k = some s') : Inv names w0 x0 p wss i s' := by
  unfold State.step at hs
  cases hk : s.tasks[k]? with
  | none => rw [hk] at hs; cases hs
  | some ph =>
    rw [hk] at hs
    simp only at hs
    cases hst : stepTask s.w i ph with
    | none => rw [hst] at hs; cases hs
    | some r =>
      obtain ⟨w', ph'⟩ := r
      rw [hst] at hs
      simp only [Option.map_some, Option.some.injEq] at hs
      subst hs
      have hkl : k < s.tasks.length := by
        by_contra hc
        rw [List.getElem?_eq_none (by omega)] at hk; cases hk
      obtain ⟨ws, hws⟩ : ∃ ws, wss[k]? = some ws := ⟨_, List.getElem?_eq_getElem (by rw [← h.len]; exact hkl)⟩
      obtain ⟨st1, st2⟩ := stepTask_stored hst
      have hcp := countP_set Phase.stored s.tasks k ph ph' hk
      have hle : s.writes ≤ (s.tasks.set k ph').countP Phase.stored := by
        unfold State.writes
        by_cases hp : ph.stored = true
        · rw [if_pos hp, if_pos (st1 hp)] at hcp; omega
        · rw [if_neg hp] at hcp; omega
      have hle2 : (s.tasks.set k ph').countP Phase.stored ≤ wss.length := by
        refine le_trans List.countP_le_length ?_
        rw [List.length_set, h.len]
      have hlim' : x0.state = .table ∨ x0.direct + (s.tasks.set k ph').countP Phase.stored < 4 :=
        hlim.imp_right fun hl => by omega
      have hd : ∀ q j d, ph = .loaded q j d →
          x0.state = .table ∨ d + 1 ≤ x0.direct + (s.tasks.set k ph').countP Phase.stored := by
        intro q j d he
        have h1 := h.cnt k q j d (by rw [hk, he])
        refine h1.imp_right fun h1 => ?_
        have hp : ¬ ph.stored = true := by rw [he]; simp [Phase.stored]
        rw [if_neg hp, if_pos (st2 q j d he)] at hcp
        unfold State.writes at h1
        omega
      obtain ⟨ok, hld⟩ := stepTask_ok hn h.own (Nat.add_le_add_left hle _) hlim' (h.task k ph ws hk hws)
        (hpre ws (List.mem_of_getElem? hws)) (h.notOwn k ph hk) hd hst
      have hget : ∀ k' : Nat, (s.tasks.set k ph')[k']? = if k = k' then some ph' else s.tasks[k']? := by
        intro k'
        by_cases hkk : k = k'
        · subst hkk
          rw [List.getElem?_set_self hkl, if_pos rfl]
        · rw [List.getElem?_set_ne hkk, if_neg hkk]
      -- the object of another task is not touched
      have hother : ∀ (k' : Nat) ph2 j, k ≠ k' → s.tasks[k']? = some ph2 → ph2.obj = some j → ph.obj ≠ some j ∧ j ≠ i := by
        intro k' ph2 j hkk h2 hj
        exact ⟨h.dist k' k ph2 ph j (Ne.symm hkk) h2 hk hj, fun he => h.notOwn k' ph2 h2 (by rw [hj, he])⟩
      refine ⟨ok.own, ?_, ?_, ?_, ?_, ?_, ?_, ?_⟩
      · simp only [List.length_set]; exact h.len
      · intro k' ph2 ws2 h2 hw2
        simp only [hget] at h2
        by_cases hkk : k = k'
        · subst hkk
          rw [if_pos rfl] at h2; cases h2
          rw [hws] at hw2; cases hw2
          exact ok.task
        · rw [if_neg hkk] at h2
          have ht2 := h.task k' ph2 ws2 h2 hw2
          have hfr : ∀ j, ph2.obj = some j → ∀ z, s.w.insts j = some z →
              w'.insts j = some z ∧ w'.tables z.table = s.w.tables z.table := by
            intro j hj z hz
            obtain ⟨o1, o2⟩ := hother k' ph2 j hkk h2 hj
            exact ok.others j z o2 o1 hz
          exact taskOk_frame ht2 hfr
      · intro k' ph2 h2
        simp only [hget] at h2
        by_cases hkk : k = k'
        · subst hkk
          rw [if_pos rfl] at h2; cases h2
          intro hi
          rcases ok.obj i hi with ho | ho
          · exact h.notOwn k ph hk ho
          · exact ho.2 rfl
        · rw [if_neg hkk] at h2
          exact h.notOwn k' ph2 h2
      · intro k' q j d h2
        simp only [hget] at h2
        show x0.state = .table ∨ d ≤ x0.direct + (s.tasks.set k ph').countP Phase.stored
        by_cases hkk : k = k'
        · subst hkk
          rw [if_pos rfl] at h2
          exact (hld q j d (Option.some.inj h2)).imp_right fun h => by omega
        · rw [if_neg hkk] at h2
          exact (h.cnt k' q j d h2).imp_right fun h => by omega
      · intro k1 k2 ph1 ph2 j hne h1 h2 hj
        simp only [hget] at h1 h2
        have hfresh : ∀ (k' : Nat) ph3, k ≠ k' → s.tasks[k']? = some ph3 → ph3.obj = some j → ph'.obj ≠ some j := by
          intro k' ph3 hkk h3 hj3 hj'
          rcases ok.obj j hj' with ho | ho
          · exact (hother k' ph3 j hkk h3 hj3).1 ho
          · obtain ⟨ws3, hw3⟩ : ∃ ws, wss[k']? = some ws := by
              have : k' < s.tasks.length := by
                by_contra hc
                rw [List.getElem?_eq_none (by omega)] at h3; cases h3
              exact ⟨_, List.getElem?_eq_getElem (by rw [← h.len]; exact this)⟩
            obtain ⟨y, hy⟩ := (h.task k' ph3 ws3 h3 hw3).inst hj3
            rw [ho.1] at hy; cases hy
        by_cases hk1 : k = k1
        · subst hk1
          rw [if_pos rfl] at h1; cases h1
          rw [if_neg hne] at h2
          intro hj2
          exact hfresh k2 ph2 hne h2 hj2 hj
        · rw [if_neg hk1] at h1
          by_cases hk2 : k = k2
          · subst hk2
            rw [if_pos rfl] at h2; cases h2
            exact hfresh k1 ph1 hk1 h1 hj
          · rw [if_neg hk2] at h2
            exact h.dist k1 k2 ph1 ph2 j hne h1 h2 hj
      · intro m z hm hz
        obtain ⟨o1, o2⟩ := h.old m z hm hz
        have hno : ph.obj ≠ some m := fun he => by
          rw [h.new k ph m hk he] at hz; cases hz
        obtain ⟨g1, g2⟩ := ok.others m z hm hno o1
        exact ⟨g1, g2.trans o2⟩
      · intro k' ph2 j h2 hj
        simp only [hget] at h2
        by_cases hkk : k = k'
        · subst hkk
          rw [if_pos rfl] at h2; cases h2
          rcases ok.obj j hj with ho | ho
          · exact h.new k ph j hk ho
          · cases hw0 : w0.insts j with
            | none => rfl
            | some z =>
              have := (h.old j z ho.2 hw0).1
              rw [ho.1] at this; cases this
        · rw [if_neg hkk] at h2
          exact h.new k' ph2 j h2 hj

theorem Inv.init {names : List String} {w : World} (hg : Good names w) {i : Nat} {x : Inst} (hx : w.insts i = some x)
    {p : Plain} (hp : plainOf w i = some p) (wss : List Written) :
    Inv names w x p wss i (State.init w (wss.map queryText)) := by
  have hget : ∀ (k : Nat) ph, (State.init w (wss.map queryText)).tasks[k]? = some ph →
      ∃ ws, wss[k]? = some ws ∧ ph = .todo (queryText ws) := by
    intro k ph h
    simp only [State.init, List.map_map, List.getElem?_map] at h
    cases hw : wss[k]? with
    | none => rw [hw] at h; cases h
    | some ws => rw [hw] at h; exact ⟨ws, rfl, (Option.some.inj h).symm⟩
  refine ⟨⟨hg, ⟨x, hx, rfl, rfl, rfl, rfl, rfl, Or.inr (Nat.le_add_right _ _)⟩, hp⟩, ?_, ?_, ?_, ?_, ?_,
    fun m z _ hz => ⟨hz, rfl⟩, ?_⟩
  · simp [State.init]
  · intro k ph ws h1 h2
    obtain ⟨ws', h3, rfl⟩ := hget k ph h1
    rw [h2] at h3; cases h3
    rfl
  · intro k ph h1
    obtain ⟨ws', h3, rfl⟩ := hget k ph h1
    simp [Phase.obj]
  · intro k q j d h1
    obtain ⟨ws', h3, h4⟩ := hget k _ h1
    cases h4
  · intro k k' ph ph' j _ h1 _ hj
    obtain ⟨ws', h3, rfl⟩ := hget k ph h1
    cases hj
  · intro k ph j h1 hj
    obtain ⟨ws', h3, rfl⟩ := hget k ph h1
    cases hj

/-- After any admissible history, any number of tasks select from dataset `i` at the same time.  When it has no
pending filter, or too few tasks to reach the limit of direct interactions, then in every interleaving every task
that has finished returned the records of the dataset that satisfy its query (and not an exception, if the columns
are there), and all datasets show what they showed before. -/
theorem C100_tasks_partial (names cols : List String) (types : String → DType) (rows : List Row) (ops : List DbOp)
    (hn : tableCols ⊆ names ∧ "uid" ∈ names ∧ "iid" ∈ names) (hcols : cols ⊆ names) (hrid : "rid" ∈ cols)
    (hsort : rows.Pairwise fun a b => a.rid < b.rid)
    (ha : AdmissibleAll names (World.ofCsv cols types rows) ops) (w : World)
    (hw : w = runOps (World.ofCsv cols types rows) ops) (i : Nat) (x : Inst) (p : Plain)
    (hx : w.insts i = some x) (hp : plainOf w i = some p) (wss : List Written)
    (hpre : ∀ ws ∈ wss, SelectPre names ws p x.types)
    (hlim : x.state = .table ∨ x.direct + wss.length < 4) (s : State)
    (hr : Runs i (State.init w (wss.map queryText)) s) :
    (∀ (k : Nat) ws r, wss[k]? = some ws → s.tasks[k]? = some (.done r) →
      (∀ res, r = .ok res → res = .recs (p.recs.filter fun rec => decide (SatRec ws rec))) ∧
      (FullCols p.cols → (∀ c ∈ ws, c.2.1.col ∈ p.cols) → ∃ res, r = .ok res)) ∧
    ∀ m q, plainOf w m = some q → plainOf s.w m = some q := by
  obtain ⟨g1, _⟩ := ofCsv_good hn types rows hcols hrid hsort
  obtain ⟨hg, _⟩ := history_good hn g1 ops [] (by simpa using ha)
  rw [← hw] at hg
  have hinv : Inv names w x p wss i s := by
    induction hr with
    | refl => exact Inv.init hg hx hp wss
    | step k _ hs ih => exact ih.step hn hlim hpre hs
  refine ⟨fun k ws r hws hk => hinv.task k _ ws hk hws, fun m q hq => ?_⟩
  by_cases hm : m = i
  · subst hm
    rw [hq] at hp; cases hp
    exact hinv.own.plain
  · obtain ⟨z, _, _, hz, _⟩ := plain_inv hg hq
    rw [plainOf_frame hz (hinv.old m z hm hz)]
    exact hq

/-! ## Tasks finish -/

/-- Steps left. -/
def Phase.left : Phase → Nat
  | .todo _ => 7
  | .opened _ _ => 6
  | .copied _ _ => 5
  | .loaded _ _ _ => 4
  | .counted _ _ => 3
  | .recorded _ _ => 2
  | .selected _ => 1
  | .done _ => 0

theorem stepTask_left {w w' : World} {i : Nat} {ph ph' : Phase} (h : stepTask w i ph = some (w', ph')) :
    ph'.left < ph.left := by
  cases ph with
  | done r => cases h
  | selected j =>
    simp only [stepTask, Option.some.injEq] at h
    obtain ⟨_, rfl⟩ := Prod.mk.inj h
    simp [Phase.left]
  | _ =>
    simp only [stepTask, Option.some.injEq] at h
    repeat' split at h
    all_goals
      obtain ⟨_, rfl⟩ := Prod.mk.inj h
      simp [Phase.left]

theorem sum_left_set : ∀ (l : List Phase) (k : Nat) (a b : Phase), l[k]? = some a → b.left < a.left →
    ((l.set k b).map Phase.left).sum < (l.map Phase.left).sum
  | [], k, a, b, h, _ => by simp at h
  | x :: l, 0, a, b, h, hl => by
    simp only [List.getElem?_cons_zero, Option.some.injEq] at h
    subst h
    simpa using hl
  | x :: l, k + 1, a, b, h, hl => by
    simp only [List.getElem?_cons_succ] at h
    have := sum_left_set l k a b h hl
    simpa using this

/-- No interleaving goes on forever (at most seven steps per task), and when no task can make a step all have
finished: tasks never wait for each other. -/
theorem C100_finishes (i : Nat) :
    (∃ m : State → Nat, (∀ w qs, m (State.init w qs) = 7 * qs.length) ∧
      ∀ s s' k, s.step i k = some s' → m s' < m s) ∧
    ∀ s : State, (∀ k, s.step i k = none) → ∀ ph ∈ s.tasks, ∃ r, ph = .done r := by
  refine ⟨⟨fun s => (s.tasks.map Phase.left).sum, ?_, ?_⟩, ?_⟩
  · intro w qs
    simp only [State.init, List.map_map]
    induction qs with
    | nil => rfl
    | cons q qs ih =>
      simp only [List.map_cons, List.sum_cons, List.length_cons, ih, Function.comp_apply, Phase.left]
      omega
  · intro s s' k h
    unfold State.step at h
    cases hk : s.tasks[k]? with
    | none => rw [hk] at h; cases h
    | some ph =>
      rw [hk] at h
      simp only at h
      cases hst : stepTask s.w i ph with
      | none => rw [hst] at h; cases h
      | some r =>
        rw [hst] at h
        simp only [Option.map_some, Option.some.injEq] at h
        subst h
        exact sum_left_set _ _ _ _ hk (stepTask_left hst)
  · intro s h ph hph
    obtain ⟨k, hk, rfl⟩ := List.mem_iff_getElem.1 hph
    have := h k
    unfold State.step at this
    rw [List.getElem?_eq_getElem hk] at this
    simp only [Option.map_eq_none_iff] at this
    cases hp : s.tasks[k] with
    | done r => exact ⟨r, rfl⟩
    | _ => rw [hp] at this; cases this

/-! ## A dataset with a pending filter -/

theorem runs_run (i : Nat) (s : State) (ks : List Nat) : Runs i s (s.run i ks) := by
  have key : ∀ (ks : List Nat) (s s0 : State), Runs i s0 s → Runs i s0 (s.run i ks) := by
    intro ks
    induction ks with
    | nil => exact fun _ _ h => h
    | cons k ks ih =>
      intro s s0 h
      simp only [State.run]
      cases hk : s.step i k with
      | none => exact ih _ _ h
      | some s' => exact ih _ _ (.step k h hk)
  exact key ks s s (.refl s)

/-- A dataset of three records filtered in place by `interaction > 3`, after three reads. -/
def exFiltered : World :=
  runOps exWorld [.select 0 exDbQuery false, .read 0 (.values none), .read 0 (.values none), .read 0 (.values none)]

/-- `user == 1` and `user == 2` -/
def exTasks : List Written := [[([], ⟨"user", .eq, .int 1⟩, [])], [([], ⟨"user", .eq, .int 2⟩, [])]]

/-- The records of the dataset. -/
example : exFiltered.view 0 = .ok [
    [("user", .num 1), ("item", .num 10), ("interaction", .num 5), ("rid", .num 0)],
    [("user", .num 2), ("item", .num 10), ("interaction", .num 4), ("rid", .num 2)]] := by decide +kernel

/-- The results of the tasks, `none` for those still running. -/
def State.results (s : State) : List (Option (Except Err ReadRes)) :=
  s.tasks.map fun ph => match ph with | .done r => some r | _ => none

/-- **The full claim is false**: the first task has just opened its copy when the second one reduces the dataset to
a table of its own and forgets the filter; the first task then copies the empty filter and returns a record (with
interaction 3) that is not in the dataset. -/
theorem C100_fails_interleaving :
    ∃ s, Runs 0 (State.init exFiltered (exTasks.map queryText)) s ∧
      s.results = [
        some (.ok (.recs [
          [("user", .num 1), ("item", .num 10), ("interaction", .num 5), ("rid", .num 0)],
          [("user", .num 1), ("item", .num 20), ("interaction", .num 3), ("rid", .num 1)]])),
        some (.ok (.recs [
          [("user", .num 2), ("item", .num 10), ("interaction", .num 4), ("rid", .num 2)]]))] :=
  ⟨_, runs_run 0 _ [0, 1, 1, 1, 1, 1, 1, 1, 0, 0, 0, 0, 0, 0], by decide +kernel⟩

/-- One after the other, in both orders, the tasks return the right records. -/
theorem C100_one_by_one (ks : List Nat)
    (hks : ks = [0, 0, 0, 0, 0, 0, 0, 1, 1, 1, 1, 1, 1, 1] ∨ ks = [1, 1, 1, 1, 1, 1, 1, 0, 0, 0, 0, 0, 0, 0]) :
    ((State.init exFiltered (exTasks.map queryText)).run 0 ks).results = [
        some (.ok (.recs [
          [("user", .num 1), ("item", .num 10), ("interaction", .num 5), ("rid", .num 0)]])),
        some (.ok (.recs [
          [("user", .num 2), ("item", .num 10), ("interaction", .num 4), ("rid", .num 2)]]))] := by
  rcases hks with rfl | rfl <;> decide +kernel

/-- Three reads of the dataset without filter. -/
def exReads : List DbOp := [.read 0 (.values none), .read 0 (.values none), .read 0 (.values none)]

/-- The hypotheses of `C100_tasks_partial` hold after these reads for the two queries, though together they reach
the limit of direct interactions. -/
example : AdmissibleAll exDbNames exWorld exReads ∧
    ∃ x p, (runOps exWorld exReads).insts 0 = some x ∧ plainOf (runOps exWorld exReads) 0 = some p ∧
      (∀ ws ∈ exTasks, SelectPre exDbNames ws p x.types) ∧ x.state = .table ∧ 4 ≤ x.direct + exTasks.length ∧
      FullCols p.cols ∧ ∀ ws ∈ exTasks, ∀ c ∈ ws, c.2.1.col ∈ p.cols := by
  refine ⟨⟨trivial, trivial, trivial, trivial⟩, ⟨exDbCols, .table, 0, false, some fun _ => .int, 3, 3, 0, 3⟩,
    ⟨exDbCols, [
        [("user", .num 1), ("item", .num 10), ("interaction", .num 5), ("rid", .num 0)],
        [("user", .num 1), ("item", .num 20), ("interaction", .num 3), ("rid", .num 1)],
        [("user", .num 2), ("item", .num 10), ("interaction", .num 4), ("rid", .num 2)]], false⟩,
    rfl, by decide +kernel, ?_, rfl, by decide, by unfold FullCols; decide, by decide⟩
  intro ws hws
  simp only [exTasks, List.mem_cons, List.not_mem_nil, or_false] at hws
  rcases hws with rfl | rfl
  all_goals
    refine ⟨by decide, ?_⟩
    intro c hc
    simp only [List.mem_singleton] at hc
    subst hc
    refine ⟨trivial, ?_, by decide⟩
    intro ty hty
    cases hty
    decide

/-- What the interleaving above gives on the dataset without filter. -/
example : ((State.init (runOps exWorld exReads) (exTasks.map queryText)).run 0
      [0, 1, 1, 1, 1, 1, 1, 1, 0, 0, 0, 0, 0, 0]).results = [
        some (.ok (.recs [
          [("user", .num 1), ("item", .num 10), ("interaction", .num 5), ("rid", .num 0)],
          [("user", .num 1), ("item", .num 20), ("interaction", .num 3), ("rid", .num 1)]])),
        some (.ok (.recs [
          [("user", .num 2), ("item", .num 10), ("interaction", .num 4), ("rid", .num 2)]]))] := by
  decide +kernel

end DRec.Conc
