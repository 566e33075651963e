import Verif.Spec.DbLocks
import Mathlib.Tactic.Common

/-!
# C98: datasets on one file do not lock each other out
-/

namespace DRec.Lock

/-- Nothing is held. -/
structure Clean (l : Locks) : Prop where
  txn : ∀ j, l.txn j = false
  writer : l.writer = none
  rands : l.rands = []

/-- Nobody but connection `c` holds anything. -/
structure Free (c : Nat) (l : Locks) : Prop where
  txn : ∀ j, j ≠ c → l.txn j = false
  writer : l.writer = none ∨ l.writer = some c
  vals : l.vals = []
  rands : l.rands = []

theorem Clean.free {l : Locks} (h : Clean l) (hv : l.vals = []) (c : Nat) : Free c l :=
  ⟨fun j _ => h.txn j, Or.inl h.writer, hv, h.rands⟩

theorem Free.reading {c : Nat} {l : Locks} (h : Free c l) : l.reading = [] := by
  simp [Locks.reading, h.vals, h.rands]

theorem Free.othersWrite {c : Nat} {l : Locks} (h : Free c l) : l.othersWrite c = false := by
  unfold Locks.othersWrite
  rcases h.writer with hw | hw <;> simp [hw]

/-- A statement that is not `BEGIN` succeeds. -/
theorem Free.exec {c : Nat} {l : Locks} (h : Free c l) (s : Stmt) (hs : s ≠ .begin) :
    (exec c s l).2 = true ∧ Free c (Lock.exec c s l).1 := by
  have hr := h.reading
  have hw := h.othersWrite
  have hset : ∀ b, Free c (l.setTxn c b) := fun b =>
    ⟨fun j hj => by simp [Locks.setTxn, hj, h.txn j hj], h.writer, h.vals, h.rands⟩
  cases s with
  | begin => exact absurd rfl hs
  | change =>
    simp only [Lock.exec, hw]
    exact ⟨rfl, ⟨(hset true).txn, Or.inr rfl, h.vals, h.rands⟩⟩
  | create =>
    simp only [Lock.exec, hw, Locks.othersRead, hr]
    by_cases ht : l.txn c = true
    · simp only [ht]; exact ⟨rfl, ⟨h.txn, Or.inr rfl, h.vals, h.rands⟩⟩
    · simp only [Bool.not_eq_true] at ht
      simp only [ht]; exact ⟨rfl, h⟩
  | drop =>
    simp only [Lock.exec, hw, Locks.othersRead, Locks.reads, hr]
    by_cases ht : l.txn c = true
    · simp only [ht]; exact ⟨rfl, ⟨h.txn, Or.inr rfl, h.vals, h.rands⟩⟩
    · simp only [Bool.not_eq_true] at ht
      simp only [ht]; exact ⟨rfl, h⟩
  | commit =>
    simp only [Lock.exec, Locks.othersRead, hr]
    by_cases hc : l.writer = some c
    · simp only [hc, if_true]
      exact ⟨rfl, ⟨(hset false).txn, Or.inl rfl, h.vals, h.rands⟩⟩
    · simp only [hc, if_false]
      exact ⟨trivial, hset false⟩

/-- After `COMMIT` nothing is held. -/
theorem Free.commit {c : Nat} {l : Locks} (h : Free c l) : Clean (Lock.exec c .commit l).1 := by
  have hr := h.reading
  simp only [Lock.exec, Locks.othersRead, hr]
  have ht : ∀ j, (l.setTxn c false).txn j = false := fun j => by
    by_cases hj : j = c
    · simp [Locks.setTxn, hj]
    · simp [Locks.setTxn, hj, h.txn j hj]
  by_cases hc : l.writer = some c
  · simp only [hc, if_true]; exact ⟨ht, rfl, h.rands⟩
  · simp only [hc, if_false]
    rcases h.writer with hw | hw
    · exact ⟨ht, hw, h.rands⟩
    · exact absurd hw hc

theorem execAll_append (c : Nat) (a b : List Stmt) (l : Locks) (h : (execAll c a l).2 = true) :
    execAll c (a ++ b) l = execAll c b (execAll c a l).1 := by
  induction a generalizing l with
  | nil => rfl
  | cons s a ih =>
    simp only [List.cons_append, execAll] at h ⊢
    by_cases hs : (exec c s l).2 = true
    · simp only [hs, if_true] at h ⊢; exact ih _ h
    · simp only [hs] at h; cases h

/-- A list of statements without `BEGIN` succeeds. -/
theorem Free.execAll {c : Nat} {l : Locks} (h : Free c l) (ss : List Stmt) (hs : Stmt.begin ∉ ss) :
    (execAll c ss l).2 = true ∧ Free c (Lock.execAll c ss l).1 := by
  induction ss generalizing l with
  | nil => exact ⟨rfl, h⟩
  | cons s ss ih =>
    obtain ⟨h1, h2⟩ := h.exec s fun hc => hs (by simp [hc])
    simp only [Lock.execAll, h1, if_true]
    exact ih h2 fun hc => hs (by simp [hc])

/-- If it ends with `COMMIT`, nothing is held afterwards. -/
theorem Free.execAll_commit {c : Nat} {l : Locks} (h : Free c l) (ss : List Stmt) (hs : Stmt.begin ∉ ss) :
    (Lock.execAll c (ss ++ [.commit]) l).2 = true ∧ Clean (Lock.execAll c (ss ++ [.commit]) l).1 ∧
      (Lock.execAll c (ss ++ [.commit]) l).1.vals = [] := by
  obtain ⟨h1, h2⟩ := h.execAll ss hs
  rw [execAll_append c ss _ l h1]
  obtain ⟨h3, h4⟩ := h2.exec .commit (by simp)
  simp only [Lock.execAll, h3, if_true]
  exact ⟨trivial, h2.commit, h4.vals⟩

/-- After `BEGIN`. -/
theorem Clean.begin {l : Locks} (h : Clean l) (hv : l.vals = []) (c : Nat) :
    (exec c .begin l).2 = true ∧ Free c (exec c .begin l).1 := by
  simp only [exec, h.txn c]
  exact ⟨rfl, ⟨fun j hj => by simp [Locks.setTxn, hj, h.txn j], Or.inl h.writer, hv, h.rands⟩⟩

/-- A reduction succeeds, and nothing is held before and after. -/
theorem Clean.reduce {l : Locks} (h : Clean l) (c : Nat) (l' : Locks) (hl' : l'.vals = [] → l.vals = [])
    (r : Reduction) :
    (execAll c (r.stmts l') l).2 = true ∧ Clean (execAll c (r.stmts l') l).1 ∧
      (l.vals = [] → (execAll c (r.stmts l') l).1.vals = []) := by
  unfold Reduction.stmts
  split
  · exact ⟨rfl, h, id⟩
  · rename_i hv
    have hv' := hl' (by simpa using hv)
    have hf := h.free hv' c
    cases r with
    | notDue => exact ⟨rfl, h, id⟩
    | empty =>
      obtain ⟨h1, h2, h3⟩ := hf.execAll_commit [] (by simp)
      exact ⟨h1, h2, fun _ => h3⟩
    | own =>
      obtain ⟨h1, h2, h3⟩ := hf.execAll_commit [.change] (by simp)
      exact ⟨h1, h2, fun _ => h3⟩
    | shared =>
      obtain ⟨h1, h2, h3⟩ := hf.execAll_commit [.create, .change, .create, .create, .create, .create, .create]
        (by simp)
      exact ⟨h1, h2, fun _ => h3⟩

/-- `BEGIN`, statements, `COMMIT`. -/
theorem Clean.transaction {l : Locks} (h : Clean l) (hv : l.vals = []) (c : Nat) (ss : List Stmt)
    (hs : Stmt.begin ∉ ss) :
    (execAll c (.begin :: (ss ++ [.commit])) l).2 = true ∧ Clean (execAll c (.begin :: (ss ++ [.commit])) l).1 ∧
      (execAll c (.begin :: (ss ++ [.commit])) l).1.vals = [] := by
  obtain ⟨h1, h2⟩ := h.begin hv c
  have h3 : execAll c (.begin :: (ss ++ [.commit])) l = execAll c (ss ++ [.commit]) (exec c .begin l).1 := by
    rw [execAll]; simp only [h1, if_true]
  rw [h3]
  exact h2.execAll_commit ss hs

/-- One call. -/
theorem Clean.call {l : Locks} (h : Clean l) (c : Nat) (k : Call) (hk : Allowed l k) :
    (runCall c k l).2 = true ∧ Clean (runCall c k l).1 := by
  have hc : Clean (execAll c (k.stmts l) l).1 ∧ (execAll c (k.stmts l) l).2 = true := by
    cases k with
    | read r => exact ⟨(h.reduce c l id r).2.1, (h.reduce c l id r).1⟩
    | openVal r => exact ⟨(h.reduce c l id r).2.1, (h.reduce c l id r).1⟩
    | closeVal => exact ⟨h, rfl⟩
    | openRand => exact hk.elim
    | closeRand => exact ⟨h, rfl⟩
    | assign r n =>
      obtain ⟨h1, h2, h3⟩ := h.reduce c l id r
      obtain ⟨h4, h5, h6⟩ := (h2.free (h3 hk) c).execAll_commit [] (by simp)
      obtain ⟨h7, h8⟩ := (h5.free h6 c).execAll [.drop, .drop] (by simp)
      have h8' : Clean (execAll c [.drop, .drop] (execAll c ([] ++ [.commit]) (execAll c (r.stmts l) l).1).1).1 := by
        have hdrop : ∀ l' : Locks, Clean l' → l'.vals = [] → (exec c .drop l').1 = l' := by
          intro l' hl hv
          have hf := hl.free hv c
          simp [exec, hf.othersWrite, Locks.reads, Locks.othersRead, hf.reading, hl.txn c]
        have e1 := hdrop _ h5 h6
        simp only [execAll]
        split
        · rw [e1]
          split
          · rw [e1]; exact h5
          · rw [e1]; exact h5
        · rw [e1]; exact h5
      have h9 := h8'.transaction h8.vals c (List.replicate n .change) (by simp [List.mem_replicate])
      obtain ⟨h9, h10, h11⟩ := h9
      have h12 := (h10.free h11 c).execAll_commit [.create, .create] (by simp)
      have e : Call.stmts l (.assign r n) = r.stmts l ++ (([] ++ [.commit]) ++ ([.drop, .drop] ++
          ((.begin :: (List.replicate n .change ++ [.commit])) ++ ([.create, .create] ++ [.commit])))) := by
        simp [Call.stmts]
      rw [e, execAll_append _ _ _ _ h1, execAll_append _ _ _ _ h4, execAll_append _ _ _ _ h7,
        execAll_append _ _ _ _ h9]
      exact ⟨h12.2.1, h12.1⟩
    | applySame r₀ r n ok =>
      obtain ⟨rfl, hv⟩ := hk
      obtain ⟨h1, h2, h3⟩ := h.reduce c l id r₀
      obtain ⟨h4, h5, h6⟩ := h2.reduce c l (fun _ => h3 hv) r
      obtain ⟨h7, h8, h9⟩ := h5.transaction (h6 (h3 hv)) c (List.replicate n .change) (by simp [List.mem_replicate])
      obtain ⟨h10, h11, h12⟩ := (h8.free h9 c).execAll_commit [] (by simp)
      have e : Call.stmts l (.applySame r₀ r n true) = r₀.stmts l ++ (r.stmts l ++
          ((.begin :: (List.replicate n .change ++ [.commit])) ++ ([] ++ [.commit]))) := by
        simp [Call.stmts]
      rw [e, execAll_append _ _ _ _ h1, execAll_append _ _ _ _ h4, execAll_append _ _ _ _ h7]
      exact ⟨h11, h10⟩
    | applyNew r₀ n ok =>
      obtain ⟨rfl, hv⟩ := hk
      obtain ⟨h1, h2, h3⟩ := h.reduce c l id r₀
      obtain ⟨h4, h5, h6⟩ := (h2.free (h3 hv) c).execAll_commit
        ([.create] ++ List.replicate n .change ++ [.create, .create, .create, .create, .create])
        (by simp [List.mem_replicate])
      have e : Call.stmts l (.applyNew r₀ n true) = r₀.stmts l ++
          (([.create] ++ List.replicate n .change ++ [.create, .create, .create, .create, .create]) ++ [.commit]) := by
        simp [Call.stmts]
      rw [e, execAll_append _ _ _ _ h1]
      exact ⟨h5, h4⟩
    | close last =>
      simp only [Call.stmts]
      split
      · rename_i hl
        have hf := h.free hl.2 c
        simp only [execAll, exec, hf.othersWrite, Locks.reads, Locks.othersRead, hf.reading, h.txn c]
        exact ⟨h, rfl⟩
      · exact ⟨h, rfl⟩
  obtain ⟨h1, h2⟩ := hc
  unfold runCall
  simp only [h2, if_true]
  refine ⟨trivial, ?_⟩
  cases k with
  | openRand => exact hk.elim
  | closeRand => exact ⟨h1.txn, h1.writer, by simp [Call.after, h1.rands]⟩
  | openVal r => exact ⟨h1.txn, h1.writer, h1.rands⟩
  | closeVal => exact ⟨h1.txn, h1.writer, h1.rands⟩
  | close last =>
    refine ⟨fun j => ?_, ?_, h1.rands⟩
    · simp only [Call.after, Locks.setTxn]
      split
      · rfl
      · exact h1.txn j
    · simp [Call.after, h1.writer]
  | read r => exact h1
  | assign r n => exact h1
  | applySame r₀ r n ok => exact h1
  | applyNew r₀ n ok => exact h1

theorem Clean.calls {l : Locks} (h : Clean l) (ps : List (Nat × Call)) (hp : AllowedAll l ps) :
    Clean (runCalls l ps) := by
  induction ps generalizing l with
  | nil => exact h
  | cons p ps ih => exact ih (h.call p.1 p.2 hp.1).2 hp.2

/-- In every history of calls on any number of datasets, no call meets a lock of another dataset.  Missing from
the full claim: suspended random generators, `apply` with a function that raises, and changing the data while a
value generator is suspended (`C98_fails_random`, `C98_fails_apply`, `C98_fails_values`). -/
theorem C98_no_lock_partial (ps : List (Nat × Call)) (c : Nat) (k : Call)
    (h : AllowedAll Locks.init (ps ++ [(c, k)])) : (runCall c k (runCalls Locks.init ps)).2 = true := by
  have split : ∀ (ps : List (Nat × Call)) (l : Locks), AllowedAll l (ps ++ [(c, k)]) →
      AllowedAll l ps ∧ Allowed (runCalls l ps) k := by
    intro ps
    induction ps with
    | nil => intro l hl; exact ⟨trivial, hl.1⟩
    | cons p ps ih =>
      intro l hl
      obtain ⟨h1, h2⟩ := ih _ hl.2
      exact ⟨⟨hl.1, h1⟩, h2⟩
  obtain ⟨h1, h2⟩ := split ps _ h
  have hc : Clean Locks.init := ⟨fun _ => rfl, rfl, rfl⟩
  exact ((hc.calls ps h1).call c k h2).1

/-- Two datasets: a suspended value generator on one while the other is read, then both are changed. -/
example : AllowedAll Locks.init ([(0, .openVal .notDue), (1, .read .shared), (1, .read .own), (0, .closeVal),
    (1, .read .shared), (0, .assign .empty 3), (1, .applySame .own .empty 2 true), (0, .close true)] ++
      [(1, .applyNew .notDue 2 true)]) := by
  refine ⟨trivial, trivial, trivial, trivial, trivial, ?_, ⟨rfl, ?_⟩, trivial, ⟨rfl, ?_⟩, trivial⟩ <;> rfl

/-- Reading, selecting and closing datasets never fails because of locks, however many value generators are
suspended. -/
theorem C98_reads_partial (ps : List (Nat × Call)) (h : ∀ p ∈ ps, ReadsOnly p.2) (c : Nat) (k : Call)
    (hk : ReadsOnly k) : (runCall c k (runCalls Locks.init ps)).2 = true := by
  refine C98_no_lock_partial ps c k ?_
  have all : ∀ (qs : List (Nat × Call)) (l : Locks), (∀ p ∈ qs, ReadsOnly p.2) → AllowedAll l qs := by
    intro qs
    induction qs with
    | nil => intro l _; trivial
    | cons p qs ih =>
      intro l hq
      refine ⟨?_, ih _ fun q hm => hq q (by simp [hm])⟩
      have := hq p (by simp)
      revert this
      cases p.2 <;> simp [ReadsOnly, Allowed]
  refine all _ _ fun p hp => ?_
  rcases List.mem_append.1 hp with hp | hp
  · exact h p hp
  · simp only [List.mem_singleton] at hp; subst hp; exact hk

/-- A suspended generator of dataset 0 while dataset 1 would be reduced. -/
example : (∀ p ∈ [((0 : Nat), Call.openVal .notDue)], ReadsOnly p.2) ∧ ReadsOnly (.read .shared) :=
  ⟨by simp [ReadsOnly], trivial⟩

/-- The reductions of `read` are really held back: without the check of the suspended generators they would
meet the lock. -/
example : (execAll 1 [.change, .commit] (runCalls Locks.init [(0, .openVal .notDue)])).2 = false := by decide

/-- A function that raises inside `apply` leaves a transaction behind; no other dataset on the file can be
changed. -/
theorem C98_fails_apply :
    (runCall 1 (.assign .notDue 2) (runCalls Locks.init [(0, .applySame .notDue .empty 1 false)])).2 = false := by
  decide

/-- A suspended random generator is not registered as open: the next reduction of another dataset fails. -/
theorem C98_fails_random :
    (runCall 1 (.read .own) (runCalls Locks.init [(0, .openRand)])).2 = false ∧
      (runCall 1 (.read .shared) (runCalls Locks.init [(0, .openRand)])).2 = false := by
  decide

/-- `apply` on a dataset while a value generator of another one is suspended. -/
theorem C98_fails_values :
    (runCall 1 (.applySame .notDue .own 2 true) (runCalls Locks.init [(0, .openVal .notDue)])).2 = false := by
  decide

theorem exec_keeps_writer (c j : Nat) (hj : j ≠ c) (s : Stmt) (l : Locks) (h : l.writer = some j) :
    (exec c s l).1.writer = some j ∧ (s = .change ∨ s = .create ∨ s = .drop → (exec c s l).2 = false) := by
  have ho : l.othersWrite c = true := by simp [Locks.othersWrite, h, hj]
  cases s with
  | begin => simp only [exec]; split <;> simp [Locks.setTxn, h]
  | change => simp [exec, ho, Locks.setTxn, h]
  | create => simp [exec, ho, h]
  | drop => simp [exec, ho, h]
  | commit =>
    have : l.writer ≠ some c := by rw [h]; simpa using hj
    simp only [exec, if_neg this, Locks.setTxn]
    exact ⟨h, by simp⟩

theorem execAll_keeps_writer (c j : Nat) (hj : j ≠ c) (ss : List Stmt) (l : Locks) (h : l.writer = some j) :
    (execAll c ss l).1.writer = some j ∧
      ((∃ s ∈ ss, s = .change ∨ s = .create ∨ s = .drop) → (execAll c ss l).2 = false) := by
  induction ss generalizing l with
  | nil => exact ⟨h, by simp⟩
  | cons s ss ih =>
    obtain ⟨h1, h2⟩ := exec_keeps_writer c j hj s l h
    rw [execAll]
    cases hs : (exec c s l).2 with
    | false => simp [h1]
    | true =>
      simp only [if_true]
      obtain ⟨h3, h4⟩ := ih _ h1
      refine ⟨h3, ?_⟩
      rintro ⟨t, ht, hx⟩
      rcases List.mem_cons.1 ht with rfl | ht
      · rw [h2 hx] at hs; cases hs
      · exact h4 ⟨t, ht, hx⟩

/-- **C98**, exclusion: as long as a dataset has changes it did not commit, no call on another dataset takes them over,
and every call on another dataset that changes records fails. -/
theorem C98_exclusive (c j : Nat) (hj : j ≠ c) (k : Call) (l : Locks) (h : l.writer = some j) :
    (runCall c k l).1.writer = some j ∧
    (∀ r n, k = .assign r n → (runCall c k l).2 = false) ∧
    (∀ r₀ r n ok, k = .applySame r₀ r n ok → 0 < n → (runCall c k l).2 = false) ∧
    (∀ r₀ n ok, k = .applyNew r₀ n ok → (runCall c k l).2 = false) := by
  obtain ⟨h1, h2⟩ := execAll_keeps_writer c j hj (k.stmts l) l h
  have hfail : (execAll c (k.stmts l) l).2 = false → (runCall c k l).2 = false := by
    intro e; simp [runCall, e]
  refine ⟨?_, ?_, ?_, ?_⟩
  · unfold runCall
    split
    · cases k <;> simp [Call.after, h1, Locks.setTxn, hj]
    · exact h1
  · rintro r n rfl
    exact hfail (h2 ⟨.drop, by simp [Call.stmts], by simp⟩)
  · rintro r₀ r n ok rfl hn
    exact hfail (h2 ⟨.change, by simp [Call.stmts, List.mem_replicate]; omega, by simp⟩)
  · rintro r₀ n ok rfl
    exact hfail (h2 ⟨.create, by simp [Call.stmts], by simp⟩)

/-- Such a state is reached by `apply` with a function that raises. -/
example : (runCalls Locks.init [(0, .applySame .notDue .empty 1 false)]).writer = some 0 := by decide

/-- Closing a dataset gives up all its locks, whatever the others hold: it has no transaction, no uncommitted changes
and no running read afterwards, and nobody else's locks change. -/
theorem C98_close_releases (c : Nat) (last : Bool) (l : Locks) (h : (runCall c (.close last) l).2 = true) :
    (runCall c (.close last) l).1.txn c = false ∧ (runCall c (.close last) l).1.writer ≠ some c ∧
    (runCall c (.close last) l).1.reads c = false ∧
    ∀ j, j ≠ c → (runCall c (.close last) l).1.txn j = l.txn j ∧
      ((runCall c (.close last) l).1.writer = some j ↔ l.writer = some j) ∧
      (runCall c (.close last) l).1.reads j = l.reads j := by
  have hread : ∀ (m : Locks), m.vals = l.vals → m.rands = l.rands → m.closed = l.closed →
      ∀ w t, (Locks.mk t w m.vals m.rands (c :: m.closed)).reads c = false ∧
        ∀ j, j ≠ c → (Locks.mk t w m.vals m.rands (c :: m.closed)).reads j = l.reads j := by
    intro m h1 h2 h3 w t
    rw [h1, h2, h3]
    simp only [Locks.reads, Locks.reading, List.mem_cons, not_or, Bool.decide_and]
    constructor
    · rw [Bool.eq_false_iff]
      simp only [ne_eq, List.any_eq_true, List.mem_filter, Bool.and_eq_true, decide_eq_true_eq, beq_iff_eq, not_exists]
      rintro x ⟨⟨_, hx, _⟩, rfl⟩
      exact hx rfl
    · intro j hj
      rw [Bool.eq_iff_iff]
      simp only [List.any_eq_true, List.mem_filter, Bool.and_eq_true, decide_eq_true_eq, beq_iff_eq]
      constructor
      · rintro ⟨x, ⟨h1, _, h2⟩, rfl⟩
        exact ⟨x, ⟨h1, h2⟩, rfl⟩
      · rintro ⟨x, ⟨h1, h2⟩, rfl⟩
        exact ⟨x, ⟨h1, hj, h2⟩, rfl⟩
  have key : ∀ (m : Locks), m.vals = l.vals → m.rands = l.rands → m.closed = l.closed → m.txn = l.txn →
      (m.writer = l.writer ∨ m.writer = some c ∧ l.othersWrite c = false) →
      ((Call.close last).after c m).txn c = false ∧ ((Call.close last).after c m).writer ≠ some c ∧
      ((Call.close last).after c m).reads c = false ∧
      ∀ j, j ≠ c → ((Call.close last).after c m).txn j = l.txn j ∧
        (((Call.close last).after c m).writer = some j ↔ l.writer = some j) ∧
        ((Call.close last).after c m).reads j = l.reads j := by
    intro m h1 h2 h3 h4 h5
    obtain ⟨r1, r2⟩ := hread m h1 h2 h3 (if m.writer = some c then none else m.writer) ((m.setTxn c false).txn)
    refine ⟨by simp [Call.after, Locks.setTxn], ?_, r1, fun j hj => ⟨by simp [Call.after, Locks.setTxn, hj, h4], ?_, r2 j hj⟩⟩
    · simp only [Call.after]
      split
      · simp
      · assumption
    · simp only [Call.after]
      rcases h5 with h5 | ⟨h5, h6⟩
      · rw [h5]
        split
        · rename_i e; rw [e]; simp [Ne.symm hj]
        · rfl
      · rw [if_pos h5]
        unfold Locks.othersWrite at h6
        cases hw : l.writer with
        | none => simp
        | some k =>
          rw [hw] at h6
          simp only [bne_eq_false_iff_eq] at h6
          rw [h6]
          simp [Ne.symm hj]
  unfold runCall at h ⊢
  split at h
  · rename_i hok
    rw [if_pos hok]
    simp only [Call.stmts] at hok ⊢
    split
    · rename_i hl
      rw [if_pos hl] at hok
      have hex : (exec c .drop l).2 = true := by
        by_contra hn
        simp [execAll, hn] at hok
      have he : (execAll c [.drop] l).1 = (exec c .drop l).1 := by simp [execAll, hex]
      rw [he]
      unfold exec at hex ⊢
      simp only at hex ⊢
      cases h1 : l.othersWrite c <;> cases h2 : l.reads c <;> cases h3 : l.txn c <;> cases h4 : l.othersRead c <;>
        simp only [h1, h2, h3, h4, Bool.or_false, Bool.or_true, Bool.false_eq_true, if_true, if_false] at hex ⊢
      · exact key _ rfl rfl rfl rfl (Or.inl rfl)
      · exact key _ rfl rfl rfl rfl (Or.inr ⟨rfl, h1⟩)
      · exact key _ rfl rfl rfl rfl (Or.inr ⟨rfl, h1⟩)
    · exact key _ rfl rfl rfl rfl (Or.inl rfl)
  · cases h

/-- After a function that raises in `apply`, closing that dataset lets the others change theirs again. -/
example : (runCall 0 (.close false) (runCalls Locks.init [(0, .applySame .notDue .empty 1 false)])).2 = true ∧
    (runCall 1 (.assign .notDue 2)
      (runCalls Locks.init [(0, .applySame .notDue .empty 1 false), (0, .close false)])).2 = true := by decide

/-! ## A dataset's own generators -/

/-- Nobody but `c` holds anything or reads. -/
structure Alone (c : Nat) (l : Locks) : Prop where
  txn : l.txn c = false
  writer : l.writer = none ∨ l.writer = some c
  reading : ∀ j ∈ l.vals ++ l.rands, j = c

/-- The same within a transaction of `c`. -/
structure AloneTxn (c : Nat) (l : Locks) : Prop where
  writer : l.writer = none ∨ l.writer = some c
  reading : ∀ j ∈ l.vals ++ l.rands, j = c

theorem AloneTxn.othersWrite {c : Nat} {l : Locks} (h : AloneTxn c l) : l.othersWrite c = false := by
  unfold Locks.othersWrite
  rcases h.writer with hw | hw <;> simp [hw]

theorem AloneTxn.othersRead {c : Nat} {l : Locks} (h : AloneTxn c l) : l.othersRead c = false := by
  unfold Locks.othersRead Locks.reading
  rw [List.any_eq_false]
  intro j hj
  have := h.reading j (List.mem_filter.1 hj).1
  simp [this]

theorem AloneTxn.exec {c : Nat} {l : Locks} (h : AloneTxn c l) (s : Stmt) (hs : s ≠ .begin) (hd : s ≠ .drop) :
    (Lock.exec c s l).2 = true ∧ AloneTxn c (Lock.exec c s l).1 ∧ (s = .commit → (Lock.exec c s l).1.txn c = false) := by
  have hw := h.othersWrite
  have hr := h.othersRead
  cases s with
  | begin => exact absurd rfl hs
  | drop => exact absurd rfl hd
  | change =>
    simp only [Lock.exec, hw]
    exact ⟨rfl, ⟨Or.inr rfl, h.reading⟩, by simp⟩
  | create =>
    simp only [Lock.exec, hw, hr]
    by_cases ht : l.txn c = true
    · simp only [ht]; exact ⟨rfl, ⟨Or.inr rfl, h.reading⟩, by simp⟩
    · simp only [Bool.not_eq_true] at ht
      simp only [ht]; exact ⟨rfl, h, by simp⟩
  | commit =>
    simp only [Lock.exec, hr]
    by_cases hc : l.writer = some c
    · simp only [hc, if_true]
      exact ⟨rfl, ⟨Or.inl rfl, h.reading⟩, by simp [Locks.setTxn]⟩
    · simp only [hc, if_false]
      exact ⟨trivial, ⟨h.writer, h.reading⟩, by simp [Locks.setTxn]⟩

theorem AloneTxn.execAll {c : Nat} (ss : List Stmt) : ∀ {l : Locks}, AloneTxn c l → Stmt.begin ∉ ss → Stmt.drop ∉ ss →
    (Lock.execAll c ss l).2 = true ∧ AloneTxn c (Lock.execAll c ss l).1 := by
  induction ss with
  | nil => intro l h _ _; exact ⟨rfl, h⟩
  | cons s ss ih =>
    intro l h hb hd
    simp only [List.mem_cons, not_or] at hb hd
    obtain ⟨h1, h2, _⟩ := h.exec s (Ne.symm hb.1) (Ne.symm hd.1)
    simp only [Lock.execAll, h1, if_true]
    exact ih h2 hb.2 hd.2

theorem Alone.commit {c : Nat} {l : Locks} (h : AloneTxn c l) (ss : List Stmt) (hb : Stmt.begin ∉ ss) (hd : Stmt.drop ∉ ss) :
    (Lock.execAll c (ss ++ [.commit]) l).2 = true ∧ Alone c (Lock.execAll c (ss ++ [.commit]) l).1 := by
  obtain ⟨h1, h2⟩ := h.execAll ss hb hd
  rw [execAll_append c ss _ l h1]
  obtain ⟨h3, h4, h5⟩ := h2.exec .commit (by simp) (by simp)
  simp only [Lock.execAll, h3, if_true]
  exact ⟨trivial, h5 rfl, h4.writer, h4.reading⟩

theorem Alone.loose {c : Nat} {l : Locks} (h : Alone c l) : AloneTxn c l := ⟨h.writer, h.reading⟩

theorem Alone.reduce {c : Nat} {l : Locks} (h : Alone c l) (l' : Locks) (r : Reduction) :
    (Lock.execAll c (r.stmts l') l).2 = true ∧ Alone c (Lock.execAll c (r.stmts l') l).1 := by
  unfold Reduction.stmts
  split
  · exact ⟨rfl, h⟩
  · cases r with
    | notDue => exact ⟨rfl, h⟩
    | empty => exact Alone.commit h.loose [] (by simp) (by simp)
    | own => exact Alone.commit h.loose [.change] (by simp) (by simp)
    | shared => exact Alone.commit h.loose [.create, .change, .create, .create, .create, .create, .create] (by simp) (by simp)

/-- **C98.** The suspended generators of a dataset do not stand in its own way: as long as nothing else is open on the file, reading,
selecting and changing its data with `apply` succeed. -/
theorem C98_own_generators (c : Nat) (k : Call) (l : Locks) (ht : l.txn c = false) (hw : l.writer = none)
    (hr : ∀ j ∈ l.vals ++ l.rands, j = c)
    (hk : match k with
      | .assign _ _ | .close _ => False
      | .applySame _ _ _ ok | .applyNew _ _ ok => ok = true
      | _ => True) : (runCall c k l).2 = true := by
  have h : Alone c l := ⟨ht, Or.inl hw, hr⟩
  have e : (execAll c (k.stmts l) l).2 = true := by
    cases k with
    | assign r n => exact hk.elim
    | close last => exact hk.elim
    | read r => exact (h.reduce l r).1
    | openVal r => exact (h.reduce l r).1
    | closeVal => rfl
    | openRand => rfl
    | closeRand => rfl
    | applySame r₀ r n ok =>
      simp only at hk
      subst hk
      obtain ⟨h1, h2⟩ := h.reduce l r₀
      obtain ⟨h3, h4⟩ := h2.reduce l r
      have e : Call.stmts l (.applySame r₀ r n true) = r₀.stmts l ++ (r.stmts l ++
          (.begin :: (List.replicate n .change ++ [.commit, .commit]))) := by
        simp [Call.stmts]
      rw [e, execAll_append _ _ _ _ h1, execAll_append _ _ _ _ h3]
      have hb : ∀ l' : Locks, l'.txn c = false → exec c .begin l' = (l'.setTxn c true, true) := by
        intro l' h; simp [exec, h]
      simp only [execAll, hb _ h4.txn, if_true]
      have h5 : AloneTxn c ((execAll c (r.stmts l) (execAll c (r₀.stmts l) l).1).1.setTxn c true) := ⟨h4.writer, h4.reading⟩
      exact (AloneTxn.execAll (List.replicate n .change ++ [.commit, .commit]) h5 (by simp [List.mem_replicate]) (by simp [List.mem_replicate])).1
    | applyNew r₀ n ok =>
      simp only at hk
      subst hk
      obtain ⟨h1, h2⟩ := h.reduce l r₀
      have e : Call.stmts l (.applyNew r₀ n true) = r₀.stmts l ++
          (.create :: (List.replicate n .change ++ [.create, .create, .create, .create, .create, .commit])) := by
        simp [Call.stmts]
      rw [e, execAll_append _ _ _ _ h1]
      exact (AloneTxn.execAll _ h2.loose (by simp [List.mem_replicate]) (by simp [List.mem_replicate])).1
  unfold runCall
  rw [if_pos e]

/-- `assign_internal_ids` drops indexes, which the dataset's own suspended generator prevents. -/
theorem C98_fails_own : (runCall 0 (.assign .notDue 2) (runCalls Locks.init [(0, .openRand)])).2 = false := by decide

/-- Changing a dataset twice with a generator suspended. -/
example : ∃ l : Locks, l = runCalls Locks.init [(0, .openRand), (0, .applyNew .notDue 2 true)] ∧ l.txn 0 = false ∧ l.writer = none ∧
    (∀ j ∈ l.vals ++ l.rands, j = 0) ∧ l.reading = [0] := ⟨_, rfl, by decide, by decide, by decide, by decide⟩

end DRec.Lock
