import Verif.Model.ValueGen
import Mathlib.Tactic.Tauto

/-!
# C94: the generators returned by `values`
-/

namespace DRec

variable {α : Type}

/-- The invariant of a value generator. -/
structure VGen.Good (g : VGen α) : Prop where
  listed : g.listed = !g.closed
  removed : g.removed = g.closed
  main : g.mainDone = true → g.closed = true

theorem VGen.good_pull {g : VGen α} (h : g.Good) :
    g.pull.1.Good ∧
    (g.closed = false → (g.pull.1.closed = false ∧ ∃ x, g.left = x :: g.pull.1.left ∧ g.pull.2 = .item x) ∨
      (g.left = [] ∧ g.pull.1.closed = true ∧ g.pull.1.left = [] ∧ g.pull.2 = .stop)) ∧
    (g.closed = true → g.pull.1 = g ∧ g.pull.2 = .raised) ∧
    g.pull.1.mainDone = g.mainDone := by
  obtain ⟨left, closed, removed, listed, mainDone⟩ := g
  obtain ⟨h1, h2, h3⟩ := h
  simp only at h1 h2 h3
  subst h1 h2
  cases removed
  · cases left with
    | nil => refine ⟨⟨?_, ?_, ?_⟩, ?_, ?_, ?_⟩ <;> simp_all [VGen.pull]
    | cons x rest => refine ⟨⟨?_, ?_, ?_⟩, ?_, ?_, ?_⟩ <;> simp_all [VGen.pull]
  · refine ⟨⟨?_, ?_, ?_⟩, ?_, ?_, ?_⟩ <;> simp_all [VGen.pull]

theorem VGen.good_loop (n : Nat) {g : VGen α} (h : g.Good) :
    (g.loop n).1.Good ∧
    (g.closed = false → (g.loop n).1.left = g.left.drop n ∧ (g.loop n).2.1 = g.left.take n ∧
      ((g.loop n).1.closed = true ↔ g.left.length < n) ∧
      (g.loop n).2.2 = if n ≤ g.left.length then .broken else .exhausted) ∧
    (g.closed = true → (g.loop n).1 = g ∧ (g.loop n).2 = ([], if n = 0 then .broken else .raised)) := by
  induction n generalizing g with
  | zero =>
    refine ⟨h, ?_, ?_⟩
    · intro hc; simp [VGen.loop, hc]
    · intro hc; simp [VGen.loop]
  | succ n ih =>
    obtain ⟨p1, p2, p3, p4⟩ := VGen.good_pull h
    rw [VGen.loop]
    cases hg : g.closed with
    | false =>
      rcases p2 hg with ⟨q1, x, q2, q3⟩ | ⟨q1, q2, q3, q4⟩
      · obtain ⟨i1, i2, -⟩ := ih p1
        obtain ⟨j1, j2, j3, j4⟩ := i2 q1
        rcases hp : g.pull with ⟨h', r⟩
        rw [hp] at q1 q2 q3 i1 j1 j2 j3 j4
        simp only at q1 q2 q3 i1 j1 j2 j3 j4
        subst q3
        refine ⟨i1, fun _ => ?_, fun hc => by cases hc⟩
        simp only [q2, List.drop_succ_cons, List.take_succ_cons, List.length_cons, j1, j2, j4, j3]
        refine ⟨trivial, trivial, by omega, ?_⟩
        simp
      · rcases hp : g.pull with ⟨h', r⟩
        rw [hp] at q2 q3 q4 p1
        simp only at q2 q3 q4 p1
        subst q4
        refine ⟨p1, fun _ => ?_, fun hc => by cases hc⟩
        simp [q1, q2, q3]
    | true =>
      obtain ⟨q1, q2⟩ := p3 hg
      rcases hp : g.pull with ⟨h', r⟩
      rw [hp] at q1 q2
      simp only at q1 q2
      subst q2
      refine And.intro ?_ (And.intro (fun hc => nomatch hc) fun _ => And.intro q1 (by simp))
      show h'.Good
      rw [q1]
      exact h

theorem VGen.good_step {g : VGen α} (h : g.Good) (o : GenOp) : (g.step o).1.Good := by
  cases o with
  | loop n => exact (VGen.good_loop n h).1
  | close =>
    obtain ⟨left, closed, removed, listed, mainDone⟩ := g
    obtain ⟨h1, h2, h3⟩ := h
    simp only at h1 h2 h3
    subst h1 h2
    simp only [VGen.step, VGen.close]
    cases removed
    · exact ⟨rfl, rfl, fun _ => rfl⟩
    · exact ⟨rfl, rfl, fun _ => rfl⟩
  | next =>
    obtain ⟨p1, p2, p3, p4⟩ := VGen.good_pull h
    simp only [VGen.step, VGen.next]
    by_cases hm : g.mainDone = true
    · simp only [hm, if_true]; exact h
    · rw [if_neg hm]
      rcases hp : g.pull with ⟨h', r⟩
      rw [hp] at p1 p2 p3 p4
      simp only at p1 p2 p3 p4
      cases r with
      | item x => exact p1
      | stop =>
        refine ⟨p1.listed, p1.removed, fun _ => ?_⟩
        cases hc : g.closed with
        | true => cases (p3 hc).2
        | false =>
          rcases p2 hc with ⟨_, x, _, e⟩ | ⟨_, e, _⟩
          · cases e
          · exact e
      | raised =>
        refine ⟨p1.listed, p1.removed, fun _ => ?_⟩
        cases hc : g.closed with
        | true => rw [(p3 hc).1]; exact hc
        | false =>
          rcases p2 hc with ⟨_, x, _, e⟩ | ⟨_, _, _, e⟩ <;> cases e

theorem VGen.good_run (ops : List GenOp) {g : VGen α} (h : g.Good) : (g.run ops).1.Good := by
  induction ops generalizing g with
  | nil => exact h
  | cons o os ih => exact ih (VGen.good_step h o)

theorem VGen.good_start (rows : List α) : (VGen.start rows).Good := ⟨rfl, rfl, fun h => by cases h⟩

/-- An open generator behaves as the in-memory one as long as no step reaches the end. -/
theorem VGen.step_open {g : VGen α} (h : g.Good) (hc : g.closed = false) (o : GenOp) :
    (g.step o).2 = (plainStep g.left o).2 ∧
    ((g.step o).2.2 ≠ .exhausted → o ≠ .close →
      (g.step o).1.closed = false ∧ (g.step o).1.left = (plainStep g.left o).1) := by
  have hm : ¬ g.mainDone = true := fun e => by rw [h.main e] at hc; cases hc
  cases o with
  | close => simp [VGen.step, plainStep]
  | loop n =>
    obtain ⟨-, h2, -⟩ := VGen.good_loop n h
    obtain ⟨j1, j2, j3, j4⟩ := h2 hc
    simp only [VGen.step, plainStep]
    refine ⟨Prod.ext j2 j4, fun hne _ => ⟨?_, j1⟩⟩
    rw [j4] at hne
    have : n ≤ g.left.length := by
      by_contra hlt
      rw [if_neg hlt] at hne
      exact hne rfl
    cases hcl : (g.loop n).1.closed with
    | false => rfl
    | true =>
      have := j3.1 hcl
      omega
  | next =>
    obtain ⟨p1, p2, p3, p4⟩ := VGen.good_pull h
    rcases p2 hc with ⟨q1, x, q2, q3⟩ | ⟨q1, q2, q3, q4⟩
    · rcases hp : g.pull with ⟨h', r⟩
      rw [hp] at q1 q2 q3
      simp only at q1 q2 q3
      subst q3
      simp [VGen.step, VGen.next, hm, hp, q2, plainStep, q1]
    · rcases hp : g.pull with ⟨h', r⟩
      rw [hp] at q4
      simp only at q4
      subst q4
      simp [VGen.step, VGen.next, hm, hp, q1, plainStep]

theorem VGen.run_open (ops : List GenOp) {g : VGen α} (h : g.Good) (hc : g.closed = false) (last : GenOp)
    (hops : ∀ o ∈ ops, o ≠ .close) (hend : ∀ out ∈ (plainRun g.left ops).2, out.2 ≠ .exhausted) :
    (g.run (ops ++ [last])).2 = (plainRun g.left (ops ++ [last])).2 := by
  induction ops generalizing g with
  | nil =>
    simp only [List.nil_append, VGen.run, plainRun, List.cons.injEq, and_true]
    exact (VGen.step_open h hc last).1
  | cons o os ih =>
    obtain ⟨e1, e2⟩ := VGen.step_open h hc o
    simp only [List.cons_append, VGen.run, plainRun] at hend ⊢
    have hne : (g.step o).2.2 ≠ .exhausted := by
      rw [e1]; exact hend _ (by simp)
    obtain ⟨e3, e4⟩ := e2 hne (hops o (by simp))
    rw [e1, ih (VGen.good_step h o) e3 (fun o' ho' => hops o' (by simp [ho'])) (by
      rw [e4]
      intro out hout
      exact hend out (by simp [hout])), e4]

/-- **C94** (partial: until a step reaches the end of the records or closes the generator, that step
included; the full property asks the same for all steps and fails, see `C94_fails_again`).  Whatever mix
of `next` and loops left at any point a program uses, the generator of a database dataset gives the same
records in the same steps as the one of an in-memory dataset. -/
theorem C94_same_as_memory_partial (rows : List α) (ops : List GenOp) (last : GenOp)
    (hops : ∀ o ∈ ops, o ≠ .close) (hend : ∀ out ∈ (plainRun rows ops).2, out.2 ≠ .exhausted) :
    ((VGen.start rows).run (ops ++ [last])).2 = (plainRun rows (ops ++ [last])).2 :=
  VGen.run_open ops (VGen.good_start rows) rfl last hops hend

theorem VGen.closed_step {g : VGen α} (h : g.Good) (hc : g.closed = true) (o : GenOp) :
    (g.step o).2.1 = [] ∧ (g.step o).1.closed = true := by
  cases o with
  | loop n =>
    obtain ⟨e1, e2⟩ := (VGen.good_loop n h).2.2 hc
    simp [VGen.step, e1, e2, hc]
  | close =>
    have := h.removed
    rw [hc] at this
    simp [VGen.step, VGen.close, this, hc]
  | next =>
    obtain ⟨q1, q2⟩ := (VGen.good_pull h).2.2.1 hc
    rcases hp : g.pull with ⟨h', r⟩
    rw [hp] at q1 q2
    simp only at q1 q2
    subst q2
    by_cases hm : g.mainDone = true <;> simp [VGen.step, VGen.next, hm, hp, hc, q1]

theorem VGen.closed_run (ops : List GenOp) {g : VGen α} (h : g.Good) (hc : g.closed = true) :
    (∀ out ∈ (g.run ops).2, out.1 = []) ∧ (g.run ops).1.closed = true := by
  induction ops generalizing g with
  | nil => exact ⟨by simp [VGen.run], hc⟩
  | cons o os ih =>
    obtain ⟨e1, e2⟩ := VGen.closed_step h hc o
    obtain ⟨i1, i2⟩ := ih (VGen.good_step h o) e2
    refine ⟨?_, i2⟩
    intro out hout
    simp only [VGen.run, List.mem_cons] at hout
    rcases hout with rfl | hout
    · exact e1
    · exact i1 out hout

theorem plain_prefix (l : List α) (o : GenOp) (h : o ≠ .close) :
    l = (plainStep l o).2.1 ++ (plainStep l o).1 := by
  cases o with
  | close => exact absurd rfl h
  | loop n => simp [plainStep]
  | next => cases l <;> simp [plainStep]

/-- The records handed out by a run. -/
def handedOut (outs : List (GenOut α)) : List α := outs.flatMap (·.1)

theorem VGen.run_prefix (ops : List GenOp) {g : VGen α} (h : g.Good) :
    ∃ rest, g.left = handedOut (g.run ops).2 ++ rest ∨ (g.closed = true ∧ handedOut (g.run ops).2 = []) := by
  induction ops generalizing g with
  | nil => exact ⟨g.left, Or.inl (by simp [handedOut, VGen.run])⟩
  | cons o os ih =>
    cases hc : g.closed with
    | true =>
      refine ⟨[], Or.inr ⟨rfl, ?_⟩⟩
      unfold handedOut
      rw [List.flatMap_eq_nil_iff]
      exact (VGen.closed_run (o :: os) h hc).1
    | false =>
      obtain ⟨e1, e2⟩ := VGen.step_open h hc o
      by_cases hx : (g.step o).2.2 = .exhausted ∨ o = .close
      · have hcl : (g.step o).1.closed = true := by
          rcases hx with hx | rfl
          · cases o with
            | close => simp [VGen.step] at hx
            | loop n =>
              obtain ⟨-, h2, -⟩ := VGen.good_loop n h
              obtain ⟨-, -, j3, j4⟩ := h2 hc
              simp only [VGen.step] at hx ⊢
              rw [j3]
              rw [j4] at hx
              by_contra hlt
              rw [if_pos (by omega)] at hx
              cases hx
            | next =>
              have hm : ¬ g.mainDone = true := fun e => by rw [h.main e] at hc; cases hc
              rcases (VGen.good_pull h).2.1 hc with ⟨_, x, _, q3⟩ | ⟨_, q2, _, q4⟩
              · rcases hp : g.pull with ⟨h', r⟩
                rw [hp] at q3
                simp only at q3
                subst q3
                simp [VGen.step, VGen.next, hm, hp] at hx
              · rcases hp : g.pull with ⟨h', r⟩
                rw [hp] at q4 q2
                simp only at q4 q2
                subst q4
                simp [VGen.step, VGen.next, hm, hp, q2]
          · have hr := h.removed
            rw [hc] at hr
            simp [VGen.step, VGen.close, hr]
        have hnil : handedOut ((g.step o).1.run os).2 = [] := by
          unfold handedOut
          rw [List.flatMap_eq_nil_iff]
          exact (VGen.closed_run os (VGen.good_step h o) hcl).1
        have hsplit : handedOut (g.run (o :: os)).2 = (g.step o).2.1 := by
          have : handedOut (g.run (o :: os)).2 = (g.step o).2.1 ++ handedOut ((g.step o).1.run os).2 := by
            simp [VGen.run, handedOut]
          rw [this, hnil, List.append_nil]
        rw [hsplit, e1]
        by_cases hcl2 : o = .close
        · subst hcl2
          exact ⟨g.left, Or.inl (by simp [plainStep])⟩
        · exact ⟨_, Or.inl (plain_prefix g.left o hcl2)⟩
      · obtain ⟨hx1, hx2⟩ := not_or.1 hx
        obtain ⟨e3, e4⟩ := e2 hx1 hx2
        obtain ⟨rest, hr⟩ := ih (VGen.good_step h o)
        have : handedOut (g.run (o :: os)).2 = (g.step o).2.1 ++ handedOut ((g.step o).1.run os).2 := by
          simp [VGen.run, handedOut]
        rcases hr with hr | ⟨hr, _⟩
        · refine ⟨rest, Or.inl ?_⟩
          rw [this, List.append_assoc, ← hr, e4, e1]
          exact plain_prefix g.left o hx2
        · rw [e3] at hr; cases hr

/-- **C94.** For every program (closing included): the records handed out are, in order and without
repetition of a position, the first ones of the dataset; the generator is listed as open exactly as long
as its cursor is; and once a loop has reached the end or the generator was closed, it is not listed and
nothing more is handed out. -/
theorem C94_each_once (rows : List α) (ops : List GenOp) :
    (∃ rest, rows = handedOut ((VGen.start rows).run ops).2 ++ rest) ∧
    ((VGen.start rows).run ops).1.listed = !((VGen.start rows).run ops).1.closed ∧
    ∀ more : List GenOp, ((VGen.start rows).run ops).1.listed = false →
      handedOut (((VGen.start rows).run ops).1.run more).2 = [] ∧
      (((VGen.start rows).run ops).1.run more).1.listed = false := by
  have hg := VGen.good_run ops (VGen.good_start rows)
  refine ⟨?_, hg.listed, ?_⟩
  · obtain ⟨rest, h | ⟨h, _⟩⟩ := VGen.run_prefix ops (VGen.good_start rows)
    · exact ⟨rest, h⟩
    · cases h
  · intro more hl
    have hc : ((VGen.start rows).run ops).1.closed = true := by
      have := hg.listed
      rw [hl] at this
      cases h : ((VGen.start rows).run ops).1.closed with
      | true => rfl
      | false => rw [h] at this; cases this
    obtain ⟨h1, h2⟩ := VGen.closed_run more hg hc
    refine ⟨?_, ?_⟩
    · unfold handedOut
      rw [List.flatMap_eq_nil_iff]
      exact h1
    · rw [(VGen.good_run more hg).listed, h2]
      rfl

theorem VGen.nexts (n : Nat) (g : VGen α) (hg : g.closed = false ∧ g.listed = true ∧ g.mainDone = false ∨
      g.left = [] ∧ g.mainDone = true) :
    (g.run (List.replicate n .next)).2 = (plainRun g.left (List.replicate n .next)).2 := by
  induction n generalizing g with
  | zero => rfl
  | succ n ih =>
    obtain ⟨l, c, r, li, m⟩ := g
    rcases hg with ⟨h1, h2, h3⟩ | ⟨h1, h2⟩
    · simp only at h1 h2 h3
      subst h1 h2 h3
      cases l with
      | nil =>
        simp only [List.replicate_succ, VGen.run, plainRun, VGen.step, VGen.next, VGen.pull, plainStep,
          Bool.false_eq_true, if_false, if_true]
        rw [ih _ (Or.inr ⟨rfl, rfl⟩)]
      | cons x l =>
        simp only [List.replicate_succ, VGen.run, plainRun, VGen.step, VGen.next, VGen.pull, plainStep,
          Bool.false_eq_true, if_false]
        rw [ih _ (Or.inl ⟨rfl, rfl, rfl⟩)]
    · simp only at h1 h2
      subst h1 h2
      simp only [List.replicate_succ, VGen.run, plainRun, VGen.step, VGen.next, plainStep, if_true]
      rw [ih _ (Or.inr ⟨rfl, rfl⟩)]

/-- **C94.** A program that calls `next` any number of times, beyond the end too, gets the same as from the generator of
an in-memory dataset. -/
theorem C94_nexts (rows : List α) (n : Nat) :
    ((VGen.start rows).run (List.replicate n .next)).2 = (plainRun rows (List.replicate n .next)).2 :=
  VGen.nexts n _ (Or.inl ⟨rfl, rfl, rfl⟩)

example : ((VGen.start [7, 8]).run (List.replicate 4 .next)).2 =
    [([7], .broken), ([8], .broken), ([], .exhausted), ([], .exhausted)] := by decide

/-- **C94.** A loop that is not left reads everything that remains and unlists the generator. -/
theorem C94_full_loop (rows : List α) (n : Nat) (h : rows.length < n) :
    ((VGen.start rows).step (.loop n)).2 = (rows, .exhausted) ∧
    ((VGen.start rows).step (.loop n)).1.listed = false := by
  obtain ⟨h1, h2, -⟩ := VGen.good_loop n (VGen.good_start rows)
  obtain ⟨-, j2, j3, j4⟩ := h2 rfl
  constructor
  · refine Prod.ext ?_ ?_
    · show ((VGen.start rows).loop n).2.1 = _
      rw [j2, List.take_of_length_le]
      · rfl
      · exact h.le
    · show ((VGen.start rows).loop n).2.2 = _
      rw [j4, if_neg]
      simpa [VGen.start] using h
  · show ((VGen.start rows).loop n).1.listed = false
    rw [h1.listed, j3.2 h]
    rfl

/-- **C94 fails**: looping a second time over a generator that was read to its end raises, for every
dataset, where the in-memory generator gives nothing. -/
theorem C94_fails_again (rows : List α) (n : Nat) (h : rows.length < n) :
    ((VGen.start rows).run [.loop n, .loop n]).2 = [(rows, .exhausted), ([], .raised)] ∧
    (plainRun rows [.loop n, .loop n]).2 = [(rows, .exhausted), ([], .exhausted)] := by
  have hn : n ≠ 0 := by omega
  obtain ⟨h1, h2⟩ := C94_full_loop rows n h
  constructor
  · have hg := VGen.good_step (VGen.good_start rows) (.loop n)
    have hc : ((VGen.start rows).step (.loop n)).1.closed = true := by
      have := hg.listed
      rw [h2] at this
      cases h : ((VGen.start rows).step (.loop n)).1.closed with
      | true => rfl
      | false => rw [h] at this; cases this
    have h3 := ((VGen.good_loop n hg).2.2 hc).2
    rw [if_neg hn] at h3
    simp only [VGen.run]
    rw [h1]
    show [(rows, LoopEnd.exhausted), (VGen.loop n ((VGen.start rows).step (.loop n)).1).2] = _
    rw [h3]
  · have hd : rows.drop n = [] := List.drop_eq_nil_of_le h.le
    have ht : rows.take n = rows := List.take_of_length_le h.le
    simp [plainRun, plainStep, hd, ht, not_le.2 h, hn]

/-! ## Examples -/

example : ((VGen.start [1, 2, 3, 4]).run [.next, .loop 2, .next, .loop 5]).2 =
    [([1], .broken), ([2, 3], .broken), ([4], .broken), ([], .exhausted)] ∧
    (∀ o ∈ [GenOp.next, .loop 2, .next], o ≠ .close) ∧
    ∀ out ∈ (plainRun [1, 2, 3, 4] [.next, .loop 2, .next]).2, out.2 ≠ .exhausted := by
  refine ⟨rfl, by simp, ?_⟩
  simp [plainRun, plainStep]

example : ((VGen.start [1, 2]).run [.next, .close]).1.listed = false := rfl

end DRec
