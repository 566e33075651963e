import Verif.Spec.Files
import Verif.Lemmas.Text
import Verif.Lemmas.MemWritten

/-!
# Lemmas about files
-/

namespace DRec

open Spec

/-! ## Lines -/

theorem fileLines_line (p rest : List Char) (h : '\n' ∉ p) :
    fileLines (p ++ '\n' :: rest) = (p ++ ['\n']) :: fileLines rest := by
  induction p with
  | nil => simp [fileLines]
  | cons c p ih =>
    have hc : c ≠ '\n' := fun e => h (by simp [e])
    have ih := ih fun e => h (List.mem_cons_of_mem _ e)
    rw [List.cons_append, fileLines, if_neg hc, ih]
    rfl

theorem fileLines_flatten (l : List Path) (h : ∀ p ∈ l, '\n' ∉ p) :
    fileLines ((l.map fun p => p ++ ['\n']).flatten) = l.map fun p => p ++ ['\n'] := by
  induction l with
  | nil => rfl
  | cons p l ih =>
    simp only [List.map_cons, List.flatten_cons, List.append_assoc, List.singleton_append]
    rw [fileLines_line p _ (h p List.mem_cons_self), ih fun q hq => h q (List.mem_cons_of_mem _ hq)]

theorem dropWhile_notin (p : List Char) (h : '\n' ∉ p) : p.dropWhile (· = '\n') = p := by
  cases p with
  | nil => rfl
  | cons c p =>
    have hc : c ≠ '\n' := fun e => h (by simp [e])
    rw [List.dropWhile_cons_of_neg (by simpa using hc)]

theorem stripNl_line (p : List Char) (h : '\n' ∉ p) : stripNl (p ++ ['\n']) = p := by
  unfold stripNl
  cases p with
  | nil => rfl
  | cons c p =>
    have hc : c ≠ '\n' := fun e => h (by simp [e])
    rw [List.cons_append, List.dropWhile_cons_of_neg (by simpa using hc), ← List.cons_append, List.reverse_append,
      List.reverse_singleton, List.singleton_append, List.dropWhile_cons_of_pos (by simp),
      dropWhile_notin _ (by rw [List.mem_reverse]; exact h), List.reverse_reverse]

theorem strip_line (p : List Char) (h : strip p = p) : strip (p ++ ['\n']) = p := by
  unfold strip at h ⊢
  cases hp : p.dropWhile Char.isWhitespace with
  | nil =>
    rw [hp] at h
    simp only [List.reverse_nil, List.dropWhile_nil] at h
    subst h
    decide
  | cons c q =>
    rw [List.dropWhile_append, hp]
    simp only [List.isEmpty_cons, Bool.false_eq_true, if_false]
    rw [List.reverse_append, List.reverse_singleton, List.singleton_append,
      List.dropWhile_cons_of_pos (by decide), ← hp]
    exact h

/-! ## The registry -/

/-- The registry file holding a list of paths; without paths there is no file. -/
def holds (t : Temp) (l : List Path) : Prop :=
  t.registry = if l = [] then none else some (l.map fun p => p ++ ['\n']).flatten

/-- The list kept by a history, latest operation first. -/
def kept : List TempOp → List Path
  | [] => []
  | .create _ :: h => kept h
  | .register q :: h => kept h ++ [q]
  | .unregister q :: h => (kept h).filter (· ≠ q)
  | .cleanup :: _ => []

theorem mem_kept (p : Path) (h : List TempOp) : p ∈ kept h ↔ Registered p h := by
  induction h with
  | nil => simp [kept, Registered]
  | cons o h ih =>
    cases o with
    | create q => exact ih
    | register q => simp only [kept, Registered, List.mem_append, List.mem_singleton, ih]; exact or_comm
    | unregister q =>
      simp only [kept, Registered, List.mem_filter, decide_eq_true_eq, ih]
      exact and_comm
    | cleanup => simp [kept, Registered]

theorem kept_paths (h : List TempOp) : ∀ p ∈ kept h, ∃ o ∈ h, p ∈ opPaths o := by
  induction h with
  | nil => simp [kept]
  | cons o h ih =>
    intro p hp
    have old : p ∈ kept h → ∃ o' ∈ o :: h, p ∈ opPaths o' := by
      intro hp
      obtain ⟨o', h1, h2⟩ := ih p hp
      exact ⟨o', List.mem_cons_of_mem _ h1, h2⟩
    cases o with
    | create q => exact old hp
    | register q =>
      rcases List.mem_append.1 hp with hp | hp
      · exact old hp
      · exact ⟨_, List.mem_cons_self, by simpa [opPaths] using hp⟩
    | unregister q => exact old (List.mem_filter.1 hp).1
    | cleanup => simp [kept] at hp

theorem filter_lines (q : Path) (l : List Path) (h : ∀ p ∈ l, '\n' ∉ p) :
    ((l.map fun p => p ++ ['\n']).filter fun x => stripNl x ≠ q) =
      (l.filter (· ≠ q)).map fun p => p ++ ['\n'] := by
  rw [List.filter_map]
  congr 1
  apply List.filter_congr
  intro p hp
  simp only [Function.comp_apply, stripNl_line p (h p hp)]

theorem step_holds {t : Temp} {h : List TempOp} (ht : holds t (kept h)) (o : TempOp)
    (hl : ∀ p ∈ kept h, '\n' ∉ p) : holds (t.step o) (kept (o :: h)) := by
  cases o with
  | create q => exact ht
  | register q =>
    unfold holds at ht ⊢
    simp only [Temp.step, Temp.register, kept, List.append_eq_nil_iff, List.cons_ne_self, and_false, if_false]
    rw [ht]
    split
    next e => simp [e]
    next => simp
  | unregister q =>
    unfold holds at ht ⊢
    by_cases e : kept h = []
    · rw [e] at ht
      simp only [if_true] at ht
      simp only [Temp.step, Temp.unregister, ht, kept, e, List.filter_nil, if_true]
    · rw [if_neg e] at ht
      have hlines : keptLines q (((kept h).map fun p => p ++ ['\n']).flatten) =
          ((kept h).filter (· ≠ q)).map fun p => p ++ ['\n'] := by
        unfold keptLines
        rw [fileLines_flatten _ hl, filter_lines q _ hl]
      simp only [Temp.step, Temp.unregister, ht, kept, hlines]
      simp only [List.map_eq_nil_iff]
      exact if_congr Iff.rfl rfl rfl
  | cleanup =>
    unfold holds at ht ⊢
    simp only [Temp.step, Temp.cleanup, kept, if_true]
    split
    next e => exact e
    next => rfl

theorem run_reverse (t : Temp) (o : TempOp) (h : List TempOp) : t.run (h ++ [o]) = (t.run h).step o := by
  simp [Temp.run]

/-- The registry after a history. -/
theorem run_holds (h : List TempOp) (hl : ∀ o ∈ h, ∀ p ∈ opPaths o, '\n' ∉ p) :
    holds (noTemp.run h.reverse) (kept h) := by
  induction h with
  | nil => rfl
  | cons o h ih =>
    have hl' : ∀ o ∈ h, ∀ p ∈ opPaths o, '\n' ∉ p := fun o' ho => hl o' (List.mem_cons_of_mem _ ho)
    rw [List.reverse_cons, run_reverse]
    refine step_holds (ih hl') o fun p hp => ?_
    obtain ⟨o', h1, h2⟩ := kept_paths h p hp
    exact hl' o' h1 p h2

theorem listed_holds {t : Temp} {l : List Path} (ht : holds t l) (hl : ∀ p ∈ l, '\n' ∉ p) : listed t = l := by
  unfold holds at ht
  unfold listed
  rw [ht]
  by_cases e : l = []
  · subst e; rfl
  · rw [if_neg e, Option.getD_some, fileLines_flatten _ hl, List.map_map]
    conv_rhs => rw [← List.map_id l]
    apply List.map_congr_left
    intro p hp
    exact stripNl_line p (hl p hp)

theorem strip_lines (l : List Path) (hl : ∀ p ∈ l, CleanPath p) :
    (fileLines ((l.map fun p => p ++ ['\n']).flatten)).map strip = l := by
  rw [fileLines_flatten _ fun p hp => (hl p hp).line, List.map_map]
  conv_rhs => rw [← List.map_id l]
  apply List.map_congr_left
  intro p hp
  exact strip_line p (hl p hp).trim

theorem run_files (h : List TempOp) (hl : ∀ o ∈ h, ∀ p ∈ opPaths o, CleanPath p) (p : Path) :
    (noTemp.run h.reverse).files p = true ↔ Present p h := by
  induction h generalizing p with
  | nil => simp [Temp.run, noTemp, Present]
  | cons o h ih =>
    have hl' : ∀ o ∈ h, ∀ p ∈ opPaths o, CleanPath p := fun o' ho => hl o' (List.mem_cons_of_mem _ ho)
    have ih := ih hl'
    have hk := run_holds h fun o' ho q hq => (hl' o' ho q hq).line
    rw [List.reverse_cons, run_reverse]
    cases o with
    | create q =>
      simp only [Temp.step, Present, Bool.or_eq_true, decide_eq_true_eq, ih]
    | register q => exact ih p
    | unregister q =>
      have : ((noTemp.run h.reverse).step (.unregister q)).files = (noTemp.run h.reverse).files := by
        simp only [Temp.step, Temp.unregister]
        cases (noTemp.run h.reverse).registry <;> rfl
      rw [this]
      exact ih p
    | cleanup =>
      simp only [Temp.step, Temp.cleanup, Present]
      unfold holds at hk
      rw [hk]
      by_cases e : kept h = []
      · rw [if_pos e]
        have : ¬ Registered p h := by rw [← mem_kept, e]; simp
        simp only [ih, this, not_false_eq_true, and_true]
      · rw [if_neg e]
        have hc : ∀ q ∈ kept h, CleanPath q := by
          intro q hq
          obtain ⟨o', h1, h2⟩ := kept_paths h q hq
          exact hl' o' h1 q h2
        simp only [strip_lines _ hc, Bool.and_eq_true, Bool.not_eq_true', decide_eq_false_iff_not, mem_kept, ih]

/-! ## Running programs -/

theorem runOps_append {C : Type} (a b : List (FsOp C)) (fs : FS C) : runOps (a ++ b) fs = runOps b (runOps a fs) := by
  simp [runOps]

theorem runOps_writes {C : Type} (p : Path) (l : List C) (fs : FS C) (q : Path) (h : q ≠ p) :
    runOps (l.map (.write p)) fs q = fs q := by
  induction l generalizing fs with
  | nil => rfl
  | cons c l ih =>
    have : runOps ((c :: l).map (FsOp.write p)) fs = runOps (l.map (.write p)) (FsOp.run (.write p c) fs) := rfl
    rw [this, ih]
    simp [FsOp.run, h]

theorem tmpPath_ne (p : Path) : tmpPath p ≠ p := by
  intro h
  have := congrArg List.length h
  simp [tmpPath] at this

/-- Does an operation only change the file at `p`? -/
def FsOp.Only {C : Type} (p : Path) : FsOp C → Prop
  | .write q _ => q = p
  | .remove q => q = p
  | .rename _ _ => False

theorem only_runOps {C : Type} {p q : Path} {ops : List (FsOp C)} (h : ∀ o ∈ ops, o.Only p) (hq : q ≠ p) (fs : FS C) :
    runOps ops fs q = fs q := by
  induction ops generalizing fs with
  | nil => rfl
  | cons o ops ih =>
    have e : runOps (o :: ops) fs = runOps ops (o.run fs) := rfl
    rw [e, ih fun o' ho => h o' (List.mem_cons_of_mem _ ho)]
    have ho := h o List.mem_cons_self
    cases o with
    | write a c => cases ho; simp [FsOp.run, hq]
    | remove a => cases ho; simp [FsOp.run, hq]
    | rename a b => cases ho

theorem crash_append {C : Type} {a b : List (FsOp C)} {fs fs' : FS C} (h : Crash (a ++ b) fs fs') :
    Crash a fs fs' ∨ Crash b (runOps a fs) fs' := by
  obtain ⟨k, rfl⟩ := h
  rcases Nat.le_total k a.length with hk | hk
  · left
    exact ⟨k, by rw [List.take_append_of_le_length hk]⟩
  · right
    exact ⟨k - a.length, by rw [List.take_append, List.take_of_length_le hk, runOps_append]⟩

theorem crash_left {C : Type} {a : List (FsOp C)} (b : List (FsOp C)) {fs fs' : FS C} (h : Crash a fs fs') :
    Crash (a ++ b) fs fs' := by
  obtain ⟨k, rfl⟩ := h
  rcases Nat.le_total k a.length with hk | hk
  · exact ⟨k, by rw [List.take_append_of_le_length hk]⟩
  · exact ⟨a.length, by rw [List.take_left, List.take_of_length_le hk]⟩

theorem crash_end {C : Type} (a : List (FsOp C)) (fs : FS C) : Crash a fs (runOps a fs) :=
  ⟨a.length, by rw [List.take_length]⟩

theorem crash_only {C : Type} {p q : Path} {ops : List (FsOp C)} (h : ∀ o ∈ ops, o.Only p) (hq : q ≠ p) {fs fs' : FS C}
    (hc : Crash ops fs fs') : fs' q = fs q := by
  obtain ⟨k, rfl⟩ := hc
  exact only_runOps (fun o ho => h o (List.mem_of_mem_take ho)) hq fs

theorem crash_one {C : Type} {o : FsOp C} {fs fs' : FS C} (h : Crash [o] fs fs') : fs' = fs ∨ fs' = o.run fs := by
  obtain ⟨k, rfl⟩ := h
  cases k with
  | zero => exact Or.inl rfl
  | succ k => exact Or.inr (by simp [runOps])

/-- The operations of a save before the old file is touched. -/
def prepareOps {C : Type} (fs : FS C) (path : Path) (parts : List C) (new : C) : List (FsOp C) :=
  removeIfThere fs (tmpPath path) ++ parts.map (.write (tmpPath path)) ++ [.write (tmpPath path) new]

theorem prepare_only {C : Type} (fs : FS C) (path : Path) (parts : List C) (new : C) :
    ∀ o ∈ prepareOps fs path parts new, o.Only (tmpPath path) := by
  intro o ho
  simp only [prepareOps, List.mem_append, List.mem_map, List.mem_singleton] at ho
  rcases ho with (ho | ⟨c, _, rfl⟩) | rfl
  · unfold removeIfThere at ho
    split at ho
    · rw [List.mem_singleton.1 ho]; rfl
    · simp at ho
  · rfl
  · rfl

theorem prepare_tmp {C : Type} (fs : FS C) (path : Path) (parts : List C) (new : C) :
    runOps (prepareOps fs path parts new) fs (tmpPath path) = some new := by
  unfold prepareOps
  rw [runOps_append]
  simp [runOps, FsOp.run]

theorem saveOps_eq {C : Type} (fs : FS C) (path : Path) (parts : List C) (new : C) :
    saveOps fs path parts new =
      prepareOps fs path parts new ++ removeIfThere fs path ++ [.rename (tmpPath path) path] := rfl

theorem remove_only {C : Type} (fs : FS C) (path : Path) : ∀ o ∈ removeIfThere fs path, o.Only path := by
  intro o ho
  unfold removeIfThere at ho
  split at ho
  · rw [List.mem_singleton.1 ho]; rfl
  · simp at ho

/-- The states after a crash during a save. -/
theorem save_crash {C : Type} {fs fs' : FS C} {path : Path} {parts : List C} {new : C}
    (h : Crash (saveOps fs path parts new) fs fs') :
    (∀ q, q ≠ path → q ≠ tmpPath path → fs' q = fs q) ∧
      (fs' path = fs path ∨ (fs' path = some new ∧ fs' (tmpPath path) = none) ∨
        (fs' path = none ∧ fs' (tmpPath path) = some new)) := by
  have ht := tmpPath_ne path
  rw [saveOps_eq] at h
  have hp := prepare_only fs path parts new
  have hr := remove_only fs path
  rcases crash_append h with h | h
  · rcases crash_append h with h | h
    · exact ⟨fun q _ hq => crash_only hp hq h, Or.inl (crash_only hp (Ne.symm ht) h)⟩
    · have e1 : ∃ s, runOps (prepareOps fs path parts new) fs = s ∧ (∀ q, q ≠ tmpPath path → s q = fs q) ∧
          s (tmpPath path) = some new :=
        ⟨_, rfl, fun q hq => only_runOps hp hq fs, prepare_tmp fs path parts new⟩
      obtain ⟨s, es, hs, hst⟩ := e1
      rw [es] at h
      refine ⟨fun q hq hq' => by rw [crash_only hr hq h, hs q hq'], ?_⟩
      have htmp : fs' (tmpPath path) = some new := by rw [crash_only hr ht h, hst]
      unfold removeIfThere at h
      split at h
      · rcases crash_one h with rfl | rfl
        · exact Or.inl (hs _ (Ne.symm ht))
        · exact Or.inr (Or.inr ⟨by simp [FsOp.run], htmp⟩)
      · obtain ⟨k, rfl⟩ := h
        simp only [List.take_nil]
        exact Or.inl (hs _ (Ne.symm ht))
  · rw [runOps_append] at h
    obtain ⟨s, es, hs, hst⟩ : ∃ s, runOps (prepareOps fs path parts new) fs = s ∧
        (∀ q, q ≠ tmpPath path → s q = fs q) ∧ s (tmpPath path) = some new :=
      ⟨_, rfl, fun q hq => only_runOps hp hq fs, prepare_tmp fs path parts new⟩
    rw [es] at h
    have ho : ∀ q, q ≠ path → runOps (removeIfThere fs path) s q = s q := fun q hq => only_runOps hr hq s
    have hn : runOps (removeIfThere fs path) s path = none := by
      unfold removeIfThere
      split
      · simp [runOps, FsOp.run]
      · next e => rw [show runOps [] s path = s path from rfl, hs _ (Ne.symm ht)]; simpa using e
    rcases crash_one h with rfl | rfl
    · exact ⟨fun q hq hq' => by rw [ho q hq, hs q hq'], Or.inr (Or.inr ⟨hn, by rw [ho _ ht, hst]⟩)⟩
    · refine ⟨fun q hq hq' => by simp only [FsOp.run, if_neg hq, if_neg hq']; rw [ho q hq, hs q hq'],
        Or.inr (Or.inl ⟨?_, ?_⟩)⟩
      · simp only [FsOp.run, if_true]; rw [ho _ ht, hst]
      · simp only [FsOp.run, if_neg ht, if_true]

/-- The state after a complete save. -/
theorem save_end {C : Type} (fs : FS C) (path : Path) (parts : List C) (new : C) :
    runOps (saveOps fs path parts new) fs =
      fun q => if q = path then some new else if q = tmpPath path then none else fs q := by
  have ht := tmpPath_ne path
  rw [saveOps_eq, runOps_append, runOps_append]
  obtain ⟨s, es, hs, hst⟩ : ∃ s, runOps (prepareOps fs path parts new) fs = s ∧
      (∀ q, q ≠ tmpPath path → s q = fs q) ∧ s (tmpPath path) = some new :=
    ⟨_, rfl, fun q hq => only_runOps (prepare_only fs path parts new) hq fs, prepare_tmp fs path parts new⟩
  rw [es]
  have ho : ∀ q, q ≠ path → runOps (removeIfThere fs path) s q = s q :=
    fun q hq => only_runOps (remove_only fs path) hq s
  funext q
  simp only [runOps, List.foldl_cons, List.foldl_nil, FsOp.run]
  split
  · exact (ho _ ht).trans hst
  · next h1 =>
    split
    · rfl
    · next h2 => exact (ho q h1).trans (hs q h2)

/-! ## Generated files -/

/-- Every existing half is a beginning of the right content. -/
def Begun (split : List (List Char) × List (List Char)) (g : GenFiles) : Prop :=
  ∀ h c, g.get h = some c → c <+: half split h

theorem get_set (g : GenFiles) (h h' : Half) (c : List (List Char)) :
    (g.set h c).get h' = if h' = h then some c else g.get h' := by
  cases h <;> cases h' <;> rfl

theorem begun_set {split : List (List Char) × List (List Char)} {g : GenFiles} (hg : Begun split g) (h : Half)
    {c : List (List Char)} (hc : c <+: half split h) : Begun split (g.set h c) := by
  intro h' c' e
  rw [get_set] at e
  split at e
  next hh => cases e; rw [hh]; exact hc
  next => exact hg h' c' e

theorem begun_states {split : List (List Char) × List (List Char)} {g g' : GenFiles} (hg : Begun split g)
    (h : g' ∈ genStates split g) : Begun split g' := by
  unfold genStates writeStates at h
  simp only [List.mem_cons, List.mem_append, List.mem_map, List.mem_range] at h
  rcases h with (rfl | ⟨n, _, rfl⟩) | ⟨n, _, rfl⟩
  · exact hg
  · exact begun_set hg .train (List.take_prefix _ _)
  · exact begun_set (begun_set hg .train (List.prefix_refl _)) .test (List.take_prefix _ _)

theorem getHalf_begun {split : List (List Char) × List (List Char)} {g : GenFiles} (hg : Begun split g) (h : Half) :
    Begun split (getHalf split h g).1 := by
  unfold getHalf
  split
  · exact hg
  · exact begun_set (begun_set hg .train (List.prefix_refl _)) .test (List.prefix_refl _)

theorem reach_begun {split : List (List Char) × List (List Char)} {g : GenFiles} (h : GenReach split g) :
    Begun split g := by
  induction h with
  | start => intro h c e; cases h <;> cases e
  | called h _ ih => exact getHalf_begun ih h
  | killed h _ _ hm ih => exact begun_states ih hm

end DRec
