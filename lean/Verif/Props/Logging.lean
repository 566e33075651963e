import Verif.Spec.Logging
import Mathlib.Data.List.Basic
import Mathlib.Data.List.Nodup

/-!
# C108: log messages reach the console and the log file once
-/

namespace DRec

open Spec

theorem consoleName_inj {a b : List Char} (h : consoleName a = consoleName b) : a = b := by
  unfold consoleName at h
  exact List.append_cancel_right h

theorem fileLoggerName_inj {a b : List Char} (h : fileLoggerName a = fileLoggerName b) : a = b := by
  unfold fileLoggerName at h
  exact List.append_cancel_right h

theorem logger_names_ne (a b : List Char) : consoleName a ≠ fileLoggerName b := by
  intro h
  unfold consoleName fileLoggerName at h
  have := (List.append_inj' h (by decide)).2
  exact absurd this (by decide)

/-- What holds of the loggers in every reachable state. -/
structure LogInv (w : LogWorld) (ms : List (List Char × Bool × Option (List Char))) : Prop where
  models : w.models = ms.map fun p => ⟨p.1, p.2.1, p.2.2.isSome⟩
  console : ∀ p ∈ ms, w.handlers (consoleName p.1) = [.console]
  files : ∀ cls, w.handlers (fileLoggerName cls) =
    (ms.filterMap fun p => if p.1 = cls then p.2.2 else none).map .file

theorem LogInv.start : LogInv LogWorld.start [] :=
  ⟨rfl, by simp, fun _ => rfl⟩

theorem LogInv.new {w : LogWorld} {ms : List (List Char × Bool × Option (List Char))} (h : LogInv w ms)
    (cls : List Char) (v f : Bool) (t : List Char) :
    LogInv (w.new cls v f t) (ms ++ created [.new cls v f t]) := by
  constructor
  · simp only [LogWorld.new, h.models, created, List.filterMap_cons, List.filterMap_nil, List.map_append,
      List.map_cons, List.map_nil]
    cases f <;> rfl
  · intro p hp
    have hne : ∀ a b, ¬ consoleName a = fileLoggerName b := logger_names_ne
    have key : (w.new cls v f t).handlers (consoleName p.1) =
        if consoleName p.1 = consoleName cls then [.console] else w.handlers (consoleName p.1) := by
      unfold LogWorld.new setHandlers
      cases f <;> simp [hne]
    rw [key]
    split
    · rfl
    · rename_i hc
      rcases List.mem_append.1 hp with hp | hp
      · exact h.console p hp
      · simp only [created, List.filterMap_cons, List.filterMap_nil, List.mem_singleton] at hp
        subst hp
        exact absurd rfl hc
  · intro c
    have hne : ∀ a b, ¬ fileLoggerName a = consoleName b := fun a b e => logger_names_ne b a e.symm
    have hinj : ∀ a b, fileLoggerName a = fileLoggerName b ↔ a = b := fun a b => ⟨fileLoggerName_inj, fun e => e ▸ rfl⟩
    rw [List.filterMap_append, List.map_append, ← h.files c]
    cases f with
    | false =>
      simp only [LogWorld.new, setHandlers, created, List.filterMap_cons, List.filterMap_nil, hne,
        Bool.false_eq_true, if_false]
      split <;> simp_all
    | true =>
      simp only [LogWorld.new, setHandlers, created, List.filterMap_cons, List.filterMap_nil, hne, hinj,
        if_true, if_false]
      by_cases e : c = cls
      · subst e
        simp
      · have e' : ¬ cls = c := fun e2 => e e2.symm
        simp [e, e']

theorem LogInv.written {w w' : LogWorld} {ms : List (List Char × Bool × Option (List Char))} (h : LogInv w ms)
    (h1 : w'.models = w.models) (h2 : w'.handlers = w.handlers) : LogInv w' ms :=
  ⟨h1 ▸ h.models, h2 ▸ h.console, h2 ▸ h.files⟩

/-- What a call really writes: the message once on the console, and once in the file of every recommender of
the same class. -/
def reallyOf (models : List (List Char × Bool × Option (List Char))) : LogOp → List LogEntry
  | .new .. => []
  | .log i level msg console file =>
    match models[i]? with
    | some (cls, true, own) =>
      (if console then [⟨.console, level, msg⟩] else []) ++
      (if own.isSome && file then
        (models.filterMap fun p => if p.1 = cls then p.2.2 else none).map fun name => ⟨.file name, level, msg⟩
        else [])
    | _ => []

def really : List LogOp → List (List Char × Bool × Option (List Char)) → List LogEntry
  | [], _ => []
  | o :: ops, models => reallyOf models o ++ really ops (models ++ created [o])

theorem log_step {w : LogWorld} {ms : List (List Char × Bool × Option (List Char))} (h : LogInv w ms)
    (o : LogOp) : LogInv (w.step o) (ms ++ created [o]) ∧ (w.step o).written = w.written ++ reallyOf ms o := by
  cases o with
  | new cls v f t => exact ⟨h.new cls v f t, by simp [LogWorld.step, LogWorld.new, reallyOf]⟩
  | log i level msg c f =>
    have hcr : created [LogOp.log i level msg c f] = [] := rfl
    rw [hcr, List.append_nil]
    unfold LogWorld.step reallyOf
    simp only [h.models, List.getElem?_map]
    cases hi : ms[i]? with
    | none => exact ⟨h, by simp⟩
    | some p =>
      obtain ⟨cls, v, own⟩ := p
      have hc := h.console _ (List.mem_of_getElem? hi)
      simp only [Option.map_some]
      unfold LogWorld.log
      cases v with
      | false => exact ⟨h, by simp⟩
      | true =>
        refine ⟨h.written rfl rfl, ?_⟩
        simp only [Bool.not_true, Bool.false_eq_true, if_false, hc, h.files cls, emit, List.map_map,
          List.append_assoc]
        congr 1

theorem log_run (ops : List LogOp) (w : LogWorld) (ms : List (List Char × Bool × Option (List Char)))
    (h : LogInv w ms) : (ops.foldl LogWorld.step w).written = w.written ++ really ops ms := by
  induction ops generalizing w ms with
  | nil => simp [really]
  | cons o ops ih =>
    obtain ⟨h1, h2⟩ := log_step h o
    rw [List.foldl_cons, ih _ _ h1, h2, really, List.append_assoc]

theorem written_eq (ops : List LogOp) : (LogWorld.run ops).written = really ops [] := by
  rw [LogWorld.run, log_run ops _ _ LogInv.start]
  rfl

/-! ## C108 -/

/-- **C108.** Console: for every program, exactly the expected messages appear on the console, each once and in
the order of the calls. -/
theorem C108_console (ops : List LogOp) :
    (LogWorld.run ops).written.filter (fun e => e.dest = .console) =
      (expected ops []).filter fun e => e.dest = .console := by
  rw [written_eq]
  generalize ([] : List (List Char × Bool × Option (List Char))) = ms
  induction ops generalizing ms with
  | nil => rfl
  | cons o ops ih =>
    rw [really, expected, List.filter_append, List.filter_append, ih]
    congr 1
    cases o with
    | new => rfl
    | log i level msg c f =>
      simp only [reallyOf, expectedOf]
      cases hi : ms[i]? with
      | none => rfl
      | some p =>
        obtain ⟨cls, v, own⟩ := p
        cases v with
        | false => rfl
        | true =>
          simp only [List.filter_append]
          congr 1
          have h1 : ∀ l : List (List Char), (l.map fun name => (⟨.file name, level, msg⟩ : LogEntry)).filter
              (fun e => e.dest = .console) = [] := by
            intro l
            rw [List.filter_eq_nil_iff]
            simp
          split <;> split <;> simp only [h1, List.filter_nil]

/-- **C108.** Whatever should be written is written: no message is lost. -/
theorem C108_nothing_lost (ops : List LogOp) : (expected ops []).Sublist (LogWorld.run ops).written := by
  rw [written_eq]
  generalize ([] : List (List Char × Bool × Option (List Char))) = ms
  induction ops generalizing ms with
  | nil => exact List.Sublist.refl _
  | cons o ops ih =>
    rw [really, expected]
    refine List.Sublist.append ?_ (ih _)
    cases o with
    | new => exact List.Sublist.refl _
    | log i level msg c f =>
      simp only [reallyOf, expectedOf]
      cases hi : ms[i]? with
      | none => exact List.Sublist.refl _
      | some p =>
        obtain ⟨cls, v, own⟩ := p
        cases v with
        | false => exact List.Sublist.refl _
        | true =>
          refine List.Sublist.append (List.Sublist.refl _) ?_
          cases f with
          | false => simp
          | true =>
            cases own with
            | none => simp
            | some name =>
              simp only [Option.isSome_some, Bool.and_self, if_true, Option.toList_some, List.map_cons,
                List.map_nil]
              rw [List.singleton_sublist, List.mem_map]
              refine ⟨name, List.mem_filterMap.2 ⟨_, List.mem_of_getElem? hi, ?_⟩, rfl⟩
              simp

/-- **C108** (partial: no two recommenders of one class with a log file; the full property is for every program
and fails, see `C108_fails`).  Exactly the expected messages are written, each once and in order. -/
theorem C108_files_partial (ops : List LogOp) (h : (fileClasses ops).Nodup) :
    (LogWorld.run ops).written = expected ops [] := by
  rw [written_eq]
  have key : ∀ (ms : List (List Char × Bool × Option (List Char))),
      ((ms.filterMap fun p => p.2.2.map fun _ => p.1) ++ fileClasses ops).Nodup → really ops ms = expected ops ms := by
    clear h
    induction ops with
    | nil => intro ms _; rfl
    | cons o ops ih =>
      intro ms hn
      rw [really, expected, ih]
      · congr 1
        cases o with
        | new => rfl
        | log i level msg c f =>
          simp only [reallyOf, expectedOf]
          cases hi : ms[i]? with
          | none => rfl
          | some p =>
            obtain ⟨cls, v, own⟩ := p
            cases v with
            | false => rfl
            | true =>
              cases f with
              | false => simp
              | true =>
                cases own with
                | none => simp
                | some name =>
                  simp only [Option.isSome_some, Bool.and_self, if_true, Option.toList_some]
                  congr 1
                  have hn1 := (List.nodup_append.1 hn).1
                  clear hn ih
                  induction ms generalizing i with
                  | nil => simp at hi
                  | cons q ms ih2 =>
                    cases i with
                    | zero =>
                      simp only [List.getElem?_cons_zero, Option.some.injEq] at hi
                      subst hi
                      simp only [List.filterMap_cons, Option.map_some, List.nodup_cons] at hn1
                      simp only [List.filterMap_cons, if_true]
                      congr 2
                      rw [List.filterMap_eq_nil_iff]
                      intro r hr
                      split
                      · rename_i e
                        cases hr2 : r.2.2 with
                        | none => rfl
                        | some x => exact absurd (List.mem_filterMap.2 ⟨r, hr, by simp [hr2, e]⟩) hn1.1
                      · rfl
                    | succ i =>
                      simp only [List.getElem?_cons_succ] at hi
                      cases hq : q.2.2 with
                      | none =>
                        simp only [List.filterMap_cons, hq, Option.map_none] at hn1
                        rw [List.filterMap_cons]
                        have : (if q.1 = cls then q.2.2 else none) = none := by simp [hq]
                        rw [this]
                        exact ih2 i hi hn1
                      | some x =>
                        simp only [List.filterMap_cons, hq, Option.map_some, List.nodup_cons] at hn1
                        have hne : q.1 ≠ cls := by
                          intro e
                          exact hn1.1 (List.mem_filterMap.2 ⟨_, List.mem_of_getElem? hi, by simp [e]⟩)
                        rw [List.filterMap_cons, if_neg hne]
                        exact ih2 i hi hn1.2
      · rw [List.filterMap_append]
        cases o with
        | log => simpa [created, fileClasses] using hn
        | new cls v f t =>
          cases f <;> simpa [created, fileClasses] using hn
  exact key [] (by simpa using h)

/-- **C108 fails** for two recommenders of one class with log files: everything the second one logs is also
written to the file of the first (and twice to the same file when both are created in one second). -/
theorem C108_fails (cls t1 t2 : List Char) (level : LogLevel) (msg : String) :
    let ops := [.new cls true true t1, .new cls true true t2, .log 1 level msg true true]
    expected ops [] = [⟨.console, level, msg⟩, ⟨.file (logFileName t2 cls), level, msg⟩] ∧
    (LogWorld.run ops).written = [⟨.console, level, msg⟩, ⟨.file (logFileName t1 cls), level, msg⟩,
      ⟨.file (logFileName t2 cls), level, msg⟩] := by
  refine ⟨rfl, ?_⟩
  rw [written_eq]
  simp [really, reallyOf, created]

/-- **C108.** Recommenders that are not verbose write nothing. -/
theorem C108_quiet (ops : List LogOp) (i : Nat) (cls : List Char) (own : Option (List Char))
    (h : (created ops)[i]? = some (cls, false, own)) (level : LogLevel) (msg : String) (console file : Bool) :
    (LogWorld.run (ops ++ [.log i level msg console file])).written = (LogWorld.run ops).written := by
  have hr : ∀ (ops : List LogOp) (ms : List (List Char × Bool × Option (List Char))) (o : LogOp),
      really (ops ++ [o]) ms = really ops ms ++ reallyOf (ms ++ created ops) o := by
    intro ops
    induction ops with
    | nil => intro ms o; simp [really, created]
    | cons p ops ih =>
      intro ms o
      have : created (p :: ops) = created [p] ++ created ops := by
        unfold created
        rw [← List.filterMap_append]
        rfl
      rw [List.cons_append, really, really, ih, this, List.append_assoc, List.append_assoc]
  rw [written_eq, written_eq, hr, List.nil_append]
  simp [reallyOf, h]

/-- **C108.** Log files of different classes or different times have different names. -/
theorem C108_file_names (t t' cls cls' : List Char) (hl : t.length = t'.length)
    (h : logFileName t cls = logFileName t' cls') : t = t' ∧ cls = cls' := by
  unfold logFileName at h
  have h1 := List.append_cancel_right h
  simp only [List.append_assoc] at h1
  have h2 := List.append_cancel_left h1
  obtain ⟨h3, h4⟩ := List.append_inj h2 hl
  exact ⟨h3, List.append_cancel_left h4⟩

/-- A program with two classes: a DMF with a log file, a quiet one, and a CDAE with a log file. -/
def exLogOps : List LogOp :=
  [.new "DMF".toList true true "t1".toList, .new "DMF".toList false false "t2".toList,
   .new "CDAE".toList true true "t2".toList, .log 0 .info "a" true true, .log 1 .warning "b" true true,
   .log 2 .error "c" false true, .log 0 .info "d" true false]

example : (fileClasses exLogOps).Nodup ∧ (created exLogOps)[1]? = some ("DMF".toList, false, none) ∧
    (LogWorld.run exLogOps).written = [⟨.console, .info, "a"⟩, ⟨.file "drecpy_t1_DMF.log".toList, .info, "a"⟩,
      ⟨.file "drecpy_t2_CDAE.log".toList, .error, "c"⟩, ⟨.console, .info, "d"⟩] := by decide

end DRec
