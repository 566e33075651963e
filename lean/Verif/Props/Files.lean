import Verif.Lemmas.Files

/-!
# Files: C28, C29, C31, C72
-/

namespace DRec

open Spec

/-! ## C28: saving as SQLite and crashes

The full statement: whatever point the process dies at, the path holds the complete old or the complete new
content.  The code removes the old file before it renames the new one, so the statement fails in between. -/

/-- C28 fails: for every path that holds a file there is a crash point after which it holds none. -/
theorem C28_fails {C : Type} (fs : FS C) (path : Path) (old new : C) (parts : List C) (h : fs path = some old) :
    ∃ fs', Crash (saveOps fs path parts new) fs fs' ∧ fs' path = none := by
  refine ⟨runOps (prepareOps fs path parts new ++ removeIfThere fs path) fs, ?_, ?_⟩
  · rw [saveOps_eq]
    exact crash_left _ (crash_end _ _)
  · rw [runOps_append]
    simp [removeIfThere, h, runOps, FsOp.run]

/-- C28, the part that holds: after a crash at any point the path holds the old content, or it holds the complete new
content, or it is missing and the complete new content is at the temporary path.  So no content is ever lost and
no partial content is ever seen at the path.  Missing from the full statement: the third case should not occur. -/
theorem C28_crash_partial {C : Type} (fs fs' : FS C) (path : Path) (new : C) (parts : List C)
    (h : Crash (saveOps fs path parts new) fs fs') :
    fs' path = fs path ∨ (fs' path = some new ∧ fs' (tmpPath path) = none) ∨
      (fs' path = none ∧ fs' (tmpPath path) = some new) := (save_crash h).2

/-- C28: saving to a new path is atomic. -/
theorem C28_new_path {C : Type} (fs fs' : FS C) (path : Path) (new : C) (parts : List C) (hn : fs path = none)
    (h : Crash (saveOps fs path parts new) fs fs') : fs' path = none ∨ fs' path = some new := by
  rcases (save_crash h).2 with e | ⟨e, _⟩ | ⟨e, _⟩
  · exact Or.inl (e.trans hn)
  · exact Or.inr e
  · exact Or.inl e

/-- C28: no other file is touched, whatever point the process dies at. -/
theorem C28_others {C : Type} (fs fs' : FS C) (path q : Path) (new : C) (parts : List C) (hq : q ≠ path)
    (ht : q ≠ path ++ ".tmp".toList) (h : Crash (saveOps fs path parts new) fs fs') : fs' q = fs q :=
  (save_crash h).1 q hq ht

/-- C28: a save that is not interrupted leaves the new content at the path, no temporary file, and everything else as
it was.  It also repairs what an earlier crash left behind. -/
theorem C28_complete {C : Type} (fs : FS C) (path : Path) (new : C) (parts : List C) :
    runOps (saveOps fs path parts new) fs path = some new ∧
      runOps (saveOps fs path parts new) fs (path ++ ".tmp".toList) = none ∧
      ∀ q, q ≠ path → q ≠ path ++ ".tmp".toList → runOps (saveOps fs path parts new) fs q = fs q := by
  have ht := tmpPath_ne path
  rw [save_end]
  refine ⟨if_pos rfl, ?_, fun q h1 h2 => ?_⟩
  · exact (if_neg ht).trans (if_pos rfl)
  · exact (if_neg h1).trans (if_neg h2)

/-- C28: the save is refused, without touching any file, exactly when another dataset uses the file. -/
theorem C28_in_use {C : Type} (own path : Path) (users : Path → Nat) (parts : List C) (new : C) (fs : FS C) :
    (∃ e, saveSqlite own path users parts new fs = .error e) ↔ 0 < otherUsers own path users := by
  unfold saveSqlite saveRefused otherUsers
  by_cases h : path = own
  · by_cases h2 : 1 < users path
    · simp only [h, decide_true, Bool.true_and]
      rw [h] at h2
      simp [h2]
    · rw [h] at h2
      simp [h, h2]
  · by_cases h2 : 0 < users path
    · simp [h, h2]
    · simp [h, h2]

-- An old database `1` at `a.sqlite`, replaced by `2`; the crash after the removal leaves only the temporary file.
example :
    let fs : FS Nat := fun q => if q = "a.sqlite".toList then some 1 else none
    let fs' := runOps ((saveOps fs "a.sqlite".toList [7, 8] 2).take 4) fs
    fs "a.sqlite".toList = some 1 ∧ Crash (saveOps fs "a.sqlite".toList [7, 8] 2) fs fs' ∧
      fs' "a.sqlite".toList = none ∧ fs' "a.sqlite.tmp".toList = some 2 := by
  refine ⟨by decide, ⟨4, rfl⟩, by decide, by decide⟩

-- A path without a file, and one with two users.
example : (fun _ => none : FS Nat) "b.sqlite".toList = none ∧
    0 < otherUsers "a.sqlite".toList "a.sqlite".toList (fun _ => 2) ∧
    ¬ 0 < otherUsers "a.sqlite".toList "a.sqlite".toList (fun _ => 1) := by decide

/-! ## C29: the registry of temporary files

Histories are given with the latest operation first.  The full statement has no condition on the paths; the
registry is a text file with a path per line, and cleaning up strips blanks around a line. -/

/-- C29, the list: after every history a path is listed exactly when it was registered and since then neither
unregistered nor cleaned up.  Missing from the full statement: paths with a line end. -/
theorem C29_listed_partial (h : List TempOp) (hl : ∀ o ∈ h, ∀ p ∈ opPaths o, '\n' ∉ p) (p : Path) :
    p ∈ listed (noTemp.run h.reverse) ↔ Registered p h := by
  rw [listed_holds (run_holds h hl), mem_kept]
  intro q hq
  obtain ⟨o, h1, h2⟩ := kept_paths h q hq
  exact hl o h1 q h2

/-- C29, the files: after every history a file exists exactly when it was created and never cleaned up while it was
registered.  Missing from the full statement: paths with a line end or surrounded by blanks. -/
theorem C29_files_partial (h : List TempOp) (hl : ∀ o ∈ h, ∀ p ∈ opPaths o, CleanPath p) (p : Path) :
    (noTemp.run h.reverse).files p = true ↔ Present p h := run_files h hl p

/-- C29: cleaning up removes the registry. -/
theorem C29_cleanup_registry (t : Temp) : t.cleanup.registry = none := by
  unfold Temp.cleanup
  split
  · assumption
  · rfl

/-- C29: when nothing is registered any more there is no registry file, so unregistering raises exactly then. -/
theorem C29_unregister_raises (h : List TempOp) (hl : ∀ o ∈ h, ∀ p ∈ opPaths o, '\n' ∉ p) (p : Path) :
    (∃ e, (noTemp.run h.reverse).unregister p = .error e) ↔ ∀ q, ¬ Registered q h := by
  have hh := run_holds h hl
  unfold holds at hh
  unfold Temp.unregister
  rw [hh]
  by_cases e : kept h = []
  · rw [if_pos e]
    constructor
    · intro _ q hq
      rw [← mem_kept, e] at hq
      cases hq
    · intro _
      exact ⟨_, rfl⟩
  · rw [if_neg e]
    constructor
    · rintro ⟨x, hx⟩
      cases hx
    · intro hq
      exfalso
      obtain ⟨q, hq'⟩ := List.exists_mem_of_ne_nil _ e
      exact hq q ((mem_kept q h).1 hq')

/-- C29: the names given to temporary databases satisfy the conditions, whenever the data folder has no line end and
does not begin with a blank. -/
theorem C29_names_clean (c : Char) (folder : Path) (ident digits : Nat) (hb : c.isWhitespace = false)
    (hn : '\n' ∉ c :: folder) : CleanPath (tempName (c :: folder) ident digits) := by
  have hd : ∀ n : Nat, '\n' ∉ Nat.toDigits 10 n := by
    intro n hm
    have := Nat.isDigit_of_mem_toDigits (by decide) (by decide) hm
    exact absurd this (by decide)
  constructor
  · unfold tempName
    simp only [List.mem_append, not_or]
    refine ⟨⟨⟨⟨⟨hn, by decide⟩, hd _⟩, by decide⟩, hd _⟩, by decide⟩
  · obtain ⟨r, hr⟩ : ∃ r, tempName (c :: folder) ident digits = (c :: r) ++ ['e'] := by
      refine ⟨folder ++ "/interactions_".toList ++ Nat.toDigits 10 ident ++ ['.'] ++ Nat.toDigits 10 digits ++
        ".tmp.sqlit".toList, ?_⟩
      unfold tempName
      simp
    rw [hr]
    unfold strip
    rw [List.cons_append, List.dropWhile_cons_of_neg (by simp [hb]), ← List.cons_append, List.reverse_append,
      List.reverse_singleton, List.singleton_append, List.dropWhile_cons_of_neg (by decide)]
    simp

/-- C29 fails for a path that begins with a blank: it is registered and stays, and the file with the blank cut off,
which was never registered, is deleted. -/
theorem C29_fails_blank :
    let h : List TempOp := [.cleanup, .register " a".toList, .create " a".toList, .create "a".toList]
    (noTemp.run h.reverse).files " a".toList = true ∧ ¬ Present " a".toList h ∧
      (noTemp.run h.reverse).files "a".toList = false ∧ Present "a".toList h := by
  refine ⟨by decide, fun hp => hp.2 (Or.inl rfl), by decide, Or.inr (Or.inl rfl), ?_⟩
  rintro (h | h)
  · exact absurd h (by decide)
  · exact h

/-- C29 fails for a path with a line end: it is registered and not listed. -/
theorem C29_fails_line :
    let h : List TempOp := [.register "a\nb".toList]
    Registered "a\nb".toList h ∧ "a\nb".toList ∉ listed (noTemp.run h.reverse) :=
  ⟨Or.inl rfl, by decide⟩

-- Two registered files, one unregistered, then a cleanup: one file is left.
example :
    let h : List TempOp := [.cleanup, .unregister "y".toList, .register "y".toList, .register "x".toList,
      .create "y".toList, .create "x".toList]
    (∀ o ∈ h, ∀ p ∈ opPaths o, CleanPath p) ∧ (noTemp.run h.reverse).files "y".toList = true ∧
      (noTemp.run h.reverse).files "x".toList = false := by
  refine ⟨?_, by decide, by decide⟩
  intro o ho p hp
  simp only [List.mem_cons, List.not_mem_nil, or_false] at ho
  rcases ho with rfl | rfl | rfl | rfl | rfl | rfl <;> simp only [opPaths, List.mem_singleton, List.not_mem_nil] at hp
  all_goals subst hp; exact ⟨by decide, by decide⟩

example : tempName "/home/u/.DRecPy_data".toList 140 93 =
    "/home/u/.DRecPy_data/interactions_140.93.tmp.sqlite".toList := by decide

/-! ## C31: the dataset factory -/

/-- C31: without columns, a path that does not end in `.sqlite` is refused. -/
theorem C31_needs_columns (memory database : Ctor) (heap : ColHeap) (next : Nat) (path : Path) (inMemory : Bool)
    (h : ¬ ".sqlite".toList <:+ path) :
    (factory memory database heap next path none inMemory).2 = .error .assertion := by
  have : isSqlite path = false := by
    unfold isSqlite
    rw [← Bool.not_eq_true, List.isSuffixOf_iff_suffix]
    exact h
  simp [factory, this]

/-- C31: a column list with `uid` or `iid` is refused. -/
theorem C31_no_ids (memory database : Ctor) (heap : ColHeap) (next a : Nat) (path : Path) (inMemory : Bool)
    (h : some "uid" ∈ heap a ∨ some "iid" ∈ heap a) :
    (factory memory database heap next path (some a) inMemory).2 = .error .assertion := by
  unfold factory
  rcases h with h | h
  · simp [h]
  · by_cases h2 : some "uid" ∈ heap a <;> simp [h, h2]

/-- C31: the in-memory backend is used exactly when it was asked for, the path is not a SQLite file, and loading into
memory succeeds (given acceptable columns).  The constructor gets a new list: the caller's columns and `rid`. -/
theorem C31_memory (memory database : Ctor) (heap : ColHeap) (next a : Nat) (path : Path) (inMemory : Bool)
    (h : some "uid" ∉ heap a ∧ some "iid" ∉ heap a) :
    (factory memory database heap next path (some a) inMemory).2 = .ok .memory ↔
      inMemory = true ∧ ¬ ".sqlite".toList <:+ path ∧
        memory.result (fun b => if b = next then heap a ++ [some "rid"] else heap b) (some next) = .ok () := by
  have hs : isSqlite path = true ↔ ".sqlite".toList <:+ path := by
    unfold isSqlite
    rw [List.isSuffixOf_iff_suffix]
  rw [← hs]
  unfold factory
  simp only [h.1, h.2, if_false]
  unfold build
  cases inMemory <;> cases isSqlite path <;>
    simp only [Bool.and_true, Bool.and_false, Bool.not_true, Bool.not_false, if_true, if_false, Bool.false_eq_true,
      not_true_eq_false, not_false_eq_true, true_and, false_and, iff_false] <;>
    first
    | (cases hm : memory.result (fun b => if b = next then heap a ++ [some "rid"] else heap b) (some next) with
      | ok u => simp
      | error e =>
        cases e <;> simp
        cases database.result _ _ <;> simp [Except.map])
    | (cases hm : database.result (fun b => if b = next then heap a ++ [some "rid"] else heap b) (some next) with
      | ok u => simp
      | error e =>
        cases e <;> simp <;> cases database.result _ _ <;> simp [Except.map])

/-- C31: when loading into memory runs out of memory, the database backend is tried, with the same list. -/
theorem C31_fallback (memory database : Ctor) (heap : ColHeap) (next a : Nat) (path : Path)
    (h : some "uid" ∉ heap a ∧ some "iid" ∉ heap a) (hp : ¬ ".sqlite".toList <:+ path)
    (hm : memory.result (fun b => if b = next then heap a ++ [some "rid"] else heap b) (some next) = .error .memory) :
    (factory memory database heap next path (some a) true).2 =
      (database.result (memory.effect (fun b => if b = next then heap a ++ [some "rid"] else heap b) (some next))
        (some next)).map fun _ => .database := by
  have hs : isSqlite path = false := by
    unfold isSqlite
    rw [← Bool.not_eq_true, List.isSuffixOf_iff_suffix]
    exact hp
  simp [factory, h.1, h.2, hs, build, hm]

/-- C31: any other failure of loading into memory is raised. -/
theorem C31_other_errors (memory database : Ctor) (heap : ColHeap) (next a : Nat) (path : Path) (e : Err)
    (h : some "uid" ∉ heap a ∧ some "iid" ∉ heap a) (hp : ¬ ".sqlite".toList <:+ path) (he : e ≠ .memory)
    (hm : memory.result (fun b => if b = next then heap a ++ [some "rid"] else heap b) (some next) = .error e) :
    (factory memory database heap next path (some a) true).2 = .error e := by
  have hs : isSqlite path = false := by
    unfold isSqlite
    rw [← Bool.not_eq_true, List.isSuffixOf_iff_suffix]
    exact hp
  cases e <;> first | exact absurd rfl he | simp [factory, h.1, h.2, hs, build, hm]

/-- C31: the database backend is used whenever the path is a SQLite file or memory was not asked for, and opening it
succeeds. -/
theorem C31_database (memory database : Ctor) (heap : ColHeap) (next a : Nat) (path : Path) (inMemory : Bool)
    (h : some "uid" ∉ heap a ∧ some "iid" ∉ heap a) (hp : inMemory = false ∨ ".sqlite".toList <:+ path)
    (hd : database.result (fun b => if b = next then heap a ++ [some "rid"] else heap b) (some next) = .ok ()) :
    (factory memory database heap next path (some a) inMemory).2 = .ok .database := by
  have hs : (inMemory && !isSqlite path) = false := by
    rcases hp with rfl | hp
    · rfl
    · have : isSqlite path = true := by unfold isSqlite; rw [List.isSuffixOf_iff_suffix]; exact hp
      simp [this]
  simp [factory, h.1, h.2, build, hs, hd]

/-- C31: a SQLite file can be opened without giving columns. -/
theorem C31_sqlite_without_columns (memory database : Ctor) (heap : ColHeap) (next : Nat) (path : Path)
    (inMemory : Bool) (hp : ".sqlite".toList <:+ path) (hd : database.result heap none = .ok ()) :
    (factory memory database heap next path none inMemory).2 = .ok .database := by
  have : isSqlite path = true := by unfold isSqlite; rw [List.isSuffixOf_iff_suffix]; exact hp
  simp [factory, build, this, hd]

/-- C31: the caller's list, and every other list that exists, is as before, also when the fallback is used or an error
is raised, for constructors that change no list but the one they are given. -/
theorem C31_columns_kept (memory database : Ctor) (hm : memory.Frame) (hd : database.Frame) (heap : ColHeap)
    (next a b : Nat) (path : Path) (inMemory : Bool) (hb : b < next) :
    (factory memory database heap next path (some a) inMemory).1 b = heap b := by
  have hne : b ≠ next := Nat.ne_of_lt hb
  have m : ∀ heap' : ColHeap, memory.effect heap' (some next) b = heap' b := fun heap' => hm heap' next b next hne hb
  have d : ∀ heap' : ColHeap, database.effect heap' (some next) b = heap' b := fun heap' => hd heap' next b next hne hb
  unfold factory
  simp only
  split
  · rfl
  · split
    · rfl
    · unfold build
      split
      · split <;> simp only [m, d, if_neg hne]
      · split
        · simp only [d, if_neg hne]
        · split <;> simp only [d, if_neg hne]
        · simp only [d, if_neg hne]

/-- A constructor that removes `rid` from the list it is given (as the database class does), for the examples. -/
def exCtor (r : Except Err Unit) : Ctor :=
  ⟨fun _ _ => r, fun heap c => match c with
    | none => heap
    | some a => fun b => if b = a then (heap a).filter (· ≠ some "rid") else heap b⟩

-- The fallback with a constructor that changes its list: the caller's list at address 0 stays.
example : (exCtor (.ok ())).Frame ∧
    (factory (exCtor (.error .memory)) (exCtor (.ok ())) (fun _ => [some "user", none]) 1 "a.csv".toList (some 0) true).1
      0 = [some "user", none] := by
  constructor
  · intro heap a b next h _
    simp [exCtor, h]
  · decide

example : (factory (exCtor (.error .memory)) (exCtor (.ok ())) (fun _ => [some "user", none]) 1 "a.csv".toList (some 0)
    true).2 = .ok .database ∧
    (factory (exCtor (.ok ())) (exCtor (.ok ())) (fun _ => [some "user", none]) 1 "a.csv".toList (some 0) true).2 =
      .ok .memory ∧
    (factory (exCtor (.ok ())) (exCtor (.ok ())) (fun _ => [some "user", none]) 1 "a.sqlite".toList (some 0) true).2 =
      .ok .database ∧
    ¬ ".sqlite".toList <:+ "a.csv".toList := ⟨rfl, rfl, rfl, by decide⟩

/-! ## C72: the generated train and test files

The full statement: whatever point the process dies at, later calls return the complete pair.  The files are written
in place and an existing file is used as it is, so the statement fails. -/

/-- C72 fails: whenever the train part has a record, there is a crash point after which a later call returns less than
the train part. -/
theorem C72_fails (split : List (List Char) × List (List Char)) (h : split.1 ≠ []) :
    ∃ g, g ∈ genStates split ⟨none, none⟩ ∧ (getHalf split .train g).2 ≠ split.1 := by
  refine ⟨⟨some [], none⟩, ?_, fun e => h e.symm⟩
  simp only [genStates, writeStates, List.mem_append, List.mem_cons, List.mem_map, List.mem_range]
  exact Or.inl (Or.inr ⟨0, by omega, rfl⟩)

/-- C72 fails in the same way for the test part. -/
theorem C72_fails_test (split : List (List Char) × List (List Char)) (h : split.2 ≠ []) :
    ∃ g, g ∈ genStates split ⟨none, none⟩ ∧ (getHalf split .test g).2 ≠ split.2 := by
  refine ⟨⟨some split.1, some []⟩, ?_, fun e => h e.symm⟩
  simp only [genStates, writeStates, List.mem_append, List.mem_cons, List.mem_map, List.mem_range]
  exact Or.inr ⟨0, by omega, rfl⟩

/-- C72, the part that holds: if each of the two files is missing or complete (for instance after a crash between the
two files), a call returns the complete part it asks for and again leaves missing or complete files.  Missing
from the full statement: files cut short by a crash are used. -/
theorem C72_whole_partial (split : List (List Char) × List (List Char)) (g : GenFiles) (hg : Whole split g) (h : Half) :
    (getHalf split h g).2 = half split h ∧ Whole split (getHalf split h g).1 := by
  unfold getHalf
  rcases hg h with e | e
  · rw [e]
    refine ⟨by cases h <;> rfl, fun h' => Or.inr ?_⟩
    cases h' <;> rfl
  · rw [e]
    exact ⟨rfl, hg⟩

/-- C72: the crash points between the two files, before the first and after the second are harmless. -/
theorem C72_between (split : List (List Char) × List (List Char)) :
    Whole split ⟨none, none⟩ ∧ Whole split ⟨some split.1, none⟩ ∧ Whole split ⟨some split.1, some split.2⟩ := by
  refine ⟨fun h => ?_, fun h => ?_, fun h => ?_⟩ <;> cases h
  · exact Or.inl rfl
  · exact Or.inl rfl
  · exact Or.inr rfl
  · exact Or.inl rfl
  · exact Or.inr rfl
  · exact Or.inr rfl

/-- C72: whatever calls were made and killed before, what a call returns is a beginning of the part it asks for: the
parts are never mixed up, so the two results are disjoint whenever the two parts are. -/
theorem C72_beginning (split : List (List Char) × List (List Char)) (g : GenFiles) (hg : GenReach split g) (h : Half) :
    (getHalf split h g).2 <+: half split h := by
  unfold getHalf
  split
  next c e => exact reach_begun hg h c e
  next => cases h <;> exact List.prefix_refl _

/-- C72: and the two results have no record in common when the two parts have none. -/
theorem C72_disjoint (split : List (List Char) × List (List Char)) (hd : ∀ l ∈ split.1, l ∉ split.2) (g : GenFiles)
    (hg : GenReach split g) :
    ∀ l ∈ (getHalf split .train g).2, l ∉ (getHalf split .test (getHalf split .train g).1).2 := by
  intro l hl hl'
  have h1 : l ∈ split.1 := (C72_beginning split g hg .train).subset hl
  have h2 : l ∈ split.2 := (C72_beginning split _ (.called .train hg) .test).subset hl'
  exact hd l h1 h2

-- A crash inside the test file, then both calls.
example :
    let split : List (List Char) × List (List Char) := (["a".toList, "b".toList], ["c".toList])
    let g : GenFiles := ⟨some ["a".toList, "b".toList], some []⟩
    GenReach split g ∧ (∀ l ∈ split.1, l ∉ split.2) ∧ (getHalf split .test g).2 = [] := by
  refine ⟨.killed .train .start rfl ?_, by decide, rfl⟩
  decide

end DRec
