import Verif.Spec.Download
import Mathlib.Data.List.Nodup
import Mathlib.Data.List.Perm.Basic

/-! # C113: interrupted and failed downloads -/

namespace DRec.Dl

open Spec

variable {α : Type}

theorem run_append (d : Disk α) (a b : List (Op α)) : run d (a ++ b) = run (run d a) b := List.foldl_append

theorem run_cons (d : Disk α) (o : Op α) (b : List (Op α)) : run d (o :: b) = run (o.run d) b := rfl

/-- The changes do not concern a path. -/
def Op.Avoids (q : List String) : Op α → Prop
  | .write p _ => p ≠ q
  | .rename a b => a ≠ q ∧ b ≠ q
  | .remove p => p ≠ q
  | _ => True

theorem run_avoids {q : List String} {ops : List (Op α)} (h : ∀ o ∈ ops, o.Avoids q) (d : Disk α) :
    (run d ops).files q = d.files q := by
  induction ops generalizing d with
  | nil => rfl
  | cons o ops ih =>
    rw [run_cons, ih fun x hx => h x (List.mem_cons_of_mem _ hx)]
    have ho := h o List.mem_cons_self
    cases o with
    | write p c => simp only [Op.run]; rw [if_neg fun e => ho e.symm]
    | rename a b => simp only [Op.run]; rw [if_neg fun e => ho.2 e.symm, if_neg fun e => ho.1 e.symm]
    | remove p => simp only [Op.run]; rw [if_neg fun e => ho e.symm]
    | _ => rfl

theorem writing_avoids {cuts : List Nat} {p q : List String} {c : List α} (h : p ≠ q) :
    ∀ o ∈ writing cuts p c, o.Avoids q := by
  intro o ho
  unfold writing at ho
  rcases List.mem_append.1 ho with ho | ho
  · obtain ⟨n, _, rfl⟩ := List.mem_map.1 ho
    exact h
  · rw [List.mem_singleton.1 ho]
    exact h

theorem writing_file (cuts : List Nat) (p : List String) (c : List α) (d : Disk α) :
    (run d (writing cuts p c)).files p = some c := by
  unfold writing
  rw [run_append]
  simp [run, Op.run]

theorem inArchive_inj {folder : Option String} {f g : String} (h : inArchive folder f = inArchive folder g) : f = g := by
  unfold inArchive at h
  have := List.append_cancel_left h
  simpa using this

theorem extracting_file {cfg : Cfg} {s : Sched} {l : List (String × List α)} (hn : (l.map (·.1)).Nodup) {f : String}
    {c : List α} (hf : (f, c) ∈ l) (d : Disk α) : (run d (extracting cfg s l)).files (inArchive cfg.folder f) = some c := by
  unfold extracting
  rw [run_append]
  generalize run d _ = d
  induction l generalizing d with
  | nil => cases hf
  | cons x l ih =>
    rw [List.map_cons, List.nodup_cons] at hn
    rw [List.flatMap_cons, run_append]
    rcases List.mem_cons.1 hf with rfl | hf
    · rw [run_avoids, writing_file]
      intro o ho
      obtain ⟨y, hy, ho⟩ := List.mem_flatMap.1 ho
      refine writing_avoids (fun e => ?_) o ho
      exact hn.1 (List.mem_map.2 ⟨y, hy, inArchive_inj e⟩)
    · exact ih hn.2 hf _

theorem extracting_avoids {cfg : Cfg} {s : Sched} {l : List (String × List α)} {q : List String}
    (h : ∀ f ∈ l.map (·.1), inArchive cfg.folder f ≠ q) : ∀ o ∈ extracting cfg s l, o.Avoids q := by
  intro o ho
  unfold extracting at ho
  rcases List.mem_append.1 ho with ho | ho
  · split at ho
    · rw [List.mem_singleton.1 ho]; trivial
    · cases ho
  · obtain ⟨y, hy, ho⟩ := List.mem_flatMap.1 ho
    exact writing_avoids (h _ (List.mem_map.2 ⟨y, hy, rfl⟩)) o ho

theorem moves_file {dir : String} {o : List String} (hn : o.Nodup) (f : String) (d : Disk α) :
    (run d (o.map fun g => .rename [dir, g] [g])).files [f] = if f ∈ o then d.files [dir, f] else d.files [f] := by
  induction o generalizing d with
  | nil => rfl
  | cons g o ih =>
    rw [List.nodup_cons] at hn
    rw [List.map_cons, run_cons, ih hn.2]
    by_cases e : f = g
    · subst e
      rw [if_neg hn.1, if_pos List.mem_cons_self]
      simp [Op.run]
    · have h1 : ((Op.rename [dir, g] [g]).run d).files [dir, f] = d.files [dir, f] := by simp [Op.run, e]
      have h2 : ((Op.rename [dir, g] [g]).run d).files [f] = d.files [f] := by simp [Op.run, e]
      rw [h1, h2]
      simp [e]

/-! ## Successful downloads -/

theorem root_mono {d : Disk α} (ops : List (Op α)) (h : d.root = true) : (run d ops).root = true := by
  induction ops generalizing d with
  | nil => exact h
  | cons o ops ih =>
    rw [run_cons]
    exact ih (by cases o <;> simp [Op.run, h])

theorem download_root (cfg : Cfg) (s : Sched) (r : Response α) (d : Disk α) : (run d (download cfg s r).1).root = true := by
  unfold download
  split
  · split
    · simp only [run_cons]
      exact root_mono _ rfl
    · simp only [List.cons_append, run_cons]
      exact root_mono _ rfl
  · simp only [run_cons]
    exact root_mono _ rfl

/-- The file system after a download of the published dataset. -/
theorem download_files {cfg : Cfg} {s : Sched} {r : Response α} {file : String} {c : List α} (h : Published cfg s r file c)
    (d : Disk α) : (download cfg s r).2 = true ∧ (run d (download cfg s r).1).files [file] = some c := by
  cases hz : cfg.unzip with
  | false =>
    obtain ⟨rfl, rfl⟩ := h.plain hz
    unfold download
    simp only [hz, Bool.false_eq_true, if_false, true_and]
    rw [run_cons]
    exact writing_file _ _ _ _
  | true =>
    obtain ⟨l, hl, hm, hn, ht, ho⟩ := h.zip hz
    have hfile : file ∈ l.map (·.1) := List.mem_map.2 ⟨_, hm, rfl⟩
    have hne : file ≠ "tmp.zip" := fun e => ht (e ▸ hfile)
    unfold download
    simp only [hz, if_true, hl, true_and]
    rw [run_append, run_append, run_append]
    have hrem : ∀ d : Disk α, (run d [.remove tmpZip]).files [file] = d.files [file] := by
      intro d
      refine run_avoids (fun o ho => ?_) d
      rw [List.mem_singleton.1 ho]
      simpa [Op.Avoids, tmpZip] using Ne.symm hne
    rw [hrem]
    cases hf : cfg.folder with
    | none =>
      have := extracting_file (cfg := cfg) (s := s) hn hm (run d (Op.mkRoot :: writing (s.cuts tmpZip) tmpZip r.data))
      rw [hf] at this
      simp only [moving, hf]
      exact this
    | some dir =>
      have hx := extracting_file (cfg := cfg) (s := s) hn hm (run d (Op.mkRoot :: writing (s.cuts tmpZip) tmpZip r.data))
      rw [hf] at hx
      simp only [moving, hf]
      rw [run_append]
      have hp := ho dir hf
      rw [show ∀ e : Disk α, (run e [.rmSub]).files [file] = e.files [file] from fun _ => rfl,
        moves_file (hp.nodup_iff.2 hn), if_pos (hp.mem_iff.2 hfile)]
      exact hx

theorem getDataset_root {cfg : Cfg} {s : Sched} {a : Option (Response α)} {f : String} {d : Disk α} (h : d.root = true) :
    getDataset cfg s a f d = (d, match d.files [f] with | none => .error .notFound | some c => .ok c) := by
  unfold getDataset
  rw [if_pos h]
  rfl

/-- **C113**, frozen: once the folder exists, no call changes it. -/
theorem C113_frozen (cfg : Cfg) (d : Disk α) (h : d.root = true) (xs : List (Sched × Option (Response α) × String)) :
    calls cfg xs d = d := by
  induction xs with
  | nil => rfl
  | cons x xs ih =>
    simp only [calls]
    rw [getDataset_root h]
    exact ih

theorem getDataset_new {cfg : Cfg} {s : Sched} {r : Response α} {file : String} {c : List α} (h : Published cfg s r file c)
    {d : Disk α} (hd : d.root = false) :
    getDataset cfg s (some r) file d = (run d (download cfg s r).1, .ok c) := by
  obtain ⟨h1, h2⟩ := download_files h d
  unfold getDataset
  rw [if_neg (by simp [hd])]
  simp only [h1, if_true, h2]

/-- **C113**, the normal case: without a folder the first call downloads and returns the published file, and every later call
for a published file, after any other calls, returns it without needing the server. -/
theorem C113_first (cfg : Cfg) (s : Sched) (r : Response α) (file : String) (c : List α) (h : Published cfg s r file c)
    (d : Disk α) (hd : d.root = false) :
    (getDataset cfg s (some r) file d).2 = .ok c ∧
    ∀ (xs : List (Sched × Option (Response α) × String)) (s' : Sched) (a : Option (Response α)) (file' : String) (c' : List α),
      Published cfg s r file' c' →
      (getDataset cfg s' a file' (calls cfg xs (getDataset cfg s (some r) file d).1)).2 = .ok c' := by
  rw [getDataset_new h hd]
  refine ⟨rfl, fun xs s' a file' c' h' => ?_⟩
  have hr := download_root cfg s r d
  rw [C113_frozen cfg _ hr, getDataset_root hr]
  simp only
  rw [(download_files h' d).2]

/-- The published file of `get_full_dataset`, by name of the dataset. -/
def fullFiles : List (String × String) :=
  [("ml-100k", "u.data"), ("ml-1m", "ratings.dat"), ("ml-10m", "ratings.dat"), ("ml-20m", "ratings.csv"),
    ("bx", "BX-Book-Ratings.csv")]

/-- **C113**, `get_full_dataset`: for each of the five names, the first call returns the file with all records as
published, and so does every later call; other names raise. -/
theorem C113_full (s : Sched) (r : Response α) (c : List α) (d : Disk α) :
    (∀ p ∈ fullFiles, ∃ cfg, datasets.lookup p.1 = some cfg ∧ (Published cfg s r p.2 c → d.root = false →
      (getFull p.1 s (some r) d).2 = .ok c ∧ ∀ (s' : Sched) (a : Option (Response α)),
        (getFull p.1 s' a (getFull p.1 s (some r) d).1).2 = .ok c)) ∧
    ∀ name, name ∉ fullFiles.map (·.1) → ∀ a, getFull name s a d = (d, .error .notFound) := by
  constructor
  · intro p hp
    have hcfg : ∃ cfg, datasets.lookup p.1 = some cfg ∧ cfg.full = p.2 := by
      have : ∀ p ∈ fullFiles, ((datasets.lookup p.1).map (·.full)) = some p.2 := by decide
      have h1 := this p hp
      cases h2 : datasets.lookup p.1 with
      | none => rw [h2] at h1; cases h1
      | some cfg => rw [h2] at h1; exact ⟨cfg, rfl, by simpa using h1⟩
    obtain ⟨cfg, h1, h2⟩ := hcfg
    refine ⟨cfg, h1, fun h hd => ?_⟩
    unfold getFull
    simp only [h1, h2]
    obtain ⟨h3, h4⟩ := C113_first cfg s r p.2 c h d hd
    exact ⟨h3, fun s' a => h4 [] s' a p.2 c h⟩
  · intro name hn a
    have : datasets.lookup name = none := by
      rw [List.lookup_eq_none_iff]
      intro q hq
      have : q.1 ∈ fullFiles.map (·.1) := by
        revert q
        decide
      rw [bne_iff_ne]
      rintro rfl
      exact hn this
    unfold getFull
    rw [this]

/-- **C113**, no leftovers: the temporary archive and the folder of the archive are gone. -/
theorem C113_clean (cfg : Cfg) (s : Sched) (r : Response α) (file : String) (c : List α) (h : Published cfg s r file c)
    (hz : cfg.unzip = true) : (run Disk.empty (download cfg s r).1).files tmpZip = none ∧
    (cfg.folder.isSome → (run Disk.empty (download cfg s r).1).sub = false) := by
  obtain ⟨l, hl, _⟩ := h.zip hz
  unfold download
  simp only [hz, if_true, hl]
  rw [run_append, run_append]
  refine ⟨by simp [run, Op.run], fun hf => ?_⟩
  obtain ⟨dir, hf⟩ := Option.isSome_iff_exists.1 hf
  simp only [moving, hf]
  rw [run_append]
  rfl

/-! ## Interrupted downloads -/

/-- **C113**, no answer: when the request raises nothing is changed, so the next call downloads. -/
theorem C113_request_fails (cfg : Cfg) (s : Sched) (file : String) (d : Disk α) (hd : d.root = false) :
    getDataset cfg s (none : Option (Response α)) file d = (d, .error .crash) := by
  unfold getDataset
  rw [if_neg (by simp [hd])]

theorem died_root {cfg : Cfg} {s : Sched} {r : Response α} {n : Nat} (hn : 0 < n) : (diedAfter cfg s r n).root = true := by
  obtain ⟨n, rfl⟩ : ∃ m, n = m + 1 := ⟨n - 1, by omega⟩
  have : ∃ ops, (download cfg s r).1 = .mkRoot :: ops := by
    unfold download
    split
    · split
      · exact ⟨_, rfl⟩
      · exact ⟨_, rfl⟩
    · exact ⟨_, rfl⟩
  obtain ⟨ops, ho⟩ := this
  unfold diedAfter
  rw [ho, List.take_succ_cons, run_cons]
  exact root_mono _ rfl

/-- The changes before the files are moved. -/
def unpack (cfg : Cfg) (s : Sched) (r : Response α) (l : List (String × List α)) : List (Op α) :=
  .mkRoot :: writing (s.cuts tmpZip) tmpZip r.data ++ extracting cfg s l

theorem unpack_avoids {cfg : Cfg} {s : Sched} {r : Response α} {l : List (String × List α)} {dir file : String}
    (hf : cfg.folder = some dir) (hne : file ≠ "tmp.zip") : ∀ o ∈ unpack cfg s r l, o.Avoids [file] := by
  intro o ho
  unfold unpack at ho
  rcases List.mem_append.1 ho with ho | ho
  · rcases List.mem_cons.1 ho with rfl | ho
    · trivial
    · exact writing_avoids (by simpa [tmpZip] using Ne.symm hne) o ho
  · refine extracting_avoids (fun f _ => ?_) o ho
    simp [inArchive, hf]

theorem died_file {cfg : Cfg} {s : Sched} {r : Response α} {file : String} {c : List α} (h : Published cfg s r file c)
    (hz : cfg.unzip = true) {dir : String} (hf : cfg.folder = some dir) (n : Nat) :
    ((diedAfter cfg s r n).files [file] = some c ∧ Op.rename [dir, file] [file] ∈ (download cfg s r).1.take n) ∨
    ((diedAfter cfg s r n).files [file] = none ∧ Op.rename [dir, file] [file] ∉ (download cfg s r).1.take n) := by
  obtain ⟨l, hl, hm, hn, ht, ho⟩ := h.zip hz
  have hfile : file ∈ l.map (·.1) := List.mem_map.2 ⟨_, hm, rfl⟩
  have hne : file ≠ "tmp.zip" := fun e => ht (e ▸ hfile)
  have hp := ho dir hf
  have hod := hp.nodup_iff.2 hn
  have hdl : (download cfg s r).1 = unpack cfg s r l ++
      ((s.order.map fun g => Op.rename [dir, g] [g]) ++ [.rmSub, .remove tmpZip]) := by
    unfold download unpack
    simp only [hz, if_true, hl, moving, hf, List.append_assoc, List.cons_append, List.nil_append]
  have hav := unpack_avoids (s := s) (r := r) (l := l) hf hne
  have noRename : ∀ o ∈ unpack cfg s r l, o ≠ .rename [dir, file] [file] := by
    intro o ho e
    have := hav o ho
    rw [e] at this
    exact this.2 rfl
  unfold diedAfter
  rw [hdl, List.take_append, run_append]
  by_cases hle : n ≤ (unpack cfg s r l).length
  · right
    rw [show n - (unpack cfg s r l).length = 0 by omega, List.take_zero, List.append_nil]
    refine ⟨?_, fun hmem => noRename _ (List.mem_of_mem_take hmem) rfl⟩
    show (run (run Disk.empty ((unpack cfg s r l).take n)) []).files [file] = none
    rw [show ∀ d : Disk α, run d [] = d from fun _ => rfl, run_avoids fun o ho => hav o (List.mem_of_mem_take ho)]
    rfl
  · rw [List.take_of_length_le (by omega : (unpack cfg s r l).length ≤ n), List.take_append, run_append]
    generalize n - (unpack cfg s r l).length = k
    have hx : (run Disk.empty (unpack cfg s r l)).files [dir, file] = some c := by
      unfold unpack
      rw [run_append]
      have := extracting_file (cfg := cfg) (s := s) hn hm (run Disk.empty (Op.mkRoot :: writing (s.cuts tmpZip) tmpZip r.data))
      rwa [hf] at this
    have hnone : (run Disk.empty (unpack cfg s r l)).files [file] = none := by
      rw [run_avoids hav]; rfl
    rw [run_avoids (q := [file]) (ops := List.take _ [Op.rmSub, Op.remove tmpZip]), ← List.map_take,
      moves_file (hod.sublist (List.take_sublist _ _))]
    · have hmem : Op.rename [dir, file] [file] ∈ unpack cfg s r l ++ ((s.order.take k).map (fun g => Op.rename [dir, g] [g]) ++
          List.take (k - (s.order.map fun g => (Op.rename [dir, g] [g] : Op α)).length) [.rmSub, .remove tmpZip]) ↔ file ∈ s.order.take k := by
        rw [List.mem_append, List.mem_append, List.mem_map]
        constructor
        · rintro (c | ⟨g, hg, e⟩ | c)
          · exact absurd rfl (noRename _ c)
          · simp only [Op.rename.injEq, List.cons.injEq, and_true] at e
            rw [← e.2]; exact hg
          · have := List.mem_of_mem_take c
            simp at this
        · intro hg
          exact .inr (.inl ⟨file, hg, rfl⟩)
      rw [hmem]
      by_cases hg : file ∈ s.order.take k
      · left; rw [if_pos hg]; exact ⟨hx, hg⟩
      · right; rw [if_neg hg]; exact ⟨hnone, hg⟩
    · intro o ho
      have := List.mem_of_mem_take ho
      simp only [List.mem_cons, List.not_mem_nil, or_false] at this
      rcases this with rfl | rfl
      · trivial
      · simpa [Op.Avoids, tmpZip] using Ne.symm hne

/-- **C113**, partial (the full claim is that every later call returns the published file, whenever the process died).  For
archives: it does when the process died before the folder was made or after the file was moved to its place.  Otherwise
every later call, whatever calls come before, raises `FileNotFoundError`. -/
theorem C113_died_partial (cfg : Cfg) (s : Sched) (r : Response α) (file : String) (c : List α) (h : Published cfg s r file c)
    (hz : cfg.unzip = true) (dir : String) (hf : cfg.folder = some dir) (n : Nat)
    (xs : List (Sched × Option (Response α) × String)) :
    (n = 0 → (getDataset cfg s (some r) file (diedAfter cfg s r n)).2 = .ok c) ∧
    (0 < n → ∀ (s' : Sched) (a : Option (Response α)),
      (getDataset cfg s' a file (calls cfg xs (diedAfter cfg s r n))).2 =
        .ok c ∧ Op.rename [dir, file] [file] ∈ (download cfg s r).1.take n ∨
      (getDataset cfg s' a file (calls cfg xs (diedAfter cfg s r n))).2 =
        .error .notFound ∧ Op.rename [dir, file] [file] ∉ (download cfg s r).1.take n) := by
  constructor
  · rintro rfl
    exact (C113_first cfg s r file c h _ rfl).1
  · intro hn s' a
    have hr := died_root (cfg := cfg) (s := s) (r := r) hn
    rw [C113_frozen cfg _ hr, getDataset_root hr]
    rcases died_file h hz hf n with ⟨h1, h2⟩ | ⟨h1, h2⟩
    · left; rw [h1]; exact ⟨rfl, h2⟩
    · right; rw [h1]; exact ⟨rfl, h2⟩

/-- **C113**, partial, for plain files: when the process died while writing, every later call raises `FileNotFoundError` or
returns the part written so far as the dataset. -/
theorem C113_plain_partial (cfg : Cfg) (s : Sched) (r : Response α) (hz : cfg.unzip = false) (n : Nat)
    (xs : List (Sched × Option (Response α) × String)) :
    (n = 0 → (getDataset cfg s (some r) cfg.full (diedAfter cfg s r n)).2 = .ok r.data) ∧
    (0 < n → ∀ (s' : Sched) (a : Option (Response α)),
      (getDataset cfg s' a cfg.full (calls cfg xs (diedAfter cfg s r n))).2 =
        (if n = 1 then .error .notFound
          else if (download cfg s r).1.length ≤ n then .ok r.data
          else .ok (r.data.take ((0 :: s.cuts [cfg.full]).getD (n - 2) 0)))) := by
  constructor
  · rintro rfl
    refine (C113_first cfg s r cfg.full r.data ⟨fun c => ?_, fun _ => ⟨rfl, rfl⟩⟩ _ rfl).1
    rw [hz] at c; cases c
  · intro hn s' a
    have hr := died_root (cfg := cfg) (s := s) (r := r) hn
    rw [C113_frozen cfg _ hr, getDataset_root hr]
    have hdl : (download cfg s r).1 = .mkRoot :: writing (s.cuts [cfg.full]) [cfg.full] r.data := by
      unfold download
      simp [hz]
    unfold diedAfter
    obtain ⟨n, rfl⟩ : ∃ m, n = m + 1 := ⟨n - 1, by omega⟩
    rw [hdl, List.take_succ_cons, run_cons]
    cases n with
    | zero => rfl
    | succ n =>
      rw [if_neg (by omega)]
      have hw : (Op.mkRoot :: writing (s.cuts [cfg.full]) [cfg.full] r.data).length = (s.cuts [cfg.full]).length + 3 := by
        simp [writing]
      have last : ∀ (d : Disk α) (ops : List (Op α)) (c : List α), (run d (ops ++ [.write [cfg.full] c])).files [cfg.full] = some c := by
        intro d ops c
        rw [run_append]
        simp [run, Op.run]
      have hlen : (0 :: s.cuts [cfg.full]).length = (s.cuts [cfg.full]).length + 1 := rfl
      by_cases hk : (s.cuts [cfg.full]).length + 1 ≤ n
      · rw [if_pos (by omega), writing, List.take_of_length_le (by simp; omega), last]
      · have hlt : n < (0 :: s.cuts [cfg.full]).length := by omega
        rw [if_neg (by omega), writing, List.take_append_of_le_length (by simp; omega), ← List.map_take,
          ← List.take_append_getElem hlt, List.map_append, List.map_singleton, last]
        simp only [show n + 1 + 1 - 2 = n by omega, List.getD_eq_getElem?_getD, List.getElem?_eq_getElem hlt,
          Option.getD_some]

/-- **C113**, partial: an answer that is no archive raises, and so does every later call, whatever the server answers then. -/
theorem C113_bad_partial (cfg : Cfg) (s : Sched) (r : Response α) (file : String) (hfile : file ≠ "tmp.zip")
    (hz : cfg.unzip = true) (hr : r.archive = none) (d : Disk α) (hd : d.root = false) (hn : d.files [file] = none) :
    (getDataset cfg s (some r) file d).2 = .error .badValue ∧
    ∀ (xs : List (Sched × Option (Response α) × String)) (s' : Sched) (a : Option (Response α)),
      (getDataset cfg s' a file (calls cfg xs (getDataset cfg s (some r) file d).1)).2 = .error .notFound := by
  have hroot := download_root cfg s r d
  have hdl : download cfg s r = (.mkRoot :: writing (s.cuts tmpZip) tmpZip r.data, false) := by
    unfold download
    simp [hz, hr]
  have hg : getDataset cfg s (some r) file d = (run d (download cfg s r).1, .error .badValue) := by
    unfold getDataset
    rw [if_neg (by simp [hd])]
    simp [hdl]
  rw [hg]
  refine ⟨rfl, fun xs s' a => ?_⟩
  rw [C113_frozen cfg _ hroot, getDataset_root hroot]
  simp only
  rw [hdl, run_cons, run_avoids (writing_avoids (by simpa [tmpZip] using Ne.symm hfile))]
  simp only [Op.run, hn]

/-- **C113**, partial: for a plain file any answer, such as the page of an error, is kept as the dataset. -/
theorem C113_page_partial (cfg : Cfg) (s : Sched) (r : Response α) (hz : cfg.unzip = false) (d : Disk α) (hd : d.root = false)
    (xs : List (Sched × Option (Response α) × String)) (s' : Sched) (a : Option (Response α)) :
    (getDataset cfg s' a cfg.full (calls cfg xs (getDataset cfg s (some r) cfg.full d).1)).2 = .ok r.data := by
  have h : Published cfg s r cfg.full r.data := ⟨fun c => (by rw [hz] at c; exact absurd c (by decide)), fun _ => ⟨rfl, rfl⟩⟩
  exact (C113_first cfg s r _ _ h d hd).2 xs s' a _ _ h

/-- **C113**, names: only the names of `DATASETS` are accepted, and for others nothing is changed. -/
theorem C113_names (name : String) (s : Sched) (a : Option (Response α)) (d : Disk α)
    (h : name ∉ ["ml-100k", "ml-1m", "ml-10m", "ml-20m", "bx"]) : getFull name s a d = (d, .error .notFound) := by
  have : datasets.lookup name = none := by
    rw [List.lookup_eq_none_iff]
    intro p hp
    simp only [bne_iff_ne, ne_eq]
    rintro rfl
    revert h
    revert p
    decide
  unfold getFull
  rw [this]

/-! ## Examples -/

/-- The dataset `ml-1m` with small files. -/
def exCfg : Cfg := { full := "ratings.dat", folder := some "ml-1m" }

def exResponse : Response Nat := ⟨[9, 9], some [("README", [1]), ("ratings.dat", [2, 3])]⟩

/-- Every file is written in two steps, and the folder is listed backwards. -/
def exSched : Sched := ⟨fun _ => [1], ["ratings.dat", "README"]⟩

theorem ex_published : Published exCfg exSched exResponse "ratings.dat" [2, 3] :=
  ⟨fun _ => ⟨_, rfl, by decide, by decide, by decide, fun _ _ => by
    show ["ratings.dat", "README"].Perm ["README", "ratings.dat"]
    decide⟩, fun h => absurd h (by decide)⟩

/-- `bx`, a plain file. -/
def exPlain : Cfg := { full := "BX-Book-Ratings.csv", unzip := false }

example : datasets.lookup "ml-1m" = some exCfg ∧ datasets.lookup "bx" = some exPlain := by decide

/-- The conditions of `C113_first`, `C113_clean`, `C113_died_partial` are met. -/
example : (getDataset exCfg exSched (some exResponse) "ratings.dat" Disk.empty).2 = .ok [2, 3] :=
  (C113_first exCfg exSched exResponse _ _ ex_published Disk.empty rfl).1

example : (download exCfg exSched exResponse).1.length = 15 := by decide

example : (run Disk.empty (download exCfg exSched exResponse).1).files tmpZip = none :=
  (C113_clean exCfg exSched exResponse _ _ ex_published rfl).1

example : Op.rename ["ml-1m", "ratings.dat"] ["ratings.dat"] ∈ (download exCfg exSched exResponse).1.take 12 := by
  simp [download, exCfg, exResponse, exSched, moving, extracting, writing, inArchive, tmpZip]

example : (run Disk.empty (download exPlain exSched (⟨[7], none⟩ : Response Nat)).1).root = true ∧
    getFull "ml-2m" exSched (some exResponse) Disk.empty = (Disk.empty, .error .notFound) :=
  ⟨rfl, C113_names _ _ _ _ (by decide)⟩

/-- Dying after ten changes (everything is extracted, nothing moved): no later call finds the file, although the server
would answer with the published dataset. -/
theorem C113_fails_archive : ∃ (cfg : Cfg) (s : Sched) (r : Response Nat) (file : String) (c : List Nat) (n : Nat),
    datasets.lookup "ml-1m" = some cfg ∧ Published cfg s r file c ∧
    ∀ xs s' a, (getDataset cfg s' a file (calls cfg xs (diedAfter cfg s r n))).2 = .error .notFound := by
  refine ⟨exCfg, exSched, exResponse, "ratings.dat", [2, 3], 10, by decide, ex_published, fun xs s' a => ?_⟩
  rcases (C113_died_partial exCfg exSched exResponse _ _ ex_published rfl "ml-1m" rfl 10 xs).2 (by decide) s' a with h | h
  · have := h.2
    simp [download, exCfg, exResponse, exSched, moving, extracting, writing, inArchive, tmpZip] at this
  · exact h.1

/-- Dying while `bx` is written: every later call returns a dataset that is not the published one, without any error. -/
theorem C113_fails_plain : ∃ (cfg : Cfg) (s : Sched) (r : Response Nat) (c : List Nat) (n : Nat),
    datasets.lookup "bx" = some cfg ∧ Published cfg s r cfg.full c ∧
    ∃ c', c' ≠ c ∧ ∀ xs s' a, (getDataset cfg s' a cfg.full (calls cfg xs (diedAfter cfg s r n))).2 = .ok c' := by
  refine ⟨exPlain, exSched, ⟨[5, 6], none⟩, [5, 6], 3, by decide, ⟨fun h => absurd h (by decide), fun _ => ⟨rfl, rfl⟩⟩,
    [5], by decide, fun xs s' a => ?_⟩
  rw [(C113_plain_partial exPlain exSched ⟨[5, 6], none⟩ rfl 3 xs).2 (by decide) s' a]
  decide

/-- An answer that is not the archive, such as the page of an error: all later calls raise, whatever the server answers. -/
theorem C113_fails_answer : ∃ (cfg : Cfg) (s : Sched) (r : Response Nat),
    datasets.lookup "ml-1m" = some cfg ∧
    ∀ xs s' a, (getDataset cfg s' a cfg.full (calls cfg xs (getDataset cfg s (some r) cfg.full Disk.empty).1)).2 =
      .error .notFound :=
  ⟨exCfg, exSched, ⟨[4, 0, 4], none⟩, by decide, fun xs s' a =>
    (C113_bad_partial exCfg exSched ⟨[4, 0, 4], none⟩ _ (by decide) rfl rfl Disk.empty rfl rfl).2 xs s' a⟩

end DRec.Dl
