import Verif.Model.DbClosed
import Verif.Props.DbShared

/-!
# C96, C97: datasets after `close`
-/

namespace DRec

open Spec

/-! ## C96 -/

/-- Closing a dataset that is closed already changes nothing, after every history and whatever its attributes
are.  Missing from the full claim: it raises when another dataset is open (`C96_raises`, `C96_fails`). -/
theorem C96_no_effect_partial (w₀ : World) (hw : Start w₀) (ops : List DbOp) (i : Nat)
    (hi : (runOps w₀ ops).insts i = none) (x : Inst) :
    ((runOps w₀ ops).closeAgain i x).1 = runOps w₀ ops := by
  have h := (Reg.start hw).runOps ops
  generalize runOps w₀ ops = w at h hi
  unfold World.closeAgain World.leaveTable
  cases hu : w.users x.table with
  | none =>
    simp only
    unfold World.leaveFile
    cases hl : w.live with
    | none => rfl
    | some us =>
      have : i ∉ us := by
        intro hc
        obtain ⟨y, hy⟩ := (h.live i).1 (by rw [hl]; simpa using hc)
        rw [hi] at hy; cases hy
      simp [this]
  | some us =>
    have : i ∉ us := by
      intro hc
      obtain ⟨y, hy, _⟩ := (h.back _ _ hu).2 i hc
      rw [hi] at hy; cases hy
    simp [this]

/-- The dataset that was closed last can be closed again. -/
theorem C96_last_partial (w₀ : World) (hw : Start w₀) (ops : List DbOp) (i : Nat) (x : Inst)
    (hx : (runOps w₀ ops).insts i = some x) (hlast : ∀ j, j ≠ i → (runOps w₀ ops).insts j = none) :
    (((runOps w₀ ops).close i).1.closeAgain i x).2 = none := by
  have h := (Reg.start hw).runOps ops
  generalize runOps w₀ ops = w at h hx hlast
  have hone : ∀ us : List Nat, us.Nodup → i ∈ us → (∀ j ∈ us, ∃ y, w.insts j = some y) → us = [i] := by
    intro us hn hm hall
    have hall' : ∀ j ∈ us, j = i := by
      intro j hj
      by_contra hne
      obtain ⟨y, hy⟩ := hall j hj
      rw [hlast j hne] at hy; cases hy
    cases us with
    | nil => cases hm
    | cons a us =>
      have ha := hall' a (by simp)
      subst ha
      cases us with
      | nil => rfl
      | cons b us =>
        have hb := hall' b (by simp)
        subst hb
        simp at hn
  obtain ⟨us, hus, hmem⟩ := h.own i x hx
  have h1 : us = [i] := hone us (h.back _ _ hus).1 hmem fun j hj => by
    obtain ⟨y, hy, _⟩ := (h.back _ _ hus).2 j hj
    exact ⟨y, hy⟩
  have h2 : w.live = some [i] := by
    have hm := (h.live i).2 ⟨x, hx⟩
    cases hl : w.live with
    | none => rw [hl] at hm; simp at hm
    | some l =>
      rw [hl] at hm
      have hn := h.liveNodup
      rw [hl] at hn
      rw [hone l (by simpa using hn) (by simpa using hm) fun j hj => (h.live j).1 (by rw [hl]; simpa using hj)]
  subst h1
  unfold World.close
  simp only [hx]
  unfold World.leaveTable
  simp only [hus, List.mem_singleton, List.erase_cons_head, if_true]
  by_cases hg : w.gens = 0 <;> by_cases ht : w.temp = true <;>
    simp [hg, ht, World.leaveFile, World.putU, World.putT, h2, World.closeAgain, World.leaveTable]

/-- One dataset, closed twice. -/
example : ∃ x, (runOps exWorld [.select 0 exDbQuery false]).insts 0 = some x ∧
    (∀ j, j ≠ 0 → (runOps exWorld [.select 0 exDbQuery false]).insts j = none) := by
  have h := (Reg.start (w := exWorld) (Or.inl ⟨_, _, _, rfl⟩)).runOps [.select 0 exDbQuery false]
  refine ⟨_, Option.eq_some_iff_get_eq.2 ⟨by decide +kernel, rfl⟩, fun j hj => h.freshI j ?_⟩
  have : (runOps exWorld [.select 0 exDbQuery false]).nextI = 1 := by decide +kernel
  omega

/-- As long as another dataset of the file is open, closing a dataset a second time raises. -/
theorem C96_raises (w₀ : World) (hw : Start w₀) (ops : List DbOp) (i j : Nat)
    (hi : (runOps w₀ ops).insts i = none) (hj : (runOps w₀ ops).insts j ≠ none) (x : Inst) :
    ((runOps w₀ ops).closeAgain i x).2 = some .keyError := by
  have h := (Reg.start hw).runOps ops
  generalize runOps w₀ ops = w at h hi hj
  unfold World.closeAgain World.leaveTable
  cases hu : w.users x.table with
  | none =>
    simp only
    unfold World.leaveFile
    obtain ⟨y, hy⟩ := Option.ne_none_iff_exists'.1 hj
    have hm := (h.live j).2 ⟨y, hy⟩
    cases hl : w.live with
    | none => rw [hl] at hm; simp at hm
    | some us =>
      have : i ∉ us := by
        intro hc
        obtain ⟨z, hz⟩ := (h.live i).1 (by rw [hl]; simpa using hc)
        rw [hi] at hz; cases hz
      simp [this]
  | some us =>
    have : i ∉ us := by
      intro hc
      obtain ⟨y, hy, _⟩ := (h.back _ _ hu).2 i hc
      rw [hi] at hy; cases hy
    simp [this]

/-- A copy is open, the original is closed twice. -/
theorem C96_fails : (runOps exWorld [.copy 0, .close 0]).insts 0 = none ∧
    (runOps exWorld [.copy 0, .close 0]).insts 1 ≠ none ∧
    (exWorld.insts 0).map (fun x => ((runOps exWorld [.copy 0, .close 0]).closeAgain 0 x).2) =
      some (some .keyError) := by
  refine ⟨Option.not_isSome_iff_eq_none.1 (by decide +kernel), Option.isSome_iff_ne_none.1 (by decide +kernel),
    by decide +kernel⟩

/-! ## C97 -/

/-- What a read of a closed object does to the tables of the others, when the object has no filter, a value
generator is open, it was not read often, or the table does not have exactly one registered user. -/
theorem readClosed_keep {w : World} (h : Reg w) (x : Inst) (op : ReadOp)
    (hs : x.state = .table ∨ 0 < w.gens ∨ x.direct + 1 < 4 ∨ ∀ j, w.users x.table ≠ some [j]) (k : Nat) (z : Inst)
    (hz : w.insts k = some z) :
    (w.readClosed x op).1.insts k = some z ∧ (w.readClosed x op).1.tables z.table = w.tables z.table := by
  have hnt : z.table ≠ w.nextT := by
    intro hc
    obtain ⟨us, hus, _⟩ := h.own k z hz
    rw [hc, h.freshT _ (le_refl _)] at hus; cases hus
  have key : (w.recordClosed x).1.insts k = some z ∧ (w.recordClosed x).1.tables z.table = w.tables z.table := by
    unfold World.recordClosed
    split
    · rename_i hc
      unfold World.optimizeClosed
      split
      · exact ⟨hz, rfl⟩
      · rename_i hst
        split
        · exact ⟨hz, rfl⟩
        · split
          · exact ⟨hz, rfl⟩
          · exact ⟨hz, rfl⟩
          · rename_i us t hus ht
            split
            · rename_i hlen
              exfalso
              rcases hs with hs | hs | hs | hs
              · exact hst hs
              · omega
              · omega
              · obtain ⟨j, rfl⟩ := List.length_eq_one_iff.1 hlen
                exact hs j hus
            · unfold World.splitClosed
              split
              · exact ⟨hz, rfl⟩
              · split
                · exact ⟨hz, rfl⟩
                · split
                  · refine ⟨hz, ?_⟩
                    simp [World.putT, World.reconnect, hnt]
                  · exact ⟨hz, rfl⟩
    · exact ⟨hz, rfl⟩
  unfold World.readClosed
  split
  · rename_i heq; rw [heq] at key; exact key
  · rename_i heq; rw [heq] at key
    split
    · exact key
    · exact key

/-- Reading a closed dataset changes nothing of what the open datasets show, provided that it has no filter, or
a value generator is open, or it was used less than four times since its last reduction, or its table does not
have exactly one open dataset.  Missing from the full claim: the remaining case, in which records of the open
dataset are deleted (`C97_fails_records`), and the file made again (`C97_fails_file`). -/
theorem C97_others_partial (w₀ : World) (hw : Start w₀) (ops : List DbOp) (x : Inst) (op : ReadOp)
    (hs : x.state = .table ∨ 0 < (runOps w₀ ops).gens ∨ x.direct + 1 < 4 ∨
      ∀ j, (runOps w₀ ops).users x.table ≠ some [j]) (k : Nat) (hk : (runOps w₀ ops).insts k ≠ none) :
    plainOf ((runOps w₀ ops).readClosed x op).1 k = plainOf (runOps w₀ ops) k := by
  have h := (Reg.start hw).runOps ops
  obtain ⟨z, hz⟩ := Option.ne_none_iff_exists'.1 hk
  obtain ⟨h1, h2⟩ := readClosed_keep h x op hs k z hz
  simp only [plainOf, World.view, h1, h2, hz]

/-- A closed dataset with a filter, two open ones on its table, read for the fourth time. -/
example : let w := runOps exWorld [.copy 0, .copy 0, .select 0 exDbQuery false, .close 0]
    ((runOps exWorld [.copy 0, .copy 0, .select 0 exDbQuery false]).insts 0).map (fun x =>
      (x.table, decide (x.state = .table), w.users x.table, (w.readsClosed x (List.replicate 3 (.values none))).2.direct))
      = some (0, false, some [2, 1], 3) ∧ (plainOf w 1).isSome = true := by
  refine ⟨by decide +kernel, by decide +kernel⟩

/-- A closed dataset without a filter can be read any number of times. -/
theorem C97_unfiltered_partial (w₀ : World) (hw : Start w₀) (ops : List DbOp) (x : Inst) (hs : x.state = .table)
    (reads : List ReadOp) (k : Nat) (hk : (runOps w₀ ops).insts k ≠ none) :
    plainOf ((runOps w₀ ops).readsClosed x reads).1 k = plainOf (runOps w₀ ops) k := by
  obtain ⟨z, hz⟩ := Option.ne_none_iff_exists'.1 hk
  have h := (Reg.start hw).runOps ops
  generalize runOps w₀ ops = w at h hz
  clear hk
  have step : ∀ (w' : World) (y : Inst) (op : ReadOp), y.state = .table →
      (w'.readClosed y op).2.1.state = .table ∧ (w'.readClosed y op).1.insts = w'.insts ∧
        (w'.readClosed y op).1.tables = w'.tables := by
    intro w' y op hy
    have hr : (w'.recordClosed y).1 = w' ∧ (w'.recordClosed y).2.1.state = .table := by
      unfold World.recordClosed
      split
      · simp [World.optimizeClosed, hy, Inst.reset]
      · exact ⟨rfl, hy⟩
    unfold World.readClosed
    split
    · rename_i heq; rw [heq] at hr; obtain ⟨rfl, hr⟩ := hr; exact ⟨hr, rfl, rfl⟩
    · rename_i heq; rw [heq] at hr; obtain ⟨rfl, hr⟩ := hr
      split <;> exact ⟨hr, rfl, rfl⟩
  have all : ∀ (reads : List ReadOp) (w' : World) (y : Inst), y.state = .table →
      (w'.readsClosed y reads).1.insts = w'.insts ∧ (w'.readsClosed y reads).1.tables = w'.tables := by
    intro reads
    induction reads with
    | nil => intro w' y _; exact ⟨rfl, rfl⟩
    | cons op reads ih =>
      intro w' y hy
      obtain ⟨h1, h2, h3⟩ := step w' y op hy
      obtain ⟨h4, h5⟩ := ih _ _ h1
      exact ⟨h4.trans h2, h5.trans h3⟩
  obtain ⟨h1, h2⟩ := all reads w x hs
  simp only [plainOf, World.view, h1, h2]

/-- A closed dataset without a filter that is asked for a column it does not have raises, and nothing at all is
changed: not even a file that was removed is made again. -/
theorem C97_arguments_partial (w : World) (x : Inst) (hs : x.state = .table) (op : ReadOp) (c : String)
    (hc : c ∉ x.columns)
    (hop : op = .max c ∨ op = .min c ∨ (∃ cs, c ∈ cs ∧ op = .values (some cs)) ∨
      ∃ cs, c ∈ cs ∧ op = .countUnique (some cs)) :
    (w.readClosed x op).1 = w ∧ (w.readClosed x op).2.2 = .error .badColumn := by
  have hr : (w.recordClosed x).1 = w ∧ (w.recordClosed x).2.2 = none ∧ (w.recordClosed x).2.1.columns = x.columns := by
    unfold World.recordClosed
    split
    · simp [World.optimizeClosed, hs, Inst.reset]
    · exact ⟨rfl, rfl, rfl⟩
  have ha : ∀ y : Inst, y.columns = x.columns → y.readArgs op = .error .badColumn := by
    intro y hy
    have hh : ∀ cs, c ∈ cs → handleColumns y.columns (some cs) = .error .badColumn := by
      intro cs hcs
      unfold handleColumns
      simp only
      rw [if_neg]
      rw [hy]
      simp only [List.all_eq_true, decide_eq_true_eq, not_forall]
      exact ⟨c, hcs, hc⟩
    rcases hop with rfl | rfl | ⟨cs, h, rfl⟩ | ⟨cs, h, rfl⟩
    · simp [Inst.readArgs, hy, hc]
    · simp [Inst.readArgs, hy, hc]
    · simp [Inst.readArgs, hh cs h, Except.map]
    · simp [Inst.readArgs, hh cs h, Except.map]
  unfold World.readClosed
  split
  · rename_i heq; rw [heq] at hr; cases hr.2.1
  · rename_i y heq
    rw [heq] at hr
    rw [ha y hr.2.2]
    exact ⟨hr.1, rfl⟩

/-- The last dataset is closed and the file is gone; the greatest value of a column that does not exist is asked for. -/
example : (exWorld.insts 0).map (fun x => (decide (x.state = .table), decide ("age" ∈ x.columns),
    ((runOps exWorld [.close 0]).readClosed x (.max "age")).1.file,
    ((runOps exWorld [.close 0]).readClosed x (.max "user")).1.file)) = some (true, false, false, true) := by
  decide +kernel

/-- A closed dataset with a filter deletes records of the only open dataset on its table: after the copy was
made, the original is filtered, closed and read four times. -/
theorem C97_fails_records :
    let w := runOps exWorld [.copy 0, .select 0 exDbQuery false, .close 0]
    let x := (runOps exWorld [.copy 0, .select 0 exDbQuery false]).insts 0
    (plainOf w 1).map (fun p => p.recs.map (cellOf · "interaction")) = some [.num 5, .num 3, .num 4] ∧
      (x.map fun x => (plainOf (w.readsClosed x (List.replicate 4 (.values none))).1 1).map
        (fun p => p.recs.map (cellOf · "interaction"))) = some (some [.num 5, .num 4]) := by
  refine ⟨by decide +kernel, by decide +kernel⟩

/-- The temporary file is removed with the last dataset; reading the closed dataset raises, and the file is
there again although no dataset is open. -/
theorem C97_fails_file :
    let w := runOps exWorld [.close 0]
    w.file = false ∧ (exWorld.insts 0).map (fun x => ((w.readClosed x (.values none)).2.2,
      (w.readClosed x (.values none)).1.file, (w.readClosed x (.values none)).1.live)) =
        some (.error .crash, true, none) := by
  refine ⟨by decide +kernel, by decide +kernel⟩

end DRec
