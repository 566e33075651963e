import Verif.Model.DbIndex
import Verif.Lemmas.DbTyped
import Verif.Props.DbHistory

/-!
# C104: assigning ids and the id indexes

Full statement: in every history of operations on database datasets, no operation raises because an index is missing
or already there, and after every operation every table has its indexes on both id columns.  It is false for a
dataset opened from a `.sqlite` file: `C104_fails_file`.  `C104_indexes_partial` shows it for histories that start
with a csv file and do not open its database again.
-/

namespace DRec

open Spec

/-- Exactly the tables have both indexes. -/
def Indexed (s : World × Ix) : Prop :=
  ∀ n, s.2.uid n = (s.1.tables n).isSome ∧ s.2.iid n = (s.1.tables n).isSome

theorem indexed_follow {w w' : World} {ix : Ix} (h : Indexed (w, ix)) : Indexed (w', ix.follow w w') := by
  intro n
  obtain ⟨h1, h2⟩ := h n
  simp only at h1 h2
  simp only [Ix.follow, h1, h2]
  cases (w'.tables n) <;> cases (w.tables n) <;> simp

theorem setBoth_ok {ix : Ix} {cols : List String} {n : Nat} {b : Bool} (hu : "user" ∈ cols → ix.uid n ≠ b)
    (hi : "item" ∈ cols → ix.iid n ≠ b) :
    ix.setBoth cols n b = (⟨fun m => if m = n ∧ "user" ∈ cols then b else ix.uid m,
      fun m => if m = n ∧ "item" ∈ cols then b else ix.iid m⟩, none) := by
  unfold Ix.setBoth Ix.setUid Ix.setIid
  by_cases h1 : "user" ∈ cols <;> by_cases h2 : "item" ∈ cols
  · simp only [h1, h2, if_true, if_neg (hu h1), if_neg (hi h2), and_true]
  · simp only [h1, h2, if_true, if_neg (hu h1), if_false, and_true, and_false]
  · simp only [h1, h2, if_true, if_neg (hi h2), if_false, and_true, and_false]
  · simp only [h1, h2, if_false, and_false]

/-- Dropping and making again. -/
theorem setBoth_twice {w : World} {ix : Ix} (h : Indexed (w, ix)) {n : Nat} {t : Table} (ht : w.tables n = some t)
    (cols cols' : List String) (hu : "user" ∈ cols' ↔ "user" ∈ cols) (hi : "item" ∈ cols' ↔ "item" ∈ cols) :
    ∃ ix2, ix.setBoth cols n false = (ix2, none) ∧ ∃ ix3, ix2.setBoth cols' n true = (ix3, none) ∧ Indexed (w, ix3) := by
  have h1 : ix.uid n = true := by simpa [ht] using (h n).1
  have h2 : ix.iid n = true := by simpa [ht] using (h n).2
  refine ⟨_, setBoth_ok (by simp [h1]) (by simp [h2]), _, setBoth_ok ?_ ?_, ?_⟩
  · intro hc
    simp [hu.1 hc]
  · intro hc
    simp [hi.1 hc]
  · intro m
    have := h m
    simp only [hu, hi] at this ⊢
    constructor
    · split
      · rename_i hm
        rw [← this.1, hm.1, h1]
      · exact this.1
    · split
      · rename_i hm
        rw [← this.2, hm.1, h2]
      · exact this.2

theorem assignIx_eq {w : World} {ix : Ix} (hr : Reg w) (h : Indexed (w, ix)) (hty : EachTy HasTypes w) (i : Nat) :
    ∃ ix', w.assignIx ix i = (((w.assign i).1, ix'), (w.assign i).2) ∧ Indexed ((w.assign i).1, ix') := by
  have ho := hr.optimize i true
  have ht := typed_optimize hty i true
  unfold World.assignIx World.assign
  rcases hopt : w.optimize i true with ⟨w1, _ | e⟩
  · rw [hopt] at ho ht
    have hx1 := indexed_follow (w' := w1) h
    simp only
    rcases hx : w1.insts i with _ | x
    · exact ⟨_, rfl, hx1⟩
    · obtain ⟨t, htab⟩ := ho.tab i x hx
      have htab : w1.tables x.table = some t := htab
      obtain ⟨ty, hty'⟩ := Option.isSome_iff_exists.1 (ht i x hx)
      obtain ⟨ix2, e2, ix3, e3, h3⟩ := setBoth_twice hx1 htab x.columns (addCol (addCol x.columns "uid") "iid")
        (by simp [mem_addCol]) (by simp [mem_addCol])
      simp only [e2, hty', htab, e3]
      refine ⟨ix3, rfl, ?_⟩
      intro n
      have := h3 n
      simp only [World.put, World.putT] at this ⊢
      by_cases hn : n = x.table
      · subst hn
        simpa [htab] using this
      · simpa [hn] using this
  · exact ⟨_, rfl, indexed_follow h⟩

theorem runOpIx_eq {w : World} {ix : Ix} (hr : Reg w) (h : Indexed (w, ix)) (hty : EachTy HasTypes w) (op : DbOp) :
    ∃ ix', runOpIx (w, ix) op = (((runOp w op).1, ix'), (runOp w op).2) ∧ Indexed ((runOp w op).1, ix') := by
  cases op with
  | assign i =>
    obtain ⟨ix', e, h'⟩ := assignIx_eq hr h hty i
    refine ⟨ix', ?_, h'⟩
    simp only [runOpIx, e, runOp, outcome]
    cases (w.assign i).2 <;> rfl
  | _ => exact ⟨_, rfl, indexed_follow h⟩

theorem runOpsIx_eq {ops : List DbOp} {w : World} {ix : Ix} (hr : Reg w) (h : Indexed (w, ix)) (hty : EachTy HasTypes w)
    (hops : ∀ op ∈ ops, op ≠ .reopen) :
    ∃ ix', runOpsIx (w, ix) ops = (runOps w ops, ix') ∧ Indexed (runOps w ops, ix') ∧ Reg (runOps w ops) ∧
      EachTy HasTypes (runOps w ops) := by
  induction ops generalizing w ix with
  | nil => exact ⟨ix, rfl, h, hr, hty⟩
  | cons op ops ih =>
    obtain ⟨ix1, e1, h1⟩ := runOpIx_eq hr h hty op
    simp only [runOpsIx, runOps, e1]
    exact ih (hr.runOp op) h1
      (typed_runOp_keep hty op fun e => absurd e (hops op List.mem_cons_self))
      (fun o ho => hops o (List.mem_cons_of_mem _ ho))

/-- **C104** (partial: the dataset comes from a csv file, and its database file is not opened a second time.  Missing
from the full statement: see `C104_fails_file`).  After every history exactly the tables have their two indexes; the next
operation does and returns the same as in the model without indexes, so that none raises because of one. -/
theorem C104_indexes_partial (cols : List String) (types : String → DType) (rows : List Row) (ops : List DbOp)
    (hops : ∀ op ∈ ops, op ≠ .reopen) :
    let s := runOpsIx (World.ofCsv cols types rows, ⟨fun n => n = 0, fun n => n = 0⟩) ops
    s.1 = runOps (World.ofCsv cols types rows) ops ∧
      (∀ n, (s.2.uid n = true ↔ ∃ t, s.1.tables n = some t) ∧ (s.2.iid n = true ↔ ∃ t, s.1.tables n = some t)) ∧
      ∀ op, (runOpIx s op).1.1 = (runOp s.1 op).1 ∧ (runOpIx s op).2 = (runOp s.1 op).2 := by
  intro s
  have h0 : Indexed (World.ofCsv cols types rows, ⟨fun n => n = 0, fun n => n = 0⟩) := by
    intro n
    by_cases hn : n = 0 <;> simp [World.ofCsv, hn]
  have ht : EachTy HasTypes (World.ofCsv cols types rows) := by
    intro i x hx
    simp only [World.ofCsv] at hx
    split at hx
    · cases hx; rfl
    · cases hx
  obtain ⟨ix', e, h1, h2, h3⟩ := runOpsIx_eq (Reg.ofCsv cols types rows) h0 ht hops
  have hs : s = (runOps (World.ofCsv cols types rows) ops, ix') := e
  rw [hs]
  refine ⟨rfl, fun n => ?_, fun op => ?_⟩
  · obtain ⟨a, b⟩ := h1 n
    simp only at a b
    simp only [a, b, Option.isSome_iff_exists, and_self]
  · obtain ⟨ix2, e2, _⟩ := runOpIx_eq h2 h1 h3 op
    rw [e2]
    exact ⟨rfl, rfl⟩

/-- C104 fails: opening any `.sqlite` file with its indexes and assigning internal ids raises a `TypeError` and leaves
the file without both; every further attempt raises because of that, also through a dataset that opens the file
again. -/
theorem C104_fails_file (t : Table) (hu : "user" ∈ t.cols) (hi : "item" ∈ t.cols) :
    let s0 : World × Ix := (World.ofFile t, ⟨fun n => n = 0, fun n => n = 0⟩)
    let s1 := (runOpIx s0 (.assign 0)).1
    (runOpIx s0 (.assign 0)).2 = .error .typeError ∧ s1.2.uid 0 = false ∧ s1.2.iid 0 = false ∧
      s1.1.tables 0 = some t ∧ (runOpIx s1 (.assign 0)).2 = .error .crash ∧
      (runOpIx (runOpsIx s1 [.reopen]) (.assign 1)).2 = .error .crash := by
  have hcu : "user" ∈ t.cols.filter (· ∉ ["uid", "iid"]) := List.mem_filter.2 ⟨hu, by decide⟩
  have hci : "item" ∈ t.cols.filter (· ∉ ["uid", "iid"]) := List.mem_filter.2 ⟨hi, by decide⟩
  have hcu' : "user" ∈ addCol (t.cols.filter (· ∉ ["uid", "iid"])) "uid" := (mem_addCol _ _ _).2 (.inr hcu)
  have e0 : ∀ (x : Inst), x.state = .table → x.types = none → x.table = 0 →
      ∀ (w : World) (ix : Ix) (i : Nat), w.insts i = some x → w.tables 0 = some t → ix.uid 0 = false →
      "user" ∈ x.columns → (runOpIx (w, ix) (.assign i)).2 = .error .crash := by
    intro x h1 h2 h3 w ix i hx ht hix hc
    have ho : w.optimize i true = (w.put i x.reset, none) := by
      unfold World.optimize
      simp [hx, h1]
    simp only [runOpIx, World.assignIx, ho, put_self]
    have hf : (ix.follow w (w.put i x.reset)).uid 0 = false := by simp [Ix.follow, ht, hix]
    have hs : (ix.follow w (w.put i x.reset)).setBoth x.reset.columns x.reset.table false =
        (ix.follow w (w.put i x.reset), some .crash) := by
      have a : x.reset.columns = x.columns := rfl
      have b : x.reset.table = 0 := h3
      rw [a, b]
      unfold Ix.setBoth Ix.setUid
      simp [hc, hf]
    rw [hs]
  let x0 : Inst := ⟨t.cols.filter (· ∉ ["uid", "iid"]), .table, 0, false, none, t.rows.length, t.rows.length, 0, 0⟩
  let x1 : Inst := { x0 with columns := addCol x0.columns "uid" }
  let w1 := ((World.ofFile t).put 0 x0).put 0 x1
  have ho : (World.ofFile t).optimize 0 true = ((World.ofFile t).put 0 x0, none) := rfl
  have hfirst : ∃ ix1 : Ix, runOpIx (World.ofFile t, ⟨fun n => n = 0, fun n => n = 0⟩) (.assign 0) =
      ((w1, ix1), .error .typeError) ∧ ix1.uid 0 = false ∧ ix1.iid 0 = false := by
    have hb : ((⟨fun n => n = 0, fun n => n = 0⟩ : Ix).follow (World.ofFile t) ((World.ofFile t).put 0 x0)).setBoth
        x0.columns x0.table false = _ :=
      setBoth_ok (fun _ => by simp [Ix.follow, World.ofFile, World.put, x0]) fun _ => by
        simp [Ix.follow, World.ofFile, World.put, x0]
    simp only [runOpIx, World.assignIx, ho, put_self, hb]
    exact ⟨_, rfl, if_pos ⟨rfl, hcu⟩, if_pos ⟨rfl, hci⟩⟩
  obtain ⟨ix1, h1, h2, h3⟩ := hfirst
  simp only [h1]
  refine ⟨trivial, h2, h3, rfl, ?_, ?_⟩
  · exact e0 x1 rfl rfl rfl w1 ix1 0 rfl rfl h2 hcu'
  · refine e0 x0 rfl rfl rfl _ _ 1 rfl rfl ?_ hcu
    simp only [Ix.follow, h2]
    rfl

/-- The history of C18's example (selecting, copying, numbering, …) is one of those, with tables of its own at the end, and
its first dataset can be numbered once more. -/
example : (∀ op ∈ exOps ++ [.assign 0, .assign 0], op ≠ .reopen) ∧
    (runOpIx (runOpsIx (exWorld, ⟨fun n => n = 0, fun n => n = 0⟩) (exOps ++ [.assign 0])) (.assign 0)).2.toOption = some 0 := by
  constructor
  · intro op hop
    simp only [exOps, List.cons_append, List.nil_append, List.mem_cons, List.not_mem_nil, or_false] at hop
    rcases hop with rfl | rfl | rfl | rfl | rfl | rfl | rfl | rfl | rfl | rfl | rfl | rfl | rfl | rfl <;> exact fun h => by cases h
  · decide +kernel

end DRec
