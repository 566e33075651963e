import Verif.Model.Sampler
import Verif.Spec.Sampler
import Verif.Lemmas.Random
import Verif.Lemmas.MemIds
import Verif.Lemmas.Dedup
import Mathlib.Data.List.Sort

/-!
# C69, C70: ListSampler
-/

namespace DRec

open Spec

/-- The interactions of the sampled dataset are numbers. -/
def NumericRows (rows : List Row) : Prop := ∀ r ∈ rows, ∃ q, r.get "interaction" = .num q

theorem sortKey_eq (c : String) (r : Row) : sortKey c r = numCell (r.get c) := by
  unfold sortKey numCell; cases r.get c <;> rfl

theorem positives_spec (S : LSampler) (hn : NumericRows S.rows) (g : List Val) :
    (S.positives g).Perm (groupPositives S.rows S.groupCols S.threshold g) ∧
      SortedBy S.sortCol (S.positives g) := by
  have hps : thresholdRows S.threshold (S.rows.filter fun r => keyOn S.groupCols r = g) =
      groupPositives S.rows S.groupCols S.threshold g := by
    unfold groupPositives keyOn
    cases S.threshold with
    | none =>
      apply List.filter_congr
      intro r _
      simp [Reaches]
    | some t =>
      simp only [thresholdRows, List.filter_filter]
      apply List.filter_congr
      intro r hr
      obtain ⟨q, hq⟩ := hn r hr
      by_cases h1 : List.map r.get S.groupCols = g <;> simp [Reaches, hq, numCell, h1]
  unfold LSampler.positives
  rw [hps]
  cases hc : S.sortCol with
  | none => exact ⟨List.Perm.refl _, by simp [SortedBy]⟩
  | some c =>
    refine ⟨List.perm_insertionSort _ _, ?_⟩
    intro col hcol
    simp only [Option.mem_def, Option.some.injEq] at hcol
    subst hcol
    have : Std.Total fun a b : Row => sortKey c a ≤ sortKey c b := ⟨fun _ _ => le_total _ _⟩
    have : IsTrans Row fun a b => sortKey c a ≤ sortKey c b := ⟨fun _ _ _ => le_trans⟩
    refine (List.pairwise_insertionSort (fun a b : Row => sortKey c a ≤ sortKey c b) _).imp ?_
    intro a b h
    rwa [← sortKey_eq, ← sortKey_eq]

/-- What every element returned by `attempt` looks like. -/
structure AttemptSpec (S : LSampler) (g : List Val) (s : Sampled) : Prop where
  group : s.group = g
  cons : ∃ pre post, pre ++ s.positives ++ s.targets ++ post = S.positives g
  enough : S.minPos + S.nTargets.getD 0 ≤ (S.positives g).length
  capped : ∀ m, S.maxPos = some m → m < (S.positives g).length → s.positives.length = m ∧
    s.targets.length = S.nTargets.getD 0
  uncapped : (∀ m, S.maxPos = some m → (S.positives g).length ≤ m) →
    (S.nTargets = none → s.positives = S.positives g ∧ s.targets = []) ∧
    ∀ t, S.nTargets = some t → s.positives.length = t ∧ s.targets.length = (S.positives g).length - t
  negs : s.negatives.Nodup ∧ s.negatives.length = S.negRatio * s.targets.length ∧
    ∀ v ∈ s.negatives, v ∈ S.rows.map (·.get S.negCol) ∧ v ∉ (S.positives g).map (·.get S.negCol)

theorem windowOf_ok {maxPos : Option Nat} {n extra pad : Nat} {p : Option (Nat × Nat)}
    (h : windowOf maxPos n extra pad = .ok p) :
    (p = none ∧ ∀ m, maxPos = some m → n ≤ m) ∨
    ∃ k m, p = some (k, m) ∧ maxPos = some m ∧ m < n ∧ k + m + extra ≤ n := by
  unfold windowOf at h
  split at h
  · cases h; exact Or.inl ⟨rfl, by simp⟩
  · rename_i m
    split at h
    · split at h
      · cases h
      · cases h
        refine Or.inr ⟨_, m, rfl, rfl, by omega, ?_⟩
        have := randint0_le (n - m - extra) pad
        omega
    · cases h
      exact Or.inl ⟨rfl, by intro m' hm'; cases hm'; omega⟩

theorem drop_take_parts (l : List Row) (k m t : Nat) :
    l.take k ++ (l.drop k).take m ++ (l.drop (k + m)).take t ++ l.drop (k + m + t) = l := by
  rw [List.append_assoc, ← List.drop_drop (i := t), List.take_append_drop, List.append_assoc,
    ← List.drop_drop (i := m), List.take_append_drop, List.take_append_drop]

theorem attempt_spec (S : LSampler) (g : List Val) (pad : Nat) (st : Nat → Nat) (s : Sampled)
    (h : S.attempt g pad st = .ok (.done s)) : AttemptSpec S g s := by
  unfold LSampler.attempt at h
  simp only at h
  obtain ⟨all, hall⟩ : ∃ all, all = S.positives g := ⟨_, rfl⟩
  rw [← hall] at h
  split at h
  · cases h
  rename_i hmin
  split at h
  · cases h
  rename_i p hp
  have hwin := windowOf_ok hp
  split at h
  · rename_i ht
    cases h
    rw [ht] at hmin hwin
    simp only [Option.getD_none] at hmin hwin
    refine ⟨rfl, ?_, by rw [ht, ← hall]; simp only [Option.getD_none]; omega, ?_, ?_, by simp⟩
    · rcases hwin with ⟨rfl, _⟩ | ⟨k, m, rfl, _, _, _⟩
      · exact ⟨[], [], by simp [cutRows, hall]⟩
      · exact ⟨all.take k, all.drop (k + m), by
          rw [← hall]; have := drop_take_parts all k m 0; simpa [cutRows] using this⟩
    · intro m hm hlt
      rcases hwin with ⟨rfl, hle⟩ | ⟨k, m', rfl, h1, h2, h3⟩
      · have := hle m hm; rw [← hall] at hlt; omega
      · rw [hm] at h1; cases h1
        refine ⟨?_, by simp [ht]⟩
        simp only [cutRows, List.length_take, List.length_drop]; omega
    · intro hle
      rcases hwin with ⟨rfl, _⟩ | ⟨k, m', rfl, h1, h2, h3⟩
      · exact ⟨fun _ => ⟨hall, rfl⟩, fun t e => by rw [ht] at e; cases e⟩
      · have := hle m' h1; rw [← hall] at this; omega
  · rename_i t ht
    rw [ht] at hmin hwin
    simp only [Option.getD_some] at hmin hwin
    split at h
    · cases h
    rename_i hel
    cases h
    refine ⟨rfl, ?_, by rw [ht, ← hall]; simp only [Option.getD_some]; omega, ?_, ?_, ?_⟩
    · rcases hwin with ⟨rfl, _⟩ | ⟨k, m, rfl, _, _, _⟩
      · exact ⟨[], [], by simp [splitTargets, hall]⟩
      · exact ⟨all.take k, all.drop (k + m + t), by
          rw [← hall]; exact drop_take_parts all k m t⟩
    · intro m hm hlt
      rcases hwin with ⟨rfl, hle⟩ | ⟨k, m', rfl, h1, h2, h3⟩
      · have := hle m hm; rw [← hall] at hlt; omega
      · rw [hm] at h1; cases h1
        simp only [splitTargets, List.length_take, List.length_drop, ht, Option.getD_some]
        omega
    · intro hle
      rcases hwin with ⟨rfl, _⟩ | ⟨k, m', rfl, h1, h2, h3⟩
      · refine ⟨fun e => by (rw [ht] at e; cases e), fun t' e => ?_⟩
        rw [ht] at e; cases e
        rw [← hall]
        exact ⟨by simp only [splitTargets, List.length_take]; omega,
          by simp only [splitTargets, List.length_drop]⟩
      · have := hle m' h1; rw [← hall] at this; omega
    · refine ⟨pySample_nodup _ _ _ ((nodup_distinctVals _).filter _),
        pySample_length _ _ _ (by omega), ?_⟩
      intro v hv
      have := pySample_subset _ _ _ hv
      simp only [List.mem_filter, decide_eq_true_eq, ← hall] at this ⊢
      exact ⟨(mem_distinctVals _ _).1 this.1, this.2⟩

theorem one_spec (S : LSampler) (tries : Nat) (ds : List LDraw) (s : Sampled) (rest : List LDraw)
    (h : S.one tries ds = .ok (some (s, rest))) : ∃ g ∈ S.groups, AttemptSpec S g s := by
  induction ds generalizing tries with
  | nil => simp [LSampler.one] at h
  | cons d ds ih =>
    unfold LSampler.one at h
    split at h
    · cases h
    · rename_i g hg
      split at h
      · cases h
      · rename_i s' hs
        cases h
        exact ⟨g, List.mem_of_getElem? hg, attempt_spec S g _ _ _ hs⟩
      · split at h
        · cases h
        · exact ih _ h

theorem sample_spec (S : LSampler) (n : Nat) (ds : List LDraw) (l : List Sampled)
    (h : S.sample n ds = .ok (some l)) : l.length = n ∧ ∀ s ∈ l, ∃ g ∈ S.groups, AttemptSpec S g s := by
  induction n generalizing ds l with
  | zero => simp only [LSampler.sample, Except.ok.injEq, Option.some.injEq] at h; subst h; simp
  | succ n ih =>
    unfold LSampler.sample at h
    split at h
    · cases h
    · cases h
    · rename_i s ds' hone
      split at h
      · cases h
      · cases h
      · rename_i l' hl'
        cases h
        obtain ⟨h1, h2⟩ := ih _ _ hl'
        refine ⟨by simp [h1], ?_⟩
        intro x hx
        rcases List.mem_cons.1 hx with rfl | hx
        · exact one_spec S _ _ _ _ hone
        · exact h2 x hx

/-- **C69.** For every dataset with numeric interactions, every configuration and every random outcome,
each element of `sample_group_records(n)` belongs to a group of the dataset; its negative ids are
pairwise distinct, are ids of the dataset, belong to no record of the group that reaches the threshold,
and there are `neg_ratio` of them per target. -/
theorem C69_negative_ids (S : LSampler) (hn : NumericRows S.rows) (n : Nat) (draws : List LDraw)
    (l : List Sampled) (h : S.sample n draws = .ok (some l)) :
    l.length = n ∧ ∀ s ∈ l,
      (∃ r ∈ S.rows, S.groupCols.map r.get = s.group) ∧
      s.negatives.Nodup ∧
      (∀ v ∈ s.negatives, (∃ r ∈ S.rows, r.get S.negCol = v) ∧
        ∀ r ∈ S.rows, S.groupCols.map r.get = s.group → Reaches S.threshold r → r.get S.negCol ≠ v) ∧
      s.negatives.length = S.negRatio * s.targets.length := by
  obtain ⟨h1, h2⟩ := sample_spec S n draws l h
  refine ⟨h1, fun s hs => ?_⟩
  obtain ⟨g, hg, sp⟩ := h2 s hs
  obtain ⟨n1, n2, n3⟩ := sp.negs
  refine ⟨?_, n1, ?_, n2⟩
  · obtain ⟨r, hr, he⟩ := List.mem_map.1 hg
    exact ⟨r, (dedupGo_sublist _ _ _).subset hr, by rw [sp.group]; exact he⟩
  · intro v hv
    obtain ⟨ha, hb⟩ := n3 v hv
    obtain ⟨r, hr, he⟩ := List.mem_map.1 ha
    refine ⟨⟨r, hr, he⟩, ?_⟩
    intro r' hr' hk hre e
    apply hb
    have : r' ∈ S.positives g := by
      rw [(positives_spec S hn g).1.mem_iff]
      simp only [groupPositives, List.mem_filter, decide_eq_true_eq]
      exact ⟨hr', by rw [hk, sp.group], hre⟩
    exact List.mem_map.2 ⟨r', this, e⟩

/-- **C70** (partial).  Full property: between `min` and `max` positives, exactly `n_targets` targets,
consecutive in the sort order.  Proved for every configuration: the records are consecutive in the sort
order and are records of the group reaching the threshold; a group with more than `max` of them gives
exactly `max` positives and `n_targets` targets; without targets the length is between `min` and `max`.
Missing: groups with at most `max` records, where positives and targets are cut at `n_targets`
(`C70_lengths_swapped`). -/
theorem C70_sequences_partial (S : LSampler) (hn : NumericRows S.rows)
    (hmm : ∀ m, S.maxPos = some m → S.minPos ≤ m) (n : Nat) (draws : List LDraw)
    (l : List Sampled) (h : S.sample n draws = .ok (some l)) :
    ∀ s ∈ l,
      Consecutive S.sortCol s.positives s.targets
        (groupPositives S.rows S.groupCols S.threshold s.group) ∧
      (∀ m, S.maxPos = some m → m < (groupPositives S.rows S.groupCols S.threshold s.group).length →
        s.positives.length = m ∧ s.targets.length = S.nTargets.getD 0) ∧
      (S.nTargets = none → s.targets = [] ∧ S.minPos ≤ s.positives.length ∧
        ∀ m, S.maxPos = some m → s.positives.length ≤ m) := by
  intro s hs
  obtain ⟨g, hg, sp⟩ := (sample_spec S n draws l h).2 s hs
  obtain ⟨hperm, hsort⟩ := positives_spec S hn g
  rw [sp.group, ← hperm.length_eq]
  refine ⟨?_, sp.capped, ?_⟩
  · obtain ⟨pre, post, e⟩ := sp.cons
    exact ⟨pre, post, by rw [e]; exact hperm, by rw [e]; exact hsort⟩
  · intro ht
    have hen := sp.enough
    rw [ht] at hen
    simp only [Option.getD_none] at hen
    by_cases hc : ∀ m, S.maxPos = some m → (S.positives g).length ≤ m
    · obtain ⟨e1, e2⟩ := (sp.uncapped hc).1 ht
      exact ⟨e2, by rw [e1]; omega, by rw [e1]; exact hc⟩
    · push Not at hc
      obtain ⟨m, hm, hlt⟩ := hc
      obtain ⟨e1, e2⟩ := sp.capped m hm hlt
      rw [ht] at e2
      refine ⟨List.length_eq_zero_iff.1 (by simpa using e2), ?_, ?_⟩
      · have := hmm m hm; omega
      · intro m' hm'; rw [hm] at hm'; cases hm'; omega

/-- **C70**, full shape when the sequences have a fixed length (`min = max`, as Caser uses it): exactly
that many positives, exactly `n_targets` targets right after them. -/
theorem C70_fixed_length (S : LSampler) (hn : NumericRows S.rows) (t : Nat) (ht : S.nTargets = some t)
    (ht0 : 0 < t) (hmm : S.maxPos = some S.minPos) (n : Nat) (draws : List LDraw)
    (l : List Sampled) (h : S.sample n draws = .ok (some l)) :
    ∀ s ∈ l, s.positives.length = S.minPos ∧ s.targets.length = t ∧
      Consecutive S.sortCol s.positives s.targets
        (groupPositives S.rows S.groupCols S.threshold s.group) := by
  intro s hs
  have hp := C70_sequences_partial S hn (fun m e => by rw [hmm] at e; cases e; exact Nat.le_refl _)
    n draws l h s hs
  obtain ⟨g, hg, sp⟩ := (sample_spec S n draws l h).2 s hs
  have hen := sp.enough
  rw [ht] at hen
  simp only [Option.getD_some] at hen
  have hc := sp.capped _ hmm (by omega)
  rw [ht] at hc
  exact ⟨hc.1, hc.2, hp.1⟩

/-- **C70**: with `min = max` a pass never raises. -/
theorem C70_fixed_length_no_error (S : LSampler) (hmm : S.maxPos = some S.minPos)
    (g : List Val) (pad : Nat) (st : Nat → Nat) : ∃ a, S.attempt g pad st = .ok a := by
  unfold LSampler.attempt
  simp only
  split
  · exact ⟨_, rfl⟩
  · rename_i hlt
    have : ∃ p, windowOf S.maxPos (S.positives g).length (S.nTargets.getD 0) pad = .ok p := by
      rw [hmm]
      unfold windowOf
      simp only
      split
      · split
        · omega
        · exact ⟨_, rfl⟩
      · exact ⟨_, rfl⟩
    obtain ⟨p, hp⟩ := this
    rw [hp]
    simp only
    split
    · exact ⟨_, rfl⟩
    · split
      · exact ⟨_, rfl⟩
      · exact ⟨_, rfl⟩

theorem one_gives_up (S : LSampler) (hne : S.groups ≠ [])
    (hr : ∀ g ∈ S.groups, ∀ pad st, S.attempt g pad st = .ok .retry) :
    ∀ (draws : List LDraw) (tries : Nat), tries ≤ 20 →
      (21 - tries ≤ draws.length → S.one tries draws = .error .assertion) ∧
      (draws.length < 21 - tries → S.one tries draws = .ok none)
  | [], tries, ht => ⟨fun h => by simp at h; omega, fun _ => rfl⟩
  | d :: ds, tries, ht => by
    have hlt : d.group % S.groups.length < S.groups.length :=
      Nat.mod_lt _ (List.length_pos_of_ne_nil hne)
    have e : S.one tries (d :: ds) = if tries + 1 > 20 then .error .assertion else S.one (tries + 1) ds := by
      rw [LSampler.one, List.getElem?_eq_getElem hlt]
      simp only [hr _ (List.getElem_mem hlt)]
    rw [e]
    split
    · exact ⟨fun _ => rfl, fun h => by simp at h; omega⟩
    · have ih := one_gives_up S hne hr ds (tries + 1) (by omega)
      exact ⟨fun h => ih.1 (by simp at h; omega), fun h => ih.2 (by simp at h; omega)⟩

/-- **C70**, no group is large enough: after 21 groups have been drawn the sampler gives up with an error,
and not before. -/
theorem C70_gives_up (S : LSampler) (hn : NumericRows S.rows) (hne : S.rows ≠ [])
    (hs : ∀ g, (groupPositives S.rows S.groupCols S.threshold g).length < S.minPos + S.nTargets.getD 0)
    (n : Nat) (draws : List LDraw) :
    (21 ≤ draws.length → S.sample (n + 1) draws = .error .assertion) ∧
    (draws.length < 21 → S.sample (n + 1) draws = .ok none) := by
  have hg : S.groups ≠ [] := by
    obtain ⟨r, l, e⟩ := List.exists_cons_of_ne_nil hne
    simp [LSampler.groups, e, dedupGo]
  have h := one_gives_up S hg (fun g _ pad st => by
    unfold LSampler.attempt
    rw [if_pos (Or.inr ?_)]
    rw [(positives_spec S hn g).1.length_eq]
    exact hs g) draws 0 (by omega)
  unfold LSampler.sample
  exact ⟨fun hl => by rw [h.1 hl], fun hl => by rw [h.2 hl]⟩

/-! ### Witnesses and examples -/

/-- A user with five records, another one with two more items. -/
def exSeqRows : List Row :=
  ([(1, 10, 3), (1, 11, 1), (1, 12, 2), (1, 13, 5), (2, 14, 1), (2, 15, 2)] : List (ℕ × ℕ × ℕ)).zipIdx.map
    fun p => mkRow p.2 [("uid", .num p.1.1), ("iid", .num p.1.2.1), ("interaction", .num 1),
      ("timestamp", .num p.1.2.2)]

/-- A sampler of item sequences per user, sorted by timestamp. -/
def exSampler (neg minPos : Nat) (maxPos : Option Nat) (t : Option Nat) : LSampler :=
  ⟨exSeqRows, ["uid"], neg, t, "iid", none, some "timestamp", minPos, maxPos⟩

theorem exSeq_numeric : NumericRows exSeqRows := by
  have h : ∀ r ∈ exSeqRows, r.get "interaction" = .num 1 := by decide +kernel
  exact fun r hr => ⟨1, h r hr⟩

/-- Ids of what was sampled. -/
def shown (r : Except Err (Option (List Sampled))) : Option (List (List Val × List Val × List Val)) :=
  match r with
  | .ok (some l) => some (l.map fun s =>
      (s.positives.map (·.get "iid"), s.targets.map (·.get "iid"), s.negatives))
  | _ => none

example : NumericRows exSeqRows ∧ exSeqRows ≠ [] ∧
    ∀ g, (groupPositives exSeqRows ["uid"] none g).length < 5 + 2 := by
  refine ⟨exSeq_numeric, by decide, fun g => ?_⟩
  have h : (groupPositives exSeqRows ["uid"] none g).length ≤ exSeqRows.length := List.length_filter_le _ _
  have : exSeqRows.length = 6 := by decide
  omega

/-- The error of a result. -/
def errOf {α : Type} : Except Err α → Option Err
  | .error e => some e
  | .ok _ => none

theorem errOf_some {α : Type} {x : Except Err α} {e : Err} (h : errOf x = some e) : x = .error e := by
  cases x with
  | error a => simp only [errOf, Option.some.injEq] at h; rw [h]
  | ok a => cases h

/-- **C70 fails** below the cap: at least two positives and one target are asked for, but one positive
and three targets are returned. -/
theorem C70_lengths_swapped : ∃ (S : LSampler) (draws : List LDraw) (s : Sampled),
    NumericRows S.rows ∧ S.minPos = 2 ∧ S.nTargets = some 1 ∧ S.maxPos = some 9 ∧ S.negRatio = 0 ∧
    S.sample 1 draws = .ok (some [s]) ∧ s.positives.length = 1 ∧ s.targets.length = 3 := by
  have h : shown ((exSampler 0 2 (some 9) (some 1)).sample 1 [⟨0, 0, fun _ => 0⟩]) =
      some [([.num 11], [.num 12, .num 10, .num 13], [])] := by
    decide +kernel
  cases hs : (exSampler 0 2 (some 9) (some 1)).sample 1 [⟨0, 0, fun _ => 0⟩] with
  | error e => rw [hs] at h; cases h
  | ok o =>
    cases o with
    | none => rw [hs] at h; cases h
    | some l =>
      rw [hs] at h
      simp only [shown, Option.some.injEq] at h
      match l, h with
      | [s], h =>
        simp only [List.map_cons, List.map_nil, List.cons.injEq, Prod.mk.injEq, and_true] at h
        refine ⟨_, _, s, exSeq_numeric, rfl, rfl, rfl, rfl, hs, ?_, ?_⟩
        · simpa using congrArg List.length h.1
        · simpa using congrArg List.length h.2.1

/-- **C70 fails** when a group has more than `max` but fewer than `max + n_targets` records: the call
raises although the group has enough records (at least one positive and one target). -/
theorem C70_range_error : ∃ (S : LSampler) (draws : List LDraw),
    NumericRows S.rows ∧ S.minPos = 1 ∧ S.nTargets = some 2 ∧ S.maxPos = some 3 ∧
    S.sample 1 draws = .error .badValue := by
  refine ⟨exSampler 1 1 (some 3) (some 2), [⟨0, 0, fun _ => 0⟩], exSeq_numeric, rfl, rfl, rfl, ?_⟩
  have h : errOf ((exSampler 1 1 (some 3) (some 2)).sample 1 [⟨0, 0, fun _ => 0⟩]) =
      some .badValue := by decide +kernel
  exact errOf_some h

/-- Fixed length sequences of two positives and one target with one negative. -/
example : NumericRows exSeqRows ∧ (exSampler 1 2 (some 2) (some 1)).maxPos =
    some (exSampler 1 2 (some 2) (some 1)).minPos ∧
    shown ((exSampler 1 2 (some 2) (some 1)).sample 1 [⟨1, 0, fun _ => 0⟩, ⟨0, 1, fun _ => 1⟩]) =
      some [([.num 12, .num 10], [.num 13], [.num 15])] :=
  ⟨exSeq_numeric, rfl, by decide +kernel⟩

end DRec
