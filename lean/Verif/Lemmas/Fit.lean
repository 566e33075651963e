import Verif.Spec.Fit
import Mathlib.Tactic.Ring
import Mathlib.Tactic.FieldSimp
import Mathlib.Tactic.Linarith
import Mathlib.Algebra.BigOperators.Group.List.Basic
import Mathlib.Data.List.Nodup
import Mathlib.Data.List.Induction
import Mathlib.Data.List.TakeWhile

/-!
# Lemmas on training and early stopping
-/

namespace DRec

open Spec

/-! ## The tracker -/

theorem storedVals_record (m : MName) (v : ℚ) (n : MName) : ∀ l : List (MName × List ℚ),
    storedVals (record m v l) n =
      if m = n then some ((storedVals l n).getD [] ++ [v]) else storedVals l n
  | [] => by
    by_cases h : m = n <;> simp [record, storedVals, h]
  | p :: ps => by
    unfold record
    split
    · rename_i h
      subst h
      by_cases h : p.1 = n <;> simp [storedVals, h]
    · rename_i h
      have ih := storedVals_record m v n ps
      unfold storedVals at ih ⊢
      by_cases h' : p.1 = n
      · have : m ≠ n := fun e => h (by rw [h', e])
        simp [h', this]
      · simp only [List.find?_cons, h', decide_false, ih]

theorem names_record (m : MName) (v : ℚ) : ∀ l : List (MName × List ℚ),
    (record m v l).map (·.1) = if m ∈ l.map (·.1) then l.map (·.1) else l.map (·.1) ++ [m]
  | [] => by simp [record]
  | p :: ps => by
    unfold record
    split
    · rename_i h; simp [h]
    · rename_i h
      have ih := names_record m v ps
      simp only [List.map_cons, ih, List.mem_cons]
      have : m ≠ p.1 := fun e => h e.symm
      simp only [this, false_or]
      split <;> simp

theorem storedVals_isSome (l : List (MName × List ℚ)) (n : MName) :
    (storedVals l n).isSome ↔ n ∈ l.map (·.1) := by
  unfold storedVals
  rw [Option.isSome_map, List.find?_isSome]
  simp only [decide_eq_true_eq, List.mem_map]

/-- Results and epochs of a tracker in terms of a history. -/
structure Hist (t : Tracker) (H : List (Nat × Results)) : Prop where
  vals : ∀ n, (storedVals t.results n).getD [] = H.filterMap fun h => valueOf h.2 n
  pos : ∀ n, storedVals t.results n ≠ some []
  nodup : (t.results.map (·.1)).Nodup
  epochs : t.epochs = (H.filter fun h => !h.2.isEmpty).map (·.1)

theorem hist_init : Hist Tracker.init [] := ⟨fun _ => rfl, fun _ => by simp [Tracker.init, storedVals],
  by simp [Tracker.init], rfl⟩

theorem noteEpoch_new {e : Nat} {l : List Nat} (h : ∀ x ∈ l, x < e) : noteEpoch e l = l ++ [e] := by
  unfold noteEpoch
  split
  · rfl
  · rename_i x hx
    rw [if_pos (h x (List.mem_of_getLast? hx))]

theorem noteEpoch_same {e : Nat} {l : List Nat} : noteEpoch e (l ++ [e]) = l ++ [e] := by
  simp [noteEpoch]

theorem addResults_epochs {e : Nat} : ∀ (rs : Results) (t : Tracker), (∀ x ∈ t.epochs, x < e) →
    (t.addResults rs e).epochs = t.epochs ++ if rs.isEmpty then [] else [e]
  | [], t, _ => by simp [Tracker.addResults]
  | p :: rs, t, h => by
    have aux : ∀ (rs : Results) (t : Tracker) (l : List Nat), t.epochs = l ++ [e] →
        (rs.foldl (fun t p => t.addResult p.1 p.2 e) t).epochs = l ++ [e] := by
      intro rs
      induction rs with
      | nil => intro t l h; exact h
      | cons p rs ih =>
        intro t l h
        rw [List.foldl_cons]
        apply ih
        show noteEpoch e t.epochs = _
        rw [h, noteEpoch_same]
    simp only [Tracker.addResults, List.foldl_cons, List.isEmpty_cons, Bool.false_eq_true, if_false]
    exact aux rs _ _ (noteEpoch_new h)

theorem addResults_nodup {e : Nat} : ∀ (rs : Results) (t : Tracker), (t.results.map (·.1)).Nodup →
    ((t.addResults rs e).results.map (·.1)).Nodup
  | [], _, h => h
  | p :: rs, t, h => by
    apply addResults_nodup rs (t.addResult p.1 p.2 e)
    show ((record p.1 p.2 t.results).map (·.1)).Nodup
    rw [names_record]
    split
    · exact h
    · rename_i hn
      exact List.nodup_append.2 ⟨h, by simp, by
        intro a ha b hb hab
        simp only [List.mem_singleton] at hb
        exact hn (by rw [← hb, ← hab]; exact ha)⟩

theorem addResults_vals {e : Nat} : ∀ (rs : Results) (t : Tracker) (n : MName), IsDict rs →
    storedVals (t.addResults rs e).results n = match valueOf rs n with
      | none => storedVals t.results n
      | some v => some ((storedVals t.results n).getD [] ++ [v])
  | [], t, n, _ => by simp [Tracker.addResults, valueOf]
  | p :: rs, t, n, hd => by
    have hd' : p.1 ∉ rs.map (·.1) ∧ IsDict rs := by
      have := hd
      simp only [IsDict, List.map_cons, List.nodup_cons] at this
      exact this
    have ih := addResults_vals (e := e) rs (t.addResult p.1 p.2 e) n hd'.2
    have e1 : t.addResults (p :: rs) e = (t.addResult p.1 p.2 e).addResults rs e := rfl
    have e2 : (t.addResult p.1 p.2 e).results = record p.1 p.2 t.results := rfl
    rw [e1, ih, e2, storedVals_record]
    by_cases h : p.1 = n
    · have hn : valueOf rs n = none := by
        unfold valueOf
        rw [Option.map_eq_none_iff, List.find?_eq_none]
        intro q hq
        simp only [decide_eq_true_eq]
        intro hqn
        exact hd'.1 (by rw [h, ← hqn]; exact List.mem_map_of_mem hq)
      have hs : valueOf (p :: rs) n = some p.2 := by simp [valueOf, h]
      rw [hn, hs]
      simp [h]
    · have hs : valueOf (p :: rs) n = valueOf rs n := by simp [valueOf, h]
      rw [hs]
      simp [h]

theorem hist_add {t : Tracker} {H : List (Nat × Results)} (h : Hist t H) {e : Nat} {rs : Results}
    (hd : IsDict rs) (he : ∀ x ∈ H, x.1 < e) : Hist (t.addResults rs e) (H ++ [(e, rs)]) := by
  refine ⟨?_, ?_, addResults_nodup rs t h.nodup, ?_⟩
  · intro n
    rw [addResults_vals rs t n hd, List.filterMap_append, ← h.vals n]
    cases hv : valueOf rs n <;> simp [hv]
  · intro n
    rw [addResults_vals rs t n hd]
    cases hv : valueOf rs n with
    | none => exact h.pos n
    | some v => simp
  · rw [addResults_epochs rs t, h.epochs, List.filter_append, List.map_append]
    · cases rs <;> simp
    · intro x hx
      rw [h.epochs] at hx
      obtain ⟨y, hy, rfl⟩ := List.mem_map.1 hx
      exact he y (List.mem_filter.1 hy).1

theorem hist_loss {t : Tracker} {H : List (Nat × Results)} (h : Hist t H) (x : ℚ) : Hist (t.addLoss x) H :=
  ⟨h.vals, h.pos, h.nodup, h.epochs⟩

theorem hist_replay : ∀ (H : List (Nat × Results)), (∀ h ∈ H, IsDict h.2) →
    H.Pairwise (fun a b => a.1 < b.1) → Hist (replay H) H := by
  intro H
  induction H using List.reverseRecOn with
  | nil => intro _ _; exact hist_init
  | append_singleton H h ih =>
    intro hd hp
    rw [List.pairwise_append] at hp
    unfold replay
    rw [List.foldl_append]
    exact hist_add (ih (fun x hx => hd x (by simp [hx])) hp.1) (hd h (by simp))
      (fun x hx => hp.2.2 x hx h (by simp))

/-! ## Names -/

theorem trimName_eq {n m : MName} (hm : '@' ∉ m) : trimName n = m ↔ n = m ∨ ∃ rest, n = m ++ '@' :: rest := by
  unfold trimName
  constructor
  · intro h
    have hs := List.takeWhile_append_dropWhile (p := fun c : Char => decide (c ≠ '@')) (l := n)
    rw [h] at hs
    cases hr : n.dropWhile (fun c : Char => decide (c ≠ '@')) with
    | nil => left; rw [hr] at hs; simpa using hs.symm
    | cons c r =>
      have hc : c = '@' := by
        have := List.head_dropWhile_not (p := fun c : Char => decide (c ≠ '@')) (l := n) (by rw [hr]; simp)
        simp only [hr, List.head_cons] at this
        simpa using this
      right; exact ⟨r, by rw [← hs, hr, hc]⟩
  · have hall : ∀ c ∈ m, decide (c ≠ '@') = true := by
      intro c hc
      simp only [decide_eq_true_eq]
      rintro rfl
      exact hm hc
    rintro (rfl | ⟨r, rfl⟩)
    · rw [List.takeWhile_eq_self_iff]; exact hall
    · rw [List.takeWhile_append_of_pos hall]; simp

theorem trimName_no_at (n : MName) : '@' ∉ trimName n := by
  intro h
  have := List.mem_takeWhile_imp h
  simp at this

/-- What `translate` finds for a single required metric. -/
theorem translate_single (m : MName) (names : List MName) :
    (∀ n, translate [m] names m = some n → n ∈ names ∧ Names m n) ∧
    (translate [m] names m = none → ∀ n ∈ names, ¬ Names m n) := by
  unfold translate
  by_cases h : '@' ∈ m
  · have e : ([m].any fun q => decide ('@' ∈ q)) = true := by simp [h]
    rw [if_pos e]
    constructor
    · intro n hn
      split at hn
      · rename_i hm; cases hn; exact ⟨hm, .inl rfl⟩
      · cases hn
    · intro hn n hmem hnm
      rcases hnm with rfl | ⟨h', _⟩
      · rw [if_pos hmem] at hn; cases hn
      · exact h' h
  · have e : ¬ ([m].any fun q => decide ('@' ∈ q)) = true := by simp [h]
    rw [if_neg e]
    constructor
    · intro n hn
      have := List.mem_filter.1 (List.mem_of_getLast? hn)
      refine ⟨this.1, ?_⟩
      rcases (trimName_eq h).1 (by simpa using this.2) with h1 | h1
      · exact .inl h1
      · exact .inr ⟨h, h1⟩
    · intro hn n hmem hnm
      rw [List.getLast?_eq_none_iff, List.filter_eq_nil_iff] at hn
      refine hn n hmem ?_
      rw [decide_eq_true_eq, trimName_eq h]
      rcases hnm with h1 | ⟨_, h1⟩
      · exact .inl h1
      · exact .inr h1

/-! ## The largest value -/

/-- The index found by the loop is the first one with the largest value. -/
theorem bestGo_spec (all : List ℚ) : ∀ (l : List ℚ) (i : Nat) (b : ℚ) (bi : Nat), all.drop i = l →
    all[bi]? = some b → (bi < i ∨ i = 0 ∧ bi = 0) → (∀ j x, j < i → all[j]? = some x → x ≤ b ∧ (j < bi → x < b)) →
    ∃ v, all[bestGo l i b bi]? = some v ∧ ∀ j x, all[j]? = some x → x ≤ v ∧ (j < bestGo l i b bi → x < v)
  | [], i, b, bi, hl, hb, _, hall => by
    refine ⟨b, hb, fun j x hj => hall j x ?_ hj⟩
    have := List.drop_eq_nil_iff.1 hl
    have := (List.getElem?_eq_some_iff.1 hj).1
    omega
  | x :: xs, i, b, bi, hl, hb, hbi, hall => by
    have hx : all[i]? = some x := by
      have := congrArg List.head? hl
      simpa [List.head?_drop] using this
    have hxs : all.drop (i + 1) = xs := by
      rw [← List.drop_drop, hl]; rfl
    unfold bestGo
    split
    · rename_i hlt
      apply bestGo_spec all xs (i + 1) x i hxs hx (.inl (by omega))
      intro j y hj hy
      rcases Nat.lt_succ_iff_lt_or_eq.1 hj with hji | rfl
      · exact ⟨le_trans (hall j y hji hy).1 hlt.le, fun _ => lt_of_le_of_lt (hall j y hji hy).1 hlt⟩
      · rw [hx] at hy; cases hy; exact ⟨le_refl _, fun h => absurd h (by omega)⟩
    · rename_i hle
      apply bestGo_spec all xs (i + 1) b bi hxs hb (.inl (by omega))
      intro j y hj hy
      rcases Nat.lt_succ_iff_lt_or_eq.1 hj with hji | rfl
      · exact hall j y hji hy
      · rw [hx] at hy; cases hy
        exact ⟨not_lt.1 hle, fun h => absurd h (by omega)⟩

theorem maxBest_spec {vals : List ℚ} (hne : vals ≠ []) {epochs : List Nat} (hlen : vals.length ≤ epochs.length) :
    ∃ (j : Nat) (v : ℚ) (b : Nat), maxBest (some vals) epochs = .ok b ∧ epochs[j]? = some b ∧ vals[j]? = some v ∧
      ∀ (k : Nat) (x : ℚ), vals[k]? = some x → x ≤ v ∧ (k < j → x < v) := by
  obtain ⟨x, xs, rfl⟩ := List.exists_cons_of_ne_nil hne
  obtain ⟨v, hv, hmax⟩ := bestGo_spec (x :: xs) (x :: xs) 0 x 0 (by simp) (by simp) (.inr ⟨rfl, rfl⟩)
    (by intro j y hj; exact absurd hj (Nat.not_lt_zero _))
  have hj := (List.getElem?_eq_some_iff.1 hv).1
  refine ⟨_, v, epochs[bestGo (x :: xs) 0 x 0]'(by omega), ?_, ?_, hv, hmax⟩
  · unfold maxBest
    simp only [List.getElem?_eq_getElem (show bestGo (x :: xs) 0 x 0 < epochs.length by omega)]
  · rw [List.getElem?_eq_getElem]

theorem reported_length (n : MName) : ∀ H : List (Nat × Results),
    (H.filterMap fun h => valueOf h.2 n).length ≤ (H.filter fun h => !h.2.isEmpty).length
  | [] => by simp
  | (e, []) :: H => by
    have := reported_length n H
    rw [List.filterMap_cons_none (by simp [valueOf]), List.filter_cons_of_neg (by simp)]
    exact this
  | (e, p :: rs) :: H => by
    have := reported_length n H
    rw [List.filterMap_cons, List.filter_cons_of_pos (by simp)]
    split
    · simp; omega
    · simp; omega

theorem hist_mem {t : Tracker} {H : List (Nat × Results)} (h : Hist t H) (n : MName) :
    n ∈ t.results.map (·.1) ↔ ∃ h ∈ H, n ∈ h.2.map (·.1) := by
  rw [← storedVals_isSome]
  have h1 := h.vals n
  have h2 := h.pos n
  have key : (∃ h ∈ H, n ∈ h.2.map (·.1)) ↔ H.filterMap (fun h => valueOf h.2 n) ≠ [] := by
    rw [ne_eq, List.filterMap_eq_nil_iff]
    push Not
    constructor
    · rintro ⟨h, hh, hn⟩
      refine ⟨h, hh, ?_⟩
      rw [Option.ne_none_iff_isSome]
      unfold valueOf
      rw [Option.isSome_map, List.find?_isSome]
      obtain ⟨p, hp, rfl⟩ := List.mem_map.1 hn
      exact ⟨p, hp, by simp⟩
    · rintro ⟨h, hh, hn⟩
      refine ⟨h, hh, ?_⟩
      rw [Option.ne_none_iff_isSome] at hn
      unfold valueOf at hn
      rw [Option.isSome_map, List.find?_isSome] at hn
      obtain ⟨p, hp, e⟩ := hn
      exact List.mem_map.2 ⟨p, hp, by simpa using e⟩
  rw [key, ← h1]
  cases hs : storedVals t.results n with
  | none => simp
  | some l => simp only [Option.isSome_some, Option.getD_some, true_iff]; rintro rfl; exact h2 hs

/-- `compute` of the rule either finds an epoch of the history or reports missing results, the latter only
when no metric of the history is the requested one. -/
theorem maxRule_compute {t : Tracker} {H : List (Nat × Results)} (h : Hist t H) (m : MName) :
    (∃ b, (maxRule m).compute t = .ok b ∧ b ∈ H.map (·.1) ∧ ∃ h ∈ H, ∃ n ∈ h.2.map (·.1), Names m n) ∨
    ((maxRule m).compute t = .error .badValue ∧ ∀ h ∈ H, ∀ n ∈ h.2.map (·.1), ¬ Names m n) := by
  have hmem := hist_mem h
  obtain ⟨t1, t2⟩ := translate_single m (t.results.map (·.1))
  have hreq : (maxRule m).required = [m] := rfl
  unfold Rule.compute
  rw [hreq]
  cases hT : translate [m] (t.results.map (·.1)) m with
  | none =>
    right
    refine ⟨?_, ?_⟩
    · split
      · rfl
      · rw [if_pos (by simp [hT])]
    · intro x hx n hn
      exact t2 hT n ((hmem n).2 ⟨x, hx, hn⟩)
  | some n =>
    left
    obtain ⟨hn1, hn2⟩ := t1 n hT
    have hne : t.results ≠ [] := by rintro e; rw [e] at hn1; cases hn1
    obtain ⟨x, hx, hxn⟩ := (hmem n).1 hn1
    cases hs : storedVals t.results n with
    | none =>
      have := (storedVals_isSome t.results n).2 hn1
      rw [hs] at this; cases this
    | some l =>
      have hl : l ≠ [] := by rintro rfl; exact h.pos n hs
      have hv : valuesFor [m] t.results m = some l := by simp [valuesFor, hT, hs]
      have hlen : l.length ≤ t.epochs.length := by
        have := h.vals n
        rw [hs] at this
        simp only [Option.getD_some] at this
        rw [this, h.epochs, List.length_map]
        exact reported_length n H
      obtain ⟨j, v, b, hb1, hb2, _⟩ := maxBest_spec hl hlen
      refine ⟨b, ?_, ?_, x, hx, n, hxn, hn2⟩
      · rw [if_neg hne, if_neg (by simp [hT]), if_neg (by simp [hv, hl])]
        show maxBest (valuesFor [m] t.results m) t.epochs = _
        rw [hv, hb1]
      · have := List.mem_of_getElem? hb2
        rw [h.epochs] at this
        obtain ⟨y, hy, rfl⟩ := List.mem_map.1 this
        exact List.mem_map_of_mem (List.mem_filter.1 hy).1

/-! ## Weights -/

theorem assignAll_eq {α : Type} (g : Addr → α) : ∀ (l : List Addr) (h : Addr → α) (a : Addr),
    assignAll h (l.zip (l.map g)) a = if a ∈ l then g a else h a
  | [], h, a => by simp [assignAll]
  | b :: l, h, a => by
    have ih := assignAll_eq g l (fun x => if x = b then g b else h x) a
    show assignAll (fun x => if x = b then g b else h x) (l.zip (l.map g)) a = _
    rw [ih]
    by_cases h1 : a ∈ l
    · simp [h1]
    · by_cases h2 : a = b
      · subst h2; simp [h1]
      · simp [h1, h2]

theorem setWeights_self {α : Type} : ∀ (ls : List (List Addr)) (h : Addr → α), setWeights h (ls.zip ls) = h
  | [], h => rfl
  | l :: ls, h => by
    have : assignAll h (l.zip (l.map h)) = h := by
      funext a
      rw [assignAll_eq]
      split <;> rfl
    show setWeights (assignAll h (l.zip (l.map h))) (ls.zip ls) = h
    rw [this]
    exact setWeights_self ls h

theorem revert_ok {α : Type} {net : Net} {saved : List (Snap α)} {epoch : Nat} {g heap : Addr → α}
    (h : epochEntry saved epoch = some (snapshot net g)) :
    revert net saved epoch heap = .ok fun a => if a ∈ net.vars then g a else heap a := by
  unfold revert
  rw [h]
  simp only [snapshot, setWeights_self, Except.ok.injEq]
  funext a
  exact assignAll_eq g net.vars heap a

/-- Weights and stored weights after `k` epochs. -/
structure WeightsInv {α : Type} (c : FitCfg α) (net : Net) (heap : Addr → α) (k : Nat) (st : FitSt α) : Prop where
  live : st.heap = weightsAt c.train heap k
  saved : st.saved = (List.range' 1 k).map fun e => snapshot net (weightsAt c.train heap e)

theorem weights_step {α : Type} {c : FitCfg α} {net : Net} {heap : Addr → α} {k : Nat} {st : FitSt α}
    (h : WeightsInv c net heap k st) (t : Tracker) (v : LoopVars) :
    WeightsInv c net heap (k + 1)
      ⟨c.train (k + 1) st.heap, st.saved ++ [snapshot net (c.train (k + 1) st.heap)], t, v⟩ := by
  refine ⟨by rw [h.live]; rfl, ?_⟩
  simp only [h.saved, h.live, List.range'_1_concat, List.map_append, List.map_cons, List.map_nil]
  rw [Nat.add_comm 1 k]
  rfl

/-- Whatever the rule does, the loop keeps the weights of the epochs it ran. -/
theorem fitEpochs_weights {α : Type} {c : FitCfg α} {net : Net} {heap : Addr → α} : ∀ (n k : Nat) (st st' : FitSt α),
    WeightsInv c net heap k st → fitEpochs c net (List.range' (k + 1) n) st = .ok st' →
    ∃ j, k ≤ j ∧ j ≤ k + n ∧ WeightsInv c net heap j st'
  | 0, k, st, st', h, e => by
    simp only [List.range'_zero, fitEpochs, Except.ok.injEq] at e
    subst e
    exact ⟨k, le_refl _, by omega, h⟩
  | n + 1, k, st, st', h, e => by
    rw [List.range'_succ, fitEpochs] at e
    split at e
    · cases e
    · rename_i t _
      split at e
      · cases e
      · rename_i v _
        simp only at e
        split at e
        · cases e
          exact ⟨k + 1, by omega, by omega, weights_step h t v⟩
        · obtain ⟨j, h1, h2, h3⟩ := fitEpochs_weights n (k + 1) _ st' (weights_step h t v) e
          exact ⟨j, by omega, by omega, h3⟩

theorem saved_entry {α : Type} {c : FitCfg α} {net : Net} {heap : Addr → α} {k : Nat} {st : FitSt α}
    (h : WeightsInv c net heap k st) {b : Nat} (h1 : 1 ≤ b) (h2 : b ≤ k) :
    epochEntry st.saved b = some (snapshot net (weightsAt c.train heap b)) := by
  unfold epochEntry
  rw [if_neg (by omega), h.saved, List.getElem?_map, List.getElem?_range' (by omega)]
  simp only [Option.map_some, Option.some.injEq]
  congr 2
  omega

theorem saved_last {α : Type} {c : FitCfg α} {net : Net} {heap : Addr → α} {k : Nat} {st : FitSt α}
    (h : WeightsInv c net heap k st) (h1 : 1 ≤ k) :
    epochEntry st.saved 0 = some (snapshot net (weightsAt c.train heap k)) := by
  obtain ⟨k, rfl⟩ : ∃ j, k = j + 1 := ⟨k - 1, by omega⟩
  unfold epochEntry
  rw [if_pos rfl, h.saved, List.range'_1_concat, List.map_append]
  simp [Nat.add_comm 1 k]

theorem saved_length {α : Type} {c : FitCfg α} {net : Net} {heap : Addr → α} {k : Nat} {st : FitSt α}
    (h : WeightsInv c net heap k st) : st.saved.length = k := by
  rw [h.saved]; simp

/-! ## The loop -/

/-- The callback's results up to epoch `k`. -/
def calls {α : Type} (c : FitCfg α) (k : Nat) : List (Nat × Results) :=
  match c.callback with
  | none => []
  | some f => ((List.range (k + 1)).filter fun e =>
      decide (e % c.cbFreq = 0 ∧ (e = 0 → c.verbose = true))).map fun e => (e, f e)

theorem calls_lt {α : Type} {c : FitCfg α} {k : Nat} : ∀ h ∈ calls c k, h.1 < k + 1 := by
  intro h hh
  unfold calls at hh
  split at hh
  · cases hh
  · obtain ⟨e, he, rfl⟩ := List.mem_map.1 hh
    exact List.mem_range.1 (List.mem_filter.1 he).1

theorem calls_succ {α : Type} {c : FitCfg α} {f : Nat → Results} (hf : c.callback = some f) (k : Nat) :
    calls c (k + 1) = calls c k ++ if (k + 1) % c.cbFreq = 0 then [(k + 1, f (k + 1))] else [] := by
  unfold calls
  rw [hf]
  simp only
  rw [List.range_succ, List.filter_append, List.map_append]
  congr 1
  by_cases h : (k + 1) % c.cbFreq = 0 <;> simp [h]

theorem calls_none {α : Type} {c : FitCfg α} (hf : c.callback = none) (k : Nat) : calls c k = [] := by
  unfold calls; rw [hf]

theorem calls_mono {α : Type} (c : FitCfg α) (k : Nat) {b : Nat} (h : b ∈ (calls c k).map (·.1)) :
    b ∈ (calls c (k + 1)).map (·.1) := by
  cases hf : c.callback with
  | none => rw [calls_none hf] at h; cases h
  | some f =>
    rw [calls_succ hf, List.map_append]
    exact List.mem_append_left _ h

/-- The callback only returns dictionaries. -/
def DictCallback {α : Type} (c : FitCfg α) : Prop := ∀ f, c.callback = some f → ∀ e, IsDict (f e)

theorem hist_first {α : Type} (c : FitCfg α) (hd : DictCallback c) : Hist (firstTracker c) (calls c 0) := by
  unfold firstTracker calls
  cases hv : c.verbose with
  | false => cases hc : c.callback <;> simpa [hv] using hist_init
  | true =>
    cases hc : c.callback with
    | none => simpa using hist_init
    | some f =>
      have := hist_add hist_init (e := 0) (hd f hc 0) (by simp)
      simpa [hv] using this

theorem trackEpoch_ok {α : Type} {c : FitCfg α} (hd : DictCallback c) (hcb : 0 < c.cbFreq)
    (hon : (c.verbose || c.rule.isSome) = true) {k : Nat} {t : Tracker} (h : Hist t (calls c k)) :
    ∃ t', trackEpoch c (k + 1) t = .ok t' ∧ Hist t' (calls c (k + 1)) := by
  unfold trackEpoch
  rw [if_pos hon]
  cases hc : c.callback with
  | none => exact ⟨_, rfl, by rw [calls_none hc] at h ⊢; exact hist_loss h _⟩
  | some f =>
    simp only [onTick, if_neg (show c.cbFreq ≠ 0 by omega)]
    rw [calls_succ hc]
    by_cases hm : (k + 1) % c.cbFreq = 0
    · simp only [hm, decide_true, if_true]
      exact ⟨_, rfl, hist_add (hist_loss h _) (hd f hc _) calls_lt⟩
    · simp only [hm, decide_false, if_false, List.append_nil]
      exact ⟨_, rfl, hist_loss h _⟩

/-- The loop with the largest-value rule after `k` epochs. -/
structure LoopInv {α : Type} (c : FitCfg α) (m : MName) (k : Nat) (st : FitSt α) : Prop where
  hist : Hist st.tracker (calls c k)
  best : ∀ b, st.vars.best = some b → b ∈ (calls c k).map (·.1)
  zero : k = 0 → st.vars.e = none
  var : 0 < k → c.ruleFreq ∣ k → ∀ x, (maxRule m).compute st.tracker = .error x → st.vars.e = none
  ran : 0 < k → (c.ruleFreq ∣ k → ∃ b, (maxRule m).compute st.tracker = .ok b) → st.vars.e = some k
  found : 0 < k → c.ruleFreq ∣ k → ∀ b, (maxRule m).compute st.tracker = .ok b → st.vars.best = some b

theorem maxFit_loop {α : Type} {c : FitCfg α} {m : MName} (hr : c.rule = some (maxRule m)) (hd : DictCallback c)
    (hcb : 0 < c.cbFreq) (hrf : 0 < c.ruleFreq) {net : Net} {heap : Addr → α} : ∀ (n k : Nat) (st : FitSt α),
    WeightsInv c net heap k st → LoopInv c m k st →
    ∃ st', fitEpochs c net (List.range' (k + 1) n) st = .ok st' ∧ WeightsInv c net heap (k + n) st' ∧
      LoopInv c m (k + n) st'
  | 0, k, st, hw, hl => ⟨st, by simp [fitEpochs], hw, hl⟩
  | n + 1, k, st, hw, hl => by
    obtain ⟨t', ht, hh⟩ := trackEpoch_ok hd hcb (by rw [hr]; simp) hl.hist
    have hkey : ∃ v, ruleEpoch c (k + 1) t' st.vars.best = .ok v ∧ v.stop = false ∧
        LoopInv c m (k + 1) ⟨c.train (k + 1) st.heap, st.saved ++ [snapshot net (c.train (k + 1) st.heap)], t', v⟩ := by
      unfold ruleEpoch
      rw [hr]
      simp only [onTick, if_neg (show c.ruleFreq ≠ 0 by omega)]
      by_cases hm : (k + 1) % c.ruleFreq = 0
      · simp only [hm, decide_true]
        rcases maxRule_compute hh m with ⟨b, hb, hbm, _⟩ | ⟨hb, _⟩
        · rw [hb]
          refine ⟨_, rfl, rfl, hh, ?_, by omega, ?_, fun _ _ => rfl, ?_⟩
          · intro b' hb'
            cases hb'
            exact hbm
          · intro _ _ x hx
            rw [hb] at hx; cases hx
          · intro _ _ b' hb'
            rw [hb] at hb'; cases hb'; rfl
        · rw [hb]
          refine ⟨_, rfl, rfl, hh, ?_, by omega, fun _ _ _ _ => rfl, ?_, ?_⟩
          · intro b' hb'
            exact calls_mono c k (hl.best b' hb')
          · intro _ h
            obtain ⟨b, h⟩ := h (Nat.dvd_of_mod_eq_zero hm)
            rw [hb] at h; cases h
          · intro _ _ b' hb'
            rw [hb] at hb'; cases hb'
      · simp only [hm, decide_false]
        refine ⟨_, rfl, rfl, hh, ?_, by omega, ?_, fun _ _ => rfl, ?_⟩
        · intro b' hb'
          exact calls_mono c k (hl.best b' hb')
        · intro _ hdv
          exact absurd (Nat.mod_eq_zero_of_dvd hdv) hm
        · intro _ hdv
          exact absurd (Nat.mod_eq_zero_of_dvd hdv) hm
    obtain ⟨v, hv1, hv2, hv3⟩ := hkey
    obtain ⟨st', h1, h2, h3⟩ := maxFit_loop hr hd hcb hrf n (k + 1) _ (weights_step hw t' v) hv3
    refine ⟨st', ?_, ?_, ?_⟩
    · rw [List.range'_succ, fitEpochs, ht]
      simp only [hv1, hv2]
      exact h1
    · rwa [show k + (n + 1) = k + 1 + n by omega]
    · rwa [show k + (n + 1) = k + 1 + n by omega]

theorem maxFit_all {α : Type} {c : FitCfg α} {m : MName} (hr : c.rule = some (maxRule m)) (hd : DictCallback c)
    (hcb : 0 < c.cbFreq) (hrf : 0 < c.ruleFreq) (net : Net) (heap : Addr → α) :
    ∃ st', fitEpochs c net (List.range' 1 c.epochs) ⟨heap, [], firstTracker c, ⟨none, none, false⟩⟩ = .ok st' ∧
      WeightsInv c net heap c.epochs st' ∧ LoopInv c m c.epochs st' := by
  have := maxFit_loop hr hd hcb hrf (net := net) (heap := heap) c.epochs 0
    ⟨heap, [], firstTracker c, ⟨none, none, false⟩⟩ ⟨rfl, rfl⟩
    ⟨hist_first c hd, by simp, by simp, by omega, by omega, by omega⟩
  simpa using this

end DRec
