import Verif.Lemmas.Fit

/-!
# C54, C55, C56, C58: training, early stopping and loss tracking
-/

namespace DRec

open Spec

/-! ## C58 -/

theorem noteEpoch_sorted {e : Nat} {l : List Nat} (h : l.Pairwise (· < ·)) : (noteEpoch e l).Pairwise (· < ·) := by
  unfold noteEpoch
  split
  · rename_i hn
    rw [List.getLast?_eq_none_iff] at hn
    simp [hn]
  · rename_i x hx
    split
    · rename_i hlt
      obtain ⟨l', rfl⟩ := List.getLast?_eq_some_iff.1 hx
      rw [List.pairwise_append]
      refine ⟨h, by simp, ?_⟩
      intro a ha b hb
      simp only [List.mem_singleton] at hb
      subst hb
      rw [List.pairwise_append] at h
      rcases List.mem_append.1 ha with h1 | h1
      · exact lt_trans (h.2.2 a h1 x (by simp)) hlt
      · simp only [List.mem_singleton] at h1
        rw [h1]; exact hlt
    · exact h

/-- **C58.** After every sequence of operations the reported average is the mean of the losses added since
the last reset. -/
theorem C58_mean (ops : List TOp) : (ops.foldl TOp.run Tracker.init).avg = mean (lossesSince ops []) ∧
    (ops.foldl TOp.run Tracker.init).losses = lossesSince ops [] := by
  have gen : ∀ (ops : List TOp) (t : Tracker), t.avg = mean t.losses →
      (ops.foldl TOp.run t).avg = mean (lossesSince ops t.losses) ∧
      (ops.foldl TOp.run t).losses = lossesSince ops t.losses := by
    intro ops
    induction ops with
    | nil => intro t h; exact ⟨h, rfl⟩
    | cons o ops ih =>
      intro t h
      rw [List.foldl_cons]
      cases o with
      | loss x =>
        refine ih (t.addLoss x) ?_
        show t.avg + (x - t.avg) / ((t.losses ++ [x]).length : ℚ) = mean (t.losses ++ [x])
        rw [h]
        unfold mean
        rw [List.length_append, List.sum_append]
        simp only [List.length_cons, List.length_nil, List.sum_cons, List.sum_nil, Nat.cast_add, Nat.cast_one,
          zero_add, add_zero]
        have hp : (0 : ℚ) ≤ (t.losses.length : ℚ) := Nat.cast_nonneg _
        by_cases h0 : (t.losses.length : ℚ) = 0
        · have hl : t.losses = [] := by
            have : t.losses.length = 0 := by exact_mod_cast h0
            exact List.length_eq_zero_iff.1 this
          simp [hl]
        · have h1 : (t.losses.length : ℚ) + 1 ≠ 0 := by linarith
          field_simp
          ring
      | reset => exact ih t.reset (by simp [Tracker.reset, mean])
      | result m v e => exact ih (t.addResult m v e) h
  exact gen ops Tracker.init (by simp [Tracker.init, mean])

/-- **C58.** The list of callback epochs is strictly increasing and consists of epochs that were given. -/
theorem C58_epochs (ops : List TOp) :
    (ops.foldl TOp.run Tracker.init).epochs.Pairwise (· < ·) ∧
    ∀ e ∈ (ops.foldl TOp.run Tracker.init).epochs, ∃ m v, TOp.result m v e ∈ ops := by
  have gen : ∀ (ops : List TOp) (t : Tracker), t.epochs.Pairwise (· < ·) →
      (ops.foldl TOp.run t).epochs.Pairwise (· < ·) ∧
      ∀ e ∈ (ops.foldl TOp.run t).epochs, e ∈ t.epochs ∨ ∃ m v, TOp.result m v e ∈ ops := by
    intro ops
    induction ops with
    | nil => intro t h; exact ⟨h, fun e he => .inl he⟩
    | cons o ops ih =>
      intro t h
      rw [List.foldl_cons]
      cases o with
      | loss x =>
        obtain ⟨h1, h2⟩ := ih (t.addLoss x) h
        refine ⟨h1, fun e he => ?_⟩
        rcases h2 e he with h | ⟨m, v, h⟩
        · exact .inl h
        · exact .inr ⟨m, v, List.mem_cons_of_mem _ h⟩
      | reset =>
        obtain ⟨h1, h2⟩ := ih t.reset h
        refine ⟨h1, fun e he => ?_⟩
        rcases h2 e he with h | ⟨m, v, h⟩
        · exact .inl h
        · exact .inr ⟨m, v, List.mem_cons_of_mem _ h⟩
      | result m v e0 =>
        obtain ⟨h1, h2⟩ := ih (t.addResult m v e0) (noteEpoch_sorted h)
        refine ⟨h1, fun e he => ?_⟩
        rcases h2 e he with h | ⟨m', v', h⟩
        · have : e ∈ t.epochs ∨ e = e0 := by
            have h : e ∈ noteEpoch e0 t.epochs := h
            unfold noteEpoch at h
            split at h
            · simpa using h
            · split at h
              · simpa using h
              · exact .inl h
          rcases this with h | rfl
          · exact .inl h
          · exact .inr ⟨m, v, by simp⟩
        · exact .inr ⟨m', v', List.mem_cons_of_mem _ h⟩
  obtain ⟨h1, h2⟩ := gen ops Tracker.init (by simp [Tracker.init])
  refine ⟨h1, fun e he => ?_⟩
  rcases h2 e he with h | h
  · simp [Tracker.init] at h
  · exact h

/-- A run with a reset: the mean is 5 over the last two losses. -/
example : lossesSince [.loss 1, .reset, .loss 4, .result "A".toList 1 5, .loss 6] [] = [4, 6] ∧
    mean [4, 6] = 5 := by
  constructor
  · rfl
  · norm_num [mean]

/-! ## C54 -/

theorem firstMax_of_hist {t : Tracker} {H : List (Nat × Results)} (h : Hist t H)
    (hp : H.Pairwise fun a b => a.1 < b.1) (m n : MName) (hnm : Names m n)
    (hall : ∀ x ∈ H, x.2 ≠ [] → n ∈ x.2.map (·.1)) (huniq : ∀ x ∈ H, ∀ n' ∈ x.2.map (·.1), Names m n' → n' = n)
    (hne : ∃ x ∈ H, x.2 ≠ []) (val : Nat → ℚ) (hval : ∀ x ∈ H, x.2 ≠ [] → valueOf x.2 n = some (val x.1)) :
    ∃ b, (maxRule m).compute t = .ok b ∧ FirstMax ((H.filter fun x => !x.2.isEmpty).map (·.1)) val b := by
  have hmem := hist_mem h
  obtain ⟨x0, hx0, hx0'⟩ := hne
  have hnin : n ∈ t.results.map (·.1) := (hmem n).2 ⟨x0, hx0, hall x0 hx0 hx0'⟩
  obtain ⟨t1, t2⟩ := translate_single m (t.results.map (·.1))
  have hT : translate [m] (t.results.map (·.1)) m = some n := by
    cases hT : translate [m] (t.results.map (·.1)) m with
    | none => exact absurd hnm (t2 hT n hnin)
    | some n' =>
      obtain ⟨h1, h2⟩ := t1 n' hT
      obtain ⟨x, hx, hxn⟩ := (hmem n').1 h1
      rw [huniq x hx n' hxn h2]
  have hvals : H.filterMap (fun x => valueOf x.2 n) = ((H.filter fun x => !x.2.isEmpty).map (·.1)).map val := by
    clear hmem h hp huniq t1 t2 hT hnin hx0
    induction H with
    | nil => rfl
    | cons a H ih =>
      have ih := ih (fun x hx => hall x (List.mem_cons_of_mem _ hx)) (fun x hx => hval x (List.mem_cons_of_mem _ hx))
      by_cases ha : a.2 = []
      · rw [List.filterMap_cons_none (by simp [valueOf, ha]), List.filter_cons_of_neg (by simp [ha]), ih]
      · rw [List.filterMap_cons_some (f := fun x : Nat × Results => valueOf x.2 n) (hval a (by simp) ha), List.filter_cons_of_pos (by simp [ha]), ih]
        rfl
  have hs : storedVals t.results n = some (((H.filter fun x => !x.2.isEmpty).map (·.1)).map val) := by
    have := h.vals n
    rw [hvals] at this
    cases hc : storedVals t.results n with
    | none =>
      have := (storedVals_isSome t.results n).2 hnin
      rw [hc] at this; cases this
    | some l => rw [hc] at this; simp only [Option.getD_some] at this; rw [this]
  have hEs := h.epochs
  generalize hE : (H.filter fun x => !x.2.isEmpty).map (·.1) = E at hs hEs
  have hEp : E.Pairwise (· < ·) := by
    rw [← hE, List.pairwise_map]
    exact hp.filter _
  have hne : E.map val ≠ [] := by
    intro e
    apply h.pos n
    rw [hs, e]
  obtain ⟨j, v, b, hb1, hb2, hb3, hb4⟩ := maxBest_spec hne (epochs := E) (by simp)
  have hv : valuesFor [m] t.results m = some (E.map val) := by simp [valuesFor, hT, hs]
  refine ⟨b, ?_, List.mem_of_getElem? hb2, ?_⟩
  · have hrne : t.results ≠ [] := by rintro e; rw [e] at hnin; cases hnin
    unfold Rule.compute
    rw [show (maxRule m).required = [m] from rfl, if_neg hrne, if_neg (by simp [hT]), if_neg (by
      rw [List.any_cons, List.any_nil, hv]; simpa using hne)]
    show maxBest (valuesFor [m] t.results m) t.epochs = _
    rw [hv, hEs, hb1]
  · have hvb : v = val b := by
      rw [List.getElem?_map, hb2] at hb3
      simpa using hb3.symm
    intro e he
    obtain ⟨k, hk, hke⟩ := List.getElem_of_mem he
    have hx := hb4 k (val e) (by rw [List.getElem?_map, List.getElem?_eq_getElem hk, hke]; rfl)
    rw [hvb] at hx
    refine ⟨hx.1, fun hlt => hx.2 ?_⟩
    obtain ⟨hj, hjb⟩ := List.getElem?_eq_some_iff.1 hb2
    by_contra hjk
    rcases Nat.lt_or_eq_of_le (Nat.le_of_not_lt hjk) with h' | h'
    · have := List.pairwise_iff_getElem.1 hEp j k hj hk h'
      rw [hjb, hke] at this
      omega
    · subst h'
      rw [hjb] at hke
      omega

/-- **C54** (partial: every callback that reports anything reports the requested metric, under one name; the
full property has no such hypothesis and fails, see `C54_fails_missing`).  For every history of callback
results the rule picks the first epoch at which the requested metric has its largest value. -/
theorem C54_first_best_partial (H : List (Nat × Results)) (hd : ∀ x ∈ H, IsDict x.2)
    (hp : H.Pairwise fun a b => a.1 < b.1) (m n : MName) (hnm : Names m n)
    (hall : ∀ x ∈ H, x.2 ≠ [] → n ∈ x.2.map (·.1)) (huniq : ∀ x ∈ H, ∀ n' ∈ x.2.map (·.1), Names m n' → n' = n)
    (hne : ∃ x ∈ H, x.2 ≠ []) (val : Nat → ℚ) (hval : ∀ x ∈ H, x.2 ≠ [] → valueOf x.2 n = some (val x.1)) :
    ∃ b, (maxRule m).compute (replay H) = .ok b ∧
      FirstMax ((H.filter fun x => !x.2.isEmpty).map (·.1)) val b :=
  firstMax_of_hist (hist_replay H hd hp) hp m n hnm hall huniq hne val hval

/-- Results at epochs 0, 5 and 10 under the name `P@3`, requested as `P`; the second one is best. -/
example : ∃ (H : List (Nat × Results)) (m n : MName) (val : Nat → ℚ), (∀ x ∈ H, IsDict x.2) ∧
    H.Pairwise (fun a b => a.1 < b.1) ∧ Names m n ∧ m ≠ n ∧ (∀ x ∈ H, x.2 ≠ [] → n ∈ x.2.map (·.1)) ∧
    (∀ x ∈ H, ∀ n' ∈ x.2.map (·.1), Names m n' → n' = n) ∧ (∃ x ∈ H, x.2 ≠ []) ∧
    (∀ x ∈ H, x.2 ≠ [] → valueOf x.2 n = some (val x.1)) ∧
    ((maxRule m).compute (replay H)).toOption = some 5 := by
  refine ⟨[(0, [("P@3".toList, 1)]), (5, [("P@3".toList, 3), ("R".toList, 9)]), (10, [("P@3".toList, 3)])],
    "P".toList, "P@3".toList, fun e => if e = 0 then 1 else 3, by unfold IsDict; decide, by decide,
    .inr ⟨by decide, "3".toList, by decide⟩, by decide, by decide, ?_, ⟨_, List.mem_cons_self, by decide⟩, by decide +kernel,
    by decide +kernel⟩
  intro x hx n' hn' h
  have : n' = "P@3".toList ∨ n' = "R".toList := by
    simp only [List.mem_cons, List.not_mem_nil, or_false] at hx
    rcases hx with rfl | rfl | rfl <;> simp at hn' <;> first | exact .inl hn' | exact hn'
  rcases this with rfl | rfl
  · rfl
  · rcases h with h | ⟨_, r, h⟩
    · exact absurd h (by decide)
    · exact absurd (congrArg List.length h) (by simp)

/-- **C54 fails** when a metric is missing from one callback: `B` is reported once, at epoch 10, and epoch 5
is chosen. -/
theorem C54_fails_missing : ∃ (H : List (Nat × Results)) (m : MName), (∀ x ∈ H, IsDict x.2) ∧
    H.Pairwise (fun a b => a.1 < b.1) ∧ (maxRule m).compute (replay H) = .ok 5 ∧
    ∀ x ∈ H, x.1 = 5 → valueOf x.2 m = none :=
  ⟨[(5, [("A".toList, 1)]), (10, [("A".toList, 1), ("B".toList, 2)])], "B".toList,
    by unfold IsDict; decide, by decide, by
      have : ((maxRule "B".toList).compute (replay [(5, [("A".toList, 1)]),
        (10, [("A".toList, 1), ("B".toList, 2)])])).toOption = some 5 := by decide +kernel
      revert this
      generalize (maxRule "B".toList).compute _ = r
      intro h
      cases r with
      | error e => cases h
      | ok b => cases h; rfl, by decide +kernel⟩

/-! ## `fit` with the largest-value rule -/

theorem calls_eq {α : Type} {c : FitCfg α} {f : Nat → Results} (hf : c.callback = some f) :
    calls c c.epochs = (validated c).map fun e => (e, f e) := by
  unfold calls validated; rw [hf]

theorem calls_pairwise {α : Type} (c : FitCfg α) (k : Nat) : (calls c k).Pairwise fun a b => a.1 < b.1 := by
  unfold calls
  split
  · simp
  · rw [List.pairwise_map]
    exact List.Pairwise.filter _ List.pairwise_lt_range

/-- The best epoch when the loop variable is bound. -/
theorem ruleAfter_ok {α : Type} {c : FitCfg α} {m : MName} (hr : c.rule = some (maxRule m)) (hrf : 0 < c.ruleFreq)
    {st : FitSt α} (hl : LoopInv c m c.epochs st) :
    (c.epochs = 0 → ∃ x, ruleAfter c st.tracker st.vars = .error x) ∧
    (0 < c.epochs → c.ruleFreq ∣ c.epochs → ∀ x, (maxRule m).compute st.tracker = .error x →
      ∃ x, ruleAfter c st.tracker st.vars = .error x) ∧
    (0 < c.epochs → ∀ b, (maxRule m).compute st.tracker = .ok b →
      ruleAfter c st.tracker st.vars = .ok (some b)) ∧
    (0 < c.epochs → ¬ c.ruleFreq ∣ c.epochs → (maxRule m).compute st.tracker = .error .badValue →
      ruleAfter c st.tracker st.vars = .ok st.vars.best) := by
  refine ⟨?_, ?_, ?_, ?_⟩
  · intro h0
    simp [ruleAfter, hr, hl.zero h0]
  · intro h0 hdv x hx
    simp [ruleAfter, hr, hl.var h0 hdv x hx]
  · intro h0 b hb
    have hv := hl.ran h0 (fun _ => ⟨b, hb⟩)
    by_cases hdv : c.ruleFreq ∣ c.epochs
    · simp [ruleAfter, hr, hv, onTick, hrf.ne', Nat.mod_eq_zero_of_dvd hdv, hl.found h0 hdv b hb]
    · have : ¬ c.epochs % c.ruleFreq = 0 := fun h => hdv (Nat.dvd_of_mod_eq_zero h)
      simp [ruleAfter, hr, hv, onTick, hrf.ne', this, hb]
  · intro h0 hdv hb
    have hv := hl.ran h0 (fun h => absurd h hdv)
    have : ¬ c.epochs % c.ruleFreq = 0 := fun h => hdv (Nat.dvd_of_mod_eq_zero h)
    simp [ruleAfter, hr, hv, onTick, hrf.ne', this, hb]

/-- Going back to an epoch that was run never fails. -/
theorem revertBest_ok {α : Type} {c : FitCfg α} {net : Net} {heap : Addr → α} {st : FitSt α}
    (hw : WeightsInv c net heap c.epochs st) (h0 : 0 < c.epochs) {best : Option Nat}
    (hb : ∀ b, best = some b → b ≤ c.epochs) : ∃ g, revertBest c.epochs net st.saved best st.heap = .ok g := by
  unfold revertBest
  cases best with
  | none => exact ⟨_, rfl⟩
  | some b =>
    simp only
    split
    · exact ⟨_, rfl⟩
    · rcases Nat.eq_zero_or_pos b with rfl | hp
      · exact ⟨_, revert_ok (saved_last hw h0)⟩
      · exact ⟨_, revert_ok (saved_entry hw hp (hb b rfl))⟩

/-- The requested metric is reported at some validated epoch. -/
def Spec.Reported {α : Type} (c : FitCfg α) (m : MName) : Prop :=
  ∃ f, c.callback = some f ∧ ∃ e ∈ validated c, ∃ n ∈ (f e).map (·.1), Names m n

/-- Every metric is reported whenever any is. -/
def Spec.SameMetrics {α : Type} (c : FitCfg α) : Prop :=
  ∀ f, c.callback = some f → ∀ e ∈ validated c, ∀ e' ∈ validated c, f e' ≠ [] →
    ∀ n ∈ (f e).map (·.1), n ∈ (f e').map (·.1)

theorem reported_iff {α : Type} (c : FitCfg α) (m : MName) :
    (∃ h ∈ calls c c.epochs, ∃ n ∈ h.2.map (·.1), Names m n) ↔ Spec.Reported c m := by
  unfold Spec.Reported
  cases hf : c.callback with
  | none => simp [calls_none hf]
  | some f =>
    rw [calls_eq hf]
    constructor
    · rintro ⟨h, hh, n, hn, hnm⟩
      obtain ⟨e, he, rfl⟩ := List.mem_map.1 hh
      exact ⟨f, rfl, e, he, n, hn, hnm⟩
    · rintro ⟨f', hf', e, he, n, hn, hnm⟩
      cases hf'
      exact ⟨_, List.mem_map_of_mem he, n, hn, hnm⟩

/-- The graph can be drawn exactly when every metric is reported whenever any is. -/
theorem display_iff {α : Type} {c : FitCfg α} {t : Tracker} (h : Hist t (calls c c.epochs)) :
    (∃ u, display t = .ok u) ↔ Spec.SameMetrics c := by
  have key : (∃ u, display t = .ok u) ↔ ∀ p ∈ t.results, p.2.length = t.epochs.length := by
    unfold display
    split
    · rename_i hc
      simp only [List.all_eq_true, decide_eq_true_eq] at hc
      exact ⟨fun _ => hc, fun _ => ⟨_, rfl⟩⟩
    · rename_i hc
      simp only [List.all_eq_true, decide_eq_true_eq] at hc
      exact ⟨fun ⟨_, e⟩ => (by cases e), fun e => absurd e hc⟩
  rw [key]
  have cnt : ∀ (n : MName) (H : List (Nat × Results)),
      (H.filterMap fun h => valueOf h.2 n).length = (H.filter fun h => !h.2.isEmpty).length ↔
      ∀ x ∈ H, x.2 ≠ [] → n ∈ x.2.map (·.1) := by
    intro n H
    induction H with
    | nil => simp
    | cons a H ih =>
      have hle := reported_length n H
      by_cases ha : a.2 = []
      · rw [List.filterMap_cons_none (by simp [valueOf, ha]), List.filter_cons_of_neg (by simp [ha]), ih]
        simp [ha]
      · by_cases hn : n ∈ a.2.map (·.1)
        · obtain ⟨v, hv⟩ : ∃ v, valueOf a.2 n = some v := by
            rw [← Option.isSome_iff_exists]
            unfold valueOf
            rw [Option.isSome_map, List.find?_isSome]
            obtain ⟨p, hp, rfl⟩ := List.mem_map.1 hn
            exact ⟨p, hp, by simp⟩
          rw [List.filterMap_cons_some (f := fun h : Nat × Results => valueOf h.2 n) hv, List.filter_cons_of_pos (by simp [ha])]
          simp only [List.length_cons, Nat.add_right_cancel_iff, ih, List.forall_mem_cons]
          exact ⟨fun h => ⟨fun _ => hn, h⟩, fun h => h.2⟩
        · have hv : valueOf a.2 n = none := by
            unfold valueOf
            rw [Option.map_eq_none_iff, List.find?_eq_none]
            intro p hp e
            exact hn (List.mem_map.2 ⟨p, hp, by simpa using e⟩)
          rw [List.filterMap_cons_none (f := fun h : Nat × Results => valueOf h.2 n) hv, List.filter_cons_of_pos (by simp [ha])]
          constructor
          · intro h
            rw [List.length_cons] at h
            omega
          · intro h
            exact absurd (h a (by simp) ha) hn
  have len : ∀ p ∈ t.results, p.2 = (calls c c.epochs).filterMap fun h => valueOf h.2 p.1 := by
    intro p hp
    rw [← h.vals p.1]
    have : storedVals t.results p.1 = some p.2 := by
      unfold storedVals
      rw [Option.map_eq_some_iff]
      refine ⟨p, ?_, rfl⟩
      cases hf : t.results.find? fun q => decide (q.1 = p.1) with
      | none =>
        rw [List.find?_eq_none] at hf
        exact absurd (by simp) (hf p hp)
      | some q =>
        have h1 := List.find?_some hf
        have h2 := List.mem_of_find?_eq_some hf
        simp only [decide_eq_true_eq] at h1
        rw [List.inj_on_of_nodup_map h.nodup h2 hp h1]
    rw [this]; rfl
  have e1 : (∀ p ∈ t.results, p.2.length = t.epochs.length) ↔
      ∀ n ∈ t.results.map (·.1), ∀ x ∈ calls c c.epochs, x.2 ≠ [] → n ∈ x.2.map (·.1) := by
    constructor
    · intro hl n hn
      obtain ⟨p, hp, rfl⟩ := List.mem_map.1 hn
      rw [← cnt, ← len p hp, hl p hp, h.epochs, List.length_map]
    · intro hl p hp
      have := (cnt p.1 (calls c c.epochs)).2 (hl p.1 (List.mem_map_of_mem hp))
      rw [← len p hp] at this
      rw [this, h.epochs, List.length_map]
  rw [e1]
  unfold Spec.SameMetrics
  have hm := hist_mem h
  cases hf : c.callback with
  | none => simp [calls_none hf]
  | some f =>
    rw [calls_eq hf] at hm ⊢
    constructor
    · intro h g hg e he e' he' hne n hn
      cases hg
      exact h n ((hm n).2 ⟨_, List.mem_map_of_mem he, hn⟩) _ (List.mem_map_of_mem he') hne
    · intro h n hn x hx hne
      obtain ⟨y, hy, hyn⟩ := (hm n).1 hn
      obtain ⟨e, he, rfl⟩ := List.mem_map.1 hy
      obtain ⟨e', he', rfl⟩ := List.mem_map.1 hx
      exact h f rfl e he e' he' hne n hyn

/-- **C56** (partial: exactly when `fit` with `MaxValidationValueRule` completes; the full property is that it
always does, and fails in the remaining cases, see below).  It completes iff there is an epoch, the metric
was reported in case the rule is due at the very last epoch, and, when verbose, every metric was reported
at every callback. -/
theorem C56_completes_partial {α : Type} (c : FitCfg α) (m : MName) (hr : c.rule = some (maxRule m))
    (hd : DictCallback c) (hcb : 0 < c.cbFreq) (hrf : 0 < c.ruleFreq) (net : Net)
    (hnet : ¬ (net.vars = [] ∧ net.layers = [] ∧ net.models = [])) (heap : Addr → α) :
    (∃ r, fit c net heap = .ok r) ↔
      0 < c.epochs ∧ (c.ruleFreq ∣ c.epochs → Spec.Reported c m) ∧ (c.verbose = true → Spec.SameMetrics c) := by
  obtain ⟨st, hst, hw, hl⟩ := maxFit_all hr hd hcb hrf net heap
  obtain ⟨a1, a2, a3, a4⟩ := ruleAfter_ok hr hrf hl
  have hfit : fit c net heap = fitEnd c net st := by
    unfold fit
    rw [if_neg hnet, hst]
  have hshow : (∃ u, (if c.verbose then display st.tracker else .ok ()) = .ok u) ↔
      (c.verbose = true → Spec.SameMetrics c) := by
    cases c.verbose with
    | false => simp
    | true => simpa using display_iff hl.hist
  have hend : ∀ best, ruleAfter c st.tracker st.vars = .ok best → (∀ b, best = some b → b ≤ c.epochs) →
      0 < c.epochs → ((∃ r, fitEnd c net st = .ok r) ↔ (c.verbose = true → Spec.SameMetrics c)) := by
    intro best hbest hle h0
    obtain ⟨g, hg⟩ := revertBest_ok hw h0 hle
    rw [← hshow]
    unfold fitEnd
    rw [hbest]
    simp only [hg]
    cases hs : (if c.verbose then display st.tracker else .ok ()) <;> simp
  have herr : (∃ x, ruleAfter c st.tracker st.vars = .error x) → ¬ ∃ r, fitEnd c net st = .ok r := by
    rintro ⟨x, hx⟩ ⟨r, h⟩
    unfold fitEnd at h
    rw [hx] at h
    cases h
  rw [hfit]
  rcases Nat.eq_zero_or_pos c.epochs with h0 | h0
  · exact ⟨fun h => absurd h (herr (a1 h0)), fun h => by omega⟩
  · rcases maxRule_compute hl.hist m with ⟨b, hb, hbm, hrep⟩ | ⟨hb, hno⟩
    · rw [reported_iff] at hrep
      rw [hend _ (a3 h0 b hb) (by
        intro b' hb'
        cases hb'
        obtain ⟨x, hx, rfl⟩ := List.mem_map.1 hbm
        have := calls_lt x hx
        omega) h0]
      exact ⟨fun h => ⟨h0, fun _ => hrep, h⟩, fun h => h.2.2⟩
    · have hno' : ¬ Spec.Reported c m := by
        rw [← reported_iff]
        rintro ⟨h, hh, n, hn, hnm⟩
        exact hno h hh n hn hnm
      by_cases hdv : c.ruleFreq ∣ c.epochs
      · exact ⟨fun h => absurd h (herr (a2 h0 hdv _ hb)), fun h => absurd (h.2.1 hdv) hno'⟩
      · rw [hend _ (a4 h0 hdv hb) (fun b hb => by
          obtain ⟨x, hx, rfl⟩ := List.mem_map.1 (hl.best b hb)
          have := calls_lt x hx
          omega) h0]
        exact ⟨fun h => ⟨h0, fun h' => absurd h' hdv, h⟩, fun h => h.2.2⟩

/-- Training that adds 1 to every weight. -/
def exFit (epochs : Nat) (verbose : Bool) (callback : Option (Nat → Results)) : FitCfg ℚ :=
  ⟨epochs, verbose, callback, 5, some (maxRule "P".toList), 5, fun _ => 0, fun _ h a => h a + 1⟩

/-- A callback reporting `P`. -/
def exReport : Nat → Results := fun e => [("P".toList, if e = 5 then 2 else 1)]

example : (exFit 10 true (some exReport)).rule = some (maxRule "P".toList) ∧ DictCallback (exFit 10 true (some exReport)) ∧
    Spec.Reported (exFit 10 true (some exReport)) "P".toList ∧ Spec.SameMetrics (exFit 10 true (some exReport)) := by
  refine ⟨rfl, ?_, ⟨exReport, rfl, 5, by decide, "P".toList, by decide, .inl rfl⟩, ?_⟩
  · intro f hf e
    cases hf
    simp [IsDict, exReport]
  · intro f hf e he e' he' _ n hn
    cases hf
    simpa [exReport] using hn

/-- **C56 fails** for zero epochs: whatever rule is given, `fit` raises. -/
theorem C56_fails_zero {α : Type} (c : FitCfg α) (R : Rule) (hr : c.rule = some R) (h0 : c.epochs = 0) (net : Net)
    (hnet : ¬ (net.vars = [] ∧ net.layers = [] ∧ net.models = [])) (heap : Addr → α) :
    fit c net heap = .error .crash := by
  unfold fit
  rw [if_neg hnet, h0]
  simp [fitEpochs, fitEnd, ruleAfter, hr]

/-- **C56 fails** without validation results: with a rule but no callback, `fit` raises whenever the number of
epochs is a multiple of the rule's frequency. -/
theorem C56_fails_no_results {α : Type} (c : FitCfg α) (m : MName) (hr : c.rule = some (maxRule m))
    (hc : c.callback = none) (hcb : 0 < c.cbFreq) (hrf : 0 < c.ruleFreq) (hdv : c.ruleFreq ∣ c.epochs) (net : Net)
    (hnet : ¬ (net.vars = [] ∧ net.layers = [] ∧ net.models = [])) (heap : Addr → α) :
    ∀ r, fit c net heap ≠ .ok r := by
  intro r hr'
  have h := (C56_completes_partial c m hr (by intro f hf; rw [hc] at hf; cases hf) hcb hrf net hnet heap).1 ⟨r, hr'⟩
  obtain ⟨f, hf, _⟩ := h.2.1 hdv
  rw [hc] at hf; cases hf

example : (exFit 10 false none).rule = some (maxRule "P".toList) ∧ (exFit 10 false none).callback = none ∧
    (exFit 10 false none).ruleFreq ∣ (exFit 10 false none).epochs ∧
    (fit (exFit 10 false none) ⟨[0], [], []⟩ fun _ => 0).toOption.isNone := by
  refine ⟨rfl, rfl, by decide, by decide +kernel⟩

/-- **C54** in `fit` (partial as above).  The epoch `fit` goes back to is the first validated epoch with the largest
value of the requested metric. -/
theorem C54_fit_partial {α : Type} (c : FitCfg α) (m n : MName) (hr : c.rule = some (maxRule m))
    (f : Nat → Results) (hf : c.callback = some f) (hd : ∀ e, IsDict (f e)) (hcb : 0 < c.cbFreq)
    (hrf : 0 < c.ruleFreq) (net : Net) (hnet : ¬ (net.vars = [] ∧ net.layers = [] ∧ net.models = []))
    (heap : Addr → α) (hnm : Names m n) (val : Nat → ℚ) (hval : ∀ e ∈ validated c, valueOf (f e) n = some (val e))
    (huniq : ∀ e ∈ validated c, ∀ n' ∈ (f e).map (·.1), Names m n' → n' = n) (hv : validated c ≠ [])
    (r : Fitted α) (h : fit c net heap = .ok r) :
    ∃ b, r.best = some b ∧ FirstMax (validated c) val b := by
  obtain ⟨st, hst, hw, hl⟩ := maxFit_all hr (by intro g hg; rw [hf] at hg; cases hg; exact hd) hcb hrf net heap
  have hne : ∀ e ∈ validated c, f e ≠ [] := by
    intro e he h0
    have := hval e he
    rw [h0] at this
    cases this
  have hin : ∀ e ∈ validated c, n ∈ (f e).map (·.1) := by
    intro e he
    have := hval e he
    unfold valueOf at this
    rw [Option.map_eq_some_iff] at this
    obtain ⟨p, hp, _⟩ := this
    exact List.mem_map.2 ⟨p, List.mem_of_find?_eq_some hp, by simpa using List.find?_some hp⟩
  have hc := calls_eq hf
  have hh := hl.hist
  obtain ⟨b, hb, hfm⟩ := firstMax_of_hist hh (calls_pairwise c c.epochs) m n hnm
    (by
      rw [hc]
      intro x hx _
      obtain ⟨e, he, rfl⟩ := List.mem_map.1 hx
      exact hin e he)
    (by
      rw [hc]
      intro x hx
      obtain ⟨e, he, rfl⟩ := List.mem_map.1 hx
      exact huniq e he)
    (by
      obtain ⟨e, l, he⟩ := List.exists_cons_of_ne_nil hv
      have he : e ∈ validated c := by rw [he]; simp
      rw [hc]
      exact ⟨_, List.mem_map_of_mem he, hne e he⟩) val
    (by
      rw [hc]
      intro x hx _
      obtain ⟨e, he, rfl⟩ := List.mem_map.1 hx
      exact hval e he)
  have hE : ((calls c c.epochs).filter fun x => !x.2.isEmpty).map (·.1) = validated c := by
    rw [hc, List.filter_eq_self.2]
    · rw [List.map_map]; exact List.map_id' _
    · intro x hx
      obtain ⟨e, he, rfl⟩ := List.mem_map.1 hx
      simpa using hne e he
  rw [hE] at hfm
  obtain ⟨a1, _, a3, _⟩ := ruleAfter_ok hr hrf hl
  unfold fit at h
  rw [if_neg hnet, hst] at h
  simp only [fitEnd] at h
  rcases Nat.eq_zero_or_pos c.epochs with h0 | h0
  · obtain ⟨x, hx⟩ := a1 h0
    rw [hx] at h; cases h
  · rw [a3 h0 b hb] at h
    simp only at h
    split at h
    · cases h
    · split at h
      · cases h
      · cases h
        exact ⟨b, rfl, hfm⟩

example : validated (exFit 10 true (some exReport)) = [0, 5, 10] ∧
    (∀ e ∈ validated (exFit 10 true (some exReport)), valueOf (exReport e) "P".toList = some (if e = 5 then 2 else 1)) ∧
    ((fit (exFit 10 true (some exReport)) ⟨[0], [], []⟩ fun _ => 0).toOption.map (·.best)) = some (some 5) := by
  refine ⟨by decide, by decide +kernel, by decide +kernel⟩

/-! ## C55 -/

theorem fit_weights {α : Type} {c : FitCfg α} {net : Net} {heap : Addr → α} {r : Fitted α}
    (h : fit c net heap = .ok r) (hnet : ¬ (net.vars = [] ∧ net.layers = [] ∧ net.models = [])) :
    ∃ st, WeightsInv c net heap r.ran st ∧ r.ran ≤ c.epochs ∧
      revertBest c.epochs net st.saved r.best st.heap = .ok r.heap := by
  unfold fit at h
  rw [if_neg hnet] at h
  split at h
  · cases h
  · rename_i st hst
    obtain ⟨j, _, hj, hw⟩ := fitEpochs_weights c.epochs 0 _ st
      (⟨rfl, rfl⟩ : WeightsInv c net heap 0 ⟨heap, [], firstTracker c, ⟨none, none, false⟩⟩) hst
    unfold fitEnd at h
    split at h
    · cases h
    · rename_i best hbest
      split at h
      · cases h
      · rename_i g hg
        split at h
        · cases h
        · cases h
          have hlen := saved_length hw
          refine ⟨st, ?_, ?_, hg⟩
          · show WeightsInv c net heap st.saved.length st
            rw [hlen]; exact hw
          · show st.saved.length ≤ _
            omega

/-- **C55** (partial: for trainables registered as plain variables and a best epoch of at least 1 that was run; the
full property also covers layers and keras models and the epoch before training, where it fails, see
below).  After `fit`, every registered variable has the value it had at the end of the best epoch, for
every rule and training step. -/
theorem C55_restored_partial {α : Type} (c : FitCfg α) (net : Net) (heap : Addr → α) (r : Fitted α)
    (h : fit c net heap = .ok r) (b : Nat) (hb : r.best = some b) (h1 : 1 ≤ b) (h2 : b ≤ r.ran)
    (a : Addr) (ha : a ∈ net.vars) : r.heap a = weightsAt c.train heap b a := by
  have hnet : ¬ (net.vars = [] ∧ net.layers = [] ∧ net.models = []) := by
    rintro ⟨e, _⟩; rw [e] at ha; cases ha
  obtain ⟨st, hw, hle, hrev⟩ := fit_weights h hnet
  rw [hb] at hrev
  simp only [revertBest] at hrev
  split at hrev
  · rename_i he
    rw [← Except.ok.inj hrev, hw.live, show r.ran = b by omega]
  · rw [revert_ok (saved_entry hw h1 h2)] at hrev
    rw [← Except.ok.inj hrev]
    simp [ha]

/-- **C55** for `MaxValidationValueRule` without verbose output (partial: for plain variables).  The hypotheses
above hold by themselves. -/
theorem C55_max_rule_partial {α : Type} (c : FitCfg α) (m : MName) (hr : c.rule = some (maxRule m))
    (hv : c.verbose = false) (hd : DictCallback c) (hcb : 0 < c.cbFreq) (hrf : 0 < c.ruleFreq) (net : Net)
    (heap : Addr → α) (r : Fitted α) (h : fit c net heap = .ok r) (b : Nat) (hb : r.best = some b)
    (a : Addr) (ha : a ∈ net.vars) : r.heap a = weightsAt c.train heap b a := by
  have hnet : ¬ (net.vars = [] ∧ net.layers = [] ∧ net.models = []) := by
    rintro ⟨e, _⟩; rw [e] at ha; cases ha
  obtain ⟨st, hst, hw, hl⟩ := maxFit_all hr hd hcb hrf net heap
  have hmem : b ∈ (calls c c.epochs).map (·.1) ∧ r.ran = c.epochs := by
    have h := h
    unfold fit at h
    rw [if_neg hnet, hst] at h
    simp only [fitEnd] at h
    split at h
    · cases h
    · rename_i best hbest
      split at h
      · cases h
      · split at h
        · cases h
        · cases h
          refine ⟨?_, saved_length hw⟩
          simp only at hb
          subst hb
          unfold ruleAfter at hbest
          rw [hr] at hbest
          simp only at hbest
          split at hbest
          · cases hbest
          · split at hbest
            · cases hbest
            · exact hl.best b (Except.ok.inj hbest)
            · rcases maxRule_compute hl.hist m with ⟨b', hb', hm', _⟩ | ⟨hb', _⟩
              · rw [hb'] at hbest
                cases hbest
                exact hm'
              · rw [hb'] at hbest
                exact hl.best b (Except.ok.inj hbest)
  obtain ⟨x, hx, rfl⟩ := List.mem_map.1 hmem.1
  have hlt := calls_lt x hx
  have hpos : x.1 ≠ 0 := by
    unfold calls at hx
    split at hx
    · cases hx
    · obtain ⟨e, he, rfl⟩ := List.mem_map.1 hx
      have := (List.mem_filter.1 he).2
      simp only [hv, decide_eq_true_eq] at this
      intro h0
      exact absurd (this.2 h0) (by simp)
  exact C55_restored_partial c net heap r h x.1 hb (by omega) (by omega) a ha

/-- **C55**, without best epoch the weights are those of the last epoch that was run. -/
theorem C55_no_best {α : Type} (c : FitCfg α) (net : Net) (heap : Addr → α) (r : Fitted α)
    (hnet : ¬ (net.vars = [] ∧ net.layers = [] ∧ net.models = [])) (h : fit c net heap = .ok r)
    (hb : r.best = none) : r.heap = weightsAt c.train heap r.ran := by
  obtain ⟨st, hw, hle, hrev⟩ := fit_weights h hnet
  rw [hb] at hrev
  rw [← Except.ok.inj hrev]
  exact hw.live

/-- **C55 fails** for the weights of layers and keras models: whatever epoch is best, they keep the values of the
last epoch. -/
theorem C55_fails_layers {α : Type} (c : FitCfg α) (net : Net) (heap : Addr → α) (r : Fitted α)
    (hnet : ¬ (net.vars = [] ∧ net.layers = [] ∧ net.models = [])) (h : fit c net heap = .ok r)
    (hran : 1 ≤ r.ran) (hb : ∀ b, r.best = some b → b ≤ r.ran) (a : Addr) (ha : a ∉ net.vars) :
    r.heap a = weightsAt c.train heap r.ran a := by
  obtain ⟨st, hw, hle, hrev⟩ := fit_weights h hnet
  unfold revertBest at hrev
  split at hrev
  · rw [← Except.ok.inj hrev, hw.live]
  · rename_i b hbest
    split at hrev
    · rw [← Except.ok.inj hrev, hw.live]
    · rcases Nat.eq_zero_or_pos b with rfl | hp
      · rw [revert_ok (saved_last hw hran)] at hrev
        rw [← Except.ok.inj hrev]
        simp [ha, hw.live]
      · rw [revert_ok (saved_entry hw hp (hb b hbest))] at hrev
        rw [← Except.ok.inj hrev]
        simp [ha, hw.live]

/-- **C55 fails** when the best epoch is 0, the one before training: the weights of the last epoch are kept. -/
theorem C55_fails_epoch_zero {α : Type} (c : FitCfg α) (net : Net) (heap : Addr → α) (r : Fitted α)
    (hnet : ¬ (net.vars = [] ∧ net.layers = [] ∧ net.models = [])) (h : fit c net heap = .ok r)
    (hran : 1 ≤ r.ran) (hb : r.best = some 0) : r.heap = weightsAt c.train heap r.ran := by
  obtain ⟨st, hw, hle, hrev⟩ := fit_weights h hnet
  rw [hb] at hrev
  simp only [revertBest] at hrev
  split at hrev
  · rw [← Except.ok.inj hrev]; exact hw.live
  · rw [revert_ok (saved_last hw hran)] at hrev
    rw [← Except.ok.inj hrev]
    funext a
    rw [hw.live]
    split <;> rfl

/-- Ten epochs, the fifth is best: the variable at address 0 is back at 5, the layer's at address 1 is at 10. -/
example : ∃ r, fit (exFit 10 false (some exReport)) ⟨[0], [[1]], []⟩ (fun _ => 0) = .ok r ∧ r.best = some 5 ∧
    r.ran = 10 ∧ r.heap 0 = 5 ∧ r.heap 1 = 10 := by
  have : ((fit (exFit 10 false (some exReport)) ⟨[0], [[1]], []⟩ fun _ => 0).toOption.map fun r =>
      (r.best, r.ran, r.heap 0, r.heap 1)) = some (some 5, 10, 5, 10) := by decide +kernel
  revert this
  generalize fit _ _ _ = x
  intro h
  cases x with
  | error e => cases h
  | ok r =>
    simp only [Except.toOption, Option.map_some, Option.some.injEq, Prod.mk.injEq] at h
    exact ⟨r, rfl, h.1, h.2.1, h.2.2.1, h.2.2.2⟩

/-- Epoch 0 is best, but the variable keeps its last value 10. -/
example : ∃ r, fit (exFit 10 true (some fun e => [("P".toList, if e = 0 then 2 else 1)])) ⟨[0], [], []⟩
    (fun _ => 0) = .ok r ∧ r.best = some 0 ∧ r.ran = 10 ∧ r.heap 0 = 10 := by
  have : ((fit (exFit 10 true (some fun e => [("P".toList, if e = 0 then 2 else 1)])) ⟨[0], [], []⟩
      fun _ => 0).toOption.map fun r => (r.best, r.ran, r.heap 0)) = some (some 0, 10, 10) := by decide +kernel
  revert this
  generalize fit _ _ _ = x
  intro h
  cases x with
  | error e => cases h
  | ok r =>
    simp only [Except.toOption, Option.map_some, Option.some.injEq, Prod.mk.injEq] at h
    exact ⟨r, rfl, h.1, h.2.1, h.2.2⟩

end DRec
