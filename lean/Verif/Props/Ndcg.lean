import Verif.Props.Metrics

/-!
# C40: NDCG
-/

namespace DRec

open Spec Metrics

variable {α : Type} [DecidableEq α]

/-! ## Weighted sums -/

/-- Sum of the gains weighted by position. -/
noncomputable def wsum (d : ℕ → ℝ) : List ℝ → ℕ → ℝ
  | [], _ => 0
  | g :: gs, i => g * d i + wsum d gs (i + 1)

/-- Sorting descending does not lower the sum. -/
theorem wsum_insert (d : ℕ → ℝ) (hd : ∀ i, d (i + 1) ≤ d i) (x : ℝ) (l : List ℝ) (i : ℕ) :
    wsum d (x :: l) i ≤ wsum d (l.orderedInsert (· ≥ ·) x) i := by
  induction l generalizing i with
  | nil => exact le_refl _
  | cons y l ih =>
    rw [List.orderedInsert_cons]
    split
    · exact le_refl _
    · rename_i h
      have h' : x ≤ y := le_of_lt (not_le.1 h)
      have hi := ih (i + 1)
      have hdi := hd i
      simp only [wsum] at hi ⊢
      nlinarith [mul_nonneg (sub_nonneg.2 h') (sub_nonneg.2 hdi)]

theorem wsum_sort (d : ℕ → ℝ) (hd : ∀ i, d (i + 1) ≤ d i) (l : List ℝ) (i : ℕ) :
    wsum d l i ≤ wsum d (l.insertionSort (· ≥ ·)) i := by
  induction l generalizing i with
  | nil => exact le_refl _
  | cons x l ih =>
    refine le_trans ?_ (wsum_insert d hd x _ i)
    have := ih (i + 1)
    show x * d i + wsum d l (i + 1) ≤ x * d i + wsum d (l.insertionSort (· ≥ ·)) (i + 1)
    linarith

/-- A larger element in front does not lower the sum. -/
theorem wsum_cons (d : ℕ → ℝ) (hd0 : ∀ i, 0 ≤ d i) (l : List ℝ) (x : ℝ) (i : ℕ) (hx0 : 0 ≤ x)
    (h : (x :: l).Pairwise (· ≥ ·)) (hl0 : ∀ y ∈ l, 0 ≤ y) : wsum d l i ≤ wsum d (x :: l) i := by
  induction l generalizing x i with
  | nil => simp only [wsum]; nlinarith [mul_nonneg hx0 (hd0 i)]
  | cons y l ih =>
    rw [List.pairwise_cons] at h
    have hi := ih y (i + 1) (hl0 y (by simp)) h.2 (fun z hz => hl0 z (by simp [hz]))
    have hxy : y ≤ x := h.1 y (by simp)
    simp only [wsum] at hi ⊢
    nlinarith [mul_nonneg (sub_nonneg.2 hxy) (hd0 i)]

theorem wsum_sublist (d : ℕ → ℝ) (hd0 : ∀ i, 0 ≤ d i) {a b : List ℝ} (h : a.Sublist b)
    (hb : b.Pairwise (· ≥ ·)) (h0 : ∀ y ∈ b, 0 ≤ y) (i : ℕ) : wsum d a i ≤ wsum d b i := by
  induction h generalizing i with
  | slnil => exact le_refl _
  | cons x h ih =>
    refine le_trans (ih (List.pairwise_cons.1 hb).2 (fun y hy => h0 y (by simp [hy])) i) ?_
    exact wsum_cons d hd0 _ x i (h0 x (by simp)) hb (fun y hy => h0 y (by simp [hy]))
  | cons_cons x h ih =>
    have := ih (List.pairwise_cons.1 hb).2 (fun y hy => h0 y (by simp [hy])) (i + 1)
    simp only [wsum]
    linarith

/-- No selection of gains in any order beats the best ones in descending order. -/
theorem wsum_best (d : ℕ → ℝ) (hd : ∀ i, d (i + 1) ≤ d i) (hd0 : ∀ i, 0 ≤ d i) {a b : List ℝ}
    (h : a.Subperm b) (hb : b.Pairwise (· ≥ ·)) (h0 : ∀ y ∈ b, 0 ≤ y) (i : ℕ) :
    wsum d a i ≤ wsum d b i := by
  refine le_trans (wsum_sort d hd a i) (wsum_sublist d hd0 ?_ hb h0 i)
  exact List.sublist_of_subperm_of_pairwise
    (((List.perm_insertionSort _ a).subperm).trans h) (List.pairwise_insertionSort _ a) hb

theorem wsum_nonneg (d : ℕ → ℝ) (hd0 : ∀ i, 0 ≤ d i) (a : List ℝ) (h : ∀ y ∈ a, 0 ≤ y) (i : ℕ) :
    0 ≤ wsum d a i := by
  induction a generalizing i with
  | nil => exact le_refl _
  | cons x a ih =>
    have := ih (fun y hy => h y (by simp [hy])) (i + 1)
    have h1 := mul_nonneg (h x (by simp)) (hd0 i)
    simp only [wsum]
    linarith

/-! ## DCG as a weighted sum -/

/-- The discount of a position, 0 from position `k` on. -/
noncomputable def disc (k : Option Nat) (i : ℕ) : ℝ :=
  if ∀ n, k = some n → i < n then 1 / Real.logb 2 (2 + i) else 0

theorem logb_pos (i : ℕ) : 0 < Real.logb 2 (2 + i) := by
  apply Real.logb_pos (by norm_num)
  have : (0 : ℝ) ≤ i := by positivity
  linarith

theorem disc_nonneg (k : Option Nat) (i : ℕ) : 0 ≤ disc k i := by
  unfold disc
  split
  · exact le_of_lt (one_div_pos.2 (logb_pos i))
  · exact le_refl _

theorem disc_anti (k : Option Nat) (i : ℕ) : disc k (i + 1) ≤ disc k i := by
  unfold disc
  split
  · rename_i h
    rw [if_pos (fun n hn => by have := h n hn; omega)]
    apply one_div_le_one_div_of_le (logb_pos i)
    apply Real.logb_le_logb_of_le (by norm_num)
    · positivity
    · push_cast; linarith
  · have := disc_nonneg k i
    unfold disc at this
    exact this

theorem disc_zero (k : Option Nat) (h : k ≠ some 0) : disc k 0 = 1 := by
  unfold disc
  rw [if_pos]
  · simp
  · rintro n rfl
    rcases Nat.eq_zero_or_pos n with rfl | h'
    · exact absurd rfl h
    · exact h'

/-- The relevancy of a key. -/
noncomputable def relOf (rels : List (α × ℝ)) (r : α) : ℝ := (lookupRel rels r).getD 0

theorem lookupRel_some {rels : List (α × ℝ)} (hn : (rels.map (·.1)).Nodup) {p : α × ℝ} (hp : p ∈ rels) :
    lookupRel rels p.1 = some p.2 := by
  unfold lookupRel
  cases hf : rels.find? (fun q => decide (q.1 = p.1)) with
  | none =>
    rw [List.find?_eq_none] at hf
    exact absurd (hf p hp) (by simp)
  | some q =>
    have h1 := List.find?_some hf
    have h2 := List.mem_of_find?_eq_some hf
    simp only [decide_eq_true_eq] at h1
    rw [List.inj_on_of_nodup_map hn h2 hp h1]
    rfl

theorem lookupRel_isSome {rels : List (α × ℝ)} {r : α} (h : r ∈ rels.map (·.1)) :
    lookupRel rels r = some (relOf rels r) := by
  unfold relOf
  obtain ⟨p, hp, rfl⟩ := List.mem_map.1 h
  cases hl : lookupRel rels p.1 with
  | some v => rfl
  | none =>
    unfold lookupRel at hl
    simp only [Option.map_eq_none_iff, List.find?_eq_none] at hl
    exact absurd (hl p hp) (by simp)

theorem dcgLoop_eq (strong : Bool) (rels : List (α × ℝ)) (k : Option Nat) :
    ∀ (l : List α) (i : ℕ) (acc : ℝ), (∀ r ∈ l, r ∈ rels.map (·.1)) → (∀ n, k = some n → i ≤ n) →
    dcgLoop strong rels (trunc (k.map (· - i)) l) i acc =
      .ok (acc + wsum (disc k) (l.map fun r => gain strong (relOf rels r)) i) := by
  intro l
  induction l with
  | nil =>
    intro i acc _ _
    have : trunc (k.map (· - i)) ([] : List α) = [] := by cases k <;> simp [trunc]
    rw [this]
    simp [dcgLoop, wsum]
  | cons r l ih =>
    intro i acc h hi
    by_cases hlt : ∀ n, k = some n → i < n
    · have ht : trunc (k.map (· - i)) (r :: l) = r :: trunc (k.map (· - (i + 1))) l := by
        cases k with
        | none => rfl
        | some n =>
          have := hlt n rfl
          simp only [trunc, Option.map_some]
          rw [show n - i = (n - (i + 1)) + 1 by omega, List.take_succ_cons]
      rw [ht]
      unfold dcgLoop
      rw [lookupRel_isSome (h r (by simp))]
      simp only
      rw [ih (i + 1) _ (fun r' hr' => h r' (by simp [hr'])) (fun n hn => hlt n hn)]
      simp only [List.map_cons, wsum]
      have hdisc : disc k i = 1 / Real.logb 2 (2 + i) := by unfold disc; rw [if_pos hlt]
      rw [hdisc]
      congr 1
      ring
    · push Not at hlt
      obtain ⟨n, rfl, hn⟩ := hlt
      have := hi n rfl
      have hni : n = i := by omega
      subst hni
      have ht : trunc ((some n).map (· - n)) (r :: l) = [] := by simp [trunc]
      rw [ht]
      have hz : ∀ (g : List ℝ) (j : ℕ), n ≤ j → wsum (disc (some n)) g j = 0 := by
        intro g
        induction g with
        | nil => intro j _; rfl
        | cons x g ih' =>
          intro j hj
          have : disc (some n) j = 0 := by
            unfold disc
            rw [if_neg]
            intro h'
            have := h' n rfl
            omega
          simp only [wsum, this, ih' (j + 1) (by omega)]
          ring
      rw [hz _ _ (le_refl _)]
      simp [dcgLoop]

theorem dcg_eq (strong : Bool) (rels : List (α × ℝ)) (k : Option Nat) (l : List α)
    (h : ∀ r ∈ l, r ∈ rels.map (·.1)) :
    dcg strong l k rels = .ok (wsum (disc k) (l.map fun r => gain strong (relOf rels r)) 0) := by
  have := dcgLoop_eq strong rels k l 0 0 h (fun n _ => Nat.zero_le _)
  unfold dcg
  have hk : k.map (· - 0) = k := by cases k <;> simp
  rw [hk] at this
  rw [this, zero_add]

theorem gain_mono (strong : Bool) {a b : ℝ} (h : a ≤ b) : gain strong a ≤ gain strong b := by
  unfold gain
  split
  · have := Real.rpow_le_rpow_of_exponent_le (x := 2) (by norm_num) h
    linarith
  · exact h

theorem gain_zero (strong : Bool) : gain strong 0 = 0 := by
  unfold gain; split <;> simp

theorem gain_pos (strong : Bool) {a : ℝ} (h : 0 < a) : 0 < gain strong a := by
  unfold gain
  split
  · have := Real.one_lt_rpow (x := 2) (by norm_num) h
    linarith
  · exact h

theorem gain_nonneg (strong : Bool) {a : ℝ} (h : 0 ≤ a) : 0 ≤ gain strong a := by
  rw [← gain_zero strong]; exact gain_mono strong h

/-- The gains of the ideal order are descending. -/
theorem ideal_sorted (strong : Bool) {rels : List (α × ℝ)} (hn : (rels.map (·.1)).Nodup) :
    (idealOrder rels).Perm (rels.map (·.1)) ∧
    ((idealOrder rels).map fun r => gain strong (relOf rels r)).Pairwise (· ≥ ·) := by
  unfold idealOrder
  refine ⟨(List.perm_insertionSort _ rels).map _, ?_⟩
  rw [List.map_map, List.pairwise_map]
  have : Std.Total fun a b : α × ℝ => -a.2 ≤ -b.2 := ⟨fun _ _ => le_total _ _⟩
  have : IsTrans (α × ℝ) fun a b => -a.2 ≤ -b.2 := ⟨fun _ _ _ => le_trans⟩
  have hs := List.pairwise_insertionSort (fun a b : α × ℝ => -a.2 ≤ -b.2) rels
  refine List.Pairwise.imp_of_mem ?_ hs
  intro a b ha hb hab
  have ha' := (List.perm_insertionSort _ rels).subset ha
  have hb' := (List.perm_insertionSort _ rels).subset hb
  simp only [Function.comp, relOf, lookupRel_some hn ha', lookupRel_some hn hb', Option.getD_some]
  exact gain_mono strong (neg_le_neg_iff.1 hab)

/-- Best DCG of a map with some positive relevancy. -/
theorem best_pos (strong : Bool) {rels : List (α × ℝ)} (hn : (rels.map (·.1)).Nodup)
    (h0 : ∀ p ∈ rels, 0 ≤ p.2) (hpos : ∃ p ∈ rels, 0 < p.2) {k : Option Nat} (hk : k ≠ some 0) :
    0 < wsum (disc k) ((idealOrder rels).map fun r => gain strong (relOf rels r)) 0 := by
  obtain ⟨hp, hs⟩ := ideal_sorted strong hn
  obtain ⟨p, hpm, hpp⟩ := hpos
  have hmem : p.1 ∈ idealOrder rels := hp.symm.subset (List.mem_map_of_mem hpm)
  have hge : ∀ r ∈ idealOrder rels, 0 ≤ gain strong (relOf rels r) := by
    intro r hr
    obtain ⟨q, hq, rfl⟩ := List.mem_map.1 (hp.subset hr)
    rw [relOf, lookupRel_some hn hq]
    exact gain_nonneg strong (h0 q hq)
  have hgp : 0 < gain strong (relOf rels p.1) := by
    rw [relOf, lookupRel_some hn hpm]; exact gain_pos strong hpp
  cases hi : idealOrder rels with
  | nil => rw [hi] at hmem; simp at hmem
  | cons a l =>
    rw [hi] at hmem hs hge
    simp only [List.map_cons, wsum, disc_zero k hk, mul_one]
    have hl : 0 ≤ wsum (disc k) (l.map fun r => gain strong (relOf rels r)) (0 + 1) := by
      apply wsum_nonneg _ (disc_nonneg k)
      intro y hy
      obtain ⟨r, hr, rfl⟩ := List.mem_map.1 hy
      exact hge r (by simp [hr])
    rw [List.map_cons, List.pairwise_cons] at hs
    have ha : gain strong (relOf rels p.1) ≤ gain strong (relOf rels a) := by
      rcases List.mem_cons.1 hmem with e | e
      · rw [e]
      · exact hs.1 _ (List.mem_map_of_mem (f := fun r => gain strong (relOf rels r)) e)
    linarith

theorem ndcg_bounds (strong : Bool) (recs : List α) (k : Option Nat) (rels : List (α × ℝ))
    (hkeys : (rels.map (·.1)).Nodup) (h0 : ∀ p ∈ rels, 0 ≤ p.2) (hpos : ∃ p ∈ rels, 0 < p.2)
    (hn : recs.Nodup) (hin : ∀ r ∈ recs, r ∈ rels.map (·.1)) (hk : k ≠ some 0) :
    ∃ v, ndcg strong recs k (some rels) = .ok v ∧ 0 ≤ v ∧ v ≤ 1 := by
  obtain ⟨hp, hs⟩ := ideal_sorted strong hkeys
  have hb := best_pos strong hkeys h0 hpos hk
  have hge : ∀ r ∈ rels.map (·.1), 0 ≤ gain strong (relOf rels r) := by
    intro r hr
    obtain ⟨q, hq, rfl⟩ := List.mem_map.1 hr
    rw [relOf, lookupRel_some hkeys hq]
    exact gain_nonneg strong (h0 q hq)
  have hsub : (recs.map fun r => gain strong (relOf rels r)).Subperm
      ((idealOrder rels).map fun r => gain strong (relOf rels r)) := by
    obtain ⟨l, h1, h2⟩ := (List.subperm_of_subset hn hin).trans hp.symm.subperm
    exact ⟨_, h1.map _, h2.map _⟩
  have hle := wsum_best (disc k) (disc_anti k) (disc_nonneg k) hsub hs (by
    intro y hy
    obtain ⟨r, hr, rfl⟩ := List.mem_map.1 hy
    exact hge r (hp.subset hr)) 0
  have h1 : 0 ≤ wsum (disc k) (recs.map fun r => gain strong (relOf rels r)) 0 := by
    apply wsum_nonneg _ (disc_nonneg k)
    intro y hy
    obtain ⟨r, hr, rfl⟩ := List.mem_map.1 hy
    exact hge r (hin r hr)
  unfold ndcg
  simp only [dcg_eq strong rels k recs hin, dcg_eq strong rels k _ (fun r hr => hp.subset hr), hb.ne',
    if_false]
  exact ⟨_, rfl, by positivity, (div_le_one hb).2 hle⟩

/-- **C40.** Any ordering of all items by descending relevancy scores exactly 1. -/
theorem C40_ideal_is_one (strong : Bool) (recs : List α) (k : Option Nat) (rels : List (α × ℝ))
    (hkeys : (rels.map (·.1)).Nodup) (h0 : ∀ p ∈ rels, 0 ≤ p.2) (hpos : ∃ p ∈ rels, 0 < p.2)
    (hperm : recs.Perm (rels.map (·.1)))
    (hdesc : recs.Pairwise fun a b => ∀ x y, (a, x) ∈ rels → (b, y) ∈ rels → y ≤ x)
    (hk : k ≠ some 0) : ndcg strong recs k (some rels) = .ok 1 := by
  obtain ⟨hp, hs⟩ := ideal_sorted strong hkeys
  have hb := best_pos strong hkeys h0 hpos hk
  have hsr : (recs.map fun r => gain strong (relOf rels r)).Pairwise (· ≥ ·) := by
    rw [List.pairwise_map]
    refine List.Pairwise.imp_of_mem ?_ hdesc
    intro a b ha hb hab
    obtain ⟨⟨a', x⟩, hx, rfl⟩ := List.mem_map.1 (hperm.subset ha)
    obtain ⟨⟨b', y⟩, hy, rfl⟩ := List.mem_map.1 (hperm.subset hb)
    have ex := lookupRel_some hkeys hx
    have ey := lookupRel_some hkeys hy
    simp only at ex ey
    simp only [relOf, ex, ey, Option.getD_some]
    exact gain_mono strong (hab x y hx hy)
  have heq : (recs.map fun r => gain strong (relOf rels r)) =
      (idealOrder rels).map fun r => gain strong (relOf rels r) :=
    ((hperm.trans hp.symm).map _).eq_of_pairwise' hsr hs
  unfold ndcg
  simp only [dcg_eq strong rels k recs (fun r hr => hperm.subset hr),
    dcg_eq strong rels k _ (fun r hr => hp.subset hr), heq, hb.ne', if_false]
  rw [div_self hb.ne']

theorem ndcg_undefined (strong : Bool) (recs : List α) (k : Option Nat) (rels : List (α × ℝ))
    (hkeys : (rels.map (·.1)).Nodup) (hin : ∀ r ∈ recs, r ∈ rels.map (·.1))
    (h : (∀ p ∈ rels, p.2 = 0) ∨ k = some 0) : ndcg strong recs k (some rels) = .error .zeroDiv := by
  obtain ⟨hp, _⟩ := ideal_sorted strong hkeys
  have hz : wsum (disc k) ((idealOrder rels).map fun r => gain strong (relOf rels r)) 0 = 0 := by
    rcases h with h | rfl
    · have hall : ∀ g ∈ (idealOrder rels).map (fun r => gain strong (relOf rels r)), g = 0 := by
        intro g hg
        obtain ⟨r, hr, rfl⟩ := List.mem_map.1 hg
        obtain ⟨q, hq, rfl⟩ := List.mem_map.1 (hp.subset hr)
        rw [relOf, lookupRel_some hkeys hq, Option.getD_some, h q hq, gain_zero]
      generalize (idealOrder rels).map (fun r => gain strong (relOf rels r)) = l at hall
      generalize 0 = i
      induction l generalizing i with
      | nil => rfl
      | cons x l ih =>
        simp only [wsum]
        rw [hall x (by simp), ih (fun g hg => hall g (by simp [hg]))]
        ring
    · generalize (idealOrder rels).map (fun r => gain strong (relOf rels r)) = l
      suffices h : ∀ i, wsum (disc (some 0)) l i = 0 from h 0
      intro i
      induction l generalizing i with
      | nil => rfl
      | cons x l ih =>
        have : disc (some 0) i = 0 := by unfold disc; rw [if_neg]; intro h; have := h 0 rfl; omega
        simp only [wsum, this, ih]
        ring
  unfold ndcg
  simp only [dcg_eq strong rels k recs hin, dcg_eq strong rels k _ (fun r hr => hp.subset hr), hz,
    if_true]

omit [DecidableEq α] in
theorem trunc_trunc (k : Option Nat) (l : List α) : trunc k (trunc k l) = trunc k l := by
  cases k <;> simp [trunc]

theorem ndcg_trunc (strong : Bool) (recs : List α) (k : Option Nat) (rels : Option (List (α × ℝ))) :
    ndcg strong recs k rels = ndcg strong (trunc k recs) k rels := by
  unfold ndcg dcg
  rw [trunc_trunc]

omit [DecidableEq α] in
theorem firstK_eq_trunc (k : Option Nat) (l : List α) : firstK k l = trunc k l := by cases k <;> rfl

/-- **C40.** When the first `k` recommendations have no repetition and all have a relevancy, the relevancies are
non-negative with some positive one and `k` is not 0, NDCG is defined and lies between 0 and 1 (both variants). -/
theorem C40_ndcg_bounds (strong : Bool) (recs : List α) (k : Option Nat) (rels : List (α × ℝ))
    (hkeys : (rels.map (·.1)).Nodup) (h0 : ∀ p ∈ rels, 0 ≤ p.2) (hpos : ∃ p ∈ rels, 0 < p.2)
    (hn : (firstK k recs).Nodup) (hin : ∀ r ∈ firstK k recs, r ∈ rels.map (·.1)) (hk : k ≠ some 0) :
    ∃ v, ndcg strong recs k (some rels) = .ok v ∧ 0 ≤ v ∧ v ≤ 1 := by
  rw [firstK_eq_trunc] at hn hin
  rw [ndcg_trunc]
  exact ndcg_bounds strong _ k rels hkeys h0 hpos hn hin hk

/-- **C40.** When one of the first `k` recommendations has no relevancy, NDCG raises `KeyError`. -/
theorem C40_missing_raises (strong : Bool) (recs : List α) (k : Option Nat) (rels : List (α × ℝ))
    (h : ∃ r ∈ firstK k recs, r ∉ rels.map (·.1)) : ndcg strong recs k (some rels) = .error .keyError := by
  obtain ⟨r, hr, hn⟩ := h
  rw [firstK_eq_trunc] at hr
  have key : ∀ (l : List α) (i : Nat) (acc : ℝ), r ∈ l → dcgLoop strong rels l i acc = .error .keyError := by
    intro l
    induction l with
    | nil => intro i acc h; cases h
    | cons a l ih =>
      intro i acc h
      unfold dcgLoop
      cases hl : lookupRel rels a with
      | none => rfl
      | some x =>
        rcases List.mem_cons.1 h with rfl | h
        · refine absurd ?_ hn
          unfold lookupRel at hl
          cases hf : rels.find? fun p => p.1 = r with
          | none => rw [hf] at hl; cases hl
          | some q =>
            have := List.find?_some hf
            have hq := List.mem_of_find?_eq_some hf
            exact List.mem_map.2 ⟨q, hq, by simpa using this⟩
        · exact ih _ _ h
  unfold ndcg dcg
  simp only [key _ 0 0 hr]

/-- **C40.** When no item has a positive relevancy, or `k = 0`, NDCG raises instead of returning a
value. -/
theorem C40_undefined (strong : Bool) (recs : List α) (k : Option Nat) (rels : List (α × ℝ))
    (hkeys : (rels.map (·.1)).Nodup) (hin : ∀ r ∈ firstK k recs, r ∈ rels.map (·.1))
    (h : (∀ p ∈ rels, p.2 = 0) ∨ k = some 0) : ndcg strong recs k (some rels) = .error .zeroDiv := by
  rw [firstK_eq_trunc] at hin
  rw [ndcg_trunc]
  exact ndcg_undefined strong _ k rels hkeys hin h

/-- The second recommendation has no relevancy. -/
example : ∃ r ∈ firstK (some 2) ["a", "z"], r ∉ ([("a", 0), ("b", 3)] : List (String × ℝ)).map (·.1) :=
  ⟨"z", by decide, by simp⟩

example : (([("a", 0), ("b", 3), ("c", 1)] : List (String × ℝ)).map (·.1)).Nodup ∧
    (∀ p ∈ ([("a", 0), ("b", 3), ("c", 1)] : List (String × ℝ)), 0 ≤ p.2) ∧
    (∃ p ∈ ([("a", 0), ("b", 3), ("c", 1)] : List (String × ℝ)), 0 < p.2) ∧
    (firstK (some 2) ["c", "a", "c", "z"]).Nodup ∧ (∀ r ∈ firstK (some 2) ["c", "a", "c", "z"], r ∈ ([("a", 0), ("b", 3), ("c", 1)] : List (String × ℝ)).map (·.1)) := by
  refine ⟨by simp, by simp, by simp, by decide, by simp [firstK]⟩

end DRec
