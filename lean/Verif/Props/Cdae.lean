import Verif.Props.Dmf

/-!
# C81, C82, C85: CDAE

Weights are arbitrary.
-/

namespace DRec

open Spec

/-! ## C81 -/

theorem sigmoid_range (x : ℝ) : 0 < sigmoid x ∧ sigmoid x < 1 := by
  have h := Real.exp_pos (-x)
  unfold sigmoid
  exact ⟨by positivity, by rw [div_lt_one (by positivity)]; linarith⟩

theorem desired_spec (t : ℚ) (ds : Mem) (uid : Nat) :
    desired t (vecSpec ds (.user uid)) =
      (List.range ds.itemMap.length).map fun i => if t ≤ pairTotal ds.rows uid i then 1 else 0 := by
  simp only [desired, vecSpec, List.map_map]
  rfl

theorem cdae_scores_eq (m : Cdae) (t : ℚ) (ds : Mem) (h : Fresh ds) (hc : ds.cache = none) (qs : List VecReq)
    (hq : ∀ q ∈ qs, q.Known ds) (hu : 2 ≤ ds.userMap.length ∨ ∀ q ∈ qs, ∃ u, q = .user u) (uid : Nat)
    (hk : uid < ds.userMap.length) :
    ((serveAll ds qs).1.userVec uid).2 = .ok (vecSpec ds (.user uid)) ∧
    (m.scores t (serveAll ds qs).1 uid).2 =
      m.reconstruct uid ((desired t (vecSpec ds (.user uid))).map fun (q : ℚ) => (q : ℝ)) := by
  obtain ⟨f1, c1, r1, u1, i1⟩ := serveAll_state ds h (Or.inl hc) qs hq hu
  obtain ⟨a1, _⟩ := serve_ok _ f1 c1 (.user uid) (by show _ < _; rw [u1]; exact hk) (Or.inr ⟨uid, rfl⟩)
  rw [vecSpec_congr r1 u1 i1] at a1
  simp only [serve] at a1
  refine ⟨a1, ?_⟩
  unfold Cdae.scores
  split
  · rename_i e; rw [e] at a1; cases a1
  · rename_i e
    rw [e] at a1
    simp only [Except.ok.injEq] at a1
    rw [a1]

/-- **C81.** For every known user, after any earlier requests for user vectors (or any requests at all with two users
or more), CDAE gives one score per item, strictly between 0 and 1. -/
theorem C81_scores (m : Cdae) (t : ℚ) (ds : Mem) (h : Fresh ds) (hc : ds.cache = none)
    (hm : m.users = countDistinct "uid" ds.rows) (hm' : m.items = countDistinct "iid" ds.rows)
    (qs : List VecReq) (hq : ∀ q ∈ qs, q.Known ds)
    (hu : 2 ≤ ds.userMap.length ∨ ∀ q ∈ qs, ∃ u, q = .user u) (uid : Nat) (hk : uid < ds.userMap.length) :
    ∃ l, (m.scores t (serveAll ds qs).1 uid).2 = .ok l ∧ l.length = countDistinct "iid" ds.rows ∧
      ∀ x ∈ l, 0 < x ∧ x < 1 := by
  rw [countDistinct_eq ds "user" "uid" ds.userMap h.ids.user h.users] at hm
  have hI := countDistinct_eq ds "item" "iid" ds.itemMap h.ids.item h.items
  rw [hI] at hm' ⊢
  rw [(cdae_scores_eq m t ds h hc qs hq hu uid hk).2, Cdae.reconstruct, if_neg (by omega), if_neg (by
    simp [desired, vecSpec, hm'])]
  refine ⟨_, rfl, by simp [hm'], ?_⟩
  intro x hx
  obtain ⟨j, _, rfl⟩ := List.mem_map.1 hx
  exact sigmoid_range _

/-- **C81.** The scores depend on nothing but the weights and on which interactions of this user reach the threshold:
not on their values, not on other users, not on earlier requests. -/
theorem C81_depends (m : Cdae) (t : ℚ) (ds ds' : Mem) (h : Fresh ds) (h' : Fresh ds') (hc : ds.cache = none)
    (hc' : ds'.cache = none) (hi : ds.itemMap.length = ds'.itemMap.length) (qs qs' : List VecReq)
    (hq : ∀ q ∈ qs, q.Known ds) (hq' : ∀ q ∈ qs', q.Known ds')
    (hu : 2 ≤ ds.userMap.length ∨ ∀ q ∈ qs, ∃ u, q = .user u)
    (hu' : 2 ≤ ds'.userMap.length ∨ ∀ q ∈ qs', ∃ u, q = .user u) (uid : Nat) (hk : uid < ds.userMap.length)
    (hk' : uid < ds'.userMap.length)
    (hs : ∀ i < ds.itemMap.length, (t ≤ pairTotal ds.rows uid i ↔ t ≤ pairTotal ds'.rows uid i)) :
    (m.scores t (serveAll ds qs).1 uid).2 = (m.scores t (serveAll ds' qs').1 uid).2 := by
  rw [(cdae_scores_eq m t ds h hc qs hq hu uid hk).2, (cdae_scores_eq m t ds' h' hc' qs' hq' hu' uid hk').2,
    desired_spec, desired_spec, ← hi]
  congr 2
  apply List.map_congr_left
  intro i hi'
  simp only [hs i (List.mem_range.1 hi')]

/-- The score of CDAE for an item as in the paper, for a user who likes the given items. -/
noncomputable def Spec.cdaeFormula (m : Cdae) (uid : Nat) (liked : Finset ℕ) (j : Nat) : ℝ :=
  sigmoid ((∑ k ∈ Finset.range m.hidden,
    sigmoid ((∑ i ∈ liked, m.W i k) + m.V uid k + m.b k) * m.W' k j) + m.b' j)

theorem zipIdx_sum (l : List ℝ) (f : ℕ → ℝ) :
    (l.zipIdx.map fun p => p.1 * f p.2).sum = ∑ k ∈ Finset.range l.length, l.getD k 0 * f k := by
  have key : ∀ (l : List ℝ) (n : ℕ), ((l.zipIdx n).map fun p => p.1 * f p.2).sum =
      ∑ k ∈ Finset.range l.length, l.getD k 0 * f (n + k) := by
    intro l
    induction l with
    | nil => intro n; simp
    | cons x l ih =>
      intro n
      rw [List.zipIdx_cons, List.map_cons, List.sum_cons, ih, List.length_cons, Finset.sum_range_succ']
      simp only [List.getD_cons_zero, List.getD_cons_succ, add_zero]
      rw [add_comm]
      congr 1
      apply Finset.sum_congr rfl
      intro k _
      rw [show n + 1 + k = n + (k + 1) by omega]
  simpa using key l 0

/-- **C81.** The score of item `j` is the one of the paper: the weights of the items the user likes (those whose
interactions reach the threshold), the user's own embedding and the biases, through two sigmoid layers. -/
theorem C81_formula (m : Cdae) (t : ℚ) (ds : Mem) (h : Fresh ds) (hc : ds.cache = none)
    (hm : m.users = countDistinct "uid" ds.rows) (hm' : m.items = countDistinct "iid" ds.rows)
    (qs : List VecReq) (hq : ∀ q ∈ qs, q.Known ds)
    (hu : 2 ≤ ds.userMap.length ∨ ∀ q ∈ qs, ∃ u, q = .user u) (uid : Nat) (hk : uid < ds.userMap.length) :
    (m.scores t (serveAll ds qs).1 uid).2 = .ok ((List.range ds.itemMap.length).map
      (cdaeFormula m uid ((Finset.range ds.itemMap.length).filter fun i => t ≤ pairTotal ds.rows uid i))) := by
  rw [countDistinct_eq ds "user" "uid" ds.userMap h.ids.user h.users] at hm
  rw [countDistinct_eq ds "item" "iid" ds.itemMap h.ids.item h.items] at hm'
  rw [(cdae_scores_eq m t ds h hc qs hq hu uid hk).2, Cdae.reconstruct, if_neg (by omega), if_neg (by
    simp [desired, vecSpec, hm']), hm']
  congr 1
  apply List.map_congr_left
  intro j _
  unfold cdaeFormula
  congr 1
  rw [zipIdx_sum _ fun k => m.W' k j, desired_spec]
  simp only [Cdae.layer, List.length_map, List.length_range]
  congr 1
  apply Finset.sum_congr rfl
  intro k hk'
  congr 1
  rw [List.getD_eq_getElem?_getD, List.getElem?_map, List.getElem?_range (Finset.mem_range.1 hk')]
  simp only [Option.map_some, Option.getD_some]
  congr 3
  rw [zipIdx_sum _ fun i => m.W i k, Finset.sum_filter]
  simp only [List.length_map, List.length_range]
  apply Finset.sum_congr rfl
  intro i hi
  rw [List.getD_eq_getElem?_getD, List.getElem?_map, List.getElem?_map, List.getElem?_range (Finset.mem_range.1 hi)]
  simp only [Option.map_some, Option.getD_some]
  split <;> simp

/-- **C81.** The network refuses users it has no embedding for, and inputs that do not have one entry per item. -/
theorem C81_accepts (m : Cdae) (uid : Nat) (x : List ℝ) :
    (∃ l, m.reconstruct uid x = .ok l) ↔ uid < m.users ∧ x.length = m.items := by
  unfold Cdae.reconstruct
  split
  · constructor
    · rintro ⟨l, hl⟩; cases hl
    · rintro ⟨h1, _⟩; omega
  · split
    · constructor
      · rintro ⟨l, hl⟩; cases hl
      · rintro ⟨_, h2⟩; exact absurd h2 ‹_›
    · exact ⟨fun _ => ⟨by omega, by tauto⟩, fun _ => ⟨_, rfl⟩⟩

/-! ## C82 -/

theorem pairTotal_one {rows : List Row} (h1 : OnePerPair rows) (hnd : rows.Nodup) (u i : Nat) (r : Row)
    (hr : r ∈ rows) (ho : OfPair r u i) : pairTotal rows u i = numCell (r.get "interaction") := by
  have h : rows.filter (fun r => r.get "uid" = .num (u : ℚ) ∧ r.get "iid" = .num (i : ℚ)) = [r] := by
    have hm : r ∈ rows.filter (fun r => r.get "uid" = .num (u : ℚ) ∧ r.get "iid" = .num (i : ℚ)) := by
      simp only [List.mem_filter, decide_eq_true_eq]
      exact ⟨hr, ho⟩
    have hall : ∀ x ∈ rows.filter (fun r => r.get "uid" = .num (u : ℚ) ∧ r.get "iid" = .num (i : ℚ)), x = r := by
      intro x hx
      simp only [List.mem_filter, decide_eq_true_eq] at hx
      exact h1 x hx.1 r hr u i hx.2 ho
    have hn : (rows.filter (fun r => r.get "uid" = .num (u : ℚ) ∧ r.get "iid" = .num (i : ℚ))).Nodup := hnd.filter _
    revert hm hall hn
    generalize rows.filter (fun r => r.get "uid" = .num (u : ℚ) ∧ r.get "iid" = .num (i : ℚ)) = l
    intro hm hall hn
    match l, hm, hall, hn with
    | [a], _, hall, _ => rw [hall a (by simp)]
    | a :: b :: l, _, hall, hn =>
      have e1 := hall a (by simp)
      have e2 := hall b (by simp)
      subst e1
      simp [e2] at hn
  unfold pairTotal
  rw [h]
  simp

/-- **C82** (partial: the threshold is positive and no pair has two records; the full property is for every dataset
and threshold and fails, see `C82_threshold_zero` and `C82_several_records`).  The vector CDAE learns to reconstruct
has a 1 exactly for the items of the user with a record that reaches the threshold, and 0 otherwise. -/
theorem C82_desired_partial (t : ℚ) (ht : 0 < t) (ds : Mem) (h : Fresh ds) (h1 : OnePerPair ds.rows)
    (hnd : ds.rows.Nodup) (hc : ds.cache = none) (qs : List VecReq) (hq : ∀ q ∈ qs, q.Known ds)
    (hu : 2 ≤ ds.userMap.length ∨ ∀ q ∈ qs, ∃ u, q = .user u) (uid : Nat) (hk : uid < ds.userMap.length) :
    ∃ v, ((serveAll ds qs).1.userVec uid).2 = .ok v ∧ (desired t v).length = ds.itemMap.length ∧
      ∀ i < ds.itemMap.length, ((desired t v)[i]? = some 1 ↔ PositivePair ds.rows (some t) uid i) ∧
        ((desired t v)[i]? = some 0 ↔ ¬ PositivePair ds.rows (some t) uid i) := by
  refine ⟨_, (cdae_scores_eq ⟨0, 0, 0, 0, 0, 0, 0, 0⟩ t ds h hc qs hq hu uid hk).1, by simp [desired, vecSpec], ?_⟩
  intro i hi
  rw [desired_spec, List.getElem?_map, List.getElem?_range hi, Option.map_some]
  have key : t ≤ pairTotal ds.rows uid i ↔ PositivePair ds.rows (some t) uid i := by
    by_cases hex : ∃ r ∈ ds.rows, OfPair r uid i
    · obtain ⟨r, hr, ho⟩ := hex
      rw [pairTotal_one h1 hnd uid i r hr ho]
      constructor
      · intro hle
        exact ⟨r, hr, ho, fun x hx => by
          simp only [Option.mem_def, Option.some.injEq] at hx; subst hx; exact hle⟩
      · rintro ⟨r', hr', ho', hre⟩
        rw [h1 r hr r' hr' uid i ho ho']
        exact hre t rfl
    · push Not at hex
      rw [(C15_entry_is_the_record ds.rows uid i).2 hex]
      constructor
      · intro hle; exact absurd hle (not_le.2 ht)
      · rintro ⟨r, hr, ho, _⟩; exact absurd ho (hex r hr)
  rw [← key]
  by_cases hle : t ≤ pairTotal ds.rows uid i <;> simp [hle]

/-- **C82 fails** for every dataset when the threshold is 0 or below: an item without any record of the user counts as
liked. -/
theorem C82_threshold_zero (t : ℚ) (ht : t ≤ 0) (ds : Mem) (h : Fresh ds) (hc : ds.cache = none) (uid i : Nat)
    (hk : uid < ds.userMap.length) (hi : i < ds.itemMap.length) (hno : ∀ r ∈ ds.rows, ¬ OfPair r uid i) :
    ¬ PositivePair ds.rows (some t) uid i ∧
    ∃ v, (ds.userVec uid).2 = .ok v ∧ (desired t v)[i]? = some 1 := by
  refine ⟨fun ⟨r, hr, ho, _⟩ => hno r hr ho, _, (cdae_scores_eq ⟨0, 0, 0, 0, 0, 0, 0, 0⟩ t ds h hc [] (by simp)
    (Or.inr (by simp)) uid hk).1, ?_⟩
  rw [desired_spec, List.getElem?_map, List.getElem?_range hi, Option.map_some,
    (C15_entry_is_the_record ds.rows uid i).2 hno, if_pos ht]

theorem exDup_fresh : Fresh exDup :=
  C15_fresh_after_assign _ (by decide) (by decide) (by decide) (by
    intro r hr
    simp only [mkMem, List.zipIdx_cons, List.zipIdx_nil, List.map_cons, List.map_nil,
      List.mem_cons, List.not_mem_nil, or_false] at hr
    rcases hr with rfl | rfl | rfl | rfl
    · exact ⟨3, by decide⟩
    · exact ⟨1, by decide⟩
    · exact ⟨5, by decide⟩
    · exact ⟨2, by decide⟩)

/-- **C82 fails** when a pair has several records: values 1 and 2 are added up and reach the threshold 3, which
neither record does. -/
theorem C82_several_records : Fresh exDup ∧ (∃ v, (exDup.userVec 1).2 = .ok v ∧ (desired 3 v)[1]? = some 1) ∧
    ¬ PositivePair exDup.rows (some 3) 1 1 := by
  refine ⟨exDup_fresh, ⟨[0, 3], by decide +kernel, by decide +kernel⟩, ?_⟩
  have h : ∀ r ∈ exDup.rows, r.get "uid" = .num ((1 : ℕ) : ℚ) ∧ r.get "iid" = .num ((1 : ℕ) : ℚ) →
      ¬ (3 : ℚ) ≤ numCell (r.get "interaction") := by decide +kernel
  rintro ⟨r, hr, ho, hre⟩
  exact h r hr ho (hre 3 rfl)

theorem mapM_corrupt {c : ℚ} : ∀ (l : List (ℚ × ℚ)), (∀ p ∈ l, p.1 < 1) →
    (l.mapM fun p => corrupt c p.1 p.2) = .ok (l.map fun p => if p.1 < c then 0 else p.2 / (1 - c))
  | [], _ => rfl
  | p :: l, h => by
    have h1 : corrupt c p.1 p.2 = .ok (if p.1 < c then 0 else p.2 / (1 - c)) := by
      unfold corrupt
      by_cases hc : p.1 < c
      · simp [hc]
      · have := h p (by simp)
        have hne : ¬ (1 - c = 0) := by intro e; linarith
        simp [hc, hne]
    rw [List.mapM_cons, h1, mapM_corrupt l fun p hp => h p (by simp [hp])]
    rfl

/-- **C82.** Corrupting the vector never raises, for every corruption level and all draws from [0, 1): an entry
is dropped exactly when its draw is below the level and otherwise divided by one minus the level.  So zeros stay
zero. -/
theorem C82_corruption (c : ℚ) (us ds : List ℚ) (hu : ∀ u ∈ us, u < 1) (hl : us.length = ds.length) :
    ∃ l : List ℚ, corruptAll c us ds = .ok l ∧ l.length = ds.length ∧
      ∀ (i : ℕ) (u d : ℚ), us[i]? = some u → ds[i]? = some d →
        ((u < c → l[i]? = some 0) ∧ (c ≤ u → c < 1 ∧ l[i]? = some (d / (1 - c))) ∧ (d = 0 → l[i]? = some 0)) := by
  refine ⟨_, mapM_corrupt _ fun p hp => hu p.1 (List.of_mem_zip hp).1, by simp [hl], ?_⟩
  intro i u d h1 h2
  have hz : (us.zip ds)[i]? = some (u, d) := by
    rw [List.getElem?_zip_eq_some]; exact ⟨h1, h2⟩
  rw [List.getElem?_map, hz, Option.map_some]
  have hu1 := hu u (List.mem_of_getElem? h1)
  refine ⟨fun h => by simp [h], fun h => ⟨lt_of_le_of_lt h hu1, by simp [not_lt.2 h]⟩, fun h => by simp [h]⟩

/-- **C82.** Corruption does not change the input on average: over N equally spaced draws and a level that is a multiple
of 1/N below 1, the mean of an entry is the entry. -/
theorem C82_unbiased (N k : Nat) (hk : k < N) (d : ℚ) :
    ∃ l, ((List.range N).mapM fun (j : ℕ) => corrupt ((k : ℚ) / N) ((j : ℚ) / N) d) = .ok l ∧ l.sum / N = d := by
  have hN : (0 : ℚ) < N := by exact_mod_cast (by omega : 0 < N)
  have hlt : ∀ j : ℕ, ((j : ℚ) / N < (k : ℚ) / N ↔ j < k) := by
    intro j
    rw [div_lt_div_iff_of_pos_right hN]
    exact_mod_cast Iff.rfl
  have hk' : (k : ℚ) < N := by exact_mod_cast hk
  have hne : (1 : ℚ) - k / N ≠ 0 := by
    rw [sub_ne_zero]
    intro e
    rw [eq_div_iff hN.ne'] at e
    linarith
  refine ⟨(List.range N).map fun j => if j < k then 0 else d / (1 - (k : ℚ) / N), ?_, ?_⟩
  · apply mapM_except_ok
    intro j _
    unfold corrupt
    by_cases hj : j < k
    · rw [if_pos ((hlt j).2 hj), if_pos hj]
    · rw [if_neg (fun h => hj ((hlt j).1 h)), if_neg hne, if_neg hj]
  · have hsum : ∀ M, k ≤ M → ((List.range M).map fun j => if j < k then 0 else d / (1 - (k : ℚ) / N)).sum =
        ((M : ℚ) - k) * (d / (1 - (k : ℚ) / N)) := by
      intro M hM
      induction M, hM using Nat.le_induction with
      | base =>
        have : ((List.range k).map fun j => if j < k then 0 else d / (1 - (k : ℚ) / N)) =
            (List.range k).map fun _ => (0 : ℚ) := by
          apply List.map_congr_left
          intro j hj
          rw [if_pos (List.mem_range.1 hj)]
        rw [this]
        simp
      | succ M hM ih =>
        rw [List.range_succ, List.map_append, List.sum_append, ih]
        simp only [List.map_cons, List.map_nil, List.sum_cons, List.sum_nil, if_neg (by omega : ¬ M < k)]
        push_cast
        ring
    rw [hsum N hk.le]
    have : (1 : ℚ) - k / N = (N - k) / N := by field_simp
    rw [this]
    have h3 : (N : ℚ) - k ≠ 0 := by intro e; linarith
    field_simp

/-! ## C85 -/

/-- The mean over the batch of the loss between each prediction and its own vector. -/
noncomputable def Spec.pairedLoss (f : ℝ → ℝ → ℝ) (preds wanted : List (List ℝ)) : ℝ :=
  average ((wanted.zip preds).map fun p => vecLoss f p.1 p.2)

/-- **C85** (partial: all vectors of the batch are the same, for instance a batch of one; the full property is for every
batch and fails, see `C85_perfect_is_not_zero`).  The loss compares each prediction with the vector of its own
sample. -/
theorem C85_loss_partial (f : ℝ → ℝ → ℝ) (preds wanted : List (List ℝ)) (hl : preds.length = wanted.length)
    (d : List ℝ) (hd : ∀ w ∈ wanted, w = d) : cdaeLoss f preds wanted = Spec.pairedLoss f preds wanted := by
  have hw : wanted = List.replicate preds.length d := by
    rw [hl]; exact List.eq_replicate_iff.2 ⟨rfl, hd⟩
  have h1 : ∀ (l : List (List ℝ)) (n : Nat),
      (l.flatMap fun p => (List.replicate n d).map fun d => vecLoss f d p).sum =
        n * (l.map fun p => vecLoss f d p).sum := by
    intro l n
    induction l with
    | nil => simp
    | cons p l ih =>
      rw [List.flatMap_cons, List.sum_append, ih, List.map_cons, List.sum_cons, List.map_replicate,
        List.sum_replicate, nsmul_eq_mul]
      ring
  have h2 : ∀ l : List (List ℝ), (((List.replicate l.length d).zip l).map fun p => vecLoss f p.1 p.2) =
      l.map fun p => vecLoss f d p := by
    intro l
    induction l with
    | nil => rfl
    | cons p l ih => simp only [List.length_cons, List.replicate_succ, List.zip_cons_cons, List.map_cons, ih]
  unfold cdaeLoss Spec.pairedLoss average
  rw [hw, h1, h2]
  simp only [List.length_flatMap, List.length_map, List.length_replicate, List.map_const', List.sum_replicate,
    smul_eq_mul, Nat.cast_mul]
  by_cases h0 : preds.length = 0
  · rw [List.length_eq_zero_iff] at h0; simp [h0]
  · have : (preds.length : ℝ) ≠ 0 := by exact_mod_cast h0
    field_simp

/-- **C85 fails** for every batch with two different vectors: handing the vectors out to the samples in any other order
gives the same loss, so it does not depend on which vector belongs to which sample. -/
theorem C85_order_ignored (f : ℝ → ℝ → ℝ) (preds wanted wanted' : List (List ℝ)) (hp : wanted.Perm wanted') :
    cdaeLoss f preds wanted = cdaeLoss f preds wanted' := by
  have : (preds.flatMap fun p => wanted.map fun d => vecLoss f d p).Perm
      (preds.flatMap fun p => wanted'.map fun d => vecLoss f d p) := by
    induction preds with
    | nil => exact List.Perm.refl _
    | cons p l ih =>
      rw [List.flatMap_cons, List.flatMap_cons]
      exact (hp.map _).append ih
  unfold cdaeLoss average
  rw [this.sum_eq, this.length_eq]

/-- Squared error. -/
def sqErr (d p : ℝ) : ℝ := (d - p) ^ 2

/-- **C85 fails**: two samples, reconstructed perfectly, have squared error 1/2 instead of 0, and exchanging the two
predictions, which makes both entirely wrong, changes nothing. -/
theorem C85_perfect_is_not_zero :
    Spec.pairedLoss sqErr [[1], [0]] [[1], [0]] = 0 ∧ cdaeLoss sqErr [[1], [0]] [[1], [0]] = 1 / 2 ∧
    Spec.pairedLoss sqErr [[0], [1]] [[1], [0]] = 1 ∧ cdaeLoss sqErr [[0], [1]] [[1], [0]] = 1 / 2 := by
  refine ⟨?_, ?_, ?_, ?_⟩ <;> norm_num [Spec.pairedLoss, cdaeLoss, vecLoss, average, sqErr]

/-! ### Examples -/

/-- Weights for the example data: two users, three items, one hidden unit. -/
noncomputable def exCdae : Cdae := ⟨2, 3, 1, fun _ _ => 1, fun _ _ => -1, fun _ _ => 0, fun _ => 0, fun _ => 2⟩

/-- **C81**: sizes of the example data, mixed earlier requests. -/
example : Fresh exIds ∧ exIds.cache = none ∧ exCdae.users = countDistinct "uid" exIds.rows ∧
    exCdae.items = countDistinct "iid" exIds.rows ∧ 2 ≤ exIds.userMap.length ∧
    (∀ q ∈ [VecReq.user 1, .item 2], q.Known exIds) := by
  have h1 : exIds.userMap.length = 2 := by decide +kernel
  have h2 : exIds.itemMap.length = 3 := by decide +kernel
  refine ⟨exIds_fresh, rfl, ?_, ?_, by omega, ?_⟩
  · rw [countDistinct_eq exIds "user" "uid" exIds.userMap exIds_fresh.ids.user exIds_fresh.users, h1]; rfl
  · rw [countDistinct_eq exIds "item" "iid" exIds.itemMap exIds_fresh.ids.item exIds_fresh.items, h2]; rfl
  · intro q hq
    simp only [List.mem_cons, List.not_mem_nil, or_false] at hq
    rcases hq with rfl | rfl <;> simp only [VecReq.Known, h1, h2] <;> omega

/-- **C81**: other values, above the same threshold. -/
example : ∃ ds : Mem, Fresh ds ∧ ds.cache = none ∧ ds.itemMap.length = exIds.itemMap.length ∧
    ds.rows.map (·.get "interaction") ≠ exIds.rows.map (·.get "interaction") ∧
    ∀ i < exIds.itemMap.length, ((2 : ℚ) ≤ pairTotal exIds.rows 0 i ↔ (2 : ℚ) ≤ pairTotal ds.rows 0 i) := by
  refine ⟨(mkMem .obj [(.str "u2", .str "b", 2), (.str "u1", .str "a", 4), (.str "u2", .str "c", 3)]).assignIds.1,
    C15_fresh_after_assign _ (by decide) (by decide) (by decide) (by
      intro r hr
      simp only [mkMem, List.zipIdx_cons, List.zipIdx_nil, List.map_cons, List.map_nil,
        List.mem_cons, List.not_mem_nil, or_false] at hr
      rcases hr with rfl | rfl | rfl
      · exact ⟨2, by decide⟩
      · exact ⟨4, by decide⟩
      · exact ⟨3, by decide⟩), rfl, by decide +kernel, by decide +kernel, by decide +kernel⟩

/-- **C82**: threshold 2 on the example data; user 1 has rated item 1 with 1 and likes nothing. -/
example : (0 : ℚ) < 2 ∧ Fresh exIds ∧ OnePerPair exIds.rows ∧ exIds.rows.Nodup ∧
    (exIds.userVec 0).2 = .ok [3, 0, 5] ∧ desired 2 [3, 0, 5] = [1, 0, 1] ∧
    (∀ r ∈ exIds.rows, ¬ OfPair r 1 0) := by
  refine ⟨by norm_num, exIds_fresh, exIds_onePerPair, ?_, by decide +kernel, by decide +kernel,
    by unfold OfPair; decide +kernel⟩
  have h : (exIds.rows.map (·.rid)).Nodup := by decide +kernel
  exact h.of_map _

/-- **C82**: corruption at level 1/5. -/
example : corruptAll (1 / 5) [1 / 10, 3 / 10, 9 / 10] [1, 1, 0] = .ok [0, 5 / 4, 0] := by decide +kernel

/-- **C85**: two samples of the same user. -/
example : cdaeLoss sqErr [[1, 0], [0, 0]] [[1, 1], [1, 1]] = 3 / 4 := by
  norm_num [cdaeLoss, vecLoss, average, sqErr]

end DRec
