import Verif.Props.MatrixSplit

/-!
# C32, C35: random_split; leave_k_out by timestamps; examples for all splits
-/

namespace DRec

open Spec

/-! ## C32 -/

theorem pickRids_eq (rows : List Row) (i : Nat) (js : List Nat) (hs : js.Pairwise (· < ·))
    (hb : ∀ j ∈ js, i ≤ j ∧ j < i + rows.length) :
    pickRids rows i js = ((rows.zipIdx i).filter fun p => p.2 ∈ js).map (·.1.rid) := by
  induction rows generalizing i js with
  | nil =>
    cases js with
    | nil => rfl
    | cons j js => have := hb j (by simp); simp at this; omega
  | cons r rs ih =>
    cases js with
    | nil => simp [pickRids]
    | cons j js =>
      have hj := hb j (by simp)
      rw [List.pairwise_cons] at hs
      simp only [List.length_cons] at hb hj
      unfold pickRids
      split
      · rename_i e
        subst e
        rw [ih (i + 1) js hs.2 (fun x hx => by
          have := hs.1 x hx; have := hb x (by simp [hx]); omega)]
        simp only [List.zipIdx_cons, List.filter_cons, List.mem_cons, true_or, decide_true, if_true,
          List.map_cons]
        congr 2
        apply List.filter_congr
        intro p hp
        have := List.le_snd_of_mem_zipIdx hp
        have hne : p.2 ≠ i := by omega
        simp [hne]
      · rename_i e
        rw [ih (i + 1) (j :: js) (List.pairwise_cons.2 hs) (fun x hx => by
          rcases List.mem_cons.1 hx with rfl | hx'
          · omega
          · have := hs.1 x hx'; have := hb x hx; omega)]
        have hn : i ∉ j :: js := by
          intro hm
          rcases List.mem_cons.1 hm with rfl | hm
          · exact e rfl
          · have := hs.1 i hm; omega
        rw [List.zipIdx_cons, List.filter_cons, if_neg (by simpa using hn)]

theorem sorted_sample (n k : Nat) (rng : Nat → Nat) :
    ((pySample (List.range n) k rng).insertionSort (· ≤ ·)).Pairwise (· < ·) := by
  have h1 : ((pySample (List.range n) k rng).insertionSort (· ≤ ·)).Pairwise (· ≤ ·) :=
    List.pairwise_insertionSort _ _
  have h2 : ((pySample (List.range n) k rng).insertionSort (· ≤ ·)).Nodup :=
    ((List.perm_insertionSort _ _).nodup_iff).2 (pySample_nodup _ _ _ List.nodup_range)
  exact (h1.and h2).imp fun h => lt_of_le_of_ne h.1 h.2

/-- The picked record ids for sorted indices. -/
theorem pick_facts (rows : List Row) (hn : (rows.map (·.rid)).Nodup) (js : List Nat)
    (hs : js.Pairwise (· < ·)) (hb : ∀ j ∈ js, j < rows.length) :
    (pickRids rows 0 js).Nodup ∧ pickRids rows 0 js ⊆ rows.map (·.rid) ∧
      (pickRids rows 0 js).length = js.length := by
  rw [pickRids_eq rows 0 js hs (fun j hj => ⟨by omega, by simpa using hb j hj⟩)]
  have hsub : (((rows.zipIdx 0).filter fun p => p.2 ∈ js).map (·.1.rid)).Sublist (rows.map (·.rid)) := by
    have h1 : ((rows.zipIdx 0).map (·.1.rid)) = rows.map (·.rid) := by
      have : (fun p : Row × Nat => p.1.rid) = (fun r : Row => r.rid) ∘ Prod.fst := rfl
      rw [this, ← List.map_map, List.zipIdx_map_fst]
    rw [← h1]
    exact List.filter_sublist.map _
  refine ⟨hsub.nodup hn, hsub.subset, ?_⟩
  rw [List.length_map, ← List.length_map (f := Prod.snd)]
  apply List.Perm.length_eq
  have hjn : js.Nodup := hs.imp fun h => Nat.ne_of_lt h
  have hz : ((rows.zipIdx 0).map Prod.snd) = List.range' 0 rows.length := by
    rw [List.zipIdx_map_snd]
  rw [List.perm_ext_iff_of_nodup ((List.filter_sublist.map Prod.snd).nodup (by
    rw [hz]; exact List.nodup_range')) hjn]
  intro j
  simp only [List.mem_map, List.mem_filter, decide_eq_true_eq]
  constructor
  · rintro ⟨p, ⟨_, hp⟩, rfl⟩; exact hp
  · intro hj
    refine ⟨(rows[j]'(hb j hj), j), ⟨?_, hj⟩, rfl⟩
    rw [List.mem_zipIdx_iff_getElem?]
    simp [hb j hj]

theorem sample_len {n : Nat} (hn : n ≤ 2 ^ 53) {q : ℚ} (hq : 0 < q ∧ q < 1) (rng : Nat → Nat) :
    ((pySample (List.range n) (shareOf n q) rng).insertionSort (· ≤ ·)).length = shareOf n q := by
  have := shareOf_le hq.1.le hq.2.le hn
  rw [(List.perm_insertionSort _ _).length_eq, pySample_length _ _ _ (by rw [List.length_range]; omega)]

/-- **C32.** For every dataset, ratio and random outcome: `random_split` raises exactly when the ratio
is not strictly between 0 and 1 or `⌊n·ratio⌋` is 0; otherwise train and test have no record in common,
together hold every record once, and the test set has exactly `⌊n·ratio⌋` records (the product in floating point). -/
theorem C32_random_split (ds : Mem) (hu : RidsUnique ds) (hs : ds.rows.length ≤ 2 ^ 53) (ratio : ℚ) (rng : Nat → Nat) :
    ((∃ e, randomSplit ds ratio rng = .error e) ↔
      ¬ (0 < ratio ∧ ratio < 1) ∨ (toFloat (ds.rows.length * ratio)).floor = 0) ∧
    ∀ train test, randomSplit ds ratio rng = .ok (train, test) →
      Spec.Disjoint ds train test ∧ (train.rows ++ test.rows).Perm ds.rows ∧
      (test.rows.length : Int) = (toFloat (ds.rows.length * ratio)).floor ∧
      train.cols = ds.cols ∧ test.cols = ds.cols := by
  by_cases hq : 0 < ratio ∧ ratio < 1
  · have hb := shareOf_cast (n := ds.rows.length) hq.1.le
    have hlen := sample_len hs hq rng
    unfold randomSplit
    rw [if_pos hq]
    simp only []
    constructor
    · constructor
      · rintro ⟨e, he⟩
        split at he
        · cases he
        · rename_i hn
          rw [hlen] at hn
          right; omega
      · rintro (h | h)
        · exact absurd hq h
        · exact ⟨.assertion, by rw [if_neg (by rw [hlen]; omega)]⟩
    · intro train test h
      split at h
      · simp only [Except.ok.injEq, Prod.mk.injEq] at h
        obtain ⟨rfl, rfl⟩ := h
        obtain ⟨f1, f2, f3⟩ := pick_facts ds.rows hu _
          (sorted_sample ds.rows.length (shareOf ds.rows.length ratio) rng)
          (by
            intro j hj
            rw [(List.perm_insertionSort _ _).mem_iff] at hj
            simpa using pySample_subset _ _ _ hj)
        refine ⟨⟨(C05_drop_keep ds _).2.1, (C05_drop_keep ds _).2.2.1, ?_⟩, (C05_drop_keep ds _).1, ?_,
          rfl, rfl⟩
        · intro r hr r' hr' e
          rw [(C05_drop_keep ds _).2.2.2.1] at hr
          rw [(C05_drop_keep ds _).2.2.2.2.1] at hr'
          exact hr.2 (e ▸ hr'.2)
        · have := sampled_count hu f1 f2
          simp only [Mem.drop, dropRows, if_true]
          rw [this, f3, hlen]
          omega
      · cases h
  · unfold randomSplit
    rw [if_neg hq]
    exact ⟨⟨fun _ => Or.inl hq, fun _ => ⟨_, rfl⟩⟩, fun _ _ h => (by cases h)⟩

theorem sublist_filter_eq {rows T : List Row} (hn : (rows.map (·.rid)).Nodup) (hs : T.Sublist rows) :
    (rows.filter fun r => r.rid ∈ T.map (·.rid)) = T := by
  induction hs with
  | slnil => rfl
  | cons a hs ih =>
    rw [List.map_cons, List.nodup_cons] at hn
    rw [List.filter_cons, if_neg, ih hn.2]
    simp only [decide_eq_true_eq]
    exact fun hm => hn.1 ((hs.map _).subset hm)
  | cons_cons a hs ih =>
    rename_i l1 l2
    rw [List.map_cons, List.nodup_cons] at hn
    rw [List.filter_cons, if_pos (by simp)]
    congr 1
    conv_rhs => rw [← ih hn.2]
    apply List.filter_congr
    intro r hr
    have : r.rid ≠ a.rid := fun e => hn.1 (e ▸ List.mem_map_of_mem hr)
    simp [this]

/-- **C32.** Every set of `⌊n·ratio⌋` records is the test set for some random outcome. -/
theorem C32_every_choice (ds : Mem) (hu : RidsUnique ds) (ratio : ℚ) (hq : 0 < ratio ∧ ratio < 1)
    (T : List Row) (hT : T.Sublist ds.rows) (hl : (T.length : Int) = (toFloat (ds.rows.length * ratio)).floor)
    (h0 : T ≠ []) :
    ∃ rng train test, randomSplit ds ratio rng = .ok (train, test) ∧ test.rows = T := by
  let ys := ((ds.rows.zipIdx 0).filter fun p => p.1.rid ∈ T.map (·.rid)).map (·.2)
  have hz : ((ds.rows.zipIdx 0).map Prod.snd) = List.range' 0 ds.rows.length := by
    rw [List.zipIdx_map_snd]
  have hysub : ys.Sublist (List.range ds.rows.length) := by
    rw [List.range_eq_range', ← hz]
    exact List.filter_sublist.map _
  have hrows : ((ds.rows.zipIdx 0).filter fun p => p.1.rid ∈ T.map (·.rid)).map (·.1) = T := by
    conv_rhs => rw [← sublist_filter_eq hu hT]
    conv_rhs => rw [← List.zipIdx_map_fst 0 ds.rows]
    rw [List.filter_map]
    rfl
  have hylen : ys.length = T.length := by
    rw [← congrArg List.length hrows]
    simp [ys]
  obtain ⟨rng, hrng⟩ := pySample_reach ys (List.range ds.rows.length) hysub.subperm
  have hk : shareOf ds.rows.length ratio = ys.length := by
    have := shareOf_cast (n := ds.rows.length) hq.1.le
    omega
  have hsample : pySample (List.range ds.rows.length) (shareOf ds.rows.length ratio) rng = ys := by
    rw [hk]; exact hrng
  have hpos : 0 < T.length := List.length_pos_of_ne_nil h0
  refine ⟨rng, ds.drop (pickRids ds.rows 0 ((pySample (List.range ds.rows.length)
      (shareOf ds.rows.length ratio) rng).insertionSort (· ≤ ·))) false,
    ds.drop (pickRids ds.rows 0 ((pySample (List.range ds.rows.length)
      (shareOf ds.rows.length ratio) rng).insertionSort (· ≤ ·))) true, ?_, ?_⟩
  · unfold randomSplit
    rw [if_pos hq]
    simp only []
    rw [if_pos]
    rw [(List.perm_insertionSort _ _).length_eq, hsample]
    omega
  · rw [pickRids_eq _ _ _ (sorted_sample _ _ _) (by
      intro j hj
      rw [(List.perm_insertionSort _ _).mem_iff] at hj
      have := pySample_subset _ _ _ hj
      simp at this
      omega)]
    have hmem : ∀ j, j ∈ (pySample (List.range ds.rows.length)
        (shareOf ds.rows.length ratio) rng).insertionSort (· ≤ ·) ↔ j ∈ ys := by
      intro j
      rw [(List.perm_insertionSort _ _).mem_iff, hsample]
    have hfil : ((ds.rows.zipIdx 0).filter fun p => p.2 ∈ (pySample (List.range ds.rows.length)
        (shareOf ds.rows.length ratio) rng).insertionSort (· ≤ ·)) =
        (ds.rows.zipIdx 0).filter fun p => p.1.rid ∈ T.map (·.rid) := by
      apply List.filter_congr
      intro p hp
      rw [decide_eq_decide, hmem]
      simp only [ys, List.mem_map, List.mem_filter, decide_eq_true_eq]
      constructor
      · rintro ⟨p', ⟨hp', hr'⟩, e⟩
        have hnd : ((ds.rows.zipIdx 0).map Prod.snd).Nodup := by rw [hz]; exact List.nodup_range'
        have : p' = p := List.inj_on_of_nodup_map hnd hp' hp e
        rw [← this]; exact hr'
      · intro hr'; exact ⟨p, ⟨hp, hr'⟩, rfl⟩
    rw [hfil]
    have : ((ds.rows.zipIdx 0).filter fun p => p.1.rid ∈ T.map (·.rid)).map (·.1.rid) =
        T.map (·.rid) := by
      conv_rhs => rw [← hrows]
      simp
    rw [this]
    simp only [Mem.drop, dropRows, if_true]
    exact sublist_filter_eq hu hT

example : RidsUnique exSplit ∧ exSplit.rows.length ≤ 2 ^ 53 ∧ (toFloat (exSplit.rows.length * (1 / 2 : ℚ))).floor = 2 ∧
    (exSplit.rows.take 2).Sublist exSplit.rows ∧
    ((toFloat (exSplit.rows.length * (1 / 5 : ℚ))).floor = 0 ∧ (0 : ℚ) < 1 / 5) :=
  ⟨exSplit_ok.2, by decide +kernel, by decide +kernel, List.take_sublist _ _, by decide +kernel, by decide +kernel⟩

/-! ## C33, C34: every choice of test records -/

theorem leaveK_reach {ds : Mem} (h : IntUsers ds) (hu : RidsUnique ds) {k : KArg} (hk : k.valid = true) (minN : Nat)
    (T : Val → List Row) (hT : ∀ v, (T v).Sublist (recordsOf ds.rows v)) :
    ∃ rngs, (∃ train test, LeaveKOut ds k minN none rngs false train test) ∧
      ∀ verbose train test, LeaveKOut ds k minN none rngs verbose train test → ∀ v,
        minN ≤ (recordsOf ds.rows v).length → k.amount (recordsOf ds.rows v).length < (recordsOf ds.rows v).length →
        0 < k.amount (recordsOf ds.rows v).length → (T v).length = k.amount (recordsOf ds.rows v).length →
        recordsOf test.rows v = T v := by
  obtain ⟨us, hus, hnd, hmem⟩ := uniqueVals_user h.hasUser (by decide)
  have one : ∀ v, ∃ s, pySample ((recordsOf ds.rows v).map (·.rid)) (T v).length s = (T v).map (·.rid) := fun v => by
    have := pySample_reach ((T v).map (·.rid)) _ ((hT v).map (·.rid)).subperm
    rwa [List.length_map] at this
  choose s hs using one
  refine ⟨fun i => s (us.getD i .null), ?_, fun verbose train test hr v a b c hl => ?_⟩
  · exact leaveKOut_exists (tasks := us.zipIdx.map fun p => leaveKUser ds k minN none (s (us.getD p.2 .null)) p.1)
      (by simp only [leaveKTasks, hk, if_true, hus, Except.map])
  · have hv : ∃ r ∈ ds.rows, r.get "user" = v := by
      obtain ⟨r, hr⟩ := List.exists_mem_of_length_pos (lt_trans c b)
      exact ⟨r, mem_recordsOf.1 hr⟩
    obtain ⟨i, hi⟩ := List.getElem?_of_mem ((hmem v).2 hv)
    obtain ⟨acts, e, _, e2⟩ := leaveK_view_at (last := none) h hu trivial hr hus hi
    have hg : us.getD i .null = v := by rw [List.getD_eq_getElem?_getD, hi, Option.getD_some]
    rw [e2, e, leaveKTask, if_neg (by omega), if_pos ⟨b, c⟩]
    simp only [hg, ← hl, hs, List.flatMap_cons, testedBy, List.flatMap_nil, List.append_nil]
    exact sublist_filter_eq (recordsOf_rids hu v) (hT v)

/-- **C33.** For every choice of `k` records of each user with more than `k` (and enough) records there are random
outcomes, one per task, with which exactly these become the test set, whatever the interleaving. -/
theorem C33_every_choice (ds : Mem) (h : IntUsers ds) (hu : RidsUnique ds) (k : Nat) (hk : 0 < k) (minN : Nat)
    (T : Val → List Row) (hT : ∀ v, (T v).Sublist (recordsOf ds.rows v))
    (hl : ∀ v, minN ≤ (recordsOf ds.rows v).length → k < (recordsOf ds.rows v).length → (T v).length = k) :
    ∃ rngs, (∃ train test, LeaveKOut ds (.fixed k) minN none rngs false train test) ∧
      ∀ verbose train test, LeaveKOut ds (.fixed k) minN none rngs verbose train test → ∀ v,
        minN ≤ (recordsOf ds.rows v).length → k < (recordsOf ds.rows v).length → recordsOf test.rows v = T v := by
  obtain ⟨rngs, h1, h2⟩ := leaveK_reach h hu (k := .fixed k) (by simpa [KArg.valid] using hk) minN T hT
  refine ⟨rngs, h1, fun verbose train test hr v a b => h2 verbose train test hr v a ?_ ?_ ?_⟩
  · simpa [KArg.amount] using b
  · simpa [KArg.amount] using hk
  · simpa [KArg.amount] using hl v a b

/-- **C34.** The same with a ratio `q`: every choice of `⌊n·q⌋` records (the product in floating point) of each user. -/
theorem C34_every_choice (ds : Mem) (h : IntUsers ds) (hu : RidsUnique ds) (q : ℚ) (hd : IsDouble q) (hq : 0 < q ∧ q < 1)
    (minN : Nat) (T : Val → List Row) (hT : ∀ v, (T v).Sublist (recordsOf ds.rows v))
    (hl : ∀ v, minN ≤ (recordsOf ds.rows v).length →
      ((T v).length : Int) = (toFloat ((recordsOf ds.rows v).length * q)).floor) :
    ∃ rngs, (∃ train test, LeaveKOut ds (.ratio q) minN none rngs false train test) ∧
      ∀ verbose train test, LeaveKOut ds (.ratio q) minN none rngs verbose train test → ∀ v,
        minN ≤ (recordsOf ds.rows v).length → recordsOf test.rows v = T v := by
  obtain ⟨rngs, h1, h2⟩ := leaveK_reach h hu (k := .ratio q) (by simpa [KArg.valid] using hq) minN T hT
  refine ⟨rngs, h1, fun verbose train test hr v a => ?_⟩
  have e : (T v).length = shareOf (recordsOf ds.rows v).length q := by
    have := shareOf_cast (n := (recordsOf ds.rows v).length) hq.1.le
    have := hl v a
    omega
  rcases Nat.eq_zero_or_pos (shareOf (recordsOf ds.rows v).length q) with z | z
  · have := ((leaveK_users h hu (.ratio q) minN none trivial rngs verbose train test hr v).2.1 a (Or.inr z)).2
    rw [this]
    exact (List.eq_nil_of_length_eq_zero (e.trans z)).symm
  · have hn : 0 < (recordsOf ds.rows v).length := by
      rcases Nat.eq_zero_or_pos (recordsOf ds.rows v).length with e | e
      · rw [e, shareOf_zero] at z; omega
      · exact e
    exact h2 verbose train test hr v a (shareOf_lt hd hq.1 hq.2 hn) z e

/-- Two of user 7's three records, the first and the last. -/
example : IntUsers exSplit ∧ RidsUnique exSplit ∧ (recordsOf exSplit.rows (.num 7)).length = 3 ∧
    ∃ T : Val → List Row, (∀ v, (T v).Sublist (recordsOf exSplit.rows v)) ∧ ((T (.num 7)).map (·.rid) = [0, 3]) ∧
      ∀ v, 0 ≤ (recordsOf exSplit.rows v).length → 2 < (recordsOf exSplit.rows v).length → (T v).length = 2 := by
  refine ⟨exSplit_ok.1, exSplit_ok.2, by decide +kernel,
    fun v => if v = .num 7 then (recordsOf exSplit.rows v).filter (·.rid ≠ 2) else (recordsOf exSplit.rows v).take 2,
    fun v => ?_, by decide +kernel, fun v _ b => ?_⟩
  · dsimp only
    split
    · exact List.filter_sublist
    · exact List.take_sublist _ _
  · dsimp only
    split
    · rename_i e
      subst e
      decide +kernel
    · rw [List.length_take]
      omega

/-! ## C35 -/

theorem tsLe_total : Std.Total tsLe := ⟨fun a b => by
  unfold tsLe
  rcases lt_trichotomy a.1 b.1 with h | h | h
  · exact Or.inl (Or.inl h)
  · rcases Nat.le_total a.2 b.2 with h2 | h2
    · exact Or.inl (Or.inr ⟨h, h2⟩)
    · exact Or.inr (Or.inr ⟨h.symm, h2⟩)
  · exact Or.inr (Or.inl h)⟩

theorem tsLe_trans : IsTrans (ℚ × Nat) tsLe := ⟨fun a b c h1 h2 => by
  unfold tsLe at *
  rcases h1 with h1 | ⟨h1, h1'⟩ <;> rcases h2 with h2 | ⟨h2, h2'⟩
  · exact Or.inl (h1.trans h2)
  · exact Or.inl (h2 ▸ h1)
  · exact Or.inl (h1 ▸ h2)
  · exact Or.inr ⟨h1.trans h2, h1'.trans h2'⟩⟩

theorem tsLe_fst {a b : ℚ × Nat} (h : tsLe a b) : a.1 ≤ b.1 := by
  rcases h with h | ⟨h, _⟩
  · exact h.le
  · exact h.le

/-- On entries met in ascending order of time the heap keeps latest ones. -/
theorem heap_latest (k : Nat) (hk : 0 < k) (xs h D : List (ℚ × Nat))
    (hx : xs.Pairwise fun a b => a.1 ≤ b.1) (hs : h.Pairwise tsLe)
    (hD : ∀ d ∈ D, ∀ a ∈ h, d.1 ≤ a.1) (hhx : ∀ a ∈ h ++ D, ∀ x ∈ xs, a.1 ≤ x.1) :
    ∃ D', (xs.foldl (heapStep k) h ++ D').Perm (h ++ D ++ xs) ∧
      ∀ d ∈ D', ∀ a ∈ xs.foldl (heapStep k) h, d.1 ≤ a.1 := by
  have := tsLe_total
  have := tsLe_trans
  induction xs generalizing h D with
  | nil => exact ⟨D, by simp, hD⟩
  | cons x xs ih =>
    rw [List.pairwise_cons] at hx
    simp only [List.foldl_cons]
    by_cases hlen : h.length < k
    · have e : heapStep k h x = List.orderedInsert tsLe x h := by simp [heapStep, hlen]
      have hp := List.perm_orderedInsert tsLe x h
      obtain ⟨D', h1, h2⟩ := ih (heapStep k h x) D hx.2 (by rw [e]; exact hs.orderedInsert x h)
        (by
          intro d hd a ha
          rw [e, hp.mem_iff] at ha
          rcases List.mem_cons.1 ha with rfl | ha
          · exact hhx d (by simp [hd]) a (by simp)
          · exact hD d hd a ha)
        (by
          intro a ha y hy
          rw [List.mem_append, e, hp.mem_iff] at ha
          rcases ha with ha | ha
          · rcases List.mem_cons.1 ha with rfl | ha
            · exact hx.1 y hy
            · exact hhx a (by simp [ha]) y (by simp [hy])
          · exact hhx a (by simp [ha]) y (by simp [hy]))
      refine ⟨D', h1.trans ?_, h2⟩
      rw [e]
      have : (List.orderedInsert tsLe x h ++ D ++ xs).Perm ((x :: h) ++ D ++ xs) :=
        (hp.append_right D).append_right xs
      refine this.trans ?_
      simpa using (List.perm_middle (l₁ := h ++ D) (l₂ := xs) (a := x)).symm
    · cases h with
      | nil => simp at hlen; omega
      | cons m t =>
        have e : heapStep k (m :: t) x = List.orderedInsert tsLe x t := by
          unfold heapStep
          rw [if_neg hlen]
          rfl
        have hp := List.perm_orderedInsert tsLe x t
        rw [List.pairwise_cons] at hs
        obtain ⟨D', h1, h2⟩ := ih (heapStep k (m :: t) x) (m :: D) hx.2
          (by rw [e]; exact hs.2.orderedInsert x t)
          (by
            intro d hd a ha
            rw [e, hp.mem_iff] at ha
            rcases List.mem_cons.1 ha with rfl | ha
            · rcases List.mem_cons.1 hd with rfl | hd
              · exact hhx d (by simp) a (by simp)
              · exact hhx d (by simp [hd]) a (by simp)
            · rcases List.mem_cons.1 hd with rfl | hd
              · exact tsLe_fst (hs.1 a ha)
              · exact hD d hd a (by simp [ha]))
          (by
            intro a ha y hy
            rw [List.mem_append, e, hp.mem_iff] at ha
            rcases ha with ha | ha
            · rcases List.mem_cons.1 ha with rfl | ha
              · exact hx.1 y hy
              · exact hhx a (by simp [ha]) y (by simp [hy])
            · rcases List.mem_cons.1 ha with rfl | ha
              · exact hhx a (by simp) y (by simp [hy])
              · exact hhx a (by simp [ha]) y (by simp [hy]))
        refine ⟨D', h1.trans ?_, h2⟩
        rw [e]
        have h3 : (List.orderedInsert tsLe x t ++ (m :: D) ++ xs).Perm ((x :: t) ++ (m :: D) ++ xs) :=
          (hp.append_right _).append_right xs
        refine h3.trans ?_
        have h4 : ((x :: t) ++ (m :: D) ++ xs).Perm (x :: (m :: t ++ D ++ xs)) := by
          simp only [List.cons_append, List.append_assoc]
          exact (List.perm_middle (l₁ := t) (l₂ := D ++ xs) (a := m)).cons x
        refine h4.trans ?_
        exact (List.perm_middle (l₁ := m :: t ++ D) (l₂ := xs) (a := x)).symm

/-- The task of a user with enough records in the timestamp mode. -/
theorem latest_task (cols : List String) (minN k : Nat) (label : String) (hl : label ∈ cols)
    (rng : Nat → Nat) (rows : List Row) (h1 : minN ≤ rows.length) (h2 : k < rows.length) (h3 : 0 < k) :
    leaveKTask cols minN k (some label) rng rows = [.toTest (latestRids label k rows), .count] := by
  unfold leaveKTask
  rw [if_neg (by omega), if_pos ⟨h2, h3⟩]
  simp [hl]

/-- **C35** (partial: full property is for every order of the records and is false, see
`C35_last_listed_is_tested` and `C35_fails`).  If every user's records are listed in ascending order of
the timestamp, the test records of a user are at least as late as its train records. -/
theorem C35_latest_partial (ds : Mem) (h : IntUsers ds) (hu : RidsUnique ds) (k : KArg) (minN : Nat)
    (label : String) (hl : label ∈ ds.cols) (rngs : Nat → Nat → Nat) (verbose : Bool) (train test : Mem)
    (hr : LeaveKOut ds k minN (some label) rngs verbose train test)
    (hasc : ∀ v, (recordsOf ds.rows v).Pairwise fun a b => numCell (a.get label) ≤ numCell (b.get label)) :
    LatestInTest label train test := by
  intro v b hb a ha
  have hab := ha
  obtain ⟨s1, s2, _⟩ := (leaveK_shape hr).1
  have hav : a ∈ ds.rows ∧ a.get "user" = v :=
    ⟨s2.subset (mem_recordsOf.1 ha).1, (mem_recordsOf.1 ha).2⟩
  obtain ⟨i, acts, he, e1, e2⟩ := leaveK_view h hu (last := some label) hl hr ⟨a, hav⟩
  obtain ⟨c1, c2, c3⟩ := leaveK_users h hu k minN (some label) hl rngs verbose train test hr v
  have hn1 : ¬ (recordsOf ds.rows v).length < minN := by
    intro hc; rw [(c1 hc).2] at ha; simp at ha
  have hn2 : ¬ ((recordsOf ds.rows v).length ≤ k.amount (recordsOf ds.rows v).length ∨
      k.amount (recordsOf ds.rows v).length = 0) := by
    intro hc; rw [(c2 (by omega) hc).2] at ha; simp at ha
  rw [latest_task ds.cols minN _ label hl _ _ (by omega) (by omega) (by omega)] at he
  subst he
  simp only [List.flatMap_cons, removedBy, testedBy, List.flatMap_nil, List.append_nil,
    List.not_mem_nil, not_false_eq_true, true_and] at e1 e2
  rw [e1, List.mem_filter, decide_eq_true_eq] at hb
  rw [e2, List.mem_filter, decide_eq_true_eq] at ha
  have hkey : ∀ r : Row, sortKey label r = numCell (r.get label) := by
    intro r; unfold sortKey numCell; cases r.get label <;> rfl
  obtain ⟨D, hp, hD⟩ := heap_latest (k.amount (recordsOf ds.rows v).length) (by omega)
    ((recordsOf ds.rows v).map fun r => (sortKey label r, r.rid)) [] []
    (by
      rw [List.pairwise_map]
      simp only [hkey]
      exact hasc v) .nil (by simp) (by simp)
  simp only [List.nil_append] at hp
  rw [← hkey, ← hkey]
  have hb2 : (sortKey label b, b.rid) ∈ D := by
    have hmem : (sortKey label b, b.rid) ∈ (recordsOf ds.rows v).map fun r => (sortKey label r, r.rid) :=
      List.mem_map.2 ⟨b, hb.1, rfl⟩
    rw [← hp.mem_iff, List.mem_append] at hmem
    rcases hmem with hm | hm
    · exact absurd (List.mem_map.2 ⟨_, hm, rfl⟩) hb.2
    · exact hm
  have ha2 : (sortKey label a, a.rid) ∈ ((recordsOf ds.rows v).map fun r =>
      (sortKey label r, r.rid)).foldl (heapStep (k.amount (recordsOf ds.rows v).length)) [] := by
    obtain ⟨p, hpm, hpe⟩ := List.mem_map.1 ha.2
    have hmem := hp.subset (List.mem_append_left D hpm)
    obtain ⟨a', ha', rfl⟩ := List.mem_map.1 hmem
    simp only at hpe
    have : a' = a := rid_inj hu (mem_recordsOf.1 ha').1 hav.1 hpe
    rw [← this]
    exact hpm
  exact hD _ hb2 _ ha2

example : IntUsers exSplit ∧ RidsUnique exSplit ∧ "timestamp" ∈ exSplit.cols ∧
    (∀ v, (recordsOf exSplit.rows v).Pairwise fun a b =>
      numCell (a.get "timestamp") ≤ numCell (b.get "timestamp")) ∧
    ∃ train test, LeaveKOut exSplit (.fixed 1) 0 (some "timestamp") (fun _ i => i) false train test := by
  refine ⟨exSplit_ok.1, exSplit_ok.2, by decide, ?_, exSplit_runs _ rfl _ _ _⟩
  intro v
  have h7 : ∀ v, v ∉ exSplit.rows.map (·.get "user") → recordsOf exSplit.rows v = [] := by
    intro v hv
    unfold recordsOf
    rw [List.filter_eq_nil_iff]
    intro r hr hc
    exact hv (List.mem_map.2 ⟨r, hr, of_decide_eq_true hc⟩)
  by_cases hv : v ∈ exSplit.rows.map (·.get "user")
  · revert v
    decide +kernel
  · rw [h7 v hv]
    exact .nil

theorem heapStep_mem (k : Nat) (h : List (ℚ × Nat)) (x : ℚ × Nat) : x ∈ heapStep k h x :=
  (heapStep_perm k h x).mem_iff.2 (by simp)

/-- **C35 fails** in general: the record of a user that is listed last is always put in the test set,
whatever its timestamp. -/
theorem C35_last_listed_is_tested (ds : Mem) (h : IntUsers ds) (hu : RidsUnique ds) (k : KArg)
    (minN : Nat) (label : String) (hl : label ∈ ds.cols) (rngs : Nat → Nat → Nat) (verbose : Bool)
    (train test : Mem) (hr : LeaveKOut ds k minN (some label) rngs verbose train test) (v : Val)
    (pre : List Row) (r : Row) (hpre : recordsOf ds.rows v = pre ++ [r])
    (h1 : minN ≤ pre.length + 1) (h2 : k.amount (pre.length + 1) < pre.length + 1)
    (h3 : 0 < k.amount (pre.length + 1)) : r ∈ test.rows := by
  have hrm : r ∈ recordsOf ds.rows v := by rw [hpre]; simp
  have hrv := mem_recordsOf.1 hrm
  have hlen : (recordsOf ds.rows v).length = pre.length + 1 := by rw [hpre]; simp
  obtain ⟨i, acts, he, _, e2⟩ := leaveK_view h hu (last := some label) hl hr ⟨r, hrv⟩
  rw [hlen] at he
  rw [latest_task ds.cols minN _ label hl _ _ (by omega) (by omega) h3] at he
  subst he
  have : r ∈ recordsOf test.rows v := by
    rw [e2, List.mem_filter, decide_eq_true_eq]
    refine ⟨hrm, ?_⟩
    simp only [List.flatMap_cons, testedBy, List.flatMap_nil, List.append_nil]
    rw [hpre]
    simp only [latestRids, List.map_append, List.map_cons, List.map_nil, List.foldl_append,
      List.foldl_cons, List.foldl_nil]
    exact List.mem_map.2 ⟨_, heapStep_mem _ _ _, rfl⟩
  exact (mem_recordsOf.1 this).1

/-- Two records of one user, the later one listed first. -/
def exDesc : Mem := exSplitOf [(0, 7, 1, 5), (1, 7, 2, 1)]

theorem exDesc_ok : IntUsers exDesc ∧ RidsUnique exDesc := ⟨exSplitOf_int _, by unfold RidsUnique; decide⟩

/-- **C35 fails**: with timestamps 5 and 1 in this order and `k = 1`, every execution puts the older
record in the test set. -/
theorem C35_fails : ∃ ds label, IntUsers ds ∧ RidsUnique ds ∧ label ∈ ds.cols ∧
    (∀ rngs verbose train test, LeaveKOut ds (.fixed 1) 0 (some label) rngs verbose train test →
      ¬ LatestInTest label train test) ∧
    ∀ rngs verbose, ∃ train test, LeaveKOut ds (.fixed 1) 0 (some label) rngs verbose train test := by
  refine ⟨exDesc, "timestamp", exDesc_ok.1, exDesc_ok.2, by decide, ?_, ?_⟩
  · intro rngs verbose train test hr hlat
    have hrec : recordsOf exDesc.rows (.num 7) = exDesc.rows := by
      have e : ∀ r ∈ exDesc.rows, decide (r.get "user" = .num 7) = true := by decide +kernel
      exact List.filter_eq_self.2 e
    have ht := C35_last_listed_is_tested exDesc exDesc_ok.1 exDesc_ok.2 (.fixed 1) 0 "timestamp"
      (by decide) rngs verbose train test hr (.num 7) [exDesc.rows[0]'(by decide)]
      (exDesc.rows[1]'(by decide)) (by rw [hrec]; rfl) (by omega) (by decide) (by decide)
    have hc := C33_leave_k_out_partial exDesc exDesc_ok.1 exDesc_ok.2 1 (by omega) 0 (some "timestamp")
      (by show "timestamp" ∈ exDesc.cols; decide) rngs verbose train test hr
    obtain ⟨hd, _, hv, _⟩ := hc
    obtain ⟨hl1, hp⟩ := (hv (.num 7)).2.2 (by omega) (by rw [hrec]; decide)
    rw [hrec] at hp
    have h0 : exDesc.rows[0]'(by decide) ∈ recordsOf train.rows (.num 7) := by
      have hm : exDesc.rows[0]'(by decide) ∈ recordsOf train.rows (.num 7) ++ recordsOf test.rows (.num 7) :=
        hp.mem_iff.2 (List.getElem_mem _)
      rcases List.mem_append.1 hm with hm | hm
      · exact hm
      · have ht' : exDesc.rows[1]'(by decide) ∈ recordsOf test.rows (.num 7) :=
          mem_recordsOf.2 ⟨ht, by decide +kernel⟩
        obtain ⟨x, hx⟩ := List.length_eq_one_iff.1 hl1
        rw [hx, List.mem_singleton] at hm ht'
        have := congrArg Row.rid (hm.trans ht'.symm)
        exact absurd this (by decide)
    have := hlat (.num 7) _ h0 _ (mem_recordsOf.2 ⟨ht, by decide +kernel⟩)
    revert this
    decide +kernel
  · intro rngs verbose
    exact (C37_leave_k_out_finishes_partial exDesc exDesc_ok.1 (.fixed 1) rfl 0 (some "timestamp")
      (by show "timestamp" ∈ exDesc.cols; decide) rngs).2 verbose

end DRec
