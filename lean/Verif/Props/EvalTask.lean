import Verif.Props.EvalUsers
import Verif.Lemmas.Matrix
import Verif.Lemmas.MemHeap

/-!
# C73: what a user's evaluation is computed on
-/

namespace DRec

open Spec

theorem thresholdRows_eq (t : ℚ) (ds : Mem) (u : Val) :
    thresholdRows (some t) (recordsOf ds.rows u) = positivesOf t ds u := by
  classical
  unfold thresholdRows positivesOf
  apply List.filter_congr
  intro r _
  unfold IsPositive
  cases r.get "interaction" <;> simp

theorem belowThreshold_eq (t : ℚ) (ds : Mem) (u : Val) :
    belowThreshold t (recordsOf ds.rows u) = negativeRecords t ds u := by
  classical
  unfold belowThreshold negativeRecords
  apply List.filter_congr
  intro r _
  unfold IsNegative
  cases r.get "interaction" <;> simp

theorem userDs_int {ds : Mem} (h : IntUsers ds) (u : Int) :
    ∃ d, userDs ds (.num u) = .ok d ∧ d.rows = recordsOf ds.rows (.num u) ∧ d.cols = ds.cols ∧
      d.dtype = ds.dtype := by
  have h1 := userRows_int h u
  unfold userRows at h1
  unfold userDs
  cases hs : ds.select ("user == ".toList ++ cellText (.num u)) with
  | error e => rw [hs] at h1; cases h1
  | ok d =>
    rw [hs] at h1
    simp only [Except.map, Except.ok.injEq] at h1
    refine ⟨d, rfl, h1, ?_⟩
    unfold Mem.select at hs
    cases hq : ds.copy.applyQuery ("user == ".toList ++ cellText (.num u)) with
    | error e => rw [hq] at hs; cases hs
    | ok rows =>
      rw [hq] at hs
      simp only [Except.map, Except.ok.injEq] at hs
      subst hs
      exact ⟨rfl, rfl⟩

/-- Selecting one item. -/
theorem itemRows_int {ds : Mem} (hc : "item" ∈ ds.cols) (hd : ds.dtype "item" = .int) (n : Int) :
    ds.applyQuery ("item == ".toList ++ cellText (.num n)) =
      .ok (ds.rows.filter fun r => itemOf r = .num n) := by
  obtain ⟨⟨d, hd, hr, _⟩, _⟩ := C01_select_exact ds [([], ⟨"item", .eq, .int n⟩, [])]
    ⟨by simp, by
      intro w hw
      simp only [List.mem_singleton] at hw
      subst hw
      exact ⟨by simp [Blank], by simp [Blank], (by decide : NameOk "item"), trivial⟩⟩
    (by
      intro w hw
      simp only [List.mem_singleton] at hw
      subst hw
      exact ⟨hc, by simp [Fits, SLit.isStr], by simp [Direct, hd]⟩)
    (by
      intro w hw r hr
      simp only [List.mem_singleton] at hw
      subst hw
      simp [Comparable])
  have e : "item == ".toList ++ cellText (.num (n : ℚ)) =
      queryText [([], ⟨"item", .eq, .int n⟩, [])] := by
    simp only [queryText, SCond.text, SLit.text, List.nil_append, List.append_nil, cellText]
    rw [if_pos (by simp)]
    rfl
  rw [e]
  unfold Mem.select at hd
  rw [applyQuery_copy] at hd
  cases hq : ds.applyQuery (queryText [([], ⟨"item", .eq, .int n⟩, [])]) with
  | error x => rw [hq] at hd; cases hd
  | ok rows =>
    rw [hq] at hd
    simp only [Except.map, Except.ok.injEq] at hd
    subst hd
    simp only at hr
    rw [hr]
    congr 1
    apply List.filter_congr
    intro r _
    rw [Bool.eq_iff_iff]
    simp only [Sat, Holds, SLit.value, itemOf, List.mem_singleton, forall_eq, decide_eq_true_eq]
    exact ⟨fun h => decide_eq_true h, fun h => of_decide_eq_true h⟩

theorem cellOrZero_first {ds : Mem} {u x : Val} :
    cellOrZero ((recordsOf ds.rows u).filter fun r => itemOf r = x).head? = firstInteraction ds u x := by
  unfold firstInteraction
  rw [List.head?_filter]
  cases (recordsOf ds.rows u).find? fun r => decide (itemOf r = x) <;> rfl

theorem relevanciesOf_int {ds d : Mem} {u : Val} (hr : d.rows = recordsOf ds.rows u)
    (hc : "item" ∈ d.cols) (hd : d.dtype "item" = .int) {items : List Val}
    (hw : ∀ x ∈ items, ∃ n : Int, x = .num n) :
    ∃ rel, relevanciesOf d items = .ok rel ∧ RelevanciesOf ds u items rel := by
  refine ⟨(distinctVals items).map fun x => (x, firstInteraction ds u x), ?_, ?_, ?_, ?_⟩
  · unfold relevanciesOf
    apply mapM_except_ok
    intro x hx
    obtain ⟨n, rfl⟩ := hw x (mem_distinct_iff.1 hx)
    rw [itemRows_int hc hd, hr]
    simp only [Except.map, cellOrZero_first]
  · simp only [List.map_map, Function.comp_def, List.map_id']
    exact nodup_distinctVals _
  · intro x
    simp only [List.map_map, Function.comp_def, List.map_id']
    exact mem_distinct_iff
  · intro p hp
    obtain ⟨x, _, rfl⟩ := List.mem_map.1 hp
    rfl

theorem asked_wanted {n : NegArg} (hp : NegArg.Positive n) (k m : Nat) : Asked n k m ↔ m = n.wanted k := by
  cases n with
  | count n => rfl
  | ratio q =>
    exact (shareOf_iff (le_of_lt hp) m).symm

theorem samplePos_none {pos : List Row} {n : Option Nat} {rng : Nat → Nat} :
    samplePos pos n rng = none ↔ ∃ k, n = some k ∧ pos.length < k := by
  unfold samplePos
  cases n with
  | none => simp
  | some k => by_cases h : pos.length < k <;> simp [h]

theorem samplePos_some {pos s : List Row} {n : Option Nat} {rng : Nat → Nat}
    (h : samplePos pos n rng = some s) : SampledFrom pos n s ∧ s.length = n.getD pos.length := by
  unfold samplePos at h
  cases n with
  | none => cases h; exact ⟨⟨List.Subperm.refl _, fun _ => rfl, by simp⟩, rfl⟩
  | some k =>
    simp only at h
    split at h
    · cases h
    · cases h
      have hl := pySample_length pos k rng (by omega)
      exact ⟨⟨pySample_subperm _ _ _, by simp, by simp [hl]⟩, hl⟩

/-- Fewer positive test records than asked for. -/
def TooFewPositives (ds : Mem) (a : EvalArgs) (u : Val) : Prop :=
  ∃ k, a.nPos = some k ∧ (positivesOf a.threshold ds u).length < k

/-- Number of positive records that are used. -/
noncomputable def usedPositives (ds : Mem) (a : EvalArgs) (u : Val) : Nat :=
  a.nPos.getD (positivesOf a.threshold ds u).length

/-- Number of items the user rated positively, in test and train set. -/
noncomputable def likedItems (model : EvalModel) (ds : Mem) (a : EvalArgs) (u : Val) : Nat :=
  (((positivesOf a.threshold ds u) ++
    (if a.trainEval then [] else positivesOf a.threshold model.train u)).map itemOf).dedup.length

/-- Negatives have to be generated and there are fewer items left than negatives asked for. -/
def TooFewItems (model : EvalModel) (ds : Mem) (a : EvalArgs) (u : Val) : Prop :=
  ∃ n m, a.nNeg = some n ∧ Asked n (usedPositives ds a u) m ∧ a.generate = true ∧
    (negativeRecords a.threshold ds u).length < m ∧ model.nItems < m + likedItems model ds a u

/-- No positives and no negatives. -/
def NothingToRank (ds : Mem) (a : EvalArgs) (u : Val) : Prop :=
  usedPositives ds a u = 0 ∧ (a.nNeg = none → negativeRecords a.threshold ds u = []) ∧
    ∀ n m, a.nNeg = some n → Asked n (usedPositives ds a u) m →
      m = 0 ∨ (negativeRecords a.threshold ds u = [] ∧ a.generate = false)

theorem distinct_length (l : List Val) : (distinctVals l).length = l.dedup.length := by
  apply List.Perm.length_eq
  rw [List.perm_ext_iff_of_nodup (nodup_distinctVals _) (List.nodup_dedup _)]
  intro x
  rw [mem_distinct_iff, List.mem_dedup]

theorem blacklist_length {model : EvalModel} (ht : IntUsers model.train) (ds : Mem) (a : EvalArgs) (u : Int) :
    ∃ black, blacklist model a (.num u) (positivesOf a.threshold ds (.num u)) = .ok black ∧
      black.length = likedItems model ds a (.num u) ∧
      ∀ r ∈ positivesOf a.threshold ds (.num u), itemOf r ∈ black := by
  unfold blacklist likedItems
  cases a.trainEval with
  | true =>
    exact ⟨_, rfl, by simp only [distinct_length, if_true, List.append_nil]; rfl,
      fun r hr => mem_distinct_iff.2 (List.mem_map_of_mem (f := itemOf) hr)⟩
  | false =>
    simp only [Bool.false_eq_true, if_false, trainPositives, userRows_int ht, Except.map, thresholdRows_eq]
    refine ⟨_, rfl, ?_, fun r hr =>
      mem_distinct_iff.2 (List.mem_append_right _ (List.mem_map_of_mem (f := itemOf) hr))⟩
    rw [distinct_length, List.map_append]
    apply List.Perm.length_eq
    exact (List.perm_append_comm).dedup

/-- The negatives of a user, case by case. -/
theorem negativesOf_cases {model : EvalModel} (ht : IntUsers model.train) (ds : Mem) (a : EvalArgs) (n : NegArg)
    (hn : a.nNeg = some n) (u : Int) (nS m : Nat) (hm : m = n.wanted nS) (rng : EvalRng) :
    let N := (negativeRecords a.threshold ds (.num u)).map itemOf
    let o := negativesOf model a (.num u) (positivesOf a.threshold ds (.num u)) nS
      (negativeRecords a.threshold ds (.num u)) rng
    let L := likedItems model ds a (.num u)
    (N.length < m ∧ a.generate = true ∧ model.nItems < m + L ∧ o = .ok .skip) ∨
    (N.length < m ∧ a.generate = true ∧ m + L ≤ model.nItems ∧ (o = .ok .more ∨
      ∃ listed fresh : List Val, o = .ok (.done (listed ++ fresh)) ∧ listed.Subperm N ∧
        listed.length = min m N.length ∧ (listed ++ fresh).length = m ∧
        fresh.Nodup ∧ ∀ x ∈ fresh, (∃ j : Nat, x = .num (j : ℚ)) ∧ x ∉ listed ∧
          ∀ r ∈ positivesOf a.threshold ds (.num u), itemOf r ≠ x)) ∨
    (¬ (N.length < m ∧ a.generate = true) ∧ ∃ listed : List Val, o = .ok (.done listed) ∧
      listed.Subperm N ∧ listed.length = min m N.length) := by
  intro N o L
  subst hm
  obtain ⟨black, hb, hbl, hbp⟩ := blacklist_length ht ds a u
  have hlen : ∀ s, (pySample N (min (n.wanted nS) N.length) s).length = min (n.wanted nS) N.length :=
    fun s => pySample_length _ _ _ (by omega)
  have hN : N.length = (negativeRecords a.threshold ds (.num u)).length := List.length_map _
  have ho : o = if (pySample N (min (n.wanted nS) N.length) rng.neg).length < n.wanted nS ∧ a.generate = true then
      if (model.nItems : Int) - black.length < n.wanted nS then .ok .skip
        else match genLoop model.nItems black (n.wanted nS)
            (pySample N (min (n.wanted nS) N.length) rng.neg) rng.items with
          | none => .ok .more
          | some l => .ok (.done l)
      else .ok (.done (pySample N (min (n.wanted nS) N.length) rng.neg)) := by
    show negativesOf _ _ _ _ _ _ _ = _
    unfold negativesOf
    simp only [hn, hb, hN]
    rfl
  rw [hlen] at ho
  by_cases hc : N.length < n.wanted nS ∧ a.generate = true
  · rw [if_pos ⟨by omega, hc.2⟩] at ho
    by_cases hg : model.nItems < n.wanted nS + L
    · rw [if_pos (by omega)] at ho
      exact .inl ⟨hc.1, hc.2, hg, ho⟩
    · rw [if_neg (by omega)] at ho
      refine .inr (.inl ⟨hc.1, hc.2, by omega, ?_⟩)
      cases hl : genLoop model.nItems black (n.wanted nS)
          (pySample N (min (n.wanted nS) N.length) rng.neg) rng.items with
      | none => exact .inl (by rw [ho, hl])
      | some l =>
        obtain ⟨h1, fresh, h2, h3, h4⟩ := genLoop_spec (by rw [hlen]; omega) hl
        refine .inr ⟨_, fresh, by rw [ho, hl, h2], pySample_subperm _ _ _, hlen _, by rw [← h2]; exact h1, h3, ?_⟩
        intro x hx
        obtain ⟨hxb, hxl, j, _, rfl⟩ := h4 x hx
        exact ⟨⟨j, rfl⟩, hxl, fun r hr e => hxb (e ▸ hbp r hr)⟩
  · rw [if_neg (by intro h; exact hc ⟨by omega, h.2⟩)] at ho
    exact .inr (.inr ⟨hc, _, ho, pySample_subperm _ _ _, hlen _⟩)

/-- The user is ranked unless there is nothing to rank. -/
theorem rankData_skip {model : EvalModel} {a : EvalArgs} {u : Val} {uds : Mem} {sampled : List Row}
    {neg : List Val} {rng : EvalRng} :
    rankData model a u uds sampled neg rng = .ok .skip ↔ sampled = [] ∧ neg = [] := by
  unfold rankData
  simp only [List.length_append, List.length_map, Nat.add_eq_zero_iff, List.length_eq_zero_iff]
  split
  next h => simp [h]
  next h =>
    simp only [h, iff_false]
    split
    · simp
    · split <;> simp

/-- **C73**, skipped users of a ranking evaluation. -/
theorem C73_skipped (model : EvalModel) (ht : IntUsers model.train) (ds : Mem) (hu : IntUsers ds)
    (a : EvalArgs) (hn : ∀ n, a.nNeg = some n → NegArg.Positive n) (u : Int) (rng : EvalRng) :
    rankingUser model ds a (.num u) rng = .ok .skip ↔
      TooFewPositives ds a (.num u) ∨ TooFewItems model ds a (.num u) ∨ NothingToRank ds a (.num u) := by
  obtain ⟨d, hd, hrows, hcols, hdt⟩ := userDs_int hu u
  unfold rankingUser
  simp only [hd, hrows, thresholdRows_eq, belowThreshold_eq]
  cases hs : samplePos (positivesOf a.threshold ds (.num u)) a.nPos rng.pos with
  | none =>
    simp only [true_iff]
    exact .inl (samplePos_none.1 hs)
  | some sampled =>
    have hfew : ¬ TooFewPositives ds a (.num u) := fun h => by
      rw [samplePos_none.2 h] at hs; cases hs
    obtain ⟨hsam, hlen⟩ := samplePos_some hs
    have hlen' : usedPositives ds a (.num u) = sampled.length := hlen.symm
    simp only [hfew, false_or]
    cases hneg : a.nNeg with
    | none =>
      have h2 : ¬ TooFewItems model ds a (.num u) := by
        rintro ⟨n, m, h, _⟩; rw [hneg] at h; cases h
      simp only [h2, false_or, NothingToRank, hneg, hlen', negativesOf, rankData_skip]
      simp [List.length_eq_zero_iff]
    | some n =>
      have hw := fun m => asked_wanted (hn n hneg) sampled.length m
      have hI : TooFewItems model ds a (.num u) ↔ a.generate = true ∧
          (negativeRecords a.threshold ds (.num u)).length < n.wanted sampled.length ∧
          model.nItems < n.wanted sampled.length + likedItems model ds a (.num u) := by
        unfold TooFewItems
        rw [hlen']
        constructor
        · rintro ⟨n', m, h, h2, h3⟩
          rw [hneg] at h; cases h
          rw [hw] at h2; subst h2
          exact h3
        · intro h
          exact ⟨n, _, hneg, (hw _).2 rfl, h⟩
      have hR : NothingToRank ds a (.num u) ↔ sampled = [] ∧ (n.wanted sampled.length = 0 ∨
          (negativeRecords a.threshold ds (.num u) = [] ∧ a.generate = false)) := by
        unfold NothingToRank
        rw [hlen', List.length_eq_zero_iff]
        refine and_congr_right fun _ => ?_
        constructor
        · rintro ⟨_, h⟩
          exact h n _ hneg ((hw _).2 rfl)
        · intro h
          refine ⟨(by rw [hneg]; nofun), fun n' m h1 h2 => ?_⟩
          rw [hneg] at h1; cases h1
          rw [hw] at h2; subst h2
          exact h
      rw [hI, hR]
      have hcs := negativesOf_cases ht ds a n hneg u sampled.length _ rfl rng
      simp only [List.length_map] at hcs
      rcases hcs with ⟨h1, h2, h3, ho⟩ | ⟨h1, h2, h3, ho⟩ | ⟨h1, l, ho, hsub, hl⟩
      · simp [ho, h1, h2, h3]
      · have hnot : ¬ (model.nItems < n.wanted sampled.length + likedItems model ds a (.num u)) := by omega
        rcases ho with ho | ⟨listed, fresh, ho, _, hl, hm, _⟩
        · simp [ho, h2, hnot]
          omega
        · simp only [ho, h2, hnot, rankData_skip, and_false, false_or, Bool.true_eq_false, or_false]
          rw [← hm, List.length_eq_zero_iff]
      · simp only [ho, rankData_skip]
        rw [← List.length_eq_zero_iff (l := l), hl]
        have : (negativeRecords a.threshold ds (.num u) = []) ↔
          (negativeRecords a.threshold ds (.num u)).length = 0 := List.length_eq_zero_iff.symm
        rw [this]
        cases hg : a.generate with
        | true =>
          simp only [hg, and_true] at h1
          simp only [true_and, Bool.true_eq_false, and_false, or_false]
          constructor
          · rintro ⟨h3, h4⟩
            exact .inr ⟨h3, by omega⟩
          · rintro (⟨h3, _⟩ | ⟨h3, h4⟩)
            · omega
            · exact ⟨h3, by omega⟩
        | false =>
          simp only [Bool.false_eq_true, false_and, false_or, and_true]
          refine and_congr_right fun _ => ?_
          omega

/-- **C73**, evaluated users of a ranking evaluation: what is ranked and what the metrics get. -/
theorem C73_ranking (model : EvalModel) (ht : IntUsers model.train) (ds : Mem) (hu : IntUsers ds)
    (hi : IntItems ds) (a : EvalArgs) (hn : ∀ n, a.nNeg = some n → NegArg.Positive n) (u : Int)
    (rng : EvalRng) (d : EvalData) (h : rankingUser model ds a (.num u) rng = .ok (.done d)) :
    ∃ (sampled : List Row) (listed fresh cands : List Val) (ranked : List (ℚ × Val)),
      SampledFrom (positivesOf a.threshold ds (.num u)) a.nPos sampled ∧
      listed.Subperm ((negativeRecords a.threshold ds (.num u)).map itemOf) ∧ fresh.Nodup ∧
      (∀ x ∈ fresh, x ∉ listed ∧ ∀ r ∈ positivesOf a.threshold ds (.num u), itemOf r ≠ x) ∧
      (a.nNeg = none → fresh = [] ∧ listed = (negativeRecords a.threshold ds (.num u)).map itemOf) ∧
      (∀ n, a.nNeg = some n → ∃ m, Asked n sampled.length m ∧
        listed.length = min m (negativeRecords a.threshold ds (.num u)).length ∧
        if a.generate = true then listed.length + fresh.length = m else fresh = []) ∧
      cands.Perm (sampled.map itemOf ++ listed ++ fresh) ∧ cands ≠ [] ∧
      model.rank (.num u) cands a.novelty = .ok ranked ∧
      d.recs = ranked.map (·.2) ∧ d.relevant = sampled.map itemOf ∧
      RelevanciesOf ds (.num u) cands d.relevancies := by
  obtain ⟨x, hx, hrows, hcols, hdt⟩ := userDs_int hu u
  unfold rankingUser at h
  simp only [hx, hrows, thresholdRows_eq, belowThreshold_eq] at h
  cases hs : samplePos (positivesOf a.threshold ds (.num u)) a.nPos rng.pos with
  | none => rw [hs] at h; cases h
  | some sampled =>
    simp only [hs] at h
    obtain ⟨hsam, hlen⟩ := samplePos_some hs
    have hwhole : ∀ v ∈ sampled.map itemOf, ∃ n : Int, v = .num n := by
      intro v hv
      obtain ⟨r, hr, rfl⟩ := List.mem_map.1 hv
      have : r ∈ positivesOf a.threshold ds (.num u) := hsam.1.subset hr
      exact hi.whole r (List.mem_filter.1 (List.mem_filter.1 this).1).1
    have hwholeN : ∀ v ∈ (negativeRecords a.threshold ds (.num u)).map itemOf, ∃ n : Int, v = .num n := by
      intro v hv
      obtain ⟨r, hr, rfl⟩ := List.mem_map.1 hv
      exact hi.whole r (List.mem_filter.1 (List.mem_filter.1 hr).1).1
    have key : ∀ listed fresh : List Val,
        listed.Subperm ((negativeRecords a.threshold ds (.num u)).map itemOf) →
        (∀ v ∈ fresh, ∃ j : Nat, v = .num (j : ℚ)) →
        rankData model a (.num u) x sampled (listed ++ fresh) rng = .ok (.done d) →
        ∃ (cands : List Val) (ranked : List (ℚ × Val)),
          cands.Perm (sampled.map itemOf ++ listed ++ fresh) ∧ cands ≠ [] ∧
          model.rank (.num u) cands a.novelty = .ok ranked ∧
          d.recs = ranked.map (·.2) ∧ d.relevant = sampled.map itemOf ∧
          RelevanciesOf ds (.num u) cands d.relevancies := by
      intro listed fresh hl hf hr
      unfold rankData at hr
      simp only at hr
      split at hr
      · cases hr
      next hne =>
      have hperm : (pySample (sampled.map (·.get "item") ++ (listed ++ fresh))
          (sampled.map (·.get "item") ++ (listed ++ fresh)).length rng.shuffle).Perm
          (sampled.map itemOf ++ listed ++ fresh) := by
        rw [List.append_assoc]
        exact List.Subperm.perm_of_length_le (pySample_subperm _ _ _)
          (by rw [pySample_length _ _ _ le_rfl]; exact le_rfl)
      generalize pySample (sampled.map (·.get "item") ++ (listed ++ fresh))
          (sampled.map (·.get "item") ++ (listed ++ fresh)).length rng.shuffle = cands at hr hperm
      obtain ⟨rel, h1, h2⟩ := relevanciesOf_int (ds := ds) (d := x) (u := .num u) (items := cands) hrows
        (by rw [hcols]; exact hi.hasItem) (by rw [hdt]; exact hi.int) (by
          intro v hv
          rcases List.mem_append.1 (hperm.mem_iff.1 hv) with hv | hv
          · rcases List.mem_append.1 hv with hv | hv
            · exact hwhole v hv
            · exact hwholeN v (hl.subset hv)
          · obtain ⟨j, rfl⟩ := hf v hv
            exact ⟨j, by simp⟩)
      split at hr
      · cases hr
      next ranked hk =>
        rw [h1] at hr
        simp only [Except.ok.injEq, Outcome.done.injEq] at hr
        subst hr
        refine ⟨cands, ranked, hperm, ?_, hk, rfl, rfl, h2⟩
        rintro rfl
        apply hne
        have := hperm.length_eq
        simp only [List.length_nil, List.length_append, List.length_map] at this
        simp only [List.length_append, List.length_map]
        omega
    cases hneg : a.nNeg with
    | none =>
      simp only [negativesOf, hneg] at h
      obtain ⟨cands, ranked, h1⟩ := key _ [] (List.Subperm.refl _) (by simp) (by rw [List.append_nil]; exact h)
      exact ⟨sampled, _, [], cands, ranked, hsam, List.Subperm.refl _, List.nodup_nil, by simp,
        fun _ => ⟨rfl, rfl⟩, by simp, h1⟩
    | some n =>
      have hw := (asked_wanted (hn n hneg) sampled.length _).2 rfl
      have hcs := negativesOf_cases ht ds a n hneg u sampled.length _ rfl rng
      simp only [List.length_map] at hcs
      rcases hcs with ⟨_, _, _, ho⟩ | ⟨h1, h2, h3, ho | ⟨listed, fresh, ho, hsub, hl, hm, hfn, hf⟩⟩ | ⟨h1, l, ho, hsub, hl⟩
      · rw [ho] at h; cases h
      · rw [ho] at h; cases h
      · rw [ho] at h
        obtain ⟨cands, ranked, h1⟩ := key listed fresh hsub (fun v hv => (hf v hv).1) h
        refine ⟨sampled, listed, fresh, cands, ranked, hsam, hsub, hfn, fun v hv => (hf v hv).2, by simp, ?_, h1⟩
        intro n' hn'
        cases hn'
        refine ⟨_, hw, hl, ?_⟩
        rw [if_pos h2, ← hm, List.length_append]
      · rw [ho] at h
        obtain ⟨cands, ranked, h2⟩ := key l [] hsub (by simp) (by rw [List.append_nil]; exact h)
        refine ⟨sampled, l, [], cands, ranked, hsam, hsub, List.nodup_nil, by simp, by simp, ?_, h2⟩
        intro n' hn'
        cases hn'
        refine ⟨_, hw, hl, ?_⟩
        split
        next hg =>
          have : ¬ _ := fun hlt => h1 ⟨hlt, hg⟩
          simp only [List.length_nil]
          omega
        · rfl

/-- **C73**, skipped users of a recommendation evaluation. -/
theorem C73_recommendation_skipped (model : EvalModel) (ds : Mem) (hu : IntUsers ds) (a : EvalArgs) (n : Option Nat)
    (low : Option ℚ) (u : Int) (rng : EvalRng) :
    recommendationUser model ds a n low (.num u) rng = .ok .skip ↔
      TooFewPositives ds a (.num u) ∨ usedPositives ds a (.num u) = 0 := by
  obtain ⟨d, hd, hrows, hcols, hdt⟩ := userDs_int hu u
  unfold recommendationUser
  simp only [hd, hrows, thresholdRows_eq]
  cases hs : samplePos (positivesOf a.threshold ds (.num u)) a.nPos rng.pos with
  | none =>
    simp only [true_iff]
    exact .inl (samplePos_none.1 hs)
  | some sampled =>
    have hfew : ¬ TooFewPositives ds a (.num u) := fun h => by
      rw [samplePos_none.2 h] at hs; cases hs
    have hlen : usedPositives ds a (.num u) = sampled.length := (samplePos_some hs).2.symm
    simp only [hfew, false_or, hlen]
    split
    next h => simp [h]
    next h =>
      simp only [h, iff_false]
      split
      · simp
      · split
        · simp
        · split <;> simp

/-- **C73**, evaluated users of a recommendation evaluation, when the recommended items are whole numbers. -/
theorem C73_recommendation (model : EvalModel) (ds : Mem) (hu : IntUsers ds) (hi : IntItems ds) (a : EvalArgs)
    (n : Nat) (low : Option ℚ) (u : Int) (rng : EvalRng)
    (hw : ∀ recs, model.recommend (.num u) n a.novelty low = .ok recs → ∀ p ∈ recs, ∃ k : Int, p.2 = .num k)
    (d : EvalData) (h : recommendationUser model ds a (some n) low (.num u) rng = .ok (.done d)) :
    ∃ (sampled : List Row) (recs : List (ℚ × Val)),
      SampledFrom (positivesOf a.threshold ds (.num u)) a.nPos sampled ∧ sampled ≠ [] ∧
      model.recommend (.num u) n a.novelty low = .ok recs ∧
      d.recs = recs.map (·.2) ∧ d.relevant = sampled.map itemOf ∧
      RelevanciesOf ds (.num u) (sampled.map itemOf ++ recs.map (·.2)) d.relevancies := by
  obtain ⟨x, hx, hrows, hcols, hdt⟩ := userDs_int hu u
  unfold recommendationUser at h
  simp only [hx, hrows, thresholdRows_eq] at h
  cases hs : samplePos (positivesOf a.threshold ds (.num u)) a.nPos rng.pos with
  | none => rw [hs] at h; cases h
  | some sampled =>
    simp only [hs] at h
    obtain ⟨hsam, hlen⟩ := samplePos_some hs
    split at h
    · cases h
    next hne =>
      split at h
      · cases h
      next recs hk =>
        obtain ⟨rel, h1, h2⟩ := relevanciesOf_int (ds := ds) (d := x) (u := .num u)
          (items := sampled.map (·.get "item") ++ recs.map (·.2)) hrows
          (by rw [hcols]; exact hi.hasItem) (by rw [hdt]; exact hi.int) (by
            intro v hv
            rcases List.mem_append.1 hv with hv | hv
            · obtain ⟨r, hr, rfl⟩ := List.mem_map.1 hv
              have : r ∈ positivesOf a.threshold ds (.num u) := hsam.1.subset hr
              exact hi.whole r (List.mem_filter.1 (List.mem_filter.1 this).1).1
            · obtain ⟨p, hp, rfl⟩ := List.mem_map.1 hv
              exact hw recs hk p hp)
        rw [h1] at h
        simp only [Except.ok.injEq, Outcome.done.injEq] at h
        subst h
        exact ⟨sampled, recs, hsam, fun e => hne (by simp [e]), hk, rfl, rfl, h2⟩

/-! ## Examples -/

/-- Test set: user 1 likes items 10 and 11, dislikes 12. -/
def exTaskDs : Mem := mkMem .int [(.num 1, .num 10, 5), (.num 1, .num 11, 4), (.num 1, .num 12, 1), (.num 2, .num 10, 1)]

theorem exTaskDs_users : IntUsers exTaskDs :=
  mkMem_int fun p hp => by
    simp only [List.mem_cons, List.not_mem_nil, or_false] at hp
    rcases hp with rfl | rfl | rfl | rfl
    · exact ⟨1, by norm_num⟩
    · exact ⟨1, by norm_num⟩
    · exact ⟨1, by norm_num⟩
    · exact ⟨2, by norm_num⟩

theorem exTaskDs_items : IntItems exTaskDs := by
  refine ⟨by decide, by decide, ?_⟩
  have : ∀ r ∈ exTaskDs.rows, r.get "item" = .num (10 : Int) ∨ r.get "item" = .num (11 : Int) ∨
      r.get "item" = .num (12 : Int) := by decide +kernel
  intro r hr
  rcases this r hr with h | h | h
  · exact ⟨10, h⟩
  · exact ⟨11, h⟩
  · exact ⟨12, h⟩

def exTaskModel : EvalModel := { exLowModel with nItems := 6 }

/-- Two positives, one and a half times as many negatives, generated if necessary. -/
def exTaskArgs : EvalArgs := ⟨3, some 2, some (.ratio (3 / 2)), true, false, false⟩

example : IntUsers exTaskModel.train ∧ IntUsers exTaskDs ∧ IntItems exTaskDs ∧
    (∀ n, exTaskArgs.nNeg = some n → NegArg.Positive n) ∧
    (match rankingUser exTaskModel exTaskDs exTaskArgs (.num 1) { exEvalRng with items := [0, 1, 2] } with
      | .ok (.done d) => some (d.relevant.length, d.recs.length, d.relevancies.length)
      | _ => none) = some (2, 5, 5) ∧
    (match rankingUser exTaskModel exTaskDs exTaskArgs (.num 2) exEvalRng with
      | .ok .skip => true
      | _ => false) = true ∧
    (match recommendationUser exTaskModel exTaskDs exTaskArgs (some 3) none (.num 1) exEvalRng with
      | .ok (.done d) => some (d.relevant.length, d.recs.length, d.relevancies.length)
      | _ => none) = some (2, 1, 3) := by
  refine ⟨exLowTrain_ok, exTaskDs_users, exTaskDs_items, ?_, by decide +kernel, by decide +kernel,
    by decide +kernel⟩
  intro n h
  cases h
  norm_num [NegArg.Positive]

end DRec
