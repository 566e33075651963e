import Verif.Spec.HeldOut
import Verif.Props.Perfect
import Verif.Props.Recommender
import Verif.Props.MatrixSplit
import Verif.Props.Vectors

/-!
# C115: held-out records can be found again
-/

namespace DRec

open Spec Metrics

/-! ## Fitting on a dataset -/

theorem idLit_int (n : Int) : idLit (.num n) = .int n := by
  simp [idLit]

theorem rawPairs_some (l : List (ℚ × Val)) : rawPairs (l.map fun p => (p.1, some p.2)) = l := by
  unfold rawPairs
  rw [List.map_map]
  exact List.map_id l

theorem assigned_owns {m : Mem} (hu : "user" ∈ m.cols) (hi : "item" ∈ m.cols) (u v : Val) :
    Owns m.assignIds.1 u v ↔ Owns m u v := by
  unfold Owns
  rw [assignIds_eq m hu hi]
  simp only [List.mem_map, exists_exists_and_eq_and, stamp_get]
  simp

theorem assigned_occurs {m : Mem} (hu : "user" ∈ m.cols) (hi : "item" ∈ m.cols) (v : Val) :
    (∃ r ∈ m.assignIds.1.rows, r.get "item" = v) ↔ Occurs m v := by
  unfold Occurs itemOf
  rw [assignIds_eq m hu hi]
  simp only [List.mem_map, exists_exists_and_eq_and, stamp_get]
  simp

theorem assigned_itemMap {m : Mem} (hu : "user" ∈ m.cols) (hi : "item" ∈ m.cols) :
    m.assignIds.1.itemMap.length = itemCount m := by
  have h := assignIds_idsOk m hu hi
  apply List.Perm.length_eq
  rw [List.perm_ext_iff_of_nodup]
  · intro v
    rw [assignIds_eq m hu hi]
    simp [mem_distinctVals, itemOf]
  · exact h.item.nodup
  · exact List.nodup_dedup _

theorem named_user {m : Mem} (hu : IntUsers m) (hi : "item" ∈ m.cols) {u : Int}
    (h : ∃ r ∈ m.rows, r.get "user" = .num u) :
    ∃ uid, uid < m.assignIds.1.userMap.length ∧ NamesUser m.assignIds.1 (.int u) uid (.num u) := by
  have hids := assignIds_idsOk m hu.hasUser hi
  have hm : Val.num (u : ℚ) ∈ m.assignIds.1.userMap := by
    rw [assignIds_eq m hu.hasUser hi]
    simp only [mem_distinctVals, List.mem_map]
    exact h
  have hd : m.assignIds.1.dtype "user" = .int := by
    rw [assignIds_eq m hu.hasUser hi]
    simp [hu.int]
  refine ⟨_, List.idxOf_lt_length_of_mem hm, ?_, ?_⟩
  · unfold Mem.userToUid
    rw [if_pos hids.has, if_pos hids.user.hasRaw, hd]
    simp [normId, Lit.toInt, Except.map, lookupCode, hm]
  · rw [uidToUser_iff hids.has]
    rw [List.getElem?_eq_getElem (List.idxOf_lt_length_of_mem hm), List.getElem_idxOf]

/-! ## C115 -/

/-- **C115**, what can be found: a recommender fitted on the train set that has a score for every pair, asked
for at least as many items as there are, recommends exactly the items of the train set, with novelty only
those the user has no train record about; each once. -/
theorem C115_recommended (train : Mem) (h : Evaluable train) (hx : "interaction" ∈ train.cols) (f : PredictFn ℚ)
    (hf : ScoresAll train.assignIds.1 f) (u : Int) (hu : ∃ r ∈ train.rows, r.get "user" = .num u) (n : Nat)
    (hn : itemCount train ≤ n) (novelty : Bool) :
    ∃ out, (fittedModel train.assignIds.1 f).recommend (.num u) n novelty none = .ok out ∧
      (out.map (·.2)).Nodup ∧ out.length ≤ itemCount train ∧
      ∀ item, item ∈ out.map (·.2) ↔ Occurs train item ∧ (novelty = true → ¬ Owns train (.num u) item) := by
  have hc := h.users.hasUser
  have hi := h.items.hasItem
  have hfresh := C15_fresh_after_assign train hc hi hx h.numbers
  obtain ⟨uid, hlt, hname⟩ := named_user h.users hi hu
  have hsc : Scores train.assignIds.1 f uid := by
    intro i item hit
    rw [iidToItem_iff hfresh.ids.has] at hit
    obtain ⟨s, hs⟩ := hf uid hlt i (List.getElem?_eq_some_iff.1 hit).1
    exact ⟨_, hs⟩
  obtain ⟨out, ho, hle, hnd, _, hel, hall⟩ := C51_recommend train.assignIds.1 hfresh f (.int u) uid (.num u) hname hsc
    (some n) novelty none
  have hlen : train.assignIds.1.itemMap.length = itemCount train := assigned_itemMap hc hi
  have hmem : ∀ item ∈ out.map (·.2), Occurs train item := by
    intro item hm
    obtain ⟨p, hp, rfl⟩ := List.mem_map.1 hm
    exact (assigned_occurs hc hi _).1 (hel p hp).known
  have hsub : ∀ item ∈ out.map (·.2), item ∈ train.assignIds.1.itemMap := by
    intro item hm
    obtain ⟨p, hp, rfl⟩ := List.mem_map.1 hm
    obtain ⟨i, hi', _⟩ := (hel p hp).score
    rw [iidToItem_iff hfresh.ids.has] at hi'
    exact List.mem_of_getElem? hi'
  have hlen2 : out.length ≤ itemCount train := by
    rw [← hlen, ← List.length_map (f := (·.2))]
    exact (hnd.subperm hsub).length_le
  refine ⟨out, ?_, hnd, hlen2, fun item => ⟨fun hm => ⟨hmem item hm, ?_⟩, ?_⟩⟩
  · show (recommend _ _ (idLit (.num u)) (some n) novelty none).map rawPairs = _
    rw [idLit_int, ho]
    simp only [Except.map, rawPairs_some]
  · obtain ⟨p, hp, rfl⟩ := List.mem_map.1 hm
    intro hnov hown
    exact (hel p hp).new hnov ((assigned_owns hc hi _ _).2 hown)
  · rintro ⟨hocc, hnew⟩
    have hocc' := (assigned_occurs hc hi item).2 hocc
    have him : item ∈ train.assignIds.1.itemMap := by
      obtain ⟨r, hr, rfl⟩ := hocc'
      exact (hfresh.ids.item.code r hr).1
    have hil := List.idxOf_lt_length_of_mem him
    obtain ⟨s, hs⟩ := hf uid hlt _ hil
    have helig : Eligible train.assignIds.1 f uid (.num u) novelty none item s := by
      refine ⟨hocc', ⟨_, (iidToItem_iff hfresh.ids.has).2 ?_, hs⟩, fun hnov hown =>
        hnew hnov ((assigned_owns hc hi _ _).1 hown), by simp⟩
      rw [List.getElem?_eq_getElem hil, List.getElem_idxOf]
    by_cases hin : (s, item) ∈ out
    · exact List.mem_map.2 ⟨_, hin, rfl⟩
    · have hfull := (hall item s helig hin).1
      simp only [Option.getD_some] at hfull
      by_contra hno
      have : (item :: out.map (·.2)).Subperm train.assignIds.1.itemMap := by
        refine List.Nodup.subperm (List.nodup_cons.2 ⟨hno, hnd⟩) ?_
        intro x hx
        rcases List.mem_cons.1 hx with rfl | hx
        · exact him
        · exact hsub x hx
      have := this.length_le
      rw [List.length_cons, List.length_map, hfull] at this
      omega

/-- In a dataset with one record per user and item, held-out pairs are not in the train set. -/
theorem heldOut_new {ds train test : Mem} (h : HeldOut ds train test) (h1 : OneRecordPerItem ds) {r : Row}
    (hr : r ∈ test.rows) : ¬ Owns train (r.get "user") (itemOf r) := by
  rintro ⟨r', hr', e1, e2⟩
  have m1 : r ∈ recordsOf ds.rows (r.get "user") := mem_recordsOf.2 ⟨h.parts.2.1.subset hr, rfl⟩
  have m2 : r' ∈ recordsOf ds.rows (r.get "user") := mem_recordsOf.2 ⟨h.parts.1.subset hr', e1⟩
  have := List.inj_on_of_nodup_map (h1 (r.get "user")) m2 m1 e2
  exact h.parts.2.2 r' hr' r hr (by rw [this])

theorem heldOut_train {ds train test : Mem} (h : HeldOut ds train test) (he : Evaluable ds) : Evaluable train :=
  ⟨⟨by rw [h.trainCols]; exact he.users.hasUser, by rw [h.trainTypes]; exact he.users.int,
      fun r hr => he.users.whole r (h.parts.1.subset hr)⟩,
    ⟨by rw [h.trainCols]; exact he.items.hasItem, by rw [h.trainTypes]; exact he.items.int,
      fun r hr => he.items.whole r (h.parts.1.subset hr)⟩,
    fun r hr => he.numbers r (h.parts.1.subset hr)⟩

theorem heldOut_test {ds train test : Mem} (h : HeldOut ds train test) (he : Evaluable ds) : Evaluable test :=
  ⟨⟨by rw [h.testCols]; exact he.users.hasUser, by rw [h.testTypes]; exact he.users.int,
      fun r hr => he.users.whole r (h.parts.2.1.subset hr)⟩,
    ⟨by rw [h.testCols]; exact he.items.hasItem, by rw [h.testTypes]; exact he.items.int,
      fun r hr => he.items.whole r (h.parts.2.1.subset hr)⟩,
    fun r hr => he.numbers r (h.parts.2.1.subset hr)⟩

/-- **C115**, one recommendation (partial: one record per user and item, and the held-out item occurs in the
train set; the full property is without these conditions and fails, see `C115_fails_repeated` and
`C115_fails_cold`).  Every held-out item of a user is recommended, with or without novelty, and with novelty
nothing the user has in the train set is. -/
theorem C115_found_partial (ds train test : Mem) (hs : HeldOut ds train test) (he : Evaluable ds)
    (hx : "interaction" ∈ ds.cols) (h1 : OneRecordPerItem ds) (f : PredictFn ℚ)
    (hf : ScoresAll train.assignIds.1 f) (r : Row) (hr : r ∈ test.rows) (n : Nat) (hn : itemCount train ≤ n)
    (novelty : Bool) :
    ∃ out, (fittedModel train.assignIds.1 f).recommend (r.get "user") n novelty none = .ok out ∧
      (novelty = true → ∀ p ∈ out, ¬ Owns train (r.get "user") p.2) ∧
      ∀ r' ∈ test.rows, r'.get "user" = r.get "user" → Occurs train (itemOf r') → itemOf r' ∈ out.map (·.2) := by
  obtain ⟨u, hu⟩ := (heldOut_test hs he).users.whole r hr
  obtain ⟨r₀, hr₀, e₀⟩ := hs.users r hr
  obtain ⟨out, ho, _, _, hm⟩ := C115_recommended train (heldOut_train hs he) (by rw [hs.trainCols]; exact hx) f hf u
    ⟨r₀, hr₀, e₀.trans hu⟩ n hn novelty
  rw [hu]
  refine ⟨out, ho, fun hnov p hp => ((hm p.2).1 (List.mem_map.2 ⟨p, hp, rfl⟩)).2 hnov, ?_⟩
  intro r' hr' e' hocc
  refine (hm _).2 ⟨hocc, fun _ => ?_⟩
  rw [← e']
  exact heldOut_new hs h1 hr'

/-! ## The splits -/

theorem finish_types {ds train test : Mem} {m : (v : SVar) → v.Ty} (h : splitFinish ds m = (train, test)) :
    (train.cols = ds.cols ∧ test.cols = ds.cols) ∧ train.dtype = ds.dtype ∧ test.dtype = ds.dtype := by
  have e1 := congrArg (fun p : Mem × Mem => p.1.cols) h
  have e2 := congrArg (fun p : Mem × Mem => p.2.cols) h
  have e3 := congrArg (fun p : Mem × Mem => p.1.dtype) h
  have e4 := congrArg (fun p : Mem × Mem => p.2.dtype) h
  exact ⟨⟨e1.symm, e2.symm⟩, e3.symm, e4.symm⟩

/-- **C115**: `leave_k_out` holds records out in this sense, for every number or share of records, random
outcome and interleaving. -/
theorem C115_leave_k_out (ds : Mem) (h : IntUsers ds) (hu : RidsUnique ds) (k : KArg) (hk : k.valid = true)
    (hd : ∀ q, k = .ratio q → IsDouble q) (minN : Nat) (last : Option String) (hl : LabelOk ds last)
    (rngs : Nat → Nat → Nat) (verbose : Bool)
    (train test : Mem) (hr : LeaveKOut ds k minN last rngs verbose train test) : HeldOut ds train test := by
  obtain ⟨tasks, m, _, _, _, hf⟩ := id hr
  obtain ⟨⟨c1, c2⟩, t1, t2⟩ := finish_types hf
  refine ⟨(leaveK_shape hr).1, c1, c2, t1, t2, ?_⟩
  cases k with
  | fixed k =>
    have hk : 0 < k := by simpa [KArg.valid] using hk
    obtain ⟨k', rfl⟩ := Int.eq_ofNat_of_zero_le hk.le
    exact (C33_leave_k_out_partial ds h hu k' (by omega) minN last hl rngs verbose train test hr).2.2.2
  | ratio q =>
    have hq : 0 < q ∧ q < 1 := by simpa [KArg.valid] using hk
    exact (C34_leave_ratio_out_partial ds h hu q (hd q rfl) hq minN last hl rngs verbose train test hr).2.2

/-- **C115**: so does `matrix_split`. -/
theorem C115_matrix_split (ds : Mem) (h : IntUsers ds) (hu : RidsUnique ds) (hn : ds.rows.length ≤ 2 ^ 53)
    (hi : "item" ∈ ds.cols) (ur ir : ℚ)
    (minN : Nat) (rngU rngI : Nat → Nat) (verbose : Bool) (train test : Mem)
    (hr : MatrixSplit ds ur ir minN rngU rngI verbose train test) : HeldOut ds train test := by
  obtain ⟨tasks, m, _, _, _, hf⟩ := id hr
  obtain ⟨⟨c1, c2⟩, t1, t2⟩ := finish_types hf
  obtain ⟨U, I, _, _, hres, husers⟩ := C38_matrix_split_partial ds h hu hn hi ur ir minN rngU rngI verbose train test hr
  exact ⟨hres.1, c1, c2, t1, t2, husers⟩

/-! ## Evaluations -/

theorem fitted_returns {train : Mem} (h : Evaluable train) (hx : "interaction" ∈ train.cols) {f : PredictFn ℚ}
    (hf : ScoresAll train.assignIds.1 f) {u : Int} (hu : ∃ r ∈ train.rows, r.get "user" = .num u) (n : Nat)
    (novelty : Bool) (low : Option ℚ) :
    ∃ out, (fittedModel train.assignIds.1 f).recommend (.num u) n novelty low = .ok out ∧
      ∀ p ∈ out, Occurs train p.2 ∧ (novelty = true → ¬ Owns train (.num u) p.2) := by
  have hc := h.users.hasUser
  have hi := h.items.hasItem
  have hfresh := C15_fresh_after_assign train hc hi hx h.numbers
  obtain ⟨uid, hlt, hname⟩ := named_user h.users hi hu
  have hsc : Scores train.assignIds.1 f uid := by
    intro i item hit
    rw [iidToItem_iff hfresh.ids.has] at hit
    obtain ⟨s, hs⟩ := hf uid hlt i (List.getElem?_eq_some_iff.1 hit).1
    exact ⟨_, hs⟩
  obtain ⟨out, ho, _, _, _, hel, _⟩ := C51_recommend train.assignIds.1 hfresh f (.int u) uid (.num u) hname hsc
    (some n) novelty low
  refine ⟨out, ?_, fun p hp => ⟨(assigned_occurs hc hi _).1 (hel p hp).known, fun hnov hown =>
    (hel p hp).new hnov ((assigned_owns hc hi _ _).2 hown)⟩⟩
  show (recommend _ _ (idLit (.num u)) (some n) novelty low).map rawPairs = _
  rw [idLit_int, ho]
  simp only [Except.map, rawPairs_some]

/-- **C115**, evaluation: the task of a user of the test set always finishes, and with novelty nothing the user
has in the train set is among the recommendations that are evaluated. -/
theorem C115_no_task_raises (ds train test : Mem) (hs : HeldOut ds train test) (he : Evaluable ds)
    (hx : "interaction" ∈ ds.cols) (f : PredictFn ℚ) (hf : ScoresAll train.assignIds.1 f) (a : EvalArgs) (n : Nat)
    (low : Option ℚ) (u : Int) (hu : ∃ r ∈ test.rows, r.get "user" = .num u) (rng : EvalRng) :
    recommendationUser (fittedModel train.assignIds.1 f) test a (some n) low (.num u) rng = .ok .skip ∨
    ∃ d, recommendationUser (fittedModel train.assignIds.1 f) test a (some n) low (.num u) rng = .ok (.done d) ∧
      (a.novelty = true → ∀ x ∈ d.recs, ¬ Owns train (.num u) x) := by
  have het := heldOut_test hs he
  have htr := heldOut_train hs he
  obtain ⟨r, hr, e⟩ := hu
  obtain ⟨r₀, hr₀, e₀⟩ := hs.users r hr
  obtain ⟨out, ho, hm⟩ := fitted_returns htr (by rw [hs.trainCols]; exact hx) hf ⟨r₀, hr₀, e₀.trans e⟩ n a.novelty low
  obtain ⟨x, hx', hrows, hcols, hdt⟩ := userDs_int het.users u
  unfold recommendationUser
  simp only [hx', hrows, thresholdRows_eq]
  cases hsam : samplePos (positivesOf a.threshold test (.num u)) a.nPos rng.pos with
  | none => exact .inl rfl
  | some sampled =>
    simp only [ho]
    by_cases h0 : sampled.length = 0
    · rw [if_pos h0]; exact .inl rfl
    · rw [if_neg h0]
      obtain ⟨hs1, _⟩ := samplePos_some hsam
      obtain ⟨rel, h1, _⟩ := relevanciesOf_int (ds := test) (d := x) (u := .num u)
        (items := sampled.map (·.get "item") ++ out.map (·.2)) hrows
        (by rw [hcols]; exact het.items.hasItem) (by rw [hdt]; exact het.items.int) (by
          intro v hv
          rcases List.mem_append.1 hv with hv | hv
          · obtain ⟨r, hr, rfl⟩ := List.mem_map.1 hv
            have : r ∈ positivesOf a.threshold test (.num u) := hs1.1.subset hr
            exact het.items.whole r (List.mem_filter.1 (List.mem_filter.1 this).1).1
          · obtain ⟨p, hp, rfl⟩ := List.mem_map.1 hv
            obtain ⟨r', hr', e'⟩ := (hm p hp).1
            rw [← e']
            exact htr.items.whole r' hr')
      simp only [h1]
      refine .inr ⟨_, rfl, ?_⟩
      intro hnov y hy
      obtain ⟨p, hp, rfl⟩ := List.mem_map.1 hy
      exact (hm p hp).2 hnov

theorem full_scores (d : EvalData) (k : Nat) (hnd : d.relevant.Nodup) (hne : d.relevant ≠ [])
    (hsub : d.relevant ⊆ d.recs.take k) :
    recallPy.toEval.call d k = .ok 1 ∧ hitRatioPy.toEval.call d k = .ok 1 := by
  obtain ⟨_, l2, l3, _⟩ := C92_library d k 1 true
  have hpos : (0 : ℚ) < d.relevant.length := by exact_mod_cast List.length_pos_iff.2 hne
  constructor
  · rw [l2]
    obtain ⟨p, hp, hp2, _, hp3, _⟩ := (C39_recall d.recs d.relevant (some k)).2 hne
    rw [hp]
    congr 1
    have hge : d.relevant.length ≤ hits (firstK (some k) d.recs) d.relevant := by
      rw [← common_eq, common, ← List.toFinset_card_of_nodup hnd]
      apply Finset.card_le_card
      intro x hx
      rw [Finset.mem_inter]
      refine ⟨?_, hx⟩
      rw [List.mem_toFinset] at hx ⊢
      exact hsub hx
    have : (1 : ℚ) * d.relevant.length ≤ p * d.relevant.length := by
      rw [hp2, one_mul]
      exact_mod_cast hge
    exact le_antisymm hp3 (le_of_mul_le_mul_right this hpos)
  · rw [l3]
    obtain ⟨p, hp, hp2, _, hp3, _⟩ := (C39_hit_ratio cellText d.recs d.relevant (some k)).2 hne
    rw [hp]
    congr 1
    have hpos' : 0 < (d.relevant.map cellText).dedup.length := by
      rw [List.length_pos_iff]
      simpa [List.dedup_eq_nil] using hne
    have hq : (0 : ℚ) < (d.relevant.map cellText).dedup.length := by exact_mod_cast hpos'
    have hge : (d.relevant.map cellText).dedup.length ≤
        hits ((firstK (some k) d.recs).map cellText) (d.relevant.map cellText) := by
      rw [← common_eq, common, ← List.card_toFinset]
      apply Finset.card_le_card
      intro x hx
      rw [Finset.mem_inter]
      refine ⟨?_, hx⟩
      rw [List.mem_toFinset, List.mem_map] at hx ⊢
      obtain ⟨y, hy, rfl⟩ := hx
      exact ⟨y, hsub hy, rfl⟩
    have : (1 : ℚ) * (d.relevant.map cellText).dedup.length ≤ p * (d.relevant.map cellText).dedup.length := by
      rw [hp2, one_mul]
      exact_mod_cast hge
    exact le_antisymm hp3 (le_of_mul_le_mul_right this hq)

theorem whole_recs {ds train test : Mem} (hs : HeldOut ds train test) (he : Evaluable ds)
    (hx : "interaction" ∈ ds.cols) {f : PredictFn ℚ} (hf : ScoresAll train.assignIds.1 f) {u : Int}
    (hu : ∃ r ∈ test.rows, r.get "user" = .num u) (n : Nat) (novelty : Bool) (low : Option ℚ) (recs : List (ℚ × Val))
    (h : (fittedModel train.assignIds.1 f).recommend (.num u) n novelty low = .ok recs) (p : ℚ × Val) (hp : p ∈ recs) :
    ∃ k : Int, p.2 = .num k := by
  have htr := heldOut_train hs he
  obtain ⟨r, hr, e⟩ := hu
  obtain ⟨r₀, hr₀, e₀⟩ := hs.users r hr
  obtain ⟨out, ho, hm⟩ := fitted_returns htr (by rw [hs.trainCols]; exact hx) hf ⟨r₀, hr₀, e₀.trans e⟩ n novelty low
  rw [ho] at h
  cases h
  obtain ⟨r', hr', e'⟩ := (hm p hp).1
  rw [← e']
  exact htr.items.whole r' hr'

theorem user_in_test {test : Mem} {a : EvalArgs} {u : Int} {sampled : List Row}
    (h : SampledFrom (positivesOf a.threshold test (.num u)) a.nPos sampled) (hne : sampled ≠ []) :
    ∃ r ∈ test.rows, r.get "user" = .num u := by
  obtain ⟨r, hr⟩ := List.exists_mem_of_ne_nil _ hne
  have := h.1.subset hr
  have := mem_recordsOf.1 (List.mem_filter.1 this).1
  exact ⟨r, this.1, this.2⟩

/-- **C115**, evaluation of one user (partial: one record per user and item, and the positive held-out items of
the user occur in the train set; fails without, see `C115_fails_repeated` and `C115_fails_cold`).  A user of the
test set whose recommendations are evaluated gets recall and hit ratio 1 for every `k` that is at least the
number of items, with or without novelty. -/
theorem C115_user_partial (ds train test : Mem) (hs : HeldOut ds train test) (he : Evaluable ds)
    (hx : "interaction" ∈ ds.cols) (h1 : OneRecordPerItem ds) (f : PredictFn ℚ)
    (hf : ScoresAll train.assignIds.1 f) (a : EvalArgs) (n k : Nat) (hk : itemCount train ≤ k) (hkn : k ≤ n) (u : Int)
    (hu : ∃ r ∈ test.rows, r.get "user" = .num u)
    (hocc : ∀ r ∈ positivesOf a.threshold test (.num u), Occurs train (itemOf r)) (rng : EvalRng) (d : EvalData)
    (hd : recommendationUser (fittedModel train.assignIds.1 f) test a (some n) none (.num u) rng = .ok (.done d)) :
    recallPy.toEval.call d k = .ok 1 ∧ hitRatioPy.toEval.call d k = .ok 1 := by
  have het := heldOut_test hs he
  obtain ⟨sampled, recs, hsam, hne, hrec, e1, e2, _⟩ := C73_recommendation _ test het.users het.items a n none u rng
    (fun recs h p hp => whole_recs hs he hx hf hu n _ _ recs h p hp) d hd
  obtain ⟨r, hr, e⟩ := hu
  obtain ⟨r₀, hr₀, e₀⟩ := hs.users r hr
  obtain ⟨out, ho, hnd, hlen, hm⟩ := C115_recommended train (heldOut_train hs he) (by rw [hs.trainCols]; exact hx) f hf u
    ⟨r₀, hr₀, e₀.trans e⟩ n (by omega) a.novelty
  rw [ho] at hrec
  cases hrec
  have hsub : (recordsOf test.rows (.num u)).Sublist (recordsOf ds.rows (.num u)) := hs.parts.2.1.filter _
  apply full_scores
  · rw [e2]
    obtain ⟨l, hl1, hl2⟩ := hsam.1
    have : (l.map itemOf).Nodup :=
      (h1 (.num u)).sublist (((hl2.trans (positives_sublist _ _ _)).trans hsub).map _)
    exact (hl1.map itemOf).nodup_iff.1 this
  · rw [e2]
    simpa using hne
  · rw [e1, e2, List.take_of_length_le (by rw [List.length_map]; omega)]
    intro x hx
    obtain ⟨r', hr', rfl⟩ := List.mem_map.1 hx
    have hp := hsam.1.subset hr'
    have hrt := mem_recordsOf.1 (List.mem_filter.1 hp).1
    refine (hm _).2 ⟨hocc r' hp, fun _ => ?_⟩
    rw [← hrt.2]
    exact heldOut_new hs h1 hrt.1

theorem recommended_user {model : EvalModel} {ds : Mem} (hu : IntUsers ds) {a : EvalArgs} {n : Option Nat}
    {ks : List Nat} {low : Option ℚ} {rngs : Nat → EvalRng} {users : List Val} (hus : evalUsers ds n = .ok users)
    {d : EvalData} (hd : d ∈ evaluated (recommendationOutcomes model ds a ks low users rngs)) :
    ∃ (u : Int) (i : Nat), (∃ r ∈ ds.rows, r.get "user" = .num u) ∧
      recommendationUser model ds a ks.max? low (.num u) (rngs i) = .ok (.done d) := by
  obtain ⟨o, ho, e⟩ := List.mem_filterMap.1 hd
  obtain ⟨p, hp, rfl⟩ := List.mem_map.1 ho
  obtain ⟨all, users', h1, _, h2, h3⟩ := C44_users ds hu.hasUser n
  rw [hus] at h1
  cases h1
  have hpu : p.1 ∈ users := by
    obtain ⟨v, i⟩ := p
    exact (List.mem_zipIdx hp).2.2 ▸ List.getElem_mem _
  rw [h3] at hpu
  obtain ⟨r, hr, hru⟩ := (h2 p.1).1 (List.mem_of_mem_take hpu)
  obtain ⟨u, hu⟩ := hu.whole r hr
  refine ⟨u, p.2, ⟨r, hr, hu⟩, ?_⟩
  rw [← hu, hru]
  split at e
  · cases e; assumption
  · cases e

/-- **C115**, whole evaluation (partial: one record per user and item, and the positive held-out items occur in
the train set).  Fitting on the train set and running `recommendation_evaluation` on the test set reports recall
and hit ratio as exactly 1 for every `k` that is at least the number of items, however the tasks interleave and
whatever is drawn at random, as soon as one user is evaluated. -/
theorem C115_reported_partial (ds train test : Mem) (hs : HeldOut ds train test) (he : Evaluable ds)
    (hx : "interaction" ∈ ds.cols) (h1 : OneRecordPerItem ds) (f : PredictFn ℚ)
    (hf : ScoresAll train.assignIds.1 f) (a : EvalArgs) (n : Option Nat) (rngs : Nat → EvalRng)
    (hocc : ∀ r ∈ test.rows, IsPositive a.threshold r → Occurs train (itemOf r))
    (metrics : List (EvalMetric ℚ)) (hm : (metrics.map (·.name)).Nodup)
    (mt : EvalMetric ℚ) (hmt : mt = recallPy.toEval ∨ mt = hitRatioPy.toEval) (hap : mt ∈ metrics)
    (ks : List Nat) (users : List Val) (hus : evalUsers test n = .ok users) (tasks : List (List EAct))
    (hts : recommendationTasks (fittedModel train.assignIds.1 f) test a ks none n rngs = .ok tasks)
    (m : (v : EVar) → v.Ty ℚ) (hrun : EvalRun metrics ks tasks m) (k : Nat) (hk : k ∈ ks) (hki : itemCount train ≤ k)
    (hsome : evaluated (recommendationOutcomes (fittedModel train.assignIds.1 f) test a ks none users rngs) ≠ []) :
    ((mt.name, k), (1 : ℚ)) ∈ evalResults metrics ks (m .sums) := by
  rw [(C44_recommendation _ test a n rngs none metrics hm ks users hus tasks hts m hrun).1]
  refine ⟨_, hap, k, hk, rfl, ?_⟩
  have hone : ∀ d ∈ evaluated (recommendationOutcomes (fittedModel train.assignIds.1 f) test a ks none users rngs),
      mt.call d k = .ok 1 := by
    intro d hd
    obtain ⟨u, i, hu, h⟩ := recommended_user (heldOut_test hs he).users hus hd
    obtain ⟨top, htop⟩ : ∃ top, ks.max? = some top := by
      cases hmx : ks.max? with
      | none => rw [List.max?_eq_none_iff] at hmx; rw [hmx] at hk; cases hk
      | some top => exact ⟨top, rfl⟩
    have hle : k ≤ top := by
      rw [List.max?_eq_some_iff] at htop
      exact htop.2 k hk
    rw [htop] at h
    have := C115_user_partial ds train test hs he hx h1 f hf a top k hki hle u hu (fun r hr => by
      have h2 := List.mem_filter.1 hr
      exact hocc r (mem_recordsOf.1 h2.1).1 (by simpa using h2.2)) _ d h
    rcases hmt with rfl | rfl
    · exact this.1
    · exact this.2
  rw [reported_ones, if_neg]
  · obtain ⟨d, hd⟩ := List.exists_mem_of_ne_nil _ hsome
    refine List.ne_nil_of_mem (a := 1) (List.mem_filterMap.2 ⟨d, hd, ?_⟩)
    rw [hone d hd]
    rfl
  · intro x hx
    obtain ⟨d, hd, e⟩ := List.mem_filterMap.1 hx
    rw [hone d hd] at e
    cases e
    rfl

/-! ## Where it fails -/

theorem mkMem_evaluable {rows : List (Val × Val × ℚ)} (L : List Int)
    (h : ∀ p ∈ rows, (∃ n ∈ L, p.1 = .num (n : ℚ)) ∧ ∃ n ∈ L, p.2.1 = .num (n : ℚ)) : Evaluable (mkMem .int rows) := by
  have hu : ∀ p ∈ rows, ∃ n : Int, p.1 = .num n := fun p hp => (h p hp).1.imp fun n hn => hn.2
  have h' : ∀ p ∈ rows, ∃ n : Int, p.2.1 = .num n := fun p hp => (h p hp).2.imp fun n hn => hn.2
  refine ⟨mkMem_int hu, ⟨by simp [mkMem], by simp [mkMem], ?_⟩, ?_⟩
  · intro r hr
    simp only [mkMem, List.mem_map] at hr
    obtain ⟨p, hp, rfl⟩ := hr
    obtain ⟨n, hn⟩ := h' p.1 (List.fst_mem_of_mem_zipIdx hp)
    exact ⟨n, by simp [mkRow, Row.get, hn]⟩
  · intro r hr
    simp only [mkMem, List.mem_map] at hr
    obtain ⟨p, hp, rfl⟩ := hr
    exact ⟨p.1.2.2, by simp [mkRow, Row.get]⟩

/-- One user with two items nobody else has. -/
def exCold : Mem := mkMem .int [(.num (1 : Int), .num (10 : Int), 5), (.num (1 : Int), .num (11 : Int), 4)]

theorem exCold_ok : Evaluable exCold := mkMem_evaluable [1, 2, 3, 10, 11, 12] (by decide +kernel)

theorem exCold_once : OneRecordPerItem exCold := by
  intro u
  have : (exCold.rows.map itemOf).Nodup := by decide +kernel
  exact this.sublist (List.filter_sublist.map _)

/-- **C115 fails**: an item only the held-out record is about is unknown to the fitted recommender, so it is not
recommended, in every execution. -/
theorem C115_fails_cold : ∃ ds, Evaluable ds ∧ "interaction" ∈ ds.cols ∧ RidsUnique ds ∧ OneRecordPerItem ds ∧
    (∀ rngs verbose, ∃ train test, LeaveKOut ds (.fixed 1) 0 none rngs verbose train test) ∧
    ∀ rngs verbose train test, LeaveKOut ds (.fixed 1) 0 none rngs verbose train test →
      ∀ f, ScoresAll train.assignIds.1 f → ∀ n novelty low, ∃ r ∈ test.rows, ∃ out,
        (fittedModel train.assignIds.1 f).recommend (r.get "user") n novelty low = .ok out ∧
        itemOf r ∉ out.map (·.2) := by
  have hru : RidsUnique exCold := by unfold RidsUnique; decide
  refine ⟨exCold, exCold_ok, by decide, hru, exCold_once, fun rngs verbose =>
    (C37_leave_k_out_finishes_partial exCold exCold_ok.users (.fixed 1) rfl 0 none trivial rngs).2 verbose, ?_⟩
  intro rngs verbose train test hr f hf n novelty low
  have hs := C115_leave_k_out exCold exCold_ok.users hru (.fixed 1) rfl (fun _ e => by cases e) 0 none trivial rngs verbose train test hr
  have hc := C33_leave_k_out_partial exCold exCold_ok.users hru 1 (by omega) 0 none trivial rngs verbose train test hr
  have hlen : (recordsOf exCold.rows (.num 1)).length = 2 := by decide +kernel
  obtain ⟨hl1, _⟩ := (hc.2.2.1 (.num 1)).2.2 (by omega) (by omega)
  obtain ⟨r, hr1⟩ := List.length_eq_one_iff.1 hl1
  have hm : r ∈ recordsOf test.rows (.num 1) := by rw [hr1]; simp
  have hm' := mem_recordsOf.1 hm
  obtain ⟨r₀, hr₀, e₀⟩ := hs.users r hm'.1
  have hu1 : r₀.get "user" = .num (1 : Int) := (e₀.trans hm'.2).trans (by simp)
  obtain ⟨out, ho, hall⟩ := fitted_returns (heldOut_train hs exCold_ok) (by rw [hs.trainCols]; decide) hf
    (u := 1) ⟨r₀, hr₀, hu1⟩ n novelty low
  refine ⟨r, hm'.1, out, ?_, ?_⟩
  · rw [hm'.2]
    simpa using ho
  · intro hin
    obtain ⟨p, hp, e⟩ := List.mem_map.1 hin
    obtain ⟨r', hr', e'⟩ := (hall p hp).1
    have hinj : (exCold.rows.map itemOf).Nodup := by decide +kernel
    have := List.inj_on_of_nodup_map hinj (hs.parts.1.subset hr') (hs.parts.2.1.subset hm'.1) (e'.trans e)
    exact hs.parts.2.2 r' hr' r hm'.1 (by rw [this])

/-- One user with two records about the same item, which another user has too. -/
def exTwoRecords : Mem := mkMem .int [(.num (1 : Int), .num (10 : Int), 5), (.num (1 : Int), .num (10 : Int), 4),
  (.num (2 : Int), .num (10 : Int), 3)]

theorem exTwoRecords_ok : Evaluable exTwoRecords := mkMem_evaluable [1, 2, 3, 10, 11, 12] (by decide +kernel)

/-- **C115 fails**: when a user has two records about an item, one can be held out while the other one is in the
train set; with novelty the item is then not recommended, in every execution. -/
theorem C115_fails_repeated : ∃ ds, Evaluable ds ∧ "interaction" ∈ ds.cols ∧ RidsUnique ds ∧
    (∀ rngs verbose, ∃ train test, LeaveKOut ds (.fixed 1) 0 none rngs verbose train test) ∧
    ∀ rngs verbose train test, LeaveKOut ds (.fixed 1) 0 none rngs verbose train test →
      (∀ r ∈ test.rows, Occurs train (itemOf r)) ∧
      ∀ f, ScoresAll train.assignIds.1 f → ∀ n low, ∃ r ∈ test.rows, ∃ out,
        (fittedModel train.assignIds.1 f).recommend (r.get "user") n true low = .ok out ∧
        itemOf r ∉ out.map (·.2) := by
  have hru : RidsUnique exTwoRecords := by unfold RidsUnique; decide
  have hitem : ∀ r ∈ exTwoRecords.rows, itemOf r = .num 10 := by decide +kernel
  refine ⟨exTwoRecords, exTwoRecords_ok, by decide, hru, fun rngs verbose =>
    (C37_leave_k_out_finishes_partial exTwoRecords exTwoRecords_ok.users (.fixed 1) rfl 0 none trivial rngs).2 verbose, ?_⟩
  intro rngs verbose train test hr
  have hs := C115_leave_k_out exTwoRecords exTwoRecords_ok.users hru (.fixed 1) rfl (fun _ e => by cases e) 0 none trivial rngs verbose train test hr
  refine ⟨fun r hr => ?_, ?_⟩
  · obtain ⟨r₀, hr₀, _⟩ := hs.users r hr
    exact ⟨r₀, hr₀, (hitem r₀ (hs.parts.1.subset hr₀)).trans (hitem r (hs.parts.2.1.subset hr)).symm⟩
  intro f hf n low
  have hc := C33_leave_k_out_partial exTwoRecords exTwoRecords_ok.users hru 1 (by omega) 0 none trivial rngs verbose train test hr
  have hlen : (recordsOf exTwoRecords.rows (.num 1)).length = 2 := by decide +kernel
  obtain ⟨hl1, _⟩ := (hc.2.2.1 (.num 1)).2.2 (by omega) (by omega)
  obtain ⟨r, hr1⟩ := List.length_eq_one_iff.1 hl1
  have hm : r ∈ recordsOf test.rows (.num 1) := by rw [hr1]; simp
  have hm' := mem_recordsOf.1 hm
  obtain ⟨r₀, hr₀, e₀⟩ := hs.users r hm'.1
  have hu1 : r₀.get "user" = .num (1 : Int) := (e₀.trans hm'.2).trans (by simp)
  obtain ⟨out, ho, hall⟩ := fitted_returns (heldOut_train hs exTwoRecords_ok) (by rw [hs.trainCols]; decide) hf
    (u := 1) ⟨r₀, hr₀, hu1⟩ n true low
  refine ⟨r, hm'.1, out, ?_, ?_⟩
  · rw [hm'.2]
    simpa using ho
  · intro hin
    obtain ⟨p, hp, e⟩ := List.mem_map.1 hin
    refine (hall p hp).2 rfl ⟨r₀, hr₀, hu1, ?_⟩
    exact (hitem r₀ (hs.parts.1.subset hr₀)).trans ((hitem r (hs.parts.2.1.subset hm'.1)).symm.trans e.symm)

/-! ## Example -/

/-- Three users with two or three of three items. -/
def exWarm : Mem := mkMem .int [(.num (1 : Int), .num (10 : Int), 5), (.num (1 : Int), .num (11 : Int), 4),
  (.num (2 : Int), .num (10 : Int), 3), (.num (2 : Int), .num (12 : Int), 2), (.num (3 : Int), .num (11 : Int), 5),
  (.num (3 : Int), .num (12 : Int), 1), (.num (3 : Int), .num (10 : Int), 4)]

/-- Train and test set: the second record of user 1 and the first one of user 2 are held out. -/
def exWarmTrain : Mem := { exWarm with rows := exWarm.rows.filter fun r => r.rid ≠ 1 ∧ r.rid ≠ 2 }

/-- The held-out records. -/
def exWarmTest : Mem := { exWarm with rows := exWarm.rows.filter fun r => r.rid = 1 ∨ r.rid = 2 }

/-- The internal ids added up. -/
def exWarmScore : PredictFn ℚ := fun u i => .ok (some ((u.getD 0 : ℚ) + (i.getD 0 : ℚ)))

theorem exWarm_held : HeldOut exWarm exWarmTrain exWarmTest := by
  refine ⟨⟨List.filter_sublist, List.filter_sublist, by decide +kernel⟩, rfl, rfl, rfl, rfl, by decide +kernel⟩

theorem exWarm_once : OneRecordPerItem exWarm := by
  intro u
  by_cases hu : u ∈ exWarm.rows.map (·.get "user")
  · revert u
    decide +kernel
  · have : recordsOf exWarm.rows u = [] := by
      unfold recordsOf
      rw [List.filter_eq_nil_iff]
      intro r hr hc
      exact hu (List.mem_map.2 ⟨r, hr, of_decide_eq_true hc⟩)
    rw [this]
    exact List.nodup_nil

/-- Users 1 and 2 are evaluated on one held-out item each, which other users have in the train set. -/
example : HeldOut exWarm exWarmTrain exWarmTest ∧ Evaluable exWarm ∧ "interaction" ∈ exWarm.cols ∧
    OneRecordPerItem exWarm ∧ ScoresAll exWarmTrain.assignIds.1 exWarmScore ∧ itemCount exWarmTrain = 3 ∧
    (∀ r ∈ exWarmTest.rows, Occurs exWarmTrain (itemOf r)) ∧ exWarmTest.rows.length = 2 ∧
    evalUsers exWarmTest none = .ok [.num 1, .num 2] ∧
    ((fittedModel exWarmTrain.assignIds.1 exWarmScore).recommend (.num 1) 3 true none).toOption =
      some [(2, .num 11), (1, .num 12)] ∧
    (match recommendationUser (fittedModel exWarmTrain.assignIds.1 exWarmScore) exWarmTest
        { exTaskArgs with threshold := 3, nPos := none, novelty := true } (some 3) none (.num 1) exEvalRng with
      | .ok (.done d) => some (d.relevant, d.recs)
      | _ => none) = some ([.num 11], [.num 11, .num 12]) :=
  ⟨exWarm_held, mkMem_evaluable [1, 2, 3, 10, 11, 12] (by decide +kernel), by decide, exWarm_once, fun u _ i _ => ⟨_, rfl⟩,
    by decide +kernel, by unfold Occurs; decide +kernel, by decide +kernel, by decide +kernel, by decide +kernel,
    by decide +kernel⟩

end DRec
