import Verif.Props.EvalTask
import Verif.Props.MetricCall
import Verif.Props.Ndcg
import Mathlib.Tactic.Linarith

/-!
# C107: perfect rankings get perfect scores
-/

namespace DRec

open Spec Metrics

/-! ## Lists that start with the relevant items -/

theorem split_front {α : Type} (P : α → Prop) [DecidablePred P] (l : List α)
    (h : l.Pairwise fun x y => P y → P x) :
    l = l.filter (fun x => decide (P x)) ++ l.filter (fun x => !decide (P x)) := by
  induction l with
  | nil => rfl
  | cons a l ih =>
    rw [List.pairwise_cons] at h
    by_cases ha : P a
    · conv_lhs => rw [ih h.2]
      simp [ha]
    · have h0 : l.filter (fun x => decide (P x)) = [] := by
        rw [List.filter_eq_nil_iff]
        intro x hx hp
        exact ha (h.1 x hx (of_decide_eq_true hp))
      have h1 : l.filter (fun x => !decide (P x)) = l := by
        rw [List.filter_eq_self]
        intro x hx
        simpa using fun hp => ha (h.1 x hx hp)
      simp [ha, h0, h1]

theorem hits_front {α : Type} [DecidableEq α] (front rest rel : List α) (hn : front.Nodup)
    (hf : front ⊆ rel) (hr : ∀ x ∈ rest, x ∉ rel) (k : Nat) :
    hits (firstK (some k) (front ++ rest)) rel = min k front.length := by
  rw [← common_eq]
  unfold common
  show ((List.take k (front ++ rest)).toFinset ∩ rel.toFinset).card = _
  rw [List.take_append]
  have : (front.take k ++ rest.take (k - front.length)).toFinset ∩ rel.toFinset =
      (front.take k).toFinset := by
    ext x
    simp only [Finset.mem_inter, List.mem_toFinset, List.mem_append]
    constructor
    · rintro ⟨h1 | h1, h2⟩
      · exact h1
      · exact absurd h2 (hr x (List.mem_of_mem_take h1))
    · exact fun h1 => ⟨.inl h1, hf (List.mem_of_mem_take h1)⟩
  rw [this, List.toFinset_card_of_nodup (hn.sublist (List.take_sublist _ _)), List.length_take]

/-! ## What a perfect model does -/

/-- The user likes the item in the test set. -/
def Spec.Liked (ds : Mem) (t : ℚ) (u item : Val) : Prop := ∃ r ∈ positivesOf t ds u, itemOf r = item

/-- Whatever items it ranks, the model returns all of them and never puts an item the user does not like in
the test set before one the user likes. -/
def Spec.LikedFirst (model : EvalModel) (ds : Mem) (a : EvalArgs) : Prop :=
  ∀ (u : Val) (items : List Val) (ranked : List (ℚ × Val)), model.rank u items a.novelty = .ok ranked →
    (ranked.map (·.2)).Perm items ∧
    (ranked.map (·.2)).Pairwise fun x y => Liked ds a.threshold u y → Liked ds a.threshold u x

/-- Whatever items it ranks, the model returns all of them, by descending interaction in the test set (0
for items without a record). -/
def Spec.ByInteraction (model : EvalModel) (ds : Mem) (a : EvalArgs) : Prop :=
  ∀ (u : Val) (items : List Val) (ranked : List (ℚ × Val)), model.rank u items a.novelty = .ok ranked →
    (ranked.map (·.2)).Perm items ∧
    (ranked.map (·.2)).Pairwise fun x y => firstInteraction ds u y ≤ firstInteraction ds u x

/-- No user has two test records about the same item. -/
def Spec.OneRecordPerItem (ds : Mem) : Prop := ∀ u, ((recordsOf ds.rows u).map itemOf).Nodup

theorem positives_sublist (t : ℚ) (ds : Mem) (u : Val) : (positivesOf t ds u).Sublist (recordsOf ds.rows u) :=
  List.filter_sublist

theorem negative_not_liked {ds : Mem} {t : ℚ} {u : Val} (h1 : OneRecordPerItem ds) {x : Val}
    (hx : x ∈ (negativeRecords t ds u).map itemOf) : ¬ Liked ds t u x := by
  rintro ⟨r, hr, e⟩
  obtain ⟨r', hr', e'⟩ := List.mem_map.1 hx
  obtain ⟨hr1, hr2⟩ := List.mem_filter.1 hr
  obtain ⟨hr1', hr2'⟩ := List.mem_filter.1 hr'
  have : r = r' := List.inj_on_of_nodup_map (h1 u) hr1 hr1' (e.trans e'.symm)
  subst this
  simp only [decide_eq_true_eq] at hr2 hr2'
  obtain ⟨q, hq, hq2⟩ := hr2
  obtain ⟨q', hq', hq2'⟩ := hr2'
  rw [hq] at hq'
  cases hq'
  linarith

theorem firstInteraction_liked {ds : Mem} {u x : Val} (h1 : OneRecordPerItem ds) {r : Row}
    (hr : r ∈ recordsOf ds.rows u) (e : itemOf r = x) {q : ℚ} (hq : r.get "interaction" = .num q) :
    firstInteraction ds u x = q := by
  unfold firstInteraction
  cases hfind : (recordsOf ds.rows u).find? fun r => itemOf r = x with
  | none =>
    rw [List.find?_eq_none] at hfind
    exact absurd (by simpa using e) (hfind r hr)
  | some r' =>
    have h2 : itemOf r' = x := by simpa using List.find?_some hfind
    have : r' = r := List.inj_on_of_nodup_map (h1 u) (List.mem_of_find?_eq_some hfind) hr (h2.trans e.symm)
    subst this
    simp only [hq]

/-- Ranking by descending interaction puts liked items first. -/
theorem likedFirst_of_byInteraction {model : EvalModel} {ds : Mem} {a : EvalArgs} (h1 : OneRecordPerItem ds)
    (hpos : 0 < a.threshold) (h : ByInteraction model ds a) : LikedFirst model ds a := by
  intro u items ranked hr
  obtain ⟨hp, ho⟩ := h u items ranked hr
  refine ⟨hp, ho.imp ?_⟩
  rintro x y hxy ⟨r, hr, e⟩
  obtain ⟨hr1, hr2⟩ := List.mem_filter.1 hr
  simp only [decide_eq_true_eq] at hr2
  obtain ⟨q, hq, hq2⟩ := hr2
  rw [firstInteraction_liked h1 hr1 e hq] at hxy
  have hx : 0 < firstInteraction ds u x := by linarith
  unfold firstInteraction at hxy hx
  cases hfind : (recordsOf ds.rows u).find? fun r => itemOf r = x with
  | none => simp [hfind] at hx
  | some r' =>
    simp only [hfind] at hxy hx
    have h2 : itemOf r' = x := by simpa using List.find?_some hfind
    refine ⟨r', List.mem_filter.2 ⟨List.mem_of_find?_eq_some hfind, ?_⟩, h2⟩
    cases hi : r'.get "interaction" with
    | num q' =>
      simp only [hi] at hxy
      have : IsPositive a.threshold r' := ⟨q', hi, by linarith⟩
      simp only [this, decide_true]
    | _ => simp [hi] at hx

/-- What is ranked: different items, those of the sample being liked, the others not. -/
theorem ranked_items (model : EvalModel) (ht : IntUsers model.train) (ds : Mem) (hu : IntUsers ds)
    (hi : IntItems ds) (h1 : OneRecordPerItem ds) (a : EvalArgs)
    (hn : ∀ n, a.nNeg = some n → NegArg.Positive n) (u : Int) (rng : EvalRng)
    (d : EvalData) (h : rankingUser model ds a (.num u) rng = .ok (.done d)) :
    ∃ (others cands : List Val) (ranked : List (ℚ × Val)),
      model.rank (.num u) cands a.novelty = .ok ranked ∧ d.recs = ranked.map (·.2) ∧
      cands.Perm (d.relevant ++ others) ∧ (d.relevant ++ others).Nodup ∧
      (∀ x ∈ d.relevant, Liked ds a.threshold (.num u) x) ∧
      (∀ x ∈ others, ¬ Liked ds a.threshold (.num u) x) ∧
      RelevanciesOf ds (.num u) cands d.relevancies := by
  obtain ⟨sampled, listed, fresh, cands, ranked, hs, hl, hfn, hf, _, _, hc, _, hr, hd1, hd2, hrel⟩ :=
    C73_ranking model ht ds hu hi a hn u rng d h
  have hsn : (sampled.map itemOf).Nodup := by
    obtain ⟨l, hl1, hl2⟩ := hs.1
    have := ((hl2.trans (positives_sublist a.threshold ds (.num u))).map itemOf).nodup (h1 (.num u))
    exact (hl1.map itemOf).nodup_iff.1 this
  have hln : listed.Nodup := by
    obtain ⟨l, hl1, hl2⟩ := hl
    have : ((negativeRecords a.threshold ds (.num u)).map itemOf).Nodup :=
      ((List.filter_sublist).map itemOf).nodup (h1 (.num u))
    exact hl1.nodup_iff.1 (hl2.nodup this)
  have hlike : ∀ x ∈ sampled.map itemOf, Liked ds a.threshold (.num u) x := by
    intro x hx
    obtain ⟨r, hr, rfl⟩ := List.mem_map.1 hx
    exact ⟨r, hs.1.subset hr, rfl⟩
  have hnot : ∀ x ∈ listed ++ fresh, ¬ Liked ds a.threshold (.num u) x := by
    intro x hx
    rcases List.mem_append.1 hx with hx | hx
    · exact negative_not_liked h1 (hl.subset hx)
    · rintro ⟨r, hr, e⟩
      exact (hf x hx).2 r hr e
  refine ⟨listed ++ fresh, cands, ranked, hr, hd1, ?_, ?_, ?_, hnot, hrel⟩
  · rw [hd2, ← List.append_assoc]
    exact hc
  · rw [hd2, List.nodup_append]
    refine ⟨hsn, ?_, ?_⟩
    · rw [List.nodup_append]
      refine ⟨hln, hfn, ?_⟩
      rintro x hx y hy rfl
      exact (hf x hy).1 hx
    · rintro x hx y hy rfl
      exact hnot x hy (hlike x hx)
  · rw [hd2]
    exact hlike

/-- What the metrics get from a model that puts liked items first: first the relevant items in some order,
then others. -/
theorem perfect_data (model : EvalModel) (ht : IntUsers model.train) (ds : Mem) (hu : IntUsers ds)
    (hi : IntItems ds) (h1 : OneRecordPerItem ds) (a : EvalArgs)
    (hn : ∀ n, a.nNeg = some n → NegArg.Positive n) (hp : LikedFirst model ds a) (u : Int) (rng : EvalRng)
    (d : EvalData) (h : rankingUser model ds a (.num u) rng = .ok (.done d)) :
    d.relevant.Nodup ∧
      ∃ front rest, d.recs = front ++ rest ∧ front.Perm d.relevant ∧ ∀ x ∈ rest, x ∉ d.relevant := by
  classical
  obtain ⟨others, cands, ranked, hr, hd, hc, hnd, hlike, hnot, _⟩ :=
    ranked_items model ht ds hu hi h1 a hn u rng d h
  obtain ⟨hperm, hord⟩ := hp _ _ _ hr
  have hall := hperm.trans hc
  rw [hd]
  refine ⟨(List.nodup_append.1 hnd).1, _, _,
    split_front (Liked ds a.threshold (.num u)) _ hord, ?_, ?_⟩
  · refine (hall.filter _).trans ?_
    rw [List.filter_append, List.filter_eq_self.2 (fun x hx => decide_eq_true (hlike x hx)),
      List.filter_eq_nil_iff.2 (fun x hx hp => hnot x hx (of_decide_eq_true hp)), List.append_nil]
  · intro x hx hc
    obtain ⟨hx1, hx2⟩ := List.mem_filter.1 hx
    have hnl : ¬ Liked ds a.threshold (.num u) x := by simpa using hx2
    exact hnl (hlike x hc)

/-! ## C107 -/

/-- **C107**, one user: a model that ranks liked items first gets, for every evaluated user with relevant
items and every positive `k`, average precision 1, and finds `min k (number of relevant items)` of them. -/
theorem C107_user (model : EvalModel) (ht : IntUsers model.train) (ds : Mem) (hu : IntUsers ds)
    (hi : IntItems ds) (h1 : OneRecordPerItem ds) (a : EvalArgs)
    (hn : ∀ n, a.nNeg = some n → NegArg.Positive n) (hp : LikedFirst model ds a) (u : Int) (rng : EvalRng)
    (d : EvalData) (h : rankingUser model ds a (.num u) rng = .ok (.done d)) (hrel : d.relevant ≠ [])
    (k : Nat) (hk : 0 < k) :
    averagePrecisionPy.toEval.call d k = .ok 1 ∧
    recallPy.toEval.call d k = .ok ((min k d.relevant.length : ℕ) / d.relevant.length) ∧
    precisionPy.toEval.call d k = .ok ((min k d.relevant.length : ℕ) / (min k d.recs.length : ℕ)) ∧
    (d.relevant.length ≤ k → hitRatioPy.toEval.call d k = .ok 1) := by
  obtain ⟨hnd, front, rest, he, hf, hr⟩ := perfect_data model ht ds hu hi h1 a hn hp u rng d h
  obtain ⟨l1, l2, l3, _, _, l6, _, _⟩ := C92_library d k 1 true
  have hlen := hf.length_eq
  have hhits : hits (firstK (some k) d.recs) d.relevant = min k d.relevant.length := by
    rw [he, hits_front front rest d.relevant (hf.nodup_iff.2 hnd) hf.subset hr, hlen]
  have hl : (firstK (some k) d.recs).length = min k d.recs.length := List.length_take
  have hpos : 0 < d.relevant.length := List.length_pos_iff.2 hrel
  have hrecs : d.relevant.length ≤ d.recs.length := by
    rw [he, List.length_append]
    omega
  refine ⟨?_, ?_, ?_, ?_⟩
  · rw [l6, he]
    exact C41_average_precision_perfect front rest d.relevant (some k) hf hnd hrel (by simp; omega)
  · rw [l2]
    obtain ⟨p, hp, hp2, _⟩ := (C39_recall d.recs d.relevant (some k)).2 hrel
    rw [hp]
    congr 1
    rw [eq_div_iff (by positivity), hp2, hhits]
  · rw [l1]
    have hne : firstK (some k) d.recs ≠ [] := by
      rw [← List.length_pos_iff, hl]
      omega
    obtain ⟨p, hp, hp2, _⟩ := (C39_precision d.recs d.relevant (some k)).2 hne
    rw [hp]
    congr 1
    have : (0 : ℚ) < (min k d.recs.length : ℕ) := by
      exact_mod_cast (by omega : 0 < min k d.recs.length)
    rw [eq_div_iff this.ne', ← hl, hp2, hhits]
  · intro hle
    rw [l3]
    obtain ⟨p, hp, hp2, _, hp3, _⟩ := (C39_hit_ratio cellText d.recs d.relevant (some k)).2 hrel
    rw [hp]
    congr 1
    have hpos' : 0 < (d.relevant.map cellText).dedup.length := by
      rw [List.length_pos_iff]
      simpa [List.dedup_eq_nil] using hrel
    have hq : (0 : ℚ) < (d.relevant.map cellText).dedup.length := by exact_mod_cast hpos'
    have hge : (d.relevant.map cellText).dedup.length ≤
        hits ((firstK (some k) d.recs).map cellText) (d.relevant.map cellText) := by
      rw [← common_eq, common, ← List.card_toFinset]
      apply Finset.card_le_card
      intro x hx
      rw [Finset.mem_inter]
      refine ⟨?_, hx⟩
      rw [List.mem_toFinset, List.mem_map] at hx ⊢
      obtain ⟨y, hy, rfl⟩ := hx
      refine ⟨y, ?_, rfl⟩
      show y ∈ d.recs.take k
      rw [he, List.take_append, List.mem_append, List.take_of_length_le (by omega)]
      exact .inl (hf.symm.subset hy)
    have : (1 : ℚ) * (d.relevant.map cellText).dedup.length ≤ p * (d.relevant.map cellText).dedup.length := by
      rw [hp2, one_mul]
      exact_mod_cast hge
    exact le_antisymm hp3 (le_of_mul_le_mul_right this hq)

/-- **C107**, one user: a model that ranks by descending interaction gets NDCG 1, weak or strong, for every
evaluated user with relevant items when the threshold is positive and no interaction is negative. -/
theorem C107_ndcg (model : EvalModel) (ht : IntUsers model.train) (ds : Mem) (hu : IntUsers ds)
    (hi : IntItems ds) (h1 : OneRecordPerItem ds)
    (h0 : ∀ r ∈ ds.rows, ∀ q, r.get "interaction" = .num q → 0 ≤ q) (a : EvalArgs) (hpos : 0 < a.threshold)
    (hn : ∀ n, a.nNeg = some n → NegArg.Positive n) (hp : ByInteraction model ds a) (u : Int) (rng : EvalRng)
    (d : EvalData) (h : rankingUser model ds a (.num u) rng = .ok (.done d)) (hrel : d.relevant ≠ [])
    (k : Nat) (hk : 0 < k) (strong : Bool) : (ndcgPy strong).toEval.call d k = .ok 1 := by
  obtain ⟨_, _, _, _, _, _, _, l8⟩ := C92_library d k 1 strong
  rw [l8]
  obtain ⟨others, cands, ranked, hr, hd, hc, hnd, hlike, _, hk1, hk2, hk3⟩ :=
    ranked_items model ht ds hu hi h1 a hn u rng d h
  obtain ⟨hperm, hord⟩ := hp _ _ _ hr
  rw [← hd] at hperm hord
  have hkeys : (realRels d.relevancies).map (·.1) = d.relevancies.map (·.1) := by
    unfold realRels
    rw [List.map_map]
    rfl
  have hmem : ∀ (x : Val) (q : ℝ), (x, q) ∈ realRels d.relevancies → q = (firstInteraction ds (.num u) x : ℝ) := by
    intro x q hq
    obtain ⟨p, hp, e⟩ := List.mem_map.1 hq
    cases e
    rw [← hk3 p hp]
  have hnn : ∀ x, 0 ≤ firstInteraction ds (.num u) x := by
    intro x
    unfold firstInteraction
    split
    · exact le_rfl
    · rename_i r hr
      split
      · rename_i q hq
        exact h0 r (List.mem_filter.1 (List.mem_of_find?_eq_some hr)).1 q hq
      · exact le_rfl
  have hcn : cands.Nodup := hc.nodup_iff.2 hnd
  apply C40_ideal_is_one
  · rw [hkeys]
    exact hk1
  · intro p hp
    rw [hmem p.1 p.2 hp]
    exact_mod_cast hnn p.1
  · obtain ⟨x, hx⟩ := List.exists_mem_of_ne_nil _ hrel
    have hxc : x ∈ cands := hc.symm.subset (List.mem_append_left _ hx)
    obtain ⟨p, hp, e⟩ := List.mem_map.1 ((hk2 x).2 hxc)
    refine ⟨(p.1, (p.2 : ℝ)), List.mem_map.2 ⟨p, hp, rfl⟩, ?_⟩
    show (0 : ℝ) < (p.2 : ℝ)
    rw [hk3 p hp, e]
    obtain ⟨r, hr, e2⟩ := hlike x hx
    obtain ⟨hr1, hr2⟩ := List.mem_filter.1 hr
    simp only [decide_eq_true_eq] at hr2
    obtain ⟨q, hq, hq2⟩ := hr2
    rw [firstInteraction_liked h1 hr1 e2 hq]
    exact_mod_cast lt_of_lt_of_le hpos hq2
  · rw [hkeys]
    refine hperm.trans ((List.perm_ext_iff_of_nodup hcn hk1).2 fun x => (hk2 x).symm)
  · refine hord.imp ?_
    intro x y hxy p q hp hq
    rw [hmem x p hp, hmem y q hq]
    exact_mod_cast hxy
  · simp
    omega

theorem reported_ones {K : Type} [Field K] [LinearOrder K] [IsStrictOrderedRing K] [FloorRing K] (xs : List K)
    (h : ∀ x ∈ xs, x = 1) : reported xs = if xs = [] then 0 else 1 := by
  unfold reported
  split
  · rfl
  · rename_i hne
    have hx : xs = List.replicate xs.length 1 := List.eq_replicate_iff.2 ⟨rfl, h⟩
    have hs : xs.sum = (xs.length : K) := by
      conv_lhs => rw [hx]
      simp
    have hl : (xs.length : K) ≠ 0 := by
      simpa using hne
    rw [hs, div_self hl]
    obtain ⟨⟨n, hn⟩, hb⟩ := round4_spec (1 : K)
    rw [hn] at hb ⊢
    rw [abs_le] at hb
    have h1 : (n : K) < ((10001 : Int) : K) := by push_cast; linarith [hb.2]
    have h2 : ((9999 : Int) : K) < (n : K) := by push_cast; linarith [hb.1]
    rw [Int.cast_lt] at h1 h2
    have : n = 10000 := by omega
    rw [this]
    norm_num

/-- Users without numbers do not occur. -/
theorem evaluated_user {model : EvalModel} {ds : Mem} (hu : IntUsers ds) {a : EvalArgs} {n : Option Nat}
    {rngs : Nat → EvalRng} {users : List Val} (hus : evalUsers ds n = .ok users) {d : EvalData}
    (hd : d ∈ evaluated (rankingOutcomes model ds a users rngs)) :
    ∃ (u : Int) (i : Nat), rankingUser model ds a (.num u) (rngs i) = .ok (.done d) := by
  obtain ⟨o, ho, e⟩ := List.mem_filterMap.1 hd
  obtain ⟨p, hp, rfl⟩ := List.mem_map.1 ho
  obtain ⟨all, users', h1, _, h2, h3⟩ := C44_users ds hu.hasUser n
  rw [hus] at h1
  cases h1
  have hpu : p.1 ∈ users := by
    obtain ⟨v, i⟩ := p
    exact (List.mem_zipIdx hp).2.2 ▸ List.getElem_mem _
  rw [h3] at hpu
  obtain ⟨r, hr, hru⟩ := (h2 p.1).1 (List.mem_of_mem_take hpu)
  obtain ⟨u, hu⟩ := hu.whole r hr
  refine ⟨u, p.2, ?_⟩
  rw [← hu, hru]
  split at e
  · cases e; assumption
  · cases e

/-- **C107**, whole evaluation: with a model that ranks liked items first, average precision is reported as
exactly 1 for every positive `k`, whatever else is evaluated, however the tasks interleave and whatever is
drawn at random, as soon as one evaluated user has relevant items. -/
theorem C107_average_precision (model : EvalModel) (ht : IntUsers model.train) (ds : Mem) (hu : IntUsers ds)
    (hi : IntItems ds) (h1 : OneRecordPerItem ds) (a : EvalArgs)
    (hn : ∀ n, a.nNeg = some n → NegArg.Positive n) (hp : LikedFirst model ds a) (n : Option Nat)
    (rngs : Nat → EvalRng) (metrics : List (EvalMetric ℚ)) (hm : (metrics.map (·.name)).Nodup)
    (hap : averagePrecisionPy.toEval ∈ metrics) (ks : List Nat) (users : List Val)
    (hus : evalUsers ds n = .ok users) (tasks : List (List EAct))
    (hts : rankingTasks model ds a n rngs = .ok tasks) (m : (v : EVar) → v.Ty ℚ)
    (hrun : EvalRun metrics ks tasks m) (k : Nat) (hk : k ∈ ks) (hk0 : 0 < k)
    (hsome : ∃ d ∈ evaluated (rankingOutcomes model ds a users rngs), d.relevant ≠ []) :
    (("AveragePrecision", k), (1 : ℚ)) ∈ evalResults metrics ks (m .sums) := by
  rw [(C44_ranking model ds a n rngs metrics hm ks users hus tasks hts m hrun).1]
  refine ⟨_, hap, k, hk, rfl, ?_⟩
  rw [reported_ones, if_neg]
  · obtain ⟨d, hd, hrel⟩ := hsome
    obtain ⟨u, i, h⟩ := evaluated_user hu hus hd
    refine List.ne_nil_of_mem (a := 1) (List.mem_filterMap.2 ⟨d, hd, ?_⟩)
    rw [(C107_user model ht ds hu hi h1 a hn hp u _ d h hrel k hk0).1]
    rfl
  · intro x hx
    obtain ⟨d, hd, e⟩ := List.mem_filterMap.1 hx
    by_cases hrel : d.relevant = []
    · obtain ⟨_, _, _, _, _, l6, _, _⟩ := C92_library d k 1 true
      rw [l6, (C41_average_precision d.recs d.relevant (some k)).1 (.inl hrel)] at e
      cases e
    · obtain ⟨u, i, h⟩ := evaluated_user hu hus hd
      rw [(C107_user model ht ds hu hi h1 a hn hp u _ d h hrel k hk0).1] at e
      cases e
      rfl

/-- **C107**, whole evaluation: with a model that ranks liked items first, recall and hit ratio are reported
as exactly 1 for every `k` that is at least the number of relevant items of every evaluated user. -/
theorem C107_recall (model : EvalModel) (ht : IntUsers model.train) (ds : Mem) (hu : IntUsers ds)
    (hi : IntItems ds) (h1 : OneRecordPerItem ds) (a : EvalArgs)
    (hn : ∀ n, a.nNeg = some n → NegArg.Positive n) (hp : LikedFirst model ds a) (n : Option Nat)
    (rngs : Nat → EvalRng) (metrics : List (EvalMetric ℚ)) (hm : (metrics.map (·.name)).Nodup)
    (mt : EvalMetric ℚ) (hmt : mt = recallPy.toEval ∨ mt = hitRatioPy.toEval) (hap : mt ∈ metrics)
    (ks : List Nat) (users : List Val)
    (hus : evalUsers ds n = .ok users) (tasks : List (List EAct))
    (hts : rankingTasks model ds a n rngs = .ok tasks) (m : (v : EVar) → v.Ty ℚ)
    (hrun : EvalRun metrics ks tasks m) (k : Nat) (hk : k ∈ ks)
    (hall : ∀ d ∈ evaluated (rankingOutcomes model ds a users rngs), d.relevant.length ≤ k)
    (hsome : ∃ d ∈ evaluated (rankingOutcomes model ds a users rngs), d.relevant ≠ []) :
    ((mt.name, k), (1 : ℚ)) ∈ evalResults metrics ks (m .sums) := by
  rw [(C44_ranking model ds a n rngs metrics hm ks users hus tasks hts m hrun).1]
  refine ⟨_, hap, k, hk, rfl, ?_⟩
  have hone : ∀ d ∈ evaluated (rankingOutcomes model ds a users rngs), d.relevant ≠ [] → mt.call d k = .ok 1 := by
    intro d hd hrel
    obtain ⟨u, i, h⟩ := evaluated_user hu hus hd
    have hlen := hall d hd
    have hpos : 0 < d.relevant.length := List.length_pos_iff.2 hrel
    obtain ⟨_, h2, _, h4⟩ := C107_user model ht ds hu hi h1 a hn hp u _ d h hrel k (by omega)
    rcases hmt with rfl | rfl
    · rw [h2, Nat.min_eq_right hlen, div_self (by positivity)]
    · exact h4 hlen
  have hnone : ∀ d : EvalData, d.relevant = [] → mt.call d k = .error .zeroDiv := by
    intro d hrel
    obtain ⟨_, l2, l3, _⟩ := C92_library d k 1 true
    rcases hmt with rfl | rfl
    · rw [l2]
      exact (C39_recall d.recs d.relevant (some k)).1 hrel
    · rw [l3]
      exact (C39_hit_ratio cellText d.recs d.relevant (some k)).1 hrel
  rw [reported_ones, if_neg]
  · obtain ⟨d, hd, hrel⟩ := hsome
    refine List.ne_nil_of_mem (a := 1) (List.mem_filterMap.2 ⟨d, hd, ?_⟩)
    rw [hone d hd hrel]
    rfl
  · intro x hx
    obtain ⟨d, hd, e⟩ := List.mem_filterMap.1 hx
    by_cases hrel : d.relevant = []
    · rw [hnone d hrel] at e
      cases e
    · rw [hone d hd hrel] at e
      cases e
      rfl

/-- **C107**, whole evaluation: with a model that ranks by descending interaction, NDCG is reported as exactly
1 for every positive `k`. -/
theorem C107_ndcg_reported (model : EvalModel) (ht : IntUsers model.train) (ds : Mem) (hu : IntUsers ds)
    (hi : IntItems ds) (h1 : OneRecordPerItem ds)
    (h0 : ∀ r ∈ ds.rows, ∀ q, r.get "interaction" = .num q → 0 ≤ q) (a : EvalArgs) (hpos : 0 < a.threshold)
    (hn : ∀ n, a.nNeg = some n → NegArg.Positive n) (hp : ByInteraction model ds a) (n : Option Nat)
    (rngs : Nat → EvalRng) (metrics : List (EvalMetric ℝ)) (hm : (metrics.map (·.name)).Nodup)
    (strong : Bool) (hap : (ndcgPy strong).toEval ∈ metrics) (ks : List Nat) (users : List Val)
    (hus : evalUsers ds n = .ok users) (tasks : List (List EAct))
    (hts : rankingTasks model ds a n rngs = .ok tasks) (m : (v : EVar) → v.Ty ℝ)
    (hrun : EvalRun metrics ks tasks m) (k : Nat) (hk : k ∈ ks) (hk0 : 0 < k)
    (hall : ∀ d ∈ evaluated (rankingOutcomes model ds a users rngs), d.relevant ≠ [])
    (hsome : evaluated (rankingOutcomes model ds a users rngs) ≠ []) :
    (("NDCG", k), (1 : ℝ)) ∈ evalResults metrics ks (m .sums) := by
  rw [(C44_ranking model ds a n rngs metrics hm ks users hus tasks hts m hrun).1]
  refine ⟨_, hap, k, hk, rfl, ?_⟩
  have hone : ∀ d ∈ evaluated (rankingOutcomes model ds a users rngs),
      (ndcgPy strong).toEval.call d k = .ok 1 := by
    intro d hd
    obtain ⟨u, i, h⟩ := evaluated_user hu hus hd
    exact C107_ndcg model ht ds hu hi h1 h0 a hpos hn hp u _ d h (hall d hd) k hk0 strong
  rw [reported_ones, if_neg]
  · obtain ⟨d, hd⟩ := List.exists_mem_of_ne_nil _ hsome
    refine List.ne_nil_of_mem (a := 1) (List.mem_filterMap.2 ⟨d, hd, ?_⟩)
    rw [hone d hd]
    rfl
  · intro x hx
    obtain ⟨d, hd, e⟩ := List.mem_filterMap.1 hx
    rw [hone d hd] at e
    cases e
    rfl

/-! ## Examples -/

/-- A model that knows the test set. -/
def exPerfect : EvalModel := { exTaskModel with
  rank := fun u items _ => .ok ((items.insertionSort fun x y =>
    firstInteraction exTaskDs u y ≤ firstInteraction exTaskDs u x).map fun x => (firstInteraction exTaskDs u x, x)) }

theorem exPerfect_by : ByInteraction exPerfect exTaskDs exTaskArgs := by
  intro u items ranked h
  simp only [exPerfect, Except.ok.injEq] at h
  subst h
  rw [List.map_map]
  have : ((fun p : ℚ × Val => p.2) ∘ fun x => (firstInteraction exTaskDs u x, x)) = id := rfl
  rw [this, List.map_id]
  have : Std.Total fun x y : Val => firstInteraction exTaskDs u y ≤ firstInteraction exTaskDs u x :=
    ⟨fun x y => le_total _ _⟩
  have : IsTrans Val fun x y : Val => firstInteraction exTaskDs u y ≤ firstInteraction exTaskDs u x :=
    ⟨fun x y z h1 h2 => le_trans h2 h1⟩
  exact ⟨List.perm_insertionSort _ _, List.pairwise_insertionSort _ _⟩

theorem exTaskDs_once : OneRecordPerItem exTaskDs := by
  intro u
  have hus : ∀ r ∈ exTaskDs.rows, r.get "user" = .num 1 ∨ r.get "user" = .num 2 := by decide +kernel
  by_cases h1 : u = .num 1
  · subst h1
    decide +kernel
  by_cases h2 : u = .num 2
  · subst h2
    decide +kernel
  have : recordsOf exTaskDs.rows u = [] := by
    unfold recordsOf
    rw [List.filter_eq_nil_iff]
    intro r hr e
    rw [decide_eq_true_eq] at e
    rcases hus r hr with h | h
    · exact h1 (e.symm.trans h)
    · exact h2 (e.symm.trans h)
  rw [this]
  exact List.nodup_nil

/-- The statement leaves reciprocal rank out: the item looked for is the least liked of the relevant ones
(C48), so ranking by descending interaction gets 1/2 for a user with two relevant items. -/
theorem C107_reciprocal_rank_fails : ByInteraction exPerfect exTaskDs exTaskArgs ∧
    (match rankingUser exPerfect exTaskDs exTaskArgs (.num 1) { exEvalRng with items := [0, 1, 2] } with
      | .ok (.done d) => (reciprocalRankPy.toEval.call d 5).toOption
      | _ => none) = some (1 / 2) := ⟨exPerfect_by, by decide +kernel⟩

/-- User 1 is evaluated with two relevant and three other items; user 2 has too few positives. -/
example : IntUsers exPerfect.train ∧ IntUsers exTaskDs ∧ IntItems exTaskDs ∧ OneRecordPerItem exTaskDs ∧
    (∀ r ∈ exTaskDs.rows, ∀ q, r.get "interaction" = .num q → 0 ≤ q) ∧ 0 < exTaskArgs.threshold ∧
    ByInteraction exPerfect exTaskDs exTaskArgs ∧ LikedFirst exPerfect exTaskDs exTaskArgs ∧
    evalUsers exTaskDs none = .ok [.num 1, .num 2] ∧
    (match rankingUser exPerfect exTaskDs exTaskArgs (.num 1) { exEvalRng with items := [0, 1, 2] } with
      | .ok (.done d) => some (d.relevant, d.recs)
      | _ => none) = some ([.num 10, .num 11], [.num 10, .num 11, .num 12, .num 2, .num 1]) ∧
    (match rankingUser exPerfect exTaskDs exTaskArgs (.num 2) exEvalRng with
      | .ok .skip => true
      | _ => false) = true := by
  refine ⟨exLowTrain_ok, exTaskDs_users, exTaskDs_items, exTaskDs_once, ?_,
    by decide +kernel, exPerfect_by, likedFirst_of_byInteraction exTaskDs_once (by decide +kernel) exPerfect_by,
    by decide +kernel, by decide +kernel, by decide +kernel⟩
  intro r hr q hq
  have : ∀ r ∈ exTaskDs.rows, r.get "interaction" = .num 5 ∨ r.get "interaction" = .num 4 ∨
      r.get "interaction" = .num 1 := by decide +kernel
  rcases this r hr with h | h | h <;> rw [h] at hq <;> cases hq <;> norm_num

end DRec
