import Verif.Lemmas.Recommender
import Verif.Props.Vectors
import Mathlib.Tactic.Linarith
import Mathlib.Tactic.Ring
import Mathlib.Tactic.FieldSimp

/-!
# C51, C52, C53, C57, C65, C66: predicting, recommending and ranking
-/

namespace DRec

open Spec

/-! ## C51 -/

/-- Raw item of an internal id. -/
def rawItem (ds : Mem) (i : Nat) : Val := ds.itemMap.getD i .null

theorem rawItem_of_lt {ds : Mem} {i : Nat} (h : i < ds.itemMap.length) :
    ds.itemMap[i]? = some (rawItem ds i) := by
  simp [rawItem, h]

theorem rawItem_of_some {ds : Mem} {i : Nat} {v : Val} (h : ds.itemMap[i]? = some v) :
    i < ds.itemMap.length ∧ rawItem ds i = v := by
  obtain ⟨h1, h2⟩ := List.getElem?_eq_some_iff.1 h
  exact ⟨h1, by simp [rawItem, h1, h2]⟩

theorem rawItem_inj {ds : Mem} (hn : ds.itemMap.Nodup) {i j : Nat} (hi : i < ds.itemMap.length)
    (hj : j < ds.itemMap.length) (e : rawItem ds i = rawItem ds j) : i = j := by
  simp only [rawItem, List.getD_eq_getElem?_getD, List.getElem?_eq_getElem hi, List.getElem?_eq_getElem hj,
    Option.getD_some] at e
  exact (hn.getElem_inj_iff).1 e

theorem toRaw_raw {ds : Mem} (hids : ds.hasIds = true) (l : List (ℚ × Nat))
    (h : ∀ p ∈ l, p.2 < ds.itemMap.length) :
    toRaw ds l = .ok ((l.map fun p => (p.1, rawItem ds p.2)).map fun p => (p.1, some p.2)) := by
  rw [toRaw_ok hids, List.map_map]
  congr 1
  apply List.map_congr_left
  intro p hp
  simp [rawItem_of_lt (h p hp)]

theorem recommendIids_eq {nItems : Nat} {rank : RankFn} {uid n : Nat} {novelty : Bool}
    {threshold : Option ℚ} {l : List (ℚ × Nat)} (h : rank uid (List.range nItems) n novelty = .ok l) :
    recommendIids nItems rank uid n novelty threshold =
      .ok (l.filter fun p => decide (∀ t ∈ threshold, t ≤ p.1)) := by
  unfold recommendIids
  rw [h]
  cases threshold with
  | none => simp [Except.map]
  | some t => simp [Except.map]

theorem items_known {ds : Mem} (h : Fresh ds) {i : Nat} (hi : i < ds.itemMap.length) :
    ∃ r ∈ ds.rows, r.get "item" = rawItem ds i := by
  refine h.items _ ?_
  have := rawItem_of_lt hi
  exact List.mem_of_getElem? this

/-- **C51.** `recommend(user, n)` returns at most `n` distinct items in order of non-increasing score, all
of them eligible, and no eligible item that is left out scores higher than a returned one; nothing is left
out when fewer than `n` are returned. -/
theorem C51_recommend (ds : Mem) (h : Fresh ds) (f : PredictFn ℚ) (x : Lit) (uid : Nat) (user : Val)
    (hx : NamesUser ds x uid user) (hs : Scores ds f uid) (n : Option Nat) (novelty : Bool)
    (threshold : Option ℚ) :
    ∃ out : List (ℚ × Val),
      recommend ds (baseRank ds f) x n novelty threshold = .ok (out.map fun p => (p.1, some p.2)) ∧
      out.length ≤ n.getD ds.itemMap.length ∧ (out.map (·.2)).Nodup ∧
      out.Pairwise (fun a b => b.1 ≤ a.1) ∧
      (∀ p ∈ out, Eligible ds f uid user novelty threshold p.2 p.1) ∧
      ∀ item s, Eligible ds f uid user novelty threshold item s → (s, item) ∉ out →
        out.length = n.getD ds.itemMap.length ∧ ∀ p ∈ out, s ≤ p.1 := by
  obtain ⟨hx1, hx2⟩ := hx
  have hids := h.ids.has
  rw [uidToUser_iff hids] at hx2
  have hN : nItemsOf ds = ds.itemMap.length := countDistinct_eq ds "item" "iid" ds.itemMap h.ids.item h.items
  have hsc : ∀ i ∈ List.range ds.itemMap.length, ∃ p, f (some uid) (some i) = .ok p := fun i hi =>
    hs i _ ((iidToItem_iff hids).2 (rawItem_of_lt (List.mem_range.1 hi)))
  obtain ⟨cand, hc1, hc2, hc3, hc4⟩ := baseRank_ok h.ids (n.getD ds.itemMap.length) novelty hsc
  set L := nlargest (n.getD ds.itemMap.length) (cand.filterMap (scorePair f uid)) with hL
  have hcn : cand.Nodup := by
    cases novelty with
    | true => exact hc1 rfl
    | false => rw [hc2 rfl]; exact List.nodup_range
  have hLsub := nlargest_subperm (n.getD ds.itemMap.length) (cand.filterMap (scorePair f uid))
  rw [← hL] at hLsub
  have hLmem : ∀ p ∈ L, p.2 ∈ cand ∧ f (some uid) (some p.2) = .ok (some p.1) := by
    intro p hp
    obtain ⟨i, hi, e⟩ := List.mem_filterMap.1 (hLsub.subset hp)
    obtain ⟨rfl, e2⟩ := scorePair_some.1 e
    exact ⟨hi, e2⟩
  have hlt : ∀ p ∈ L, p.2 < ds.itemMap.length := fun p hp =>
    List.mem_range.1 ((hc3 p.2).1 (hLmem p hp).1).1
  have hLn : (L.map (·.2)).Nodup := by
    obtain ⟨l', hp, hsl⟩ := hLsub
    exact (hp.map _).nodup_iff.1 ((hsl.map _).nodup ((filterMap_scorePair_snd f uid cand).nodup hcn))
  set K := L.filter fun p => decide (∀ t ∈ threshold, t ≤ p.1) with hK
  have hKL : K.Sublist L := List.filter_sublist
  refine ⟨K.map fun p => (p.1, rawItem ds p.2), ?_, ?_, ?_, ?_, ?_, ?_⟩
  · unfold recommend
    rw [hx1]
    simp only [hN]
    rw [recommendIids_eq hc4]
    exact toRaw_raw hids _ fun p hp => hlt p (hKL.subset hp)
  · have := nlargest_length (n.getD ds.itemMap.length) (cand.filterMap (scorePair f uid))
    have h2 := hKL.length_le
    rw [List.length_map]
    rw [← hL] at this
    omega
  · rw [List.map_map]
    have hn2 : (K.map (·.2)).Nodup := (hKL.map _).nodup hLn
    have : ((fun p : ℚ × Val => p.2) ∘ fun p : ℚ × Nat => (p.1, rawItem ds p.2)) =
        fun p : ℚ × Nat => rawItem ds p.2 := rfl
    rw [this]
    have e : K.map (fun p : ℚ × Nat => rawItem ds p.2) = (K.map (·.2)).map (rawItem ds) := by
      rw [List.map_map]; rfl
    rw [e, List.nodup_map_iff_inj_on hn2]
    intro a ha b hb eab
    obtain ⟨p, hp, rfl⟩ := List.mem_map.1 ha
    obtain ⟨q, hq, rfl⟩ := List.mem_map.1 hb
    exact rawItem_inj h.ids.item.nodup (hlt p (hKL.subset hp)) (hlt q (hKL.subset hq)) eab
  · rw [List.pairwise_map]
    exact ((nlargest_pairwise _ _).imp fun hg => pairGe_le hg).sublist hKL
  · intro q hq
    obtain ⟨p, hp, rfl⟩ := List.mem_map.1 hq
    have hpL := hKL.subset hp
    obtain ⟨h1, h2⟩ := hLmem p hpL
    have hr := rawItem_of_lt (hlt p hpL)
    refine ⟨items_known h (hlt p hpL), ⟨p.2, (iidToItem_iff hids).2 hr, h2⟩, ?_, ?_⟩
    · intro hnov hown
      exact ((hc3 p.2).1 h1).2 hnov ((mem_rated h.ids hx2 hr).2 hown)
    · intro t ht
      have := (List.mem_filter.1 hp).2
      simp only [decide_eq_true_eq] at this
      exact this t ht
  · rintro item s ⟨_, ⟨i, hi, hfi⟩, hnew, habove⟩ hnot
    rw [iidToItem_iff hids] at hi
    obtain ⟨hilt, hiraw⟩ := rawItem_of_some hi
    have hic : i ∈ cand := (hc3 i).2 ⟨List.mem_range.2 hilt, fun hnov hrated =>
      hnew hnov ((mem_rated h.ids hx2 hi).1 hrated)⟩
    have hpair : (s, i) ∈ cand.filterMap (scorePair f uid) :=
      List.mem_filterMap.2 ⟨i, hic, scorePair_some.2 ⟨rfl, hfi⟩⟩
    have hkeep : ∀ p : ℚ × Nat, s ≤ p.1 → decide (∀ t ∈ threshold, t ≤ p.1) = true := by
      intro p hp
      simp only [decide_eq_true_eq]
      exact fun t ht => (habove t ht).trans hp
    have hnL : (s, i) ∉ L := by
      intro hin
      apply hnot
      refine List.mem_map.2 ⟨(s, i), List.mem_filter.2 ⟨hin, hkeep (s, i) le_rfl⟩, ?_⟩
      rw [hiraw]
    obtain ⟨hb1, hb2⟩ := nlargest_best _ _ _ hpair hnL
    have hKeq : K = L := by
      rw [hK, List.filter_eq_self]
      exact fun p hp => hkeep p (pairGe_le (hb2 p hp))
    rw [hKeq]
    refine ⟨by rw [List.length_map]; exact hb1, ?_⟩
    intro q hq
    obtain ⟨p, hp, rfl⟩ := List.mem_map.1 hq
    exact pairGe_le (hb2 p hp)

/-- **C51**, unknown users raise. -/
theorem C51_unknown_user (ds : Mem) (rk : RankFn) (x : Lit) (hx : ds.userToUid x = .ok none)
    (n : Option Nat) (novelty : Bool) (threshold : Option ℚ) :
    recommend ds rk x n novelty threshold = .error .notFound := by
  simp [recommend, hx]

/-! ## C52 -/

theorem knownIids_skip {ds : Mem} {items : List Lit} (h : ∀ x ∈ items, Readable ds x) :
    knownIids ds true items = .ok (items.filterMap fun x => (ds.itemToIid x).toOption.join) := by
  induction items with
  | nil => rfl
  | cons x xs ih =>
    obtain ⟨o, ho⟩ := h x (by simp)
    have ih := ih fun y hy => h y (by simp [hy])
    cases o with
    | none => simp [knownIids, ho, ih, Except.toOption]
    | some i => simp [knownIids, ho, ih, Except.toOption, Except.map]

theorem knownIids_all {ds : Mem} {items : List Lit} (skip : Bool)
    (h : ∀ x ∈ items, ∃ i, ds.itemToIid x = .ok (some i)) :
    knownIids ds skip items = .ok (items.filterMap fun x => (ds.itemToIid x).toOption.join) := by
  induction items with
  | nil => rfl
  | cons x xs ih =>
    obtain ⟨i, hi⟩ := h x (by simp)
    simp [knownIids, hi, ih fun y hy => h y (by simp [hy]), Except.toOption, Except.map]

theorem itemToIid_lt {ds : Mem} {x : Lit} {i : Nat} (h : ds.itemToIid x = .ok (some i)) :
    i < ds.itemMap.length := by
  unfold Mem.itemToIid at h
  split at h
  · split at h
    · cases hn : normId (ds.dtype "item") x with
      | error e => rw [hn] at h; cases h
      | ok v =>
        rw [hn] at h
        simp only [Except.map, Except.ok.injEq, lookupCode] at h
        split at h
        next hv => cases h; exact List.idxOf_lt_length_of_mem hv
        next => cases h
    · cases h
  · cases h

/-- **C52** (partial: every given id can be read for the item column; the full property is for every list
of ids and fails, see `C52_unreadable_raises`).  With `skip_invalid_items` the result has, in order of
non-increasing score, exactly the given known items with a score, without the items the user already has
when novelty is on; items given twice appear twice without novelty and once with it. -/
theorem C52_rank_partial (ds : Mem) (h : IdsOk ds) (f : PredictFn ℚ) (x : Lit) (uid : Nat) (user : Val)
    (hx : NamesUser ds x uid user) (hs : Scores ds f uid) (items : List Lit)
    (hr : ∀ y ∈ items, Readable ds y) (novelty : Bool) :
    ∃ out : List (ℚ × Val),
      rank ds (baseRank ds f) x items novelty true none = .ok (out.map fun p => (p.1, some p.2)) ∧
      out.Pairwise (fun a b => b.1 ≤ a.1) ∧
      (∀ s item, (s, item) ∈ out ↔ (∃ y ∈ items, NamesItem ds y item) ∧ HasScore ds f uid item s ∧
        (novelty = true → ¬ Owns ds user item)) ∧
      (novelty = true → (out.map (·.2)).Nodup) ∧
      (novelty = false → ((∀ i < ds.itemMap.length, f (some uid) (some i) ≠ .ok none) →
        out.length = (items.filter fun y => ((ds.itemToIid y).toOption.join).isSome).length)) := by
  obtain ⟨hx1, hx2⟩ := hx
  have hids := h.has
  rw [uidToUser_iff hids] at hx2
  set iids := items.filterMap fun x => (ds.itemToIid x).toOption.join with hiids
  have hmem : ∀ i, i ∈ iids ↔ ∃ y ∈ items, ds.itemToIid y = .ok (some i) := by
    intro i
    rw [hiids, List.mem_filterMap]
    refine exists_congr fun y => and_congr_right fun _ => ?_
    cases ds.itemToIid y <;> simp [Except.toOption]
  have hlti : ∀ i ∈ iids, i < ds.itemMap.length := by
    intro i hi
    obtain ⟨y, _, hy⟩ := (hmem i).1 hi
    exact itemToIid_lt hy
  have hsc : ∀ i ∈ iids, ∃ p, f (some uid) (some i) = .ok p := fun i hi =>
    hs i _ ((iidToItem_iff hids).2 (rawItem_of_lt (hlti i hi)))
  obtain ⟨cand, hc1, hc2, hc3, hc4⟩ := baseRank_ok h iids.length novelty hsc
  have hcl : cand.length ≤ iids.length := by
    cases novelty with
    | false => rw [hc2 rfl]
    | true =>
      have hsub : cand ⊆ iids := fun i hi => ((hc3 i).1 hi).1
      exact (List.subperm_of_subset (hc1 rfl) hsub).length_le
  set L := nlargest iids.length (cand.filterMap (scorePair f uid)) with hL
  have hperm : L.Perm (cand.filterMap (scorePair f uid)) :=
    nlargest_all _ _ ((List.length_filterMap_le _ _).trans hcl)
  have hLmem : ∀ p, p ∈ L ↔ p.2 ∈ cand ∧ f (some uid) (some p.2) = .ok (some p.1) := by
    intro p
    rw [hperm.mem_iff, List.mem_filterMap]
    constructor
    · rintro ⟨i, hi, e⟩
      obtain ⟨rfl, e2⟩ := scorePair_some.1 e
      exact ⟨hi, e2⟩
    · rintro ⟨hi, e⟩
      exact ⟨p.2, hi, scorePair_some.2 ⟨rfl, e⟩⟩
  have hlt : ∀ p ∈ L, p.2 < ds.itemMap.length := fun p hp =>
    hlti _ ((hc3 p.2).1 ((hLmem p).1 hp).1).1
  refine ⟨L.map fun p => (p.1, rawItem ds p.2), ?_, ?_, ?_, ?_, ?_⟩
  · unfold rank
    rw [hx1]
    simp only [knownIids_skip hr, ← hiids, Option.getD_none, lt_irrefl, if_false]
    rw [hc4]
    exact toRaw_raw hids _ hlt
  · rw [List.pairwise_map]
    exact (nlargest_pairwise _ _).imp fun hg => pairGe_le hg
  · intro s item
    rw [List.mem_map]
    constructor
    · rintro ⟨p, hp, e⟩
      obtain ⟨h1, h2⟩ := (hLmem p).1 hp
      obtain ⟨h3, h4⟩ := (hc3 p.2).1 h1
      have hraw := rawItem_of_lt (hlt p hp)
      cases e
      obtain ⟨y, hy, hy2⟩ := (hmem p.2).1 h3
      exact ⟨⟨y, hy, p.2, hy2, (iidToItem_iff hids).2 hraw⟩, ⟨p.2, (iidToItem_iff hids).2 hraw, h2⟩,
        fun hn ho => h4 hn ((mem_rated h hx2 hraw).2 ho)⟩
    · rintro ⟨⟨y, hy, i, hi, hii⟩, ⟨j, hj, hfj⟩, hnew⟩
      rw [iidToItem_iff hids] at hii hj
      obtain ⟨hi1, hi2⟩ := rawItem_of_some hii
      obtain ⟨hj1, hj2⟩ := rawItem_of_some hj
      have : i = j := rawItem_inj h.item.nodup hi1 hj1 (hi2.trans hj2.symm)
      subst this
      refine ⟨(s, i), (hLmem _).2 ⟨(hc3 i).2 ⟨(hmem i).2 ⟨y, hy, hi⟩, ?_⟩, hfj⟩, by rw [hi2]⟩
      exact fun hn hrt => hnew hn ((mem_rated h hx2 hii).1 hrt)
  · intro hn
    have h1 : (L.map (·.2)).Nodup :=
      ((hperm.map _).nodup_iff).2 ((filterMap_scorePair_snd f uid cand).nodup (hc1 hn))
    rw [List.map_map]
    have e : L.map ((fun p : ℚ × Val => p.2) ∘ fun p : ℚ × Nat => (p.1, rawItem ds p.2)) =
        (L.map (·.2)).map (rawItem ds) := by rw [List.map_map]; rfl
    rw [e, List.nodup_map_iff_inj_on h1]
    intro a ha b hb eab
    obtain ⟨p, hp, rfl⟩ := List.mem_map.1 ha
    obtain ⟨q, hq, rfl⟩ := List.mem_map.1 hb
    exact rawItem_inj h.item.nodup (hlt p hp) (hlt q hq) eab
  · intro hn hfull
    rw [List.length_map, hperm.length_eq, hc2 hn]
    have h1 : (iids.filterMap (scorePair f uid)).length = iids.length := by
      have : ∀ i ∈ iids, (scorePair f uid i).isSome := by
        intro i hi
        obtain ⟨p, hp⟩ := hsc i hi
        cases p with
        | none => exact absurd hp (hfull i (hlti i hi))
        | some s => simp [scorePair, hp]
      clear_value iids
      clear hmem hlti hsc hc4 hcl hL hc3 hc2 hiids L hperm hLmem hlt
      induction iids with
      | nil => rfl
      | cons i l ih =>
        obtain ⟨p, hp⟩ := Option.isSome_iff_exists.1 (this i (by simp))
        rw [List.filterMap_cons, hp]
        simp [ih fun j hj => this j (by simp [hj])]
    rw [h1, hiids]
    clear_value iids
    clear hmem hlti hsc hc4 hcl hL hc3 hc2 hiids L hperm hLmem hlt h1
    induction items with
    | nil => rfl
    | cons y l ih =>
      have ih := ih fun z hz => hr z (by simp [hz])
      rw [List.filterMap_cons, List.filter_cons]
      cases hy : (ds.itemToIid y).toOption.join with
      | none => simpa using ih
      | some i => simpa using ih

/-- **C52**, `n`: with an explicit number of items, the result is the beginning of the full one, and asking
for more than the known items raises. -/
theorem C52_first_n (ds : Mem) (h : IdsOk ds) (f : PredictFn ℚ) (x : Lit) (items : List Lit)
    (novelty skip : Bool) (n : Nat) (iids : List Nat) (hk : knownIids ds skip items = .ok iids)
    (full : List (ℚ × Option Val))
    (hfull : rank ds (baseRank ds f) x items novelty skip none = .ok full) :
    (n ≤ iids.length → rank ds (baseRank ds f) x items novelty skip (some n) = .ok (full.take n)) ∧
    (iids.length < n → rank ds (baseRank ds f) x items novelty skip (some n) = .error .assertion) := by
  unfold rank at hfull ⊢
  cases hu : ds.userToUid x with
  | error e => rw [hu] at hfull; cases hfull
  | ok o =>
    cases o with
    | none => rw [hu] at hfull; cases hfull
    | some uid =>
      rw [hu] at hfull
      simp only [hk, Option.getD_none, lt_irrefl, if_false, Option.getD_some] at hfull ⊢
      refine ⟨fun hle => ?_, fun hlt => by rw [if_pos hlt]⟩
      rw [if_neg (by omega)]
      cases hb : baseRank ds f uid iids iids.length novelty with
      | error e => rw [hb] at hfull; cases hfull
      | ok l =>
        rw [hb] at hfull
        simp only [toRaw_ok h.has, Except.ok.injEq] at hfull
        have hb2 : baseRank ds f uid iids n novelty = .ok (l.take n) := by
          unfold baseRank at hb ⊢
          cases hc : candidates ds uid iids novelty with
          | error e => rw [hc] at hb; cases hb
          | ok cand =>
            rw [hc] at hb
            simp only at hb ⊢
            cases hm : cand.mapM (scored f uid) with
            | error e => rw [hm] at hb; cases hb
            | ok preds =>
              rw [hm] at hb
              simp only [Except.ok.injEq] at hb ⊢
              subst hb
              simp only [nlargest, List.take_take]
              rw [Nat.min_eq_left hle]
        rw [hb2]
        simp only [toRaw_ok h.has, ← hfull, List.map_take]

/-- **C52**, unknown items raise when requested. -/
theorem C52_unknown_raises (ds : Mem) (rk : RankFn) (x : Lit) (uid : Nat)
    (hx : ds.userToUid x = .ok (some uid)) (items : List Lit) (hr : ∀ y ∈ items, Readable ds y)
    (y : Lit) (hy : y ∈ items) (hunk : ds.itemToIid y = .ok none) (novelty : Bool) (n : Option Nat) :
    rank ds rk x items novelty false n = .error .notFound := by
  have : knownIids ds false items = .error .notFound := by
    induction items with
    | nil => cases hy
    | cons z l ih =>
      obtain ⟨o, ho⟩ := hr z (by simp)
      cases o with
      | none => simp [knownIids, ho]
      | some i =>
        have hyl : y ∈ l := by
          rcases List.mem_cons.1 hy with rfl | hy
          · rw [hunk] at ho; cases ho
          · exact hy
        simp [knownIids, ho, ih (fun w hw => hr w (by simp [hw])) hyl, Except.map]
  simp [rank, hx, this]

/-- **C52 fails**: on an integer item column an unknown id that is not a number raises although unknown
items are to be skipped. -/
theorem C52_unreadable_raises (ds : Mem) (h : IdsOk ds) (hint : ds.dtype "item" = .int) (rk : RankFn)
    (x : Lit) (uid : Nat) (hx : ds.userToUid x = .ok (some uid)) (s : String) (hs : pyInt s.toList = none)
    (rest : List Lit) (novelty : Bool) (n : Option Nat) :
    rank ds rk x (.str s :: rest) novelty true n = .error .badValue := by
  have : ds.itemToIid (.str s) = .error .badValue := by
    simp [Mem.itemToIid, h.has, h.item.hasRaw, hint, normId, Lit.toInt, hs, Except.map]
  simp [rank, hx, knownIids, this]

/-! ## C53 -/

/-- The model has no value when an id is missing. -/
def Spec.NoValueWithoutIds {α : Type} (f : PredictFn α) : Prop :=
  ∀ u i, u = none ∨ i = none → ∀ y, f u i ≠ .ok (some y)

/-- The caller's ids are known and the model has a value for them. -/
def Spec.Predicts {α : Type} (ds : Mem) (f : PredictFn α) (user item : Lit) (y : α) : Prop :=
  ∃ u i, ds.userToUid user = .ok (some u) ∧ ds.itemToIid item = .ok (some i) ∧
    f (some u) (some i) = .ok (some y)

/-- **C53.** With `skip_errors=True` a fitted model never raises. -/
theorem C53_never_raises {α : Type} (ds : Mem) (f : PredictFn α) (user item : Lit) :
    ∃ p, predict ds true f user item true = .ok p := by
  simp [predict]

theorem tryPredict_iff {α : Type} (ds : Mem) (f : PredictFn α) (hf : Spec.NoValueWithoutIds f)
    (user item : Lit) (y : α) :
    tryPredict ds f user item = .ok y ↔ Spec.Predicts ds f user item y := by
  unfold tryPredict Spec.Predicts
  cases hu : ds.userToUid user with
  | error e => simp
  | ok u =>
    cases hi : ds.itemToIid item with
    | error e => simp
    | ok i =>
      cases u with
      | none =>
        have := hf none i (.inl rfl)
        cases hfi : f none i with
        | error e => simp [hfi]
        | ok o => cases o with
          | none => simp [hfi]
          | some z => exact absurd hfi (this z)
      | some u =>
        cases i with
        | none =>
          have := hf (some u) none (.inr rfl)
          cases hfi : f (some u) none with
          | error e => simp [hfi]
          | ok o => cases o with
            | none => simp [hfi]
            | some z => exact absurd hfi (this z)
        | some i =>
          cases hfi : f (some u) (some i) with
          | error e => simp [hfi]
          | ok o => cases o <;> simp [hfi]

/-- **C53** (partial: models without value for missing ids, which all but CDAE are; the full property is
for every model and fails, see `C53_cdae_unknown_item`).  With `skip_errors=True` the result is a value
exactly when both ids are known and the model has one, and `None` otherwise. -/
theorem C53_skip_partial {α : Type} (ds : Mem) (f : PredictFn α) (hf : Spec.NoValueWithoutIds f)
    (user item : Lit) (p : Option α) (h : predict ds true f user item true = .ok p) :
    ∀ y, p = some y ↔ Spec.Predicts ds f user item y := by
  intro y
  simp only [predict, Bool.true_eq_false, if_false, if_true, Except.ok.injEq] at h
  subst h
  rw [← tryPredict_iff ds f hf]
  cases tryPredict ds f user item <;> simp [Except.toOption]

/-- **C53.** With `skip_errors=False` the result is a value exactly when both ids are known and the model
has one; otherwise it raises.  This holds for every model. -/
theorem C53_raises {α : Type} (ds : Mem) (f : PredictFn α) (user item : Lit) :
    (∀ y, predict ds true f user item false = .ok (some y) ↔ Spec.Predicts ds f user item y) ∧
    ((¬ ∃ y, Spec.Predicts ds f user item y) → ∃ e, predict ds true f user item false = .error e) := by
  unfold predict Spec.Predicts tryPredict
  cases hu : ds.userToUid user with
  | error e => simp [assertKnown]
  | ok u =>
    cases u with
    | none => simp [assertKnown]
    | some u =>
      cases hi : ds.itemToIid item with
      | error e => simp [assertKnown]
      | ok i =>
        cases i with
        | none => simp [assertKnown]
        | some i =>
          cases hfi : f (some u) (some i) with
          | error e => simp [assertKnown, hfi, Except.map]
          | ok o => cases o <;> simp [assertKnown, hfi, Except.map]

/-- **C53**, a model that has not been fitted raises in any case. -/
theorem C53_not_fitted {α : Type} (ds : Mem) (f : PredictFn α) (user item : Lit) (skip : Bool) :
    predict ds false f user item skip = .error .assertion := by
  simp [predict]

/-- **C53 fails** for CDAE: for a known user and an unknown item the whole vector of predictions is
returned. -/
theorem C53_cdae_unknown_item (ds : Mem) (recon : Nat → List ℚ) (user item : Lit) (u : Nat)
    (hu : ds.userToUid user = .ok (some u)) (hi : ds.itemToIid item = .ok none) :
    predict ds true (cdaePredict recon) user item true = .ok (some (.vec (recon u))) := by
  simp [predict, tryPredict, hu, hi, cdaePredict, Except.toOption]

/-! ## C57 -/

/-- **C57 fails**: `fit(copy_dataset=True)` raises for every dataset, because no dataset class has the
method it calls. -/
theorem C57_copy_raises (ds : Mem) : ∃ e, (fitDataset true ds).2 = .error e := by
  have : callCopy "__copy__" ds = .error .crash := by simp [callCopy, datasetMethods]
  simp [fitDataset, this]

/-- **C57** (partial: only that the dataset passed in is left alone; that the model is fitted fails, see
`C57_copy_raises`). -/
theorem C57_unmodified_partial (ds : Mem) : (fitDataset true ds).1 = ds := by
  have : callCopy "__copy__" ds = .error .crash := by simp [callCopy, datasetMethods]
  simp [fitDataset, this]

/-- Without the copy the model works with the dataset passed in, which then has its internal ids. -/
theorem C57_in_place (ds : Mem) :
    (∀ d, (fitDataset false ds).2 = .ok d → (fitDataset false ds).1 = d ∧ d.hasIds = true) ∧
      (ds.assignIds.2 = none → (fitDataset false ds).2 = .ok ds.assignIds.1) := by
  constructor
  · intro d hd
    unfold fitDataset at hd ⊢
    rcases h : ds.assignIds with ⟨ds', _ | e⟩
    · simp only [h, Bool.false_eq_true, if_false, Except.ok.injEq] at hd ⊢
      refine ⟨hd, ?_⟩
      rw [← hd]
      unfold Mem.assignIds at h
      simp only at h
      split at h
      · split at h
        · simp only [Prod.mk.injEq, and_true] at h
          rw [← h]
        · cases h
      · cases h
    · simp [h] at hd
  · intro h
    unfold fitDataset
    rcases h' : ds.assignIds with ⟨ds', _ | e⟩
    · simp
    · rw [h'] at h
      cases h

/-- The first part works for a dataset with the required columns. -/
example : ∃ d, (fitDataset false (mkMem .obj [(.str "u", .str "a", 5)])).2 = .ok d ∧ d.userMap = [.str "u"] :=
  ⟨_, rfl, by decide +kernel⟩

/-! ## C65 -/

/-- **C65.** Between the two ends of the range, standardising is into [0, 1], strictly monotone and undone
by rescaling. -/
theorem C65_standardize (lo hi x : ℚ) (h : lo < hi) :
    ∃ y, standardize lo hi x = .ok y ∧ (0 ≤ y ∧ y ≤ 1 ↔ lo ≤ x ∧ x ≤ hi) ∧ rescale lo hi y = x ∧
      ∀ x' y', standardize lo hi x' = .ok y' → (x < x' ↔ y < y') := by
  have hp : 0 < hi - lo := sub_pos.2 h
  have hne : hi - lo ≠ 0 := hp.ne'
  refine ⟨(x - lo) / (hi - lo), by simp [standardize, hne], ?_, ?_, ?_⟩
  · rw [le_div_iff₀ hp, div_le_iff₀ hp]
    constructor
    · rintro ⟨h1, h2⟩; constructor <;> linarith
    · rintro ⟨h1, h2⟩; constructor <;> linarith
  · unfold rescale
    rw [mul_div_cancel₀ _ hne]
    ring
  · intro x' y' h'
    simp only [standardize, hne, if_false, Except.ok.injEq] at h'
    subst h'
    rw [div_lt_div_iff_of_pos_right hp]
    constructor <;> intro h' <;> linarith

theorem range_ok {ds : Mem} (hc : "interaction" ∈ ds.cols) (hne : ds.rows ≠ [])
    (hnum : ∀ r ∈ ds.rows, ∃ q, r.get "interaction" = .num q) :
    ∃ lo hi lo0, interactionRange ds = .ok (some lo, some hi) ∧ lo = (if lo0 = 1 then 0 else lo0) ∧
      (∃ r ∈ ds.rows, r.get "interaction" = .num lo0) ∧ (∃ r ∈ ds.rows, r.get "interaction" = .num hi) ∧
      ∀ r ∈ ds.rows, ∀ q, r.get "interaction" = .num q → lo0 ≤ q ∧ q ≤ hi := by
  have hnum' : ∀ v ∈ ds.rows.map (·.get "interaction"), ∃ q, v = Val.num q := by
    intro v hv
    obtain ⟨r, hr, rfl⟩ := List.mem_map.1 hv
    exact hnum r hr
  have hne' : ds.rows.map (·.get "interaction") ≠ [] := by simpa using hne
  obtain ⟨hi, h1, h2, h3⟩ := foldNum_max _ hnum' hne'
  obtain ⟨lo, h4, h5, h6⟩ := foldNum_min _ hnum' hne'
  refine ⟨if lo = 1 then 0 else lo, hi, lo, ?_, rfl, ?_, ?_, ?_⟩
  · simp only [interactionRange, Mem.min, Mem.max, hc, if_true, h1, h4, Except.map, Except.ok.injEq,
      Prod.mk.injEq, and_true, Option.some.injEq]
    split <;> rfl
  · obtain ⟨r, hr, e⟩ := List.mem_map.1 h5; exact ⟨r, hr, e⟩
  · obtain ⟨r, hr, e⟩ := List.mem_map.1 h2; exact ⟨r, hr, e⟩
  · intro r hr q hq
    exact ⟨h6 q (List.mem_map.2 ⟨r, hr, hq⟩), h3 q (List.mem_map.2 ⟨r, hr, hq⟩)⟩

/-- **C65** (partial: the smallest value is at most 1 and not the largest one or not above 0; the full
property is for every dataset and fails, see `C65_zero_below` and `C65_constant`).  All training targets,
including the 0 of sampled negatives, are standardised into [0, 1]. -/
theorem C65_targets_partial (ds : Mem) (hc : "interaction" ∈ ds.cols) (hne : ds.rows ≠ [])
    (hnum : ∀ r ∈ ds.rows, ∃ q, r.get "interaction" = .num q) (lo hi : ℚ)
    (h : interactionRange ds = .ok (some lo, some hi)) (hlt : lo < hi) (hlo : lo ≤ 0) (hhi : 0 ≤ hi) :
    (∀ r ∈ ds.rows, ∀ q, r.get "interaction" = .num q →
      ∃ y, standardize lo hi q = .ok y ∧ 0 ≤ y ∧ y ≤ 1 ∧ rescale lo hi y = q) ∧
    ∃ y, standardize lo hi 0 = .ok y ∧ 0 ≤ y ∧ y ≤ 1 ∧ rescale lo hi y = 0 := by
  obtain ⟨lo', hi', lo0, h1, h2, _, _, h3⟩ := range_ok hc hne hnum
  rw [h] at h1
  simp only [Except.ok.injEq, Prod.mk.injEq, Option.some.injEq] at h1
  obtain ⟨rfl, rfl⟩ := h1
  constructor
  · intro r hr q hq
    obtain ⟨y, e1, e2, e3, _⟩ := C65_standardize lo hi q hlt
    have hq2 : lo ≤ q := by
      have := (h3 r hr q hq).1
      rw [h2]
      split <;> linarith
    have := e2.2 ⟨hq2, (h3 r hr q hq).2⟩
    exact ⟨y, e1, this.1, this.2, e3⟩
  · obtain ⟨y, e1, e2, e3, _⟩ := C65_standardize lo hi 0 hlt
    have := e2.2 ⟨hlo, hhi⟩
    exact ⟨y, e1, this.1, this.2, e3⟩

/-- **C65 fails** for every dataset whose smallest value is above 1 and below the largest one: the 0 of
sampled negatives becomes negative. -/
theorem C65_zero_below (ds : Mem) (hc : "interaction" ∈ ds.cols) (hne : ds.rows ≠ [])
    (hnum : ∀ r ∈ ds.rows, ∃ q, r.get "interaction" = .num q)
    (hmin : ∀ r ∈ ds.rows, ∀ q, r.get "interaction" = .num q → 1 < q)
    (hdiff : ∃ r ∈ ds.rows, ∃ r' ∈ ds.rows, r.get "interaction" ≠ r'.get "interaction") :
    ∃ lo hi y, interactionRange ds = .ok (some lo, some hi) ∧ standardize lo hi 0 = .ok y ∧ y < 0 := by
  obtain ⟨lo, hi, lo0, h1, h2, ⟨r0, hr0, e0⟩, _, h3⟩ := range_ok hc hne hnum
  have hlo0 := hmin r0 hr0 lo0 e0
  have hlo : lo = lo0 := by rw [h2, if_neg hlo0.ne']
  subst hlo
  obtain ⟨r, hr, r', hr', hd⟩ := hdiff
  obtain ⟨q, hq⟩ := hnum r hr
  obtain ⟨q', hq'⟩ := hnum r' hr'
  have hlt : lo < hi := by
    rcases lt_or_ge lo hi with h | h
    · exact h
    · have a := h3 r hr q hq
      have b := h3 r' hr' q' hq'
      exact absurd (by rw [hq, hq', show q = q' by linarith]) hd
  have hp : 0 < hi - lo := sub_pos.2 hlt
  refine ⟨lo, hi, (0 - lo) / (hi - lo), h1, by simp [standardize, hp.ne'], ?_⟩
  rw [div_lt_iff₀ hp]
  linarith

/-- **C65 fails** for every dataset with a single interaction value other than 1: division by zero. -/
theorem C65_constant (ds : Mem) (hc : "interaction" ∈ ds.cols) (hne : ds.rows ≠ []) (c : ℚ) (hc1 : c ≠ 1)
    (hall : ∀ r ∈ ds.rows, r.get "interaction" = .num c) :
    ∃ lo hi, interactionRange ds = .ok (some lo, some hi) ∧
      ∀ x, standardize lo hi x = .error .zeroDiv := by
  obtain ⟨lo, hi, lo0, h1, h2, ⟨r0, hr0, e0⟩, ⟨r1, hr1, e1⟩, _⟩ :=
    range_ok hc hne fun r hr => ⟨c, hall r hr⟩
  rw [hall r0 hr0] at e0
  rw [hall r1 hr1] at e1
  cases e0
  cases e1
  rw [if_neg hc1] at h2
  exact ⟨lo, _, h1, fun x => by simp [standardize, h2]⟩

/-! ## C66 -/

theorem zipIdx_mem_lt {l : List ℚ} {p : ℚ × Nat} (h : p ∈ l.zipIdx) : l[p.2]? = some p.1 := by
  rw [List.mem_zipIdx_iff_getElem?] at h
  simpa using h

theorem cdaeItems_subset {ds : Mem} {uid : Nat} {iids keep : List Nat} {novelty : Bool}
    (h : cdaeItems ds uid iids novelty = .ok keep) : keep ⊆ iids := by
  unfold cdaeItems at h
  split at h
  · split at h
    · cases h
    next uds _ =>
      split at h
      · cases hv : uds.valuesOf "iid" with
        | error e => rw [hv] at h; cases h
        | ok vs =>
          rw [hv] at h
          simp only [Except.map, Except.ok.injEq] at h
          subst h
          intro i hi
          simp only [novelIids, List.mem_filter, List.mem_dedup] at hi
          exact hi.1
      · cases hv : iids.mapM fun i => (ownsIid uds i).map fun b => (i, b) with
        | error e => rw [hv] at h; cases h
        | ok l =>
          rw [hv] at h
          simp only [Except.map, Except.ok.injEq] at h
          subst h
          have hfst : l.map (·.1) = iids := by
            rw [mapM_ok_iff] at hv
            have := congrArg (List.map fun o : Except Err (Nat × Bool) => match o with
              | .ok p => some p.1
              | .error _ => none) hv
            simp only [List.map_map] at this
            have e1 : iids.map some = l.map fun p => some p.1 := by
              rw [show (l.map fun p => some p.1) = _ from this.symm]
              apply List.map_congr_left
              intro i hi
              have hmem : (ownsIid uds i).map (fun b => (i, b)) ∈
                  List.map (fun i => (ownsIid uds i).map fun b => (i, b)) iids :=
                List.mem_map.2 ⟨i, hi, rfl⟩
              rw [hv] at hmem
              obtain ⟨p, _, hp⟩ := List.mem_map.1 hmem
              cases ho : ownsIid uds i with
              | error e => rw [ho] at hp; cases hp
              | ok b => simp [ho, Except.map]
            have e2 : iids.map some = (l.map (·.1)).map some := by rw [e1, List.map_map]; rfl
            exact (List.map_injective_iff.2 (Option.some_injective _) e2).symm
          intro i hi
          rw [List.mem_dedup, List.mem_filterMap] at hi
          obtain ⟨p, hp, e⟩ := hi
          rw [← hfst]
          refine List.mem_map.2 ⟨p, hp, ?_⟩
          split at e
          · cases e
          · exact Option.some.inj e
  · cases h
    intro i hi
    exact List.mem_dedup.1 hi

/-- **C66** for CDAE: only given items are ranked, each with its own prediction. -/
theorem C66_cdae (ds : Mem) (preds : Nat → List ℚ) (uid : Nat) (iids : List Nat) (n : Nat) (novelty : Bool)
    (out : List (ℚ × Nat)) (h : cdaeRank ds preds uid iids n novelty = .ok out) :
    ∀ p ∈ out, p.2 ∈ iids ∧ (preds uid)[p.2]? = some p.1 := by
  unfold cdaeRank at h
  cases hk : cdaeItems ds uid iids novelty with
  | error e => rw [hk] at h; cases h
  | ok keep =>
    rw [hk] at h
    simp only [Except.map, Except.ok.injEq] at h
    subst h
    intro p hp
    have := (nlargest_subperm n _).subset hp
    rw [List.mem_filter] at this
    exact ⟨cdaeItems_subset hk (by simpa using this.2), zipIdx_mem_lt this.1⟩

/-- **C66** for CDAE: the score of a ranked item is what `_predict` gives for that user and item. -/
theorem C66_cdae_predicts (ds : Mem) (preds : Nat → List ℚ) (uid : Nat) (iids : List Nat) (n : Nat) (novelty : Bool)
    (out : List (ℚ × Nat)) (h : cdaeRank ds preds uid iids n novelty = .ok out) :
    ∀ p ∈ out, cdaePredict preds (some uid) (some p.2) = .ok (some (.num p.1)) := by
  intro p hp
  simp [cdaePredict, (C66_cdae ds preds uid iids n novelty out h p hp).2]

theorem ownsIid_ok {uds : Mem} (hc : "iid" ∈ uds.cols) (i : Nat) :
    ownsIid uds i = .ok (decide (.num (i : ℚ) ∈ uds.rows.map (·.get "iid"))) := by
  have h := idRows hc (by decide) (.inr rfl) i
  have e : "iid == ".toList ++ cellText (.num (i : ℚ)) =
      "iid".toList ++ " == ".toList ++ cellText (.num (i : ℚ)) := by rfl
  simp only [ownsIid, Mem.exists_, Mem.selectOne, handleColumns, e, h, bind, Except.bind, Except.map,
    Except.ok.injEq, Option.isSome_map]
  rw [Bool.eq_iff_iff, List.isSome_head?, decide_eq_true_iff]
  simp only [rowsWith, List.mem_map]
  constructor
  · intro h
    obtain ⟨r, l, hrl⟩ := List.exists_cons_of_ne_nil h
    have : r ∈ uds.rows.filter fun r => r.get "iid" = .num (i : ℚ) := by rw [hrl]; simp
    exact ⟨r, (List.mem_filter.1 this).1, by simpa using (List.mem_filter.1 this).2⟩
  · rintro ⟨r, hr, e⟩
    have : r ∈ uds.rows.filter fun r => r.get "iid" = .num (i : ℚ) := List.mem_filter.2 ⟨hr, by simpa using e⟩
    exact List.ne_nil_of_mem this

theorem cdaeItems_ok {ds : Mem} (h : IdsOk ds) (uid : Nat) (iids : List Nat) (novelty : Bool) :
    ∃ keep, cdaeItems ds uid iids novelty = .ok keep ∧ keep.Nodup ∧
      ∀ i, i ∈ keep ↔ i ∈ iids ∧
        (novelty = true → .num (i : ℚ) ∉ (rowsWith "uid" uid ds.rows).map (·.get "iid")) := by
  unfold cdaeItems
  cases novelty with
  | false => exact ⟨_, rfl, List.nodup_dedup _, by simp⟩
  | true =>
    simp only [if_true, uidRows_ok h.user.hasCol]
    split
    · refine ⟨_, by simp [Mem.valuesOf, handleColumns, Mem.copy, h.item.hasCol, Except.map]; rfl,
        (List.nodup_dedup _).filter _, ?_⟩
      intro i
      simp
    · have hm := mapM_except_ok (fun i => (ownsIid { ds.copy with rows := rowsWith "uid" uid ds.rows } i).map
        fun b => (i, b)) (fun i => (i, decide (Val.num (i : ℚ) ∈ (rowsWith "uid" uid ds.rows).map (·.get "iid"))))
        iids (by
          intro i _
          rw [ownsIid_ok (by simpa [Mem.copy] using h.item.hasCol)]
          rfl)
      rw [hm]
      refine ⟨_, rfl, List.nodup_dedup _, ?_⟩
      intro i
      simp only [List.mem_dedup, List.mem_filterMap, List.mem_map]
      constructor
      · rintro ⟨p, ⟨j, hj, rfl⟩, e⟩
        simp only [decide_eq_true_eq] at e
        split at e
        · cases e
        next hno => cases e; exact ⟨hj, fun _ => by simpa using hno⟩
      · rintro ⟨hi, hno⟩
        refine ⟨_, ⟨i, hi, rfl⟩, ?_⟩
        rw [if_neg]
        simpa using hno

/-- CDAE's predictions as a scoring function. -/
def Spec.cdaeScore (preds : Nat → List ℚ) : PredictFn ℚ
  | some u, some i => match (preds u)[i]? with
    | some q => .ok (some q)
    | none => .error .outOfRange
  | _, _ => .ok none

/-- **C66**, stronger: CDAE's own `_rank` agrees with the general one on the list without repetitions, so
C51 holds for CDAE too. -/
theorem C66_cdae_is_base_rank (ds : Mem) (h : IdsOk ds) (preds : Nat → List ℚ) (uid : Nat) (iids : List Nat)
    (hin : ∀ i ∈ iids, i < (preds uid).length) (n : Nat) (novelty : Bool) :
    cdaeRank ds preds uid iids n novelty = baseRank ds (Spec.cdaeScore preds) uid iids.dedup n novelty := by
  obtain ⟨keep, hk1, hk2, hk3⟩ := cdaeItems_ok h uid iids novelty
  obtain ⟨cand, hc1, hc2, hc3, hc4⟩ := baseRank_ok h (f := Spec.cdaeScore preds) (uid := uid)
    (iids := iids.dedup) n novelty (by
      intro i hi
      have := hin i (List.mem_dedup.1 hi)
      exact ⟨some (preds uid)[i], by simp [Spec.cdaeScore, this]⟩)
  have hcn : cand.Nodup := by
    cases novelty with
    | true => exact hc1 rfl
    | false => rw [hc2 rfl]; exact List.nodup_dedup _
  rw [hc4]
  unfold cdaeRank
  rw [hk1]
  simp only [Except.map, Except.ok.injEq]
  apply nlargest_perm
  rw [List.perm_ext_iff_of_nodup]
  · intro p
    rw [List.mem_filter, decide_eq_true_eq, hk3, List.mem_zipIdx_iff_getElem?, List.mem_filterMap]
    constructor
    · rintro ⟨h1, h2⟩
      refine ⟨p.2, (hc3 _).2 ⟨List.mem_dedup.2 h2.1, h2.2⟩, scorePair_some.2 ⟨rfl, ?_⟩⟩
      simp [Spec.cdaeScore, h1]
    · rintro ⟨i, hi, e⟩
      obtain ⟨rfl, e2⟩ := scorePair_some.1 e
      obtain ⟨h1, h2⟩ := (hc3 _).1 hi
      refine ⟨?_, List.mem_dedup.1 h1, h2⟩
      have hlt := hin _ (List.mem_dedup.1 h1)
      simp only [Spec.cdaeScore, List.getElem?_eq_getElem hlt, Except.ok.injEq, Option.some.injEq] at e2
      rw [List.getElem?_eq_getElem hlt, e2]
  · apply List.Nodup.filter
    apply List.Nodup.of_map (·.2)
    rw [List.zipIdx_map_snd]
    exact List.nodup_range' ..
  · exact List.Nodup.of_map (·.2) ((filterMap_scorePair_snd _ uid cand).nodup hcn)

/-- **C66** (partial: with novelty; the full property also covers `novelty=False` and fails there, see
`C66_caser_ignores_list`).  Caser ranks only given items, none of them already rated by the user. -/
theorem C66_caser_partial (ds : Mem) (hids : IdsOk ds) (preds : Nat → List ℚ) (uid : Nat) (iids : List Nat)
    (n : Nat) (out : List (ℚ × Nat)) (h : caserRank ds preds uid iids n true = .ok out) :
    ∀ p ∈ out, p.2 ∈ iids ∧ (preds uid)[p.2]? = some p.1 ∧
      ∀ r ∈ ds.rows, r.get "uid" = .num (uid : ℚ) → r.get "iid" ≠ .num (p.2 : ℚ) := by
  simp only [caserRank, ratedIids_ok hids, if_true, Except.ok.injEq] at h
  subst h
  intro p hp
  have := (nlargest_subperm n _).subset hp
  rw [List.mem_filter, decide_eq_true_eq, List.mem_filter, decide_eq_true_eq] at this
  refine ⟨this.2.1, zipIdx_mem_lt this.1, ?_⟩
  intro r hr hu hi
  exact this.2.2 (List.mem_map.2 ⟨r, List.mem_filter.2 ⟨hr, by simpa using hu⟩, hi⟩)

/-- **C66 fails** for Caser with `novelty=False`: the ranking does not depend on the given items at all,
so every item with a prediction comes out when there is room. -/
theorem C66_caser_ignores_list (ds : Mem) (hids : IdsOk ds) (preds : Nat → List ℚ) (uid : Nat)
    (iids iids' : List Nat) (n : Nat) :
    caserRank ds preds uid iids n false = caserRank ds preds uid iids' n false ∧
    ∃ out, caserRank ds preds uid iids n false = .ok out ∧
      ((preds uid).length ≤ n → ∀ i < (preds uid).length, ∃ p ∈ out, p.2 = i) := by
  simp only [caserRank, ratedIids_ok hids, Bool.false_eq_true, if_false, true_and, Except.ok.injEq,
    exists_eq_left']
  intro hn i hi
  refine ⟨((preds uid)[i], i), ?_, rfl⟩
  rw [(nlargest_all n _ (by simpa using hn)).mem_iff, List.mem_zipIdx_iff_getElem?]
  simp [hi]

/-! ## Examples -/

/-- Users 1 and 2, items 10, 20 and 30, with internal ids. -/
def exRec : Mem :=
  (mkMem .int [(.num 1, .num 10, 5), (.num 1, .num 20, 1), (.num 2, .num 10, 3), (.num 2, .num 30, 4)]).assignIds.1

theorem exRec_fresh : Fresh exRec :=
  C15_fresh_after_assign _ (by decide) (by decide) (by decide) (by
    intro r hr
    simp only [mkMem, List.mem_map] at hr
    obtain ⟨p, _, rfl⟩ := hr
    exact ⟨p.1.2.2, by simp [mkRow, Row.get]⟩)

/-- A model with score 7 minus the item's id for items 0 and 1, no value for item 2. -/
def exScore : PredictFn ℚ
  | some _, some i => if i < 2 then .ok (some (7 - i)) else .ok none
  | _, _ => .ok none

example : Fresh exRec ∧ NamesUser exRec (.int 2) 1 (.num 2) ∧ Scores exRec exScore 1 ∧
    Eligible exRec exScore 1 (.num 2) true (some 5) (.num 20) 6 := by
  have hi : exRec.iidToItem 1 = .ok (some (.num 20)) := by decide +kernel
  refine ⟨exRec_fresh, ⟨by decide +kernel, by decide +kernel⟩, ?_, ⟨?_, ⟨1, hi, ?_⟩, ?_, ?_⟩⟩
  · intro i item _
    simp only [exScore]
    split <;> exact ⟨_, rfl⟩
  · have : Val.num 20 ∈ exRec.rows.map (·.get "item") := by decide +kernel
    obtain ⟨r, hr, e⟩ := List.mem_map.1 this
    exact ⟨r, hr, e⟩
  · simp [exScore]; norm_num
  · rintro - ⟨r, hr, e1, e2⟩
    have : ∀ r ∈ exRec.rows, decide (r.get "user" = .num 2 → r.get "item" ≠ .num 20) = true := by
      decide +kernel
    exact of_decide_eq_true (this r hr) e1 e2
  · intro t ht; cases ht; norm_num

example : IdsOk exRec ∧ NamesUser exRec (.int 2) 1 (.num 2) ∧ Scores exRec exScore 1 ∧
    (∀ y ∈ [Lit.int 20, .int 99, .int 20], Readable exRec y) ∧ NamesItem exRec (.int 20) (.num 20) ∧
    exRec.itemToIid (.int 99) = .ok none := by
  refine ⟨exRec_fresh.ids, ⟨by decide +kernel, by decide +kernel⟩, ?_, ?_, ⟨1, by decide +kernel, by decide +kernel⟩,
    by decide +kernel⟩
  · intro i item _
    simp only [exScore]
    split <;> exact ⟨_, rfl⟩
  · intro y hy
    simp only [List.mem_cons, List.not_mem_nil, or_false] at hy
    rcases hy with rfl | rfl | rfl
    · exact ⟨some 1, by decide +kernel⟩
    · exact ⟨none, by decide +kernel⟩
    · exact ⟨some 1, by decide +kernel⟩

example : knownIids exRec true [.int 20, .int 99] = .ok [1] ∧
    (rank exRec (baseRank exRec exScore) (.int 2) [.int 20, .int 99] false true none).toOption.isSome := by
  decide +kernel

example : exRec.dtype "item" = .int ∧ exRec.userToUid (.int 2) = .ok (some 1) ∧
    pyInt "abc".toList = none := by decide +kernel

example : Spec.NoValueWithoutIds exScore ∧ Spec.Predicts exRec exScore (.int 1) (.int 20) 6 := by
  refine ⟨?_, 0, 1, by decide +kernel, by decide +kernel, by simp [exScore]; norm_num⟩
  rintro u i (rfl | rfl) y
  · cases i <;> simp [exScore]
  · cases u <;> simp [exScore]

example : "interaction" ∈ exRec.cols ∧ exRec.rows ≠ [] ∧ interactionRange exRec = .ok (some 0, some 5) :=
  ⟨by decide +kernel, by intro h; exact absurd (congrArg List.length h) (by decide +kernel), by decide +kernel⟩

/-- Interactions 2 and 5. -/
def exHigh : Mem := mkMem .int [(.num 1, .num 10, 2), (.num 1, .num 20, 5)]

example : "interaction" ∈ exHigh.cols ∧
    (∀ r ∈ exHigh.rows, ∃ q, r.get "interaction" = .num q) ∧
    (∀ r ∈ exHigh.rows, ∀ q, r.get "interaction" = .num q → 1 < q) ∧
    ∃ r ∈ exHigh.rows, ∃ r' ∈ exHigh.rows, r.get "interaction" ≠ r'.get "interaction" := by
  refine ⟨by decide, ?_, ?_, ?_⟩
  · intro r hr
    simp only [exHigh, mkMem, List.mem_map] at hr
    obtain ⟨p, _, rfl⟩ := hr
    exact ⟨p.1.2.2, by simp [mkRow, Row.get]⟩
  · intro r hr q hq
    have : ∀ r ∈ exHigh.rows, decide (1 < numCell (r.get "interaction")) = true := by decide +kernel
    have := this r hr
    rw [hq] at this
    exact of_decide_eq_true this
  · exact ⟨_, List.mem_cons_self, _, List.mem_cons_of_mem _ List.mem_cons_self, by decide +kernel⟩

example : ∃ (preds : Nat → List ℚ) (out : List (ℚ × Nat)),
    (cdaeRank exRec preds 1 [1, 2] 2 true).toOption = some out ∧ out = [(2, 1)] ∧
    (caserRank exRec preds 1 [1, 2] 2 true).toOption = some out ∧
    (caserRank exRec preds 1 [1] 1 false).toOption = some [(3, 2)] :=
  ⟨fun _ => [1, 2, 3], [(2, 1)], by decide +kernel, rfl, by decide +kernel, by decide +kernel⟩

end DRec
