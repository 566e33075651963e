import Verif.Lemmas.Gen
import Verif.Spec.Sampler
import Verif.Props.Vectors

/-!
# C67, C68, C71: random records, negative pairs, PointSampler
-/

namespace DRec

open Spec

/-! ## C71 -/

/-- Rows a generator samples from. -/
theorem randomGen_eq {ds : Mem} (h : IdsOk ds) (q : Option (List Char)) (rows : List Row)
    (hq : ds.queryRows q = .ok rows)
    (hsub : rows ⊆ ds.rows) :
    (rows = [] → ds.randomGen q = .error .empty) ∧
    (rows ≠ [] → ∃ m, ds.randomGen q = .ok ⟨m, rows⟩ ∧
      ∀ r ∈ rows, ∃ k : ℕ, r.get "uid" = .num (k : ℚ) ∧ k ≤ m) := by
  unfold Mem.randomGen
  rw [if_pos h.has, hq]
  simp only [Mem.len, List.length_eq_zero_iff]
  constructor
  · intro h0
    split
    · rfl
    · simp
  · intro h0
    have hne : ds.rows ≠ [] := by
      intro e; rw [e] at hsub; exact h0 (List.eq_nil_of_subset_nil hsub)
    obtain ⟨m, h1, _, h3⟩ := maxId_ok "uid" ds.rows hne (fun r hr => (idsOk_isId h r hr).1)
    refine ⟨m, by simp [hne, h0, h1], ?_⟩
    intro r hr
    obtain ⟨k, hk⟩ := (idsOk_isId h r (hsub hr)).1
    exact ⟨k, hk, h3 r (hsub hr) k hk⟩

/-- What the optional query of a generator selects. -/
def Queried (ds : Mem) (q : Option (List Char)) (d : Mem) : Prop :=
  (q = none ∧ d = ds) ∨ ∃ t, q = some t ∧ ds.select t = .ok d

theorem queried_rows {ds d : Mem} {q : Option (List Char)} (h : Queried ds q d) :
    ds.queryRows q = .ok d.rows ∧
      d.rows ⊆ ds.rows := by
  rcases h with ⟨rfl, rfl⟩ | ⟨t, rfl, ht⟩
  · exact ⟨rfl, fun _ h => h⟩
  · rw [Mem.select_iff] at ht
    obtain ⟨hok, rfl⟩ := ht
    exact ⟨Mem.applyQuery_ok ds t hok, List.filter_sublist.subset⟩

/-- **C71.** Whatever the random outcomes, a record yielded by `select_random_generator(q)` is one of
the records of `select(q)` (of the dataset itself without query); each of these can be yielded, at any
point of the random stream; and the call fails exactly when there is none. -/
theorem C71_random_records (ds d : Mem) (h : IdsOk ds) (q : Option (List Char))
    (hd : Queried ds q d) :
    ((∃ e, ds.randomGen q = .error e) ↔ d.rows = []) ∧
    ∀ g, ds.randomGen q = .ok g →
      (∀ draws r rest, g.next draws = some (r, rest) → r ∈ d.rows) ∧
      (∀ r ∈ d.rows, ∀ rest, ∃ draws, g.next (draws ++ rest) = some (r, rest)) := by
  obtain ⟨hq, hsub⟩ := queried_rows hd
  obtain ⟨h1, h2⟩ := randomGen_eq h q d.rows hq hsub
  by_cases h0 : d.rows = []
  · rw [h1 h0]
    exact ⟨⟨fun _ => h0, fun _ => ⟨_, rfl⟩⟩, fun g hg => by cases hg⟩
  · obtain ⟨m, hm, hk⟩ := h2 h0
    rw [hm]
    refine ⟨⟨fun ⟨e, he⟩ => (by cases he), fun e => absurd e h0⟩, ?_⟩
    intro g hg
    cases hg
    refine ⟨fun draws r rest hn => nextRecord_mem hn, ?_⟩
    intro r hr rest
    obtain ⟨k, hk1, hk2⟩ := hk r hr
    obtain ⟨e, he⟩ := nextRecord_reach hr hk1 hk2 rest
    exact ⟨[k, e], he⟩

/-- **C71.** Without internal ids the call is rejected. -/
theorem C71_needs_ids (ds : Mem) (q : Option (List Char)) (h : ds.hasIds = false) :
    ds.randomGen q = .error .noIds := by simp [Mem.randomGen, h]

example : IdsOk exIds ∧ (∃ d, Queried exIds (some "interaction >= 2".toList) d ∧
    d.rows.map (·.rid) = [0, 2]) ∧
    ((exIds.randomGen (some "interaction >= 2".toList)).toOption.map
      fun g => (g.next [1, 5, 0, 1, 7]).map fun p => (p.1.rid, p.2)) = some (some (2, [7])) := by
  refine ⟨exIds_fresh.ids, ?_, by decide +kernel⟩
  have h : ((exIds.select "interaction >= 2".toList).toOption.map fun d => d.rows.map (·.rid)) =
      some [0, 2] := by decide +kernel
  cases hs : exIds.select "interaction >= 2".toList with
  | error e => rw [hs] at h; cases h
  | ok d => rw [hs] at h; exact ⟨d, Or.inr ⟨_, rfl, hs⟩, by simpa [Except.toOption] using h⟩

/-! ## C68 -/

theorem nullGen_eq {ds : Mem} (h : Fresh ds) (hne : ds.rows ≠ []) (t : Option ℚ) :
    ds.nullGen t = .ok ⟨ds.rows, ds.userMap.length - 1, ds.itemMap.length - 1⟩ := by
  unfold Mem.nullGen
  rw [if_pos h.ids.has]
  simp [Mem.len, hne, (fresh_maxUid h hne).1, (fresh_maxIid h hne).1]

/-- **C68** (partial).  Full property: the generator can yield exactly the pairs that are not positive,
for every threshold, in both backends.  Proved for the in-memory dataset: with any threshold it never
yields a positive pair; without threshold it can yield exactly the non-positive pairs, at any point of
the random stream, so it can make progress exactly when there is one.  With a threshold pairs that have
only below-threshold records are missing (`C68_below_threshold_never_yielded`). -/
theorem C68_null_pairs_partial (ds : Mem) (h : Fresh ds) (hne : ds.rows ≠ []) (t : Option ℚ) :
    ∃ g, ds.nullGen t = .ok g ∧
      (∀ draws u i rest, g.next draws = some ((u, i), rest) → NegativePair ds t u i) ∧
      (t = none → ∀ u i, NegativePair ds t u i → ∀ rest,
        ∃ draws, g.next (draws ++ rest) = some ((u, i), rest)) := by
  refine ⟨_, nullGen_eq h hne t, ?_, ?_⟩
  · intro draws u i rest hn
    obtain ⟨h1, h2, h3⟩ := nextNullMem_sound hn
    have hu := (fresh_maxUid h hne).2
    have hi := (fresh_maxIid h hne).2
    simp only at h2 h3
    refine ⟨by omega, by omega, ?_⟩
    rintro ⟨r, hr, hp, _⟩
    have := (pairFound_iff ds.rows u i).2 ⟨r, hr, hp⟩
    rw [this] at h1; cases h1
  · rintro rfl u i ⟨hu, hi, hp⟩ rest
    refine ⟨[u, i], nextNullMem_reach (by simp only; omega) (by simp only; omega) ?_ rest⟩
    rw [← Bool.not_eq_true, pairFound_iff]
    rintro ⟨r, hr, ho⟩
    exact hp ⟨r, hr, ho, by simp [Reaches]⟩

/-- Two users and two items, all four pairs recorded, one of them with a low value. -/
def exFull : Mem := (mkMem .obj [(.str "u", .str "a", 5), (.str "u", .str "b", 4),
  (.str "v", .str "a", 3), (.str "v", .str "b", 1)]).assignIds.1

theorem exFull_fresh : Fresh exFull :=
  C15_fresh_after_assign _ (by decide) (by decide) (by decide) (by
    intro r hr
    simp only [mkMem, List.zipIdx_cons, List.zipIdx_nil, List.map_cons, List.map_nil,
      List.mem_cons, List.not_mem_nil, or_false] at hr
    rcases hr with rfl | rfl | rfl | rfl
    · exact ⟨5, by decide⟩
    · exact ⟨4, by decide⟩
    · exact ⟨3, by decide⟩
    · exact ⟨1, by decide⟩)

theorem exFull_found (u i : Nat) (hu : u ≤ 1) (hi : i ≤ 1) : pairFound exFull.rows u i = true := by
  have h : ∀ u < 2, ∀ i < 2, pairFound exFull.rows u i = true := by decide +kernel
  exact h u (by omega) i (by omega)

/-- **C68 fails** with a threshold (in memory): the pair of user 1 and item 1 is negative for threshold
3, yet for every random stream the generator yields nothing at all (it loops forever). -/
theorem C68_below_threshold_never_yielded : ∃ ds : Mem, Fresh ds ∧ NegativePair ds (some 3) 1 1 ∧
    ∃ g, ds.nullGen (some 3) = .ok g ∧ ∀ draws, g.next draws = none := by
  have hne : exFull.rows ≠ [] := by
    have : exFull.rows.map (·.rid) = [0, 1, 2, 3] := by decide +kernel
    intro e; rw [e] at this; cases this
  refine ⟨exFull, exFull_fresh, ⟨by decide +kernel, by decide +kernel, ?_⟩, _,
    nullGen_eq exFull_fresh hne _, ?_⟩
  · rintro ⟨r, hr, ho, hreach⟩
    have hx : ∀ r ∈ exFull.rows, r.get "uid" = .num 1 ∧ r.get "iid" = .num 1 →
        numCell (r.get "interaction") = 1 := by
      have : exFull.rows.map (fun r => (r.get "uid", r.get "iid", r.get "interaction")) =
          [(.num 0, .num 0, .num 5), (.num 0, .num 1, .num 4), (.num 1, .num 0, .num 3),
           (.num 1, .num 1, .num 1)] := by decide +kernel
      intro r hr hp
      have hm := List.mem_map_of_mem (f := fun r => (r.get "uid", r.get "iid", r.get "interaction")) hr
      rw [this] at hm
      simp only [List.mem_cons, Prod.mk.injEq, List.not_mem_nil, or_false, hp.1, hp.2,
        Val.num.injEq] at hm
      rcases hm with ⟨h1, _⟩ | ⟨h1, _⟩ | ⟨_, h2, _⟩ | ⟨_, _, h3⟩
      · norm_num at h1
      · norm_num at h1
      · norm_num at h2
      · rw [h3]; rfl
    have h1 := hreach 3 rfl
    rw [hx r hr (by simpa [OfPair] using ho)] at h1
    norm_num at h1
  · intro draws
    have e1 : exFull.userMap.length = 2 := by decide +kernel
    have e2 : exFull.itemMap.length = 2 := by decide +kernel
    rw [e1, e2]
    show nextNullMem exFull.rows 1 1 draws = none
    fun_induction nextNullMem exFull.rows 1 1 draws with
    | case1 d e ds hf ih => exact ih
    | case2 d e ds hf => exact absurd (exFull_found _ _ (randint0_le _ _) (randint0_le _ _)) hf
    | case3 => rfl

/-- **C68**, database backend: with at most one record per pair and any threshold, the generator can
yield exactly the non-positive pairs. -/
theorem C68_database_pairs (ds : Mem) (h : Fresh ds) (hne : ds.rows ≠ []) (h1 : OnePerPair ds.rows)
    (t : Option ℚ) (u i : Nat) :
    (∃ draws eds rest, nextNullDb ds.rows t draws eds = some ((u, i), rest)) ↔
      NegativePair ds t u i := by
  have hu := fresh_maxUid h hne
  have hi := fresh_maxIid h hne
  have ids := idsOk_isId h.ids
  -- the records below the threshold
  obtain ⟨neg, hneg⟩ : ∃ neg, neg = negRows ds.rows t :=
    ⟨_, rfl⟩
  have mem_neg : ∀ r, r ∈ neg ↔ r ∈ ds.rows ∧ ¬ Reaches t r := by
    intro r
    cases t with
    | none => simp [hneg, negRows, Reaches]
    | some x =>
      subst hneg
      simp only [negRows, belowThreshold, List.mem_filter, Reaches, Option.mem_def, Option.some.injEq,
        forall_eq']
      refine and_congr_right fun hr => ?_
      obtain ⟨q, hq⟩ := h.numeric r hr
      simp [hq, numCell]
  have hun : nextNullDb ds.rows t = fun draws eds =>
      match maxId "uid" neg with
      | some nu => nextNullMixed ds.rows neg (ds.userMap.length - 1) (ds.itemMap.length - 1) nu draws eds
      | none => (nextNullMem ds.rows (ds.userMap.length - 1) (ds.itemMap.length - 1) draws).map
          fun p => (p.1, p.2, eds) := by
    funext draws eds
    simp only [nextNullDb, ← hneg, hu.1, hi.1]
    cases maxId "uid" neg <;> rfl
  rw [hun]
  have negId : neg ≠ [] → ∃ nu, maxId "uid" neg = some nu ∧
      ∀ r ∈ neg, ∀ k : ℕ, r.get "uid" = .num (k : ℚ) → k ≤ nu := by
    intro hc
    obtain ⟨m, hm, _, hk⟩ := maxId_ok "uid" neg hc (fun r hr => (ids r ((mem_neg r).1 hr).1).1)
    exact ⟨m, hm, hk⟩
  have free : pairFound ds.rows u i = false → u ≤ ds.userMap.length - 1 → i ≤ ds.itemMap.length - 1 →
      NegativePair ds t u i := by
    intro h1 h2 h3
    refine ⟨by omega, by omega, ?_⟩
    rintro ⟨r, hr, hp, _⟩
    rw [(pairFound_iff ds.rows u i).2 ⟨r, hr, hp⟩] at h1; cases h1
  constructor
  · rintro ⟨draws, eds, rest, hn⟩
    simp only at hn
    split at hn
    · rename_i nu _
      rcases nextNullMixed_sound (fun r hr => ids r ((mem_neg r).1 hr).1) hn with ⟨a, b, c⟩ | ⟨r, hr, a, b⟩
      · exact free a b c
      · obtain ⟨hr1, hr2⟩ := (mem_neg r).1 hr
        have c1 := h.ids.user.code r hr1
        have c2 := h.ids.item.code r hr1
        rw [a] at c1; rw [b] at c2
        simp only [Val.num.injEq, Nat.cast_inj] at c1 c2
        refine ⟨by rw [c1.2]; exact List.idxOf_lt_length_iff.2 c1.1,
          by rw [c2.2]; exact List.idxOf_lt_length_iff.2 c2.1, ?_⟩
        rintro ⟨r', hr', ho, hre⟩
        rw [← h1 r hr1 r' hr' u i ⟨a, b⟩ ho] at hre
        exact hr2 hre
    · simp only [Option.map_eq_some_iff] at hn
      obtain ⟨⟨p, ds'⟩, hn, he⟩ := hn
      simp only [Prod.mk.injEq] at he
      obtain ⟨rfl, _⟩ := he
      obtain ⟨a, b, c⟩ := nextNullMem_sound hn
      exact free a b c
  · rintro ⟨hlu, hli, hp⟩
    by_cases hf : pairFound ds.rows u i = true
    · obtain ⟨r, hr, ho⟩ := (pairFound_iff ds.rows u i).1 hf
      have hrn : r ∈ neg := (mem_neg r).2 ⟨hr, fun hre => hp ⟨r, hr, ho, hre⟩⟩
      obtain ⟨nu, hnu, hk⟩ := negId (List.ne_nil_of_mem hrn)
      obtain ⟨e, he⟩ := nextRecord_reach hrn ho.1 (hk r hrn u ho.1) []
      refine ⟨[(ds.userMap.length - 1) * (ds.itemMap.length - 1) + neg.length], [u, e], ([], []), ?_⟩
      simp only [hnu, nextNullMixed]
      rw [randint0_of_le (Nat.le_refl _), if_pos (by omega), he]
      simp only [ho.1, ho.2, toNat?_num]
    · have hf' : pairFound ds.rows u i = false := by simpa using hf
      cases hnu : maxId "uid" neg with
      | none =>
        exact ⟨[u, i], [], ([], []), by
          simp only [nextNullMem_reach (show u ≤ ds.userMap.length - 1 by omega)
            (show i ≤ ds.itemMap.length - 1 by omega) hf' [], Option.map_some]⟩
      | some nu =>
        have huser : ds.userMap.length - 1 ≠ 0 := by
          intro h0
          obtain ⟨r, hr, he⟩ := h.items ds.itemMap[i] (List.getElem_mem _)
          have c1 := h.ids.user.code r hr
          have c2 := h.ids.item.code r hr
          rw [he, List.Nodup.idxOf_getElem h.ids.item.nodup] at c2
          have hlt := List.idxOf_lt_length_iff.2 c1.1
          have hz : List.idxOf (r.get "user") ds.userMap = u := by omega
          rw [hz] at c1
          exact hf ((pairFound_iff _ _ _).2 ⟨r, hr, c1.2, c2.2⟩)
        have hitem : ds.itemMap.length - 1 ≠ 0 := by
          intro h0
          obtain ⟨r, hr, he⟩ := h.users ds.userMap[u] (List.getElem_mem _)
          have c1 := h.ids.user.code r hr
          have c2 := h.ids.item.code r hr
          rw [he, List.Nodup.idxOf_getElem h.ids.user.nodup] at c1
          have hlt := List.idxOf_lt_length_iff.2 c2.1
          have hz : List.idxOf (r.get "item") ds.itemMap = i := by omega
          rw [hz] at c2
          exact hf ((pairFound_iff _ _ _).2 ⟨r, hr, c1.2, c2.2⟩)
        have hpos : 0 < (ds.userMap.length - 1) * (ds.itemMap.length - 1) :=
          Nat.mul_pos (by omega) (by omega)
        refine ⟨[0, u, i], [], ([], []), ?_⟩
        simp only [nextNullMixed]
        rw [randint0_of_le (Nat.zero_le _), if_neg (by omega),
          randint0_of_le (show u ≤ _ by omega), randint0_of_le (show i ≤ _ by omega), hf']
        rfl

/-- Two users and two items where one pair has a high and a low record. -/
def exTwice : Mem := (mkMem .obj [(.str "u", .str "a", 5), (.str "u", .str "a", 1),
  (.str "v", .str "b", 4)]).assignIds.1

/-- **C68 fails** on the database backend when a pair has several records: user 0 and item 0 have a
record reaching the threshold, yet the pair is yielded as a negative one. -/
theorem C68_database_yields_positive_pair : ∃ ds : Mem, IdsOk ds ∧ PositivePair ds.rows (some 3) 0 0 ∧
    ∃ draws eds rest, nextNullDb ds.rows (some 3) draws eds = some ((0, 0), rest) := by
  refine ⟨exTwice, (C15_fresh_after_assign _ (by decide) (by decide) (by decide) (by
    intro r hr
    simp only [mkMem, List.zipIdx_cons, List.zipIdx_nil, List.map_cons, List.map_nil,
      List.mem_cons, List.not_mem_nil, or_false] at hr
    rcases hr with rfl | rfl | rfl
    · exact ⟨5, by decide⟩
    · exact ⟨1, by decide⟩
    · exact ⟨4, by decide⟩)).ids, ?_, [1], [0, 0], ([], []), by decide +kernel⟩
  have h : ∃ r ∈ exTwice.rows, r.get "uid" = .num 0 ∧ r.get "iid" = .num 0 ∧
      3 ≤ numCell (r.get "interaction") := by decide +kernel
  obtain ⟨r, hr, h1, h2, h3⟩ := h
  exact ⟨r, hr, ⟨by simpa using h1, by simpa using h2⟩, fun x hx => by
    simp only [Option.mem_def, Option.some.injEq] at hx; subst hx; exact h3⟩

theorem onePerPair_of_nodup {rows : List Row}
    (h : (rows.map fun r => (r.get "uid", r.get "iid")).Nodup) : OnePerPair rows := by
  intro r hr r' hr' u i ho ho'
  exact List.inj_on_of_nodup_map h hr hr' (by rw [ho.1, ho.2, ho'.1, ho'.2])

theorem exIds_onePerPair : OnePerPair exIds.rows := onePerPair_of_nodup (by decide +kernel)

theorem exIds_ne : exIds.rows ≠ [] := by
  intro e
  have h : exIds.rows.length = 3 := by decide +kernel
  rw [e] at h; cases h

example : Fresh exIds ∧ exIds.rows ≠ [] ∧ OnePerPair exIds.rows ∧ NegativePair exIds (some 2) 1 1 ∧
    (∃ r ∈ exIds.rows, OfPair r 1 1) ∧ NegativePair exIds none 1 0 := by
  refine ⟨exIds_fresh, exIds_ne, exIds_onePerPair, ⟨by decide +kernel, by decide +kernel, ?_⟩,
    by unfold OfPair; decide +kernel, ⟨by decide +kernel, by decide +kernel, ?_⟩⟩
  · have h : ∀ r ∈ exIds.rows, r.get "uid" = .num ((1 : ℕ) : ℚ) ∧ r.get "iid" = .num ((1 : ℕ) : ℚ) →
        ¬ (2 : ℚ) ≤ numCell (r.get "interaction") := by decide +kernel
    rintro ⟨r, hr, ho, hre⟩
    exact h r hr ho (hre 2 rfl)
  · have h : ∀ r ∈ exIds.rows, ¬ (r.get "uid" = .num ((1 : ℕ) : ℚ) ∧ r.get "iid" = .num ((0 : ℕ) : ℚ)) := by
      decide +kernel
    rintro ⟨r, hr, ho, _⟩
    exact h r hr ho

/-! ## C67 -/

theorem pointSample_all {σ τ : Type} {pos : σ → Option (Row × σ)} {neg : τ → Option ((Nat × Nat) × τ)}
    {P : Row → Prop} {N : Nat → Nat → Prop}
    (hp : ∀ s r s', pos s = some (r, s') → P r) (hn : ∀ s u i s', neg s = some ((u, i), s') → N u i)
    (n : Nat) (xs : List ℚ) (s : σ) (t : τ) (l : List Triple) (h : pointSample pos neg n xs s t = some l) :
    l.length = n ∧ ∀ x ∈ l,
      (x.negative = false ∧ ∃ r, P r ∧ x.uid = r.get "uid" ∧ x.iid = r.get "iid" ∧
        x.value = r.get "interaction") ∨
      (x.negative = true ∧ x.value = .num 0 ∧ ∃ u i : ℕ, x.uid = .num u ∧ x.iid = .num i ∧ N u i) := by
  induction n generalizing xs s t l with
  | zero => simp only [pointSample, Option.some.injEq] at h; subst h; simp
  | succ n ih =>
    cases xs with
    | nil => simp [pointSample] at h
    | cons x xs =>
      unfold pointSample at h
      split at h
      · split at h
        · cases h
        · rename_i u i ns' hneg
          simp only [Option.map_eq_some_iff] at h
          obtain ⟨l', h', rfl⟩ := h
          obtain ⟨h1, h2⟩ := ih xs s ns' l' h'
          refine ⟨by simp [h1], ?_⟩
          intro y hy
          rcases List.mem_cons.1 hy with rfl | hy
          · exact Or.inr ⟨rfl, rfl, u, i, rfl, rfl, hn _ _ _ _ hneg⟩
          · exact h2 y hy
      · split at h
        · cases h
        · rename_i r ps' hpos
          simp only [Option.map_eq_some_iff] at h
          obtain ⟨l', h', rfl⟩ := h
          obtain ⟨h1, h2⟩ := ih xs ps' t l' h'
          refine ⟨by simp [h1], ?_⟩
          intro y hy
          rcases List.mem_cons.1 hy with rfl | hy
          · exact Or.inl ⟨rfl, r, hp _ _ _ hpos, rfl, rfl, rfl⟩
          · exact h2 y hy

/-- What a sampled triple must be: a record of the dataset reaching the threshold with its own value,
or a pair of known ids that is not positive, with value 0. -/
def TripleOk (ds : Mem) (t : Option ℚ) (x : Triple) : Prop :=
  (x.negative = false ∧ ∃ r, (r ∈ ds.rows ∧ Reaches t r) ∧ x.uid = r.get "uid" ∧ x.iid = r.get "iid" ∧
    x.value = r.get "interaction") ∨
  (x.negative = true ∧ x.value = .num 0 ∧
    ∃ u i : ℕ, x.uid = .num u ∧ x.iid = .num i ∧ NegativePair ds t u i)

/-- Digits are digits, and a float has at least one after the point. -/
def Spec.PrintedNum : PyNum → Prop
  | .int _ => True
  | .dec _ _ f => f ≠ [] ∧ ∀ d ∈ f, d < 10

/-- The query of a threshold reads back as its value. -/
theorem pyNum_lit (t : PyNum) (ht : PrintedNum t) :
    ∃ l : SLit, l.text = t.text ∧ l.value = .num t.value ∧ l.Writable ∧ l.isStr = false := by
  cases t with
  | int n => exact ⟨.int n, rfl, rfl, trivial, rfl⟩
  | dec neg w f =>
    refine ⟨.dec neg w f, rfl, ?_, ht, rfl⟩
    have : f.foldr (fun (d : ℕ) (x : ℚ) => ((d : ℚ) + x) / 10) 0 = fracVal f := by
      clear ht
      induction f with
      | nil => rfl
      | cons d f ih => simp only [List.foldr_cons, ih, fracVal]
    simp only [SLit.value, PyNum.value, this]

/-- The records the positive query selects are those reaching the threshold. -/
theorem positiveQuery_rows (ds : Mem) (h : Fresh ds) (t : Option PyNum) (ht : ∀ x ∈ t, PrintedNum x) :
    ∃ d, Queried ds (positiveQuery t) d ∧
      ∀ r, r ∈ d.rows ↔ r ∈ ds.rows ∧ Reaches (t.map PyNum.value) r := by
  cases t with
  | none => exact ⟨ds, Or.inl ⟨rfl, rfl⟩, fun r => by simp [Reaches]⟩
  | some t =>
    obtain ⟨l, l1, l2, l3, l4⟩ := pyNum_lit t (ht t rfl)
    obtain ⟨⟨d, hd, hr, _⟩, _⟩ := C01_select_exact ds [([], ⟨"interaction", .ge, l⟩, [])]
      ⟨by simp, by
        intro w hw
        simp only [List.mem_singleton] at hw
        subst hw
        exact ⟨by simp [Blank], by simp [Blank], (by decide : NameOk "interaction"), l3⟩⟩
      (by
        intro w hw
        simp only [List.mem_singleton] at hw
        subst hw
        exact ⟨h.hasInter, by simp [Fits, l4], by simp [Direct]⟩)
      (by
        intro w hw r hr
        simp only [List.mem_singleton] at hw
        subst hw
        obtain ⟨q, hq⟩ := h.numeric r hr
        simp [hq, Comparable, l2, SameKind])
    refine ⟨d, Or.inr ⟨_, rfl, ?_⟩, ?_⟩
    · rw [← hd]
      congr 1
      simp only [queryText, SCond.text, l1, List.nil_append, List.append_nil]
      rfl
    · intro r
      rw [hr, List.mem_filter]
      refine and_congr_right fun hmem => ?_
      obtain ⟨q, hq⟩ := h.numeric r hmem
      simp [Sat, Holds, Less, SameKind, l2, hq, Reaches, numCell]

/-- **C67** (partial: the database backend only for datasets with one record per pair,
`C67_database_sampler_partial`).  Over an in-memory dataset, for every threshold and every random
outcome, `sample(n)` returns `n` triples that are what they should be. -/
theorem C67_point_sampler_partial (ds : Mem) (h : Fresh ds) (hne : ds.rows ≠ []) (t : Option PyNum)
    (ht : ∀ x ∈ t, PrintedNum x) (pos : RecGen) (neg : NullGen) (hs : ds.pointSampler t = .ok (pos, neg))
    (n : Nat) (choices : List ℚ) (ps ns : List Nat) (l : List Triple)
    (hl : pointSample pos.next neg.next n choices ps ns = some l) :
    l.length = n ∧ ∀ x ∈ l, TripleOk ds (t.map PyNum.value) x := by
  obtain ⟨d, hd, hrows⟩ := positiveQuery_rows ds h t ht
  obtain ⟨g, hg, hg1, _⟩ := C68_null_pairs_partial ds h hne (t.map PyNum.value)
  obtain ⟨_, hpos⟩ := C71_random_records ds d h.ids _ hd
  unfold Mem.pointSampler at hs
  rw [hg] at hs
  simp only at hs
  split at hs
  · cases hs
  · rename_i pos' hp'
    simp only [Except.ok.injEq, Prod.mk.injEq] at hs
    obtain ⟨rfl, rfl⟩ := hs
    exact pointSample_all (P := fun r => r ∈ ds.rows ∧ Reaches (t.map PyNum.value) r)
      (fun s r s' e => (hrows r).1 ((hpos _ hp').1 s r s' e)) hg1 n choices ps ns l hl

/-- **C67.** The sampler can be built whenever a record reaches the threshold. -/
theorem C67_sampler_starts (ds : Mem) (h : Fresh ds) (t : Option PyNum)
    (ht : ∀ x ∈ t, PrintedNum x) (r : Row) (hr : r ∈ ds.rows) (hre : Reaches (t.map PyNum.value) r) :
    ∃ g, ds.pointSampler t = .ok g := by
  obtain ⟨d, hd, hrows⟩ := positiveQuery_rows ds h t ht
  have hne : d.rows ≠ [] := List.ne_nil_of_mem ((hrows r).2 ⟨hr, hre⟩)
  obtain ⟨g, hg, _⟩ := C68_null_pairs_partial ds h (List.ne_nil_of_mem hr) (t.map PyNum.value)
  obtain ⟨hpos, _⟩ := C71_random_records ds d h.ids _ hd
  unfold Mem.pointSampler
  rw [hg]
  cases hc : ds.randomGen (positiveQuery t) with
  | error e => exact absurd (hpos.1 ⟨e, hc⟩) hne
  | ok p => exact ⟨_, rfl⟩

/-- **C67**, database backend (partial: full property is without `OnePerPair`, which fails by
`C68_database_yields_positive_pair`). -/
theorem C67_database_sampler_partial (ds : Mem) (h : Fresh ds) (hne : ds.rows ≠ [])
    (h1 : OnePerPair ds.rows) (t : Option ℚ) (n : Nat) (choices : List ℚ) (ps : List Nat)
    (ns : List Nat × List Nat) (l : List Triple)
    (hl : pointSample (nextPositiveDb ds.rows t) (fun s => nextNullDb ds.rows t s.1 s.2)
      n choices ps ns = some l) :
    l.length = n ∧ ∀ x ∈ l, TripleOk ds t x := by
  refine pointSample_all (P := fun r => r ∈ ds.rows ∧ Reaches t r) ?_ ?_ n choices ps ns l hl
  · intro s r s' e
    unfold nextPositiveDb at e
    simp only at e
    split at e
    · cases e
    · have hm := nextRecord_mem e
      cases t with
      | none => exact ⟨hm, by simp [Reaches]⟩
      | some x =>
        simp only [List.mem_filter] at hm
        obtain ⟨q, hq⟩ := h.numeric r hm.1
        refine ⟨hm.1, ?_⟩
        have := hm.2
        rw [hq] at this
        simpa [Reaches, hq, numCell] using this
  · intro s u i s' e
    exact (C68_database_pairs ds h hne h1 t u i).1 ⟨s.1, s.2, s', e⟩

/-- Two positive draws and a negative one on a concrete dataset; with the default threshold 0.001. -/
example : Fresh exIds ∧ ((exIds.pointSampler (some (.int 2))).toOption.bind fun g =>
    pointSample g.1.next g.2.next 3 [1/2, 2, 1] [0, 1, 0, 0] [0, 0, 1, 0]) =
    some [⟨.num 0, .num 2, .num 5, false⟩, ⟨.num 1, .num 0, .num 0, true⟩,
      ⟨.num 0, .num 0, .num 3, false⟩] ∧
    PrintedNum (.dec false 0 [0, 0, 1]) ∧ (PyNum.dec false 0 [0, 0, 1]).text = "0.001".toList ∧
    (PyNum.dec false 0 [0, 0, 1]).value = 1 / 1000 ∧
    ((exIds.pointSampler (some (.dec false 0 [0, 0, 1]))).toOption.map fun g => g.1.rows.map (·.rid)) =
      some [0, 1, 2] :=
  ⟨exIds_fresh, by decide +kernel, ⟨by decide, by decide⟩, by decide, by decide +kernel, by decide +kernel⟩

end DRec
