import Verif.Props.Training
import Verif.Props.RowOrder
import Verif.Props.Loss
import Verif.Props.Cdae

/-!
# C143 on datasets: the order of the records does not matter to the networks
-/

namespace DRec.Trn

open DRec.Spec DRec.Opt

/-- Renumbering of everything, beyond the known numbers by the identity. -/
def recodeAll (m m' : List Val) (i : Nat) : Nat := if i < m.length then recode m m' i else i

theorem recodeAll_renumbers {m m' : List Val} (hm : ∀ v, v ∈ m' ↔ v ∈ m) (hn : m.Nodup) (hl : m'.length = m.length) :
    Renumbers (recodeAll m m') m.length := by
  have lt : ∀ i, i < m.length → recode m m' i < m.length := by
    intro i hi
    unfold recode
    rw [List.getD_eq_getElem?_getD, List.getElem?_eq_getElem hi, Option.getD_some, ← hl]
    exact List.idxOf_lt_length_of_mem ((hm _).2 (List.getElem_mem hi))
  constructor
  · intro i j e
    unfold recodeAll at e
    by_cases hi : i < m.length <;> by_cases hj : j < m.length
    · rw [if_pos hi, if_pos hj] at e
      exact recode_inj hm hi hj hn e
    · rw [if_pos hi, if_neg hj] at e
      have := lt i hi
      omega
    · rw [if_neg hi, if_pos hj] at e
      have := lt j hj
      omega
    · rwa [if_neg hi, if_neg hj] at e
  · intro i
    unfold recodeAll
    by_cases hi : i < m.length
    · rw [if_pos hi]; exact ⟨fun _ => hi, fun _ => lt i hi⟩
    · rw [if_neg hi]

theorem recodeAll_idxOf {m : List Val} (m' : List Val) {v : Val} (h : v ∈ m) : recodeAll m m' (m.idxOf v) = m'.idxOf v := by
  unfold recodeAll
  rw [if_pos (List.idxOf_lt_length_of_mem h), recode_idxOf m' h]

/-- The total of a pair from the raw ids. -/
theorem pairTotal_raw {ds : Mem} (h : Fresh ds) (u i : Nat) : pairTotal ds.rows u i =
    (((ds.rows.map rawTriple).filter fun t => ds.userMap.idxOf t.1 = u ∧ ds.itemMap.idxOf t.2.1 = i).map fun t => numCell t.2.2).sum := by
  unfold pairTotal
  rw [List.filter_map, List.map_map]
  refine congrArg List.sum ?_
  have : (ds.rows.filter fun r => r.get "uid" = .num (u : ℚ) ∧ r.get "iid" = .num (i : ℚ)) =
      ds.rows.filter ((fun t : Val × Val × Val => decide (ds.userMap.idxOf t.1 = u ∧ ds.itemMap.idxOf t.2.1 = i)) ∘ rawTriple) := by
    refine List.filter_congr fun r hr => ?_
    simp only [Function.comp_apply, rawTriple, (h.ids.user.code r hr).2, (h.ids.item.code r hr).2, Val.num.injEq, Nat.cast_inj]
    rfl
  rw [this]
  rfl

theorem pairTotal_same {ds ds' : Mem} (h : Fresh ds) (h' : Fresh ds') (hs : Spec.SameRecords ds ds') (u i : Nat) :
    pairTotal ds'.rows (recodeAll ds.userMap ds'.userMap u) (recodeAll ds.itemMap ds'.itemMap i) = pairTotal ds.rows u i := by
  rw [pairTotal_raw h, pairTotal_raw h', ((hs.perm.filter _).map _).sum_eq]
  refine congrArg List.sum (congrArg _ (List.filter_congr fun t ht => ?_))
  obtain ⟨h1, h2⟩ := mem_users h ht
  have len : ∀ {m m' : List Val}, (∀ v, v ∈ m' ↔ v ∈ m) → m.Nodup → m'.Nodup → m'.length = m.length := fun hm hn hn' =>
    ((List.perm_ext_iff_of_nodup hn' hn).2 hm).length_eq
  have ru := recodeAll_renumbers (fun v => (same_users h h' hs v).1) h.ids.user.nodup
    (len (fun v => (same_users h h' hs v).1) h.ids.user.nodup h'.ids.user.nodup)
  have ri := recodeAll_renumbers (fun v => (same_users h h' hs v).2) h.ids.item.nodup
    (len (fun v => (same_users h h' hs v).2) h.ids.item.nodup h'.ids.item.nodup)
  rw [← recodeAll_idxOf ds'.userMap h1, ← recodeAll_idxOf ds'.itemMap h2]
  simp only [ru.inj.eq_iff, ri.inj.eq_iff]

section records

variable {ds ds' : Mem} (h : Fresh ds) (h' : Fresh ds') (hs : Spec.SameRecords ds ds')

include h h' hs

theorem records_len : ds'.userMap.length = ds.userMap.length ∧ ds'.itemMap.length = ds.itemMap.length := by
  have len : ∀ {m m' : List Val}, (∀ v, v ∈ m' ↔ v ∈ m) → m.Nodup → m'.Nodup → m'.length = m.length := fun hm hn hn' =>
    ((List.perm_ext_iff_of_nodup hn' hn).2 hm).length_eq
  exact ⟨len (fun v => (same_users h h' hs v).1) h.ids.user.nodup h'.ids.user.nodup,
    len (fun v => (same_users h h' hs v).2) h.ids.item.nodup h'.ids.item.nodup⟩

theorem records_ids : (∀ x, ds'.userToUid x = (ds.userToUid x).map (Option.map (recodeAll ds.userMap ds'.userMap))) ∧
    ∀ x, ds'.itemToIid x = (ds.itemToIid x).map (Option.map (recodeAll ds.itemMap ds'.itemMap)) := by
  constructor <;> intro x
  · rw [userToUid_same h h' hs]
    cases e : ds.userToUid x with
    | error z => rfl
    | ok o =>
      cases o with
      | none => rfl
      | some u =>
        have := known_lt h (known_of_uid h e)
        simp only [Except.map, Option.map_some, recodeAll, if_pos (show u < ds.userMap.length from this)]
  · rw [itemToIid_same h h' hs]
    cases e : ds.itemToIid x with
    | error z => rfl
    | ok o =>
      cases o with
      | none => rfl
      | some u =>
        have := known_lt h (known_of_iid h e)
        simp only [Except.map, Option.map_some, recodeAll, if_pos (show u < ds.itemMap.length from this)]

theorem records_renumber : Renumbers (recodeAll ds.itemMap ds'.itemMap) ds.itemMap.length ∧
    Renumbers (recodeAll ds.userMap ds'.userMap) ds.userMap.length :=
  ⟨recodeAll_renumbers (fun v => (same_users h h' hs v).2) h.ids.item.nodup (records_len h h' hs).2,
    recodeAll_renumbers (fun v => (same_users h h' hs v).1) h.ids.user.nodup (records_len h h' hs).1⟩

theorem records_user (u : Nat) : Permuted (recodeAll ds.itemMap ds'.itemMap) (vecSpec ds (.user u))
    (vecSpec ds' (.user (recodeAll ds.userMap ds'.userMap u))) := by
  unfold vecSpec
  rw [(records_len h h' hs).2]
  exact permuted_range (records_renumber h h' hs).1 _ _ fun i _ => pairTotal_same h h' hs u i

theorem records_item (i : Nat) : Permuted (recodeAll ds.userMap ds'.userMap) (vecSpec ds (.item i))
    (vecSpec ds' (.item (recodeAll ds.itemMap ds'.itemMap i))) := by
  unfold vecSpec
  rw [(records_len h h' hs).1]
  exact permuted_range (records_renumber h h' hs).2 _ _ fun u _ => pairTotal_same h h' hs u i

end records

/-- **C143.** The records in another order only renumber users and items: every sequence of requests for interaction vectors gets the
renumbered vectors. -/
theorem C143_data {ds ds' : Mem} (h : Fresh ds) (h' : Fresh ds') (hs : Spec.SameRecords ds ds') (hc : ds.cache = none) (hc' : ds'.cache = none) :
    ∃ σ τ, Renumbers σ ds.itemMap.length ∧ Renumbers τ ds.userMap.length ∧ ds'.itemMap.length = ds.itemMap.length ∧
      ds'.userMap.length = ds.userMap.length ∧
      (∀ x, ds'.userToUid x = (ds.userToUid x).map (Option.map τ)) ∧ (∀ x, ds'.itemToIid x = (ds.itemToIid x).map (Option.map σ)) ∧
      ∀ qs : List VecReq, (∀ q ∈ qs, q.Known ds) → (2 ≤ ds.userMap.length ∨ ∀ q ∈ qs, ∃ u, q = .user u) →
        List.Forall₂ (fun q p => ∃ v v', p = (.ok v, .ok v') ∧ match q with | .user _ => Permuted σ v v' | .item _ => Permuted τ v v') qs
          ((serveAll ds qs).2.zip (serveAll ds' (qs.map (VecReq.renumber σ τ))).2) := by
  obtain ⟨lu, li⟩ := records_len h h' hs
  obtain ⟨ri, ru⟩ := records_renumber h h' hs
  refine ⟨recodeAll ds.itemMap ds'.itemMap, recodeAll ds.userMap ds'.userMap, ri, ru, li, lu, (records_ids h h' hs).1, (records_ids h h' hs).2,
    fun qs hq hu => ?_⟩
  · rw [C15_vectors_partial ds h hc qs hq hu, C15_vectors_partial ds' h' hc' _ (by
      intro q hq'
      obtain ⟨q0, h0, rfl⟩ := List.mem_map.1 hq'
      have := hq q0 h0
      cases q0 with
      | user u => exact lt_of_lt_of_eq ((ru.lt u).2 this) lu.symm
      | item i => exact lt_of_lt_of_eq ((ri.lt i).2 this) li.symm) (by
      rw [lu]
      refine hu.imp id fun hu q hq' => ?_
      obtain ⟨q0, h0, rfl⟩ := List.mem_map.1 hq'
      obtain ⟨u, rfl⟩ := hu q0 h0
      exact ⟨_, rfl⟩)]
    clear hu
    induction qs with
    | nil => exact .nil
    | cons q qs ih =>
      refine .cons ⟨_, _, rfl, ?_⟩ (ih fun q hq' => hq q (by simp [hq']))
      cases q with
      | user u => exact records_user h h' hs u
      | item i => exact records_item h h' hs i

theorem sampleBatch_spec (m : Dmf) (lo hi : ℚ) {ds : Mem} (h : Fresh ds) (hc : ds.cache = none) (h2 : 2 ≤ ds.userMap.length)
    (samples : List (Nat × Nat × ℚ)) (hk : ∀ s ∈ samples, s.1 < ds.userMap.length ∧ s.2.1 < ds.itemMap.length) :
    (m.sampleBatch lo hi ds samples).2 = (samples.mapM fun s => m.target lo hi s.2.2).map fun wanted =>
      ⟨samples.map fun s => vecSpec ds (.user s.1), samples.map fun s => vecSpec ds (.item s.2.1), wanted⟩ := by
  obtain ⟨a1, a2, a3, a4, a5, a6⟩ := userVecs_ok ds h (Or.inl hc) (samples.map (·.1)) (by
    intro u hu
    obtain ⟨s, hs', rfl⟩ := List.mem_map.1 hu
    exact (hk s hs').1)
  have b1 := itemVecs_ok (userVecs ds (samples.map (·.1))).1 a2 a3 (by rw [a5]; exact h2) (samples.map (·.2.1)) (by
    intro u hu
    obtain ⟨s, hs', rfl⟩ := List.mem_map.1 hu
    rw [a6]; exact (hk s hs').2)
  have hB : ∀ q, vecSpec (userVecs ds (samples.map (·.1))).1 q = vecSpec ds q := vecSpec_congr a4 a5 a6
  simp only [hB] at b1
  unfold Dmf.sampleBatch
  cases samples.mapM fun s => m.target lo hi s.2.2 with
  | error z => rfl
  | ok wanted =>
    cases hv : userVecs ds (samples.map (·.1)) with
    | mk d' r =>
      rw [hv] at a1 b1
      cases a1
      simp only at b1 ⊢
      cases hw : itemVecs d' (samples.map (·.2.1)) with
      | mk d'' r' =>
        rw [hw] at b1
        cases b1
        simp only [List.map_map, Function.comp_def, Except.map]

theorem vectors_spec {ds : Mem} (h : Fresh ds) (hc : ds.cache = none) (h2 : 2 ≤ ds.userMap.length) {u i : Nat} (hu : u < ds.userMap.length)
    (hi : i < ds.itemMap.length) : (Dmf.vectors ds u i).2 = .ok (vecSpec ds (.user u), vecSpec ds (.item i)) := by
  obtain ⟨x, y, e, rfl, rfl, _⟩ := C83_inputs_partial ds h hc h2 [] (by simp) u i hu hi
  exact e

/-- **C143** for DMF and records in another order: there are renumberings that turn the internal ids of the one dataset into those of the
other.  When the sampler draws the same users and items, and the first weights are the renumbered ones, the fits of both datasets raise
the same error or predict the same from the vectors of the same user and the same item. -/
theorem C143_dmf_records {ds ds' : Mem} (h : Fresh ds) (h' : Fresh ds') (hr : Spec.SameRecords ds ds') (hc : ds.cache = none)
    (hc' : ds'.cache = none) (h2 : 2 ≤ ds.userMap.length) :
    ∃ σ τ, (∀ x, ds'.userToUid x = (ds.userToUid x).map (Option.map τ)) ∧ (∀ x, ds'.itemToIid x = (ds.itemToIid x).map (Option.map σ)) ∧
      ∀ (m : Dmf) (lo hi : ℚ) (samples : Nat → List (Nat × Nat × ℚ)) (batch : Nat → DmfBatch),
        (∀ e, ∀ s ∈ samples e, s.1 < ds.userMap.length ∧ s.2.1 < ds.itemMap.length) →
        (∀ e, (m.sampleBatch lo hi ds (samples e)).2 = .ok (batch e)) →
        ∃ batch' : Nat → DmfBatch, (∀ e, (m.sampleBatch lo hi ds' ((samples e).map (renumberSample σ τ))).2 = .ok (batch' e)) ∧
          ∀ {S : Type} (R : Algo S) (norm : Bool) (f : List Nat × List Nat) (a : Nat) (rate : ℝ) (w w' : Weights) (n : Nat), f.1 ≠ [] → f.2 ≠ [] →
            Moved (dmfPlaces σ τ f a) w w' →
            SameUpTo (fun s s' => ∀ u i, u < ds.userMap.length → i < ds.itemMap.length →
                ∃ p p', (Dmf.vectors ds u i).2 = .ok p ∧ (Dmf.vectors ds' (τ u) (σ i)).2 = .ok p' ∧
                  (dmfOf ds'.userMap.length ds'.itemMap.length norm f a s'.w).forward [p'.1] [p'.2] =
                    (dmfOf ds.userMap.length ds.itemMap.length norm f a s.w).forward [p.1] [p.2])
              (fitEpochs R (dmfNet f.1.length f.2.length a)
                (fun e => dmfObjective rate ds.userMap.length ds.itemMap.length norm f a (batch e)) n (St.init R w))
              (fitEpochs R (dmfNet f.1.length f.2.length a)
                (fun e => dmfObjective rate ds'.userMap.length ds'.itemMap.length norm f a (batch' e)) n (St.init R w')) := by
  obtain ⟨lu, li⟩ := records_len h h' hr
  obtain ⟨ri, ru⟩ := records_renumber h h' hr
  refine ⟨recodeAll ds.itemMap ds'.itemMap, recodeAll ds.userMap ds'.userMap, (records_ids h h' hr).1, (records_ids h h' hr).2,
    fun m lo hi samples batch hk hb => ?_⟩
  generalize hσ : recodeAll ds.itemMap ds'.itemMap = σ at ri
  generalize hτ : recodeAll ds.userMap ds'.userMap = τ at ru
  have pu : ∀ u, Permuted σ (vecSpec ds (.user u)) (vecSpec ds' (.user (τ u))) := by
    subst hσ hτ; exact records_user h h' hr
  have pi : ∀ i, Permuted τ (vecSpec ds (.item i)) (vecSpec ds' (.item (σ i))) := by
    subst hσ hτ; exact records_item h h' hr
  have spec := fun e => sampleBatch_spec m lo hi h hc h2 (samples e) (hk e)
  have spec' := fun e => sampleBatch_spec m lo hi h' hc' (by omega) ((samples e).map (renumberSample σ τ)) (by
    intro s hs
    obtain ⟨t, ht, rfl⟩ := List.mem_map.1 hs
    have := hk e t ht
    rw [lu, li]
    exact ⟨(ru.lt _).2 this.1, (ri.lt _).2 this.2⟩)
  have same : ∀ e, ∃ b', (m.sampleBatch lo hi ds' ((samples e).map (renumberSample σ τ))).2 = .ok b' ∧ SameBatch σ τ (batch e) b' ∧
      (∀ v ∈ (batch e).users, v.length = ds.itemMap.length) ∧ ∀ v ∈ (batch e).items, v.length = ds.userMap.length := by
    intro e
    have s1 := spec e
    rw [hb e] at s1
    have ht : ((samples e).map (renumberSample σ τ)).mapM (fun s => m.target lo hi s.2.2) = (samples e).mapM fun s => m.target lo hi s.2.2 := by
      rw [List.mapM_map]; rfl
    rw [spec' e, ht]
    cases hw : (samples e).mapM fun s => m.target lo hi s.2.2 with
    | error z => rw [hw] at s1; cases s1
    | ok wanted =>
      rw [hw] at s1
      simp only [Except.map, Except.ok.injEq] at s1
      refine ⟨_, rfl, ?_, ?_, ?_⟩
      · rw [s1]
        refine ⟨?_, ?_, rfl⟩
        · simp only [List.map_map]
          exact List.forall₂_map_left_iff.2 (List.forall₂_map_right_iff.2 (List.forall₂_same.2 fun s _ => pu s.1))
        · simp only [List.map_map]
          exact List.forall₂_map_left_iff.2 (List.forall₂_map_right_iff.2 (List.forall₂_same.2 fun s _ => pi s.2.1))
      · rw [s1]
        intro v hv
        obtain ⟨s, _, rfl⟩ := List.mem_map.1 hv
        simp [vecSpec]
      · rw [s1]
        intro v hv
        obtain ⟨s, _, rfl⟩ := List.mem_map.1 hv
        simp [vecSpec]
  choose batch' b1 b2 b3 b4 using same
  refine ⟨batch', b1, fun R norm f a rate w w' n h1 h2' hw => ?_⟩
  have key := C143_dmf R norm h1 h2' ri ru rate batch batch' b2 b3 b4 w w' hw n
  rw [lu, li]
  revert key
  generalize fitEpochs R (dmfNet f.1.length f.2.length a)
    (fun e => dmfObjective rate ds.userMap.length ds.itemMap.length norm f a (batch e)) n (St.init R w) = p
  generalize fitEpochs R (dmfNet f.1.length f.2.length a)
    (fun e => dmfObjective rate ds.userMap.length ds.itemMap.length norm f a (batch' e)) n (St.init R w') = q
  intro key
  cases p <;> cases q
  · exact key
  · exact key
  · exact key
  · intro u i hu hi'
    refine ⟨_, _, vectors_spec h hc h2 hu hi', vectors_spec h' hc' (by omega) (by rw [lu]; exact (ru.lt u).2 hu)
      (by rw [li]; exact (ri.lt i).2 hi'), key.2 _ _ _ _ (pu u) (pi i) (by simp [vecSpec]) (by simp [vecSpec])⟩

/-- **C143** for CDAE and records in another order: with renumbered weights every user gets the renumbered scores. -/
theorem C143_cdae_records {ds ds' : Mem} (h : Fresh ds) (h' : Fresh ds') (hr : Spec.SameRecords ds ds') (hc : ds.cache = none)
    (hc' : ds'.cache = none) :
    ∃ σ τ, (∀ x, ds'.userToUid x = (ds.userToUid x).map (Option.map τ)) ∧ (∀ x, ds'.itemToIid x = (ds.itemToIid x).map (Option.map σ)) ∧
      ∀ (hidden a : Nat) (w w' : Weights) (t : ℚ) (uid : Nat), uid < ds.userMap.length →
        Moved (cdaePlaces σ τ ds.itemMap.length hidden a) w w' →
        SameUpTo (Permuted σ) ((cdaeOf ds.userMap.length ds.itemMap.length hidden a w).scores t ds uid).2
          ((cdaeOf ds'.userMap.length ds'.itemMap.length hidden a w').scores t ds' (τ uid)).2 := by
  obtain ⟨lu, li⟩ := records_len h h' hr
  obtain ⟨ri, ru⟩ := records_renumber h h' hr
  refine ⟨recodeAll ds.itemMap ds'.itemMap, recodeAll ds.userMap ds'.userMap, (records_ids h h' hr).1, (records_ids h h' hr).2,
    fun hidden a w w' t uid hk hw => ?_⟩
  · have e1 := (cdae_scores_eq (cdaeOf ds.userMap.length ds.itemMap.length hidden a w) t ds h hc [] (by simp) (Or.inr (by simp)) uid hk).2
    have e2 := (cdae_scores_eq (cdaeOf ds'.userMap.length ds'.itemMap.length hidden a w') t ds' h' hc' [] (by simp) (Or.inr (by simp))
      (recodeAll ds.userMap ds'.userMap uid) (by rw [lu]; exact (ru.lt uid).2 hk)).2
    simp only [serveAll] at e1 e2
    rw [e1, e2, lu, li]
    exact C143_cdae_scores ri ru hw uid _ _ (permuted_map _ (permuted_map _ (records_user h h' hr uid)))

/-- The numbers 0 and 1 swapped. -/
def exSwap (i : Nat) : Nat := if i = 0 then 1 else if i = 1 then 0 else i

theorem exSwap_swap (i : Nat) : exSwap (exSwap i) = i := by
  match i with
  | 0 => rfl
  | 1 => rfl
  | i + 2 => simp [exSwap]

theorem exSwap_renumbers {n : Nat} (h : 2 ≤ n) : Renumbers exSwap n := by
  refine ⟨fun i j e => by rw [← exSwap_swap i, e, exSwap_swap], fun i => ?_⟩
  unfold exSwap
  split_ifs <;> omega

/-! ## Rankings -/

theorem nlargest_renumber {σ : Nat → Nat} {l l' : List (ℚ × Nat)} (hp : l'.Perm (l.map fun p => (p.1, σ p.2)))
    (hd : l.Pairwise fun p q => p.1 ≠ q.1) (n : Nat) : nlargest n l' = (nlargest n l).map fun p => (p.1, σ p.2) := by
  have anti : ∀ a b : ℚ × Nat, pairGe a b → pairGe b a → a = b := by
    rintro ⟨a, i⟩ ⟨b, j⟩ h1 h2
    unfold pairGe at h1 h2
    simp only at h1 h2
    rcases h1 with h1 | ⟨rfl, h1⟩
    · rcases h2 with h2 | ⟨rfl, h2⟩
      · exact absurd h1 (not_lt.2 h2.le)
      · exact absurd h1 (lt_irrefl _)
    · rcases h2 with h2 | ⟨_, h2⟩
      · exact absurd h2 (lt_irrefl _)
      · rw [le_antisymm h2 h1]
  have tot : ∀ a b : ℚ × Nat, pairGe a b ∨ pairGe b a := by
    intro a b
    unfold pairGe
    rcases lt_trichotomy a.1 b.1 with g | g | g
    · exact Or.inr (Or.inl g)
    · rcases Nat.le_total a.2 b.2 with k | k
      · exact Or.inr (Or.inr ⟨g, k⟩)
      · exact Or.inl (Or.inr ⟨g.symm, k⟩)
    · exact Or.inl (Or.inl g)
  have tr : ∀ a b c : ℚ × Nat, pairGe a b → pairGe b c → pairGe a c := by
    intro a b c h1 h2
    unfold pairGe at *
    rcases h1 with h1 | ⟨h1, k1⟩ <;> rcases h2 with h2 | ⟨h2, k2⟩
    · exact Or.inl (h2.trans h1)
    · exact Or.inl (h2 ▸ h1)
    · exact Or.inl (h1 ▸ h2)
    · exact Or.inr ⟨h2.trans h1, k2.trans k1⟩
  have : Std.Total pairGe := ⟨tot⟩
  have : IsTrans (ℚ × Nat) pairGe := ⟨tr⟩
  unfold nlargest
  rw [List.map_take]
  refine congrArg _ ?_
  have s1 := List.pairwise_insertionSort pairGe l'
  have s2 := List.pairwise_insertionSort pairGe l
  have s3 : ((l.insertionSort pairGe).map fun p => (p.1, σ p.2)).Pairwise pairGe := by
    rw [List.pairwise_map]
    have hd' : (l.insertionSort pairGe).Pairwise fun p q => p.1 ≠ q.1 :=
      (List.perm_insertionSort pairGe l).symm.pairwise hd fun h => Ne.symm h
    refine (s2.and hd').imp ?_
    rintro a b ⟨g, k⟩
    rcases g with g | ⟨g, _⟩
    · exact Or.inl g
    · exact absurd g.symm k
  have pm : (l'.insertionSort pairGe).Perm ((l.insertionSort pairGe).map fun p => (p.1, σ p.2)) :=
    (List.perm_insertionSort pairGe l').trans (hp.trans ((List.perm_insertionSort pairGe l).symm.map _))
  exact pm.eq_of_pairwise (fun a b _ _ => anti a b) s1 s3

/-- **C143** (partial: different scores; with equal scores it fails, see `C143_fails_ties`).  The best `n` of any candidates are the same
items, with their new numbers, in the same order. -/
theorem C143_ranking_partial {σ : Nat → Nat} {l l' : List (ℚ × Nat)} (hp : l'.Perm (l.map fun p => (p.1, σ p.2)))
    (hd : l.Pairwise fun p q => p.1 ≠ q.1) (n : Nat) : nlargest n l' = (nlargest n l).map fun p => (p.1, σ p.2) :=
  nlargest_renumber hp hd n

/-- The negation of C143 for equal scores: of two equally good items the one with the larger number is recommended. -/
theorem C143_fails_ties : ∃ (σ : Nat → Nat) (l l' : List (ℚ × Nat)), Renumbers σ 2 ∧ l' = l.map (fun p => (p.1, σ p.2)) ∧
    nlargest 1 l' ≠ (nlargest 1 l).map fun p => (p.1, σ p.2) := by
  exact ⟨exSwap, [(1/2, 0), (1/2, 1)], [(1/2, 1), (1/2, 0)], exSwap_renumbers (le_refl 2), by decide +kernel, by decide +kernel⟩

/-! ## Examples -/

theorem byRow_swap (n i : Nat) : byRow exSwap n (byRow exSwap n i) = i := by
  rcases Nat.eq_zero_or_pos n with rfl | hn
  · simp [byRow]
  · conv_lhs => rw [show byRow exSwap n i = exSwap (i / n) * n + i % n from rfl, byRow_at exSwap _ (Nat.mod_lt i hn), exSwap_swap]
    rw [Nat.mul_comm]
    exact Nat.div_add_mod i n

theorem byCol_swap {n : Nat} (hn : 2 ≤ n) (i : Nat) : byCol exSwap n (byCol exSwap n i) = i := by
  have h1 := ((exSwap_renumbers hn).lt (i % n)).2 (Nat.mod_lt i (by omega))
  have : byCol exSwap n i / n = i / n ∧ byCol exSwap n i % n = exSwap (i % n) := by
    unfold byCol
    rw [Nat.mul_comm]
    exact ⟨by rw [Nat.mul_add_div (by omega), Nat.div_eq_of_lt h1, Nat.add_zero], by rw [Nat.mul_add_mod, Nat.mod_eq_of_lt h1]⟩
  unfold byCol at this ⊢
  rw [this.1, this.2, exSwap_swap, Nat.mul_comm]
  exact Nat.div_add_mod i n

/-- The weights 0, 1, 2, … with places exchanged. -/
noncomputable def exMoved (ι : Addr → Nat → Nat) : Weights := fun a i => (ι a i : ℝ)

theorem exMoved_moved {ι : Addr → Nat → Nat} (h : ∀ a i, ι a (ι a i) = i) : Moved ι (fun _ i => (i : ℝ)) (exMoved ι) := fun a i => by
  unfold exMoved
  rw [h a i]

/-- CDAE with two users and two items that swap their numbers: weights, samples and vectors meet the hypotheses. -/
example : Renumbers exSwap 2 ∧ Moved (cdaePlaces exSwap exSwap 2 3 0) (fun _ i => (i : ℝ)) (exMoved (cdaePlaces exSwap exSwap 2 3 0)) ∧
    exMoved (cdaePlaces exSwap exSwap 2 3 0) 0 0 = 3 ∧
    List.Forall₂ (SameSample exSwap exSwap) [⟨0, [1, 0], [1, 1]⟩] [⟨1, [0, 1], [1, 1]⟩] ∧ Permuted exSwap [(1 : ℝ), 0] [0, 1] := by
  have hp : ∀ (x y : ℝ), Permuted exSwap [x, y] [y, x] := fun x y => ⟨rfl, fun i => by
    match i with
    | 0 => rfl
    | 1 => rfl
    | i + 2 => simp [exSwap]⟩
  refine ⟨exSwap_renumbers (le_refl 2), exMoved_moved fun a i => ?_, ?_, .cons ⟨rfl, hp 1 0, hp 1 1⟩ .nil, hp 1 0⟩
  · unfold cdaePlaces
    split_ifs
    · exact byRow_swap _ _
    · exact byCol_swap (le_refl 2) _
    · exact byRow_swap _ _
    · exact exSwap_swap _
    · rfl
  · simp [exMoved, cdaePlaces, byRow, exSwap]

/-- DMF with one layer of two factors on each side. -/
example : Moved (dmfPlaces exSwap exSwap ([2], [2]) 0) (fun _ i => (i : ℝ)) (exMoved (dmfPlaces exSwap exSwap ([2], [2]) 0)) ∧
    exMoved (dmfPlaces exSwap exSwap ([2], [2]) 0) 2 1 = 3 ∧
    SameBatch exSwap exSwap ⟨[[5, 0]], [[5, 3]], [1]⟩ ⟨[[0, 5]], [[3, 5]], [1]⟩ := by
  have hp : ∀ (x y : ℚ), Permuted exSwap [x, y] [y, x] := fun x y => ⟨rfl, fun i => by
    match i with
    | 0 => rfl
    | 1 => rfl
    | i + 2 => simp [exSwap]⟩
  refine ⟨exMoved_moved fun a i => ?_, ?_, ⟨.cons (hp 5 0) .nil, .cons (hp 5 3) .nil, rfl⟩⟩
  · unfold dmfPlaces
    split_ifs
    · exact byRow_swap _ _
    · exact byRow_swap _ _
    · rfl
  · simp [exMoved, dmfPlaces, byRow, exSwap]

/-- Caser with vectors of three numbers. -/
example : Moved (caserPlaces exSwap exSwap 3 0) (fun _ i => (i : ℝ)) (exMoved (caserPlaces exSwap exSwap 3 0)) ∧
    exMoved (caserPlaces exSwap exSwap 3 0) 7 0 = 1 ∧
    (CaserBatch.renumber exSwap exSwap ⟨[0], [[0, 1, 0]], [[1, 0]], [[1, 0]], 0, fun _ _ => 1⟩).befores = [[1, 0, 1]] := by
  refine ⟨exMoved_moved fun a i => ?_, ?_, rfl⟩
  · unfold caserPlaces
    split_ifs
    · exact byRow_swap _ _
    · exact byRow_swap _ _
    · exact byRow_swap _ _
    · exact exSwap_swap _
    · rfl
  · simp [exMoved, caserPlaces, exSwap]

/-- Five records in two orders, with three users whose numbers all change. -/
example :
    let ds := exRows [(.str "ann", .str "x", 3), (.str "bob", .str "x", 3), (.str "bob", .str "y", 5), (.str "cid", .str "x", 3),
      (.str "cid", .str "y", 1)]
    let ds' := exRows [(.str "cid", .str "y", 1), (.str "ann", .str "x", 3), (.str "cid", .str "x", 3), (.str "bob", .str "x", 3),
      (.str "bob", .str "y", 5)]
    Fresh ds ∧ Fresh ds' ∧ Spec.SameRecords ds ds' ∧ ds.cache = none ∧ ds'.cache = none ∧ 2 ≤ ds.userMap.length ∧
    ds.userToUid (.str "cid") = .ok (some 2) ∧ ds'.userToUid (.str "cid") = .ok (some 0) :=
  ⟨exRows_fresh _, exRows_fresh _, exRows_same (by decide), by decide +kernel, by decide +kernel, by decide +kernel,
    of_toOption (by decide +kernel), of_toOption (by decide +kernel)⟩

/-- Three items with different scores. -/
example : ([(1/2, 1), (1/3, 0), (1/4, 2)] : List (ℚ × Nat)).Perm ([(1/3, 1), (1/2, 0), (1/4, 2)].map fun p => (p.1, exSwap p.2)) ∧
    ([(1/3, 1), (1/2, 0), (1/4, 2)] : List (ℚ × Nat)).Pairwise (fun p q => p.1 ≠ q.1) ∧
    nlargest 2 [(1/2, 1), (1/3, 0), (1/4, 2)] = [(1/2, 1), (1/3, 0)] := by decide +kernel

end DRec.Trn
