import Verif.Spec.DbCache
import Verif.Lemmas.DbNets
import Verif.Props.DbEval

/-! # Interaction vectors asked for by several threads -/

namespace DRec.Conc

open Spec

/-! ## Dictionaries -/

theorem lookup_cons_ne {n k : Nat} {v : List ℚ} {l : VecCache} (h : k ≠ n) : ((n, v) :: l).lookup k = l.lookup k := by
  have : (k == n) = false := by simpa using h
  rw [List.lookup_cons, this]

theorem lookup_remove {n k : Nat} (h : k ≠ n) (l : VecCache) : (l.filter (·.1 ≠ n)).lookup k = l.lookup k := by
  induction l with
  | nil => rfl
  | cons p l ih =>
    obtain ⟨a, v⟩ := p
    by_cases ha : a = n
    · subst ha
      rw [List.filter_cons_of_neg (by simp), ih, lookup_cons_ne h]
    · rw [List.filter_cons_of_pos (by simpa using ha)]
      by_cases hk : k = a
      · subst hk
        simp
      · rw [lookup_cons_ne hk, lookup_cons_ne hk, ih]

theorem put_lookup (D : VecStore) (s t : KKind) (n k : Nat) (v : List ℚ) :
    ((D.put s n v) t).lookup k = if t = s ∧ k = n then some v else (D t).lookup k := by
  unfold VecStore.put
  by_cases ht : t = s
  · subst ht
    simp only [if_true, true_and]
    by_cases hk : k = n
    · subst hk
      simp
    · rw [lookup_cons_ne hk, lookup_remove hk, if_neg hk]
  · simp [ht]

theorem key_lookup {k : Nat} {l : VecCache} (h : k ∈ l.map (·.1)) : ∃ v, l.lookup k = some v := by
  induction l with
  | nil => simp at h
  | cons p l ih =>
    obtain ⟨a, v⟩ := p
    by_cases hk : k = a
    · exact ⟨v, by simp [hk]⟩
    · rw [lookup_cons_ne hk]
      simp only [List.map_cons, List.mem_cons, hk, false_or] at h
      exact ih h

theorem storeOk_put {m : Mem} {D : VecStore} (h : StoreOk m D) {s : KKind} {n : Nat} {v : List ℚ}
    (hv : memVec m (sideReq s n) = .ok v) : StoreOk m (D.put s n v) := by
  intro t
  refine ⟨?_, ?_⟩
  · by_cases ht : t = s
    · subst ht
      simp only [VecStore.put, if_true, List.map_cons, List.nodup_cons]
      refine ⟨?_, ((h t).1.sublist (List.filter_sublist.map _))⟩
      intro hm
      obtain ⟨p, hp, he⟩ := List.mem_map.1 hm
      have := (List.mem_filter.1 hp).2
      simp [he] at this
    · simp only [VecStore.put, ht, if_false]
      exact (h t).1
  · intro k u hk
    rw [put_lookup] at hk
    split at hk
    · rename_i hc
      cases hk
      rw [hc.1, hc.2]
      exact hv
    · exact (h t).2 k u hk

theorem storeOk_clear {m : Mem} {D : VecStore} (h : StoreOk m D) (s : KKind) : StoreOk m (D.clear s) := by
  intro t
  by_cases ht : t = s
  · simp [VecStore.clear, ht]
  · simp only [VecStore.clear, ht, if_false]
    exact h t

theorem store_length {m : Mem} (hm : Fresh m) {D : VecStore} (h : StoreOk m D) (s : KKind) :
    (D s).length ≤ (sideMap s m).length := by
  have hsub : (D s).map (·.1) ⊆ List.range (sideMap s m).length := by
    intro k hk
    obtain ⟨v, hv⟩ := key_lookup hk
    have := (h s).2 k v hv
    rw [memVec_side hm] at this
    split at this
    · exact List.mem_range.2 ‹_›
    · cases this
  have := ((h s).1.subperm hsub).length_le
  simpa using this

/-- What other tasks may do to the dictionaries: they stay right, and lose nothing in calm runs. -/
def Rely (m : Mem) (calm : Prop) (D D' : VecStore) : Prop :=
  StoreOk m D' ∧ (calm → ∀ s n v, (D s).lookup n = some v → (D' s).lookup n = some v)

theorem Rely.refl {m : Mem} {calm : Prop} {D : VecStore} (h : StoreOk m D) : Rely m calm D D := ⟨h, fun _ _ _ _ h => h⟩

theorem Rely.trans {m : Mem} {calm : Prop} {a b c : VecStore} (h1 : Rely m calm a b) (h2 : Rely m calm b c) : Rely m calm a c :=
  ⟨h2.1, fun hc s n v h => h2.2 hc s n v (h1.2 hc s n v h)⟩

/-- What other tasks may do to the shared datasets. -/
def Still (names : List String) (S : List Nat) (w w' : World) : Prop := Good names w' ∧ ∀ k ∈ S, Keeps w w' k

theorem Still.trans {names : List String} {S : List Nat} {a b c : World} (h1 : Still names S a b) (h2 : Still names S b c) :
    Still names S a c := ⟨h2.1, fun k hk => (h1.2 k hk).trans (h2.2 k hk)⟩

theorem Still.refl {names : List String} {S : List Nat} {w : World} (h : Good names w) : Still names S w w :=
  ⟨h, fun k _ => Keeps.refl w k⟩

/-! ## Tasks -/

/-- The results of the task are as `R` says, whatever other tasks do in between. -/
def CGives {α : Type} (names : List String) (S : List Nat) (m : Mem) (lim : KKind → Nat) (calm : Prop) :
    CProg α → List Nat → World → VecStore → (Except Err α → Prop) → Prop
  | .ret x, _, _, _, R => R x
  | .run p k, O, w, D, R => ∃ r, Gives names S p O w r ∧ (∀ e, r = .error e → R (.error e)) ∧
      ∀ x, r = .ok x → ∀ w' D', Still names S w w' → Rely m calm D D' → CGives names S m lim calm (k x) [] w' D' R
  | .look s n k, _, w, D, R => ∀ w' D', Still names S w w' → Rely m calm D D' →
      CGives names S m lim calm (k ((D' s).lookup n)) [] w' D' R
  | .full s k, _, w, D, R => ∀ w' D', Still names S w w' → Rely m calm D D' →
      CGives names S m lim calm (k (decide (lim s < (D' s).length))) [] w' D' R
  | .clear s k, _, w, D, R => ∀ w' D', Still names S w w' → Rely m calm D D' → Rely m calm D' (D'.clear s) ∧
      CGives names S m lim calm k [] w' (D'.clear s) R
  | .put s n v k, _, w, D, R => ∀ w' D', Still names S w w' → Rely m calm D D' → Rely m calm D' (D'.put s n v) ∧
      CGives names S m lim calm k [] w' (D'.put s n v) R

section
variable {α β γ : Type} {names : List String} {S : List Nat} {m : Mem} {lim : KKind → Nat} {calm : Prop}

theorem CGives.mono {O : List Nat} {w w' : World} {D D' : VecStore} {p : CProg α} {R : Except Err α → Prop}
    (h : CGives names S m lim calm p O w D R) (hq : Quiet names S O w w') (hr : Rely m calm D D') :
    CGives names S m lim calm p O w' D' R := by
  have hs : Still names S w w' := ⟨hq.good, hq.shared⟩
  cases p with
  | ret x => exact h
  | run p k =>
    obtain ⟨r, h1, h2, h3⟩ := h
    exact ⟨r, h1.mono hq, h2, fun x hx v E hv hE => h3 x hx v E (hs.trans hv) (hr.trans hE)⟩
  | look s n k => exact fun v E hv hE => h v E (hs.trans hv) (hr.trans hE)
  | full s k => exact fun v E hv hE => h v E (hs.trans hv) (hr.trans hE)
  | clear s k => exact fun v E hv hE => h v E (hs.trans hv) (hr.trans hE)
  | put s n v k => exact fun v E hv hE => h v E (hs.trans hv) (hr.trans hE)

theorem CProg.step_gives {O : List Nat} {w : World} {D : VecStore} {p : CProg α} {R : Except Err α → Prop}
    (hg : Good names w) (hD : StoreOk m D) (h : CGives names S m lim calm p O w D R) (ha : ∀ k ∈ O, (w.insts k).isSome) :
    ∃ O', Move names S O w (p.step lim w D).1 O' ∧ Rely m calm D (p.step lim w D).2.1 ∧
      CGives names S m lim calm (p.step lim w D).2.2 O' (p.step lim w D).1 (p.step lim w D).2.1 R := by
  have hm : Move names S O w w [] := ⟨hg, fun k _ => Keeps.refl w k, fun _ _ _ _ => ⟨rfl, rfl⟩, by simp, by simp⟩
  have hs : Still names S w w := Still.refl hg
  have hr : Rely m calm D D := Rely.refl hD
  cases p with
  | ret x => exact ⟨[], hm, hr, h⟩
  | run p k =>
    obtain ⟨r, h1, h2, h3⟩ := h
    have go : ∀ q : DbProg _, Gives names S q O w r →
        ∃ O', Move names S O w (q.step w).1 O' ∧ Rely m calm D D ∧
          CGives names S m lim calm (.run (q.step w).2 k) O' (q.step w).1 D R := by
      intro q hq
      obtain ⟨O', a, b⟩ := DbProg.step_gives hg hq ha
      exact ⟨O', a, hr, r, b, h2, fun x hx v E hv hE => h3 x hx v E (Still.trans ⟨a.good, a.shared⟩ hv) hE⟩
    cases p with
    | ret x =>
      cases x with
      | ok x => exact ⟨[], hm, hr, h3 x h1.symm w D hs hr⟩
      | error e => exact ⟨[], hm, hr, h2 e h1.symm⟩
    | select i q k' => exact go _ h1
    | unique i c k' => exact go _ h1
    | read i op k' => exact go _ h1
    | len i k' => exact go _ h1
    | toId i raw idc a k' => exact go _ h1
    | toRaw i raw idc n k' => exact go _ h1
    | close i k' => exact go _ h1
  | look s n k => exact ⟨[], hm, hr, h w D hs hr⟩
  | full s k => exact ⟨[], hm, hr, h w D hs hr⟩
  | clear s k => exact ⟨[], hm, (h w D hs hr).1, (h w D hs hr).2⟩
  | put s n v k => exact ⟨[], hm, (h w D hs hr).1, (h w D hs hr).2⟩

/-! ## Pools -/

/-- What holds between the steps of the pool. -/
structure CPoolOk (names : List String) (S : List Nat) (m : Mem) (lim : KKind → Nat) (calm : Prop) (w : World) (D : VecStore)
    (ps : List (CProg α)) (Rs : Nat → Except Err α → Prop) (Os : Nat → List Nat) : Prop where
  good : Good names w
  store : StoreOk m D
  shared : ∀ k ∈ S, (w.insts k).isSome
  alive : ∀ t, ∀ k ∈ Os t, (w.insts k).isSome
  apart : ∀ t, ∀ k ∈ Os t, k ∉ S
  disjoint : ∀ t t', t ≠ t' → ∀ k ∈ Os t, k ∉ Os t'
  gives : ∀ (t : Nat) (p : CProg α), ps[t]? = some p → CGives names S m lim calm p (Os t) w D (Rs t)

theorem CPoolOk.step {w : World} {D : VecStore} {ps : List (CProg α)} {Rs : Nat → Except Err α → Prop} {Os : Nat → List Nat}
    (h : CPoolOk names S m lim calm w D ps Rs Os) {t : Nat} {p : CProg α} (hp : ps[t]? = some p) :
    (∃ Os', CPoolOk names S m lim calm (p.step lim w D).1 (p.step lim w D).2.1 (ps.set t (p.step lim w D).2.2) Rs Os') ∧
      (∀ k ∈ S, Keeps w (p.step lim w D).1 k) ∧ Rely m calm D (p.step lim w D).2.1 := by
  obtain ⟨O', hm, hr, hgv'⟩ := CProg.step_gives h.good h.store (h.gives t p hp) (h.alive t)
  have hother : ∀ t', t' ≠ t → Quiet names S (Os t') w (p.step lim w D).1 := fun t' ht =>
    hm.quiet (fun k hk => ⟨h.apart t' k hk, h.disjoint t' t ht k hk⟩) (h.alive t')
  have hnew : ∀ k ∈ O', k ∉ S ∧ ∀ t', t' ≠ t → k ∉ Os t' := by
    intro k hk
    rcases hm.own k hk with h1 | h1
    · exact ⟨h.apart t k h1, fun t' ht => h.disjoint t t' (Ne.symm ht) k h1⟩
    · constructor
      · intro h2
        have := h.shared k h2
        rw [h1] at this; cases this
      · intro t' _ h2
        have := h.alive t' k h2
        rw [h1] at this; cases this
  refine ⟨⟨fun t' => if t' = t then O' else Os t', ?_⟩, hm.shared, hr⟩
  refine ⟨hm.good, hr.1, fun k hk => (hm.shared k hk).alive (h.shared k hk), ?_, ?_, ?_, ?_⟩
  · intro t' k hk
    by_cases e : t' = t
    · simp only [e, if_true] at hk
      exact hm.alive k hk
    · simp only [e, if_false] at hk
      exact (hother t' e).alive k hk
  · intro t' k hk
    by_cases e : t' = t
    · simp only [e, if_true] at hk
      exact (hnew k hk).1
    · simp only [e, if_false] at hk
      exact h.apart t' k hk
  · intro t1 t2 hne k hk
    by_cases e1 : t1 = t
    · have e2 : t2 ≠ t := fun e2 => hne (e1.trans e2.symm)
      simp only [e1, if_true] at hk
      simp only [e2, if_false]
      exact (hnew k hk).2 t2 e2
    · simp only [e1, if_false] at hk
      by_cases e2 : t2 = t
      · simp only [e2, if_true]
        intro h2
        exact (hnew k h2).2 t1 e1 hk
      · simp only [e2, if_false]
        exact h.disjoint t1 t2 hne k hk
  · intro t' p' hp'
    by_cases e : t' = t
    · subst e
      have hlt : t' < ps.length := (List.getElem?_eq_some_iff.1 hp).1
      rw [List.getElem?_set_self hlt] at hp'
      cases hp'
      simpa using hgv'
    · rw [List.getElem?_set_ne (Ne.symm e)] at hp'
      simpa [e] using (h.gives t' p' hp').mono (hother t' e) hr

theorem CPoolOk.run {w w' : World} {D D' : VecStore} {ps ps' : List (CProg α)} {Rs : Nat → Except Err α → Prop}
    (hrun : CRuns lim w D ps w' D' ps') : ∀ {Os : Nat → List Nat}, CPoolOk names S m lim calm w D ps Rs Os →
      (∃ Os', CPoolOk names S m lim calm w' D' ps' Rs Os') ∧ (∀ k ∈ S, Keeps w w' k) := by
  induction hrun with
  | refl => exact fun h => ⟨⟨_, h⟩, fun k _ => Keeps.refl _ k⟩
  | step hp _ ih =>
    intro Os h
    obtain ⟨⟨Os', h'⟩, hk, _⟩ := h.step hp
    obtain ⟨h1, h2⟩ := ih h'
    exact ⟨h1, fun k hS => (hk k hS).trans (h2 k hS)⟩

theorem cruns_length {w w' : World} {D D' : VecStore} {ps ps' : List (CProg α)} (h : CRuns lim w D ps w' D' ps') :
    ps'.length = ps.length := by
  induction h with
  | refl => rfl
  | step _ _ ih => simpa using ih

/-- Whatever the interleaving, the results are as they should be, the shared datasets stay as they are and the
dictionaries stay right. -/
theorem cpool_results {w w' : World} {D D' : VecStore} {ps : List (CProg α)} {Rs : Nat → Except Err α → Prop}
    {outs : List (Except Err α)} (hg : Good names w) (hD : StoreOk m D) (hS : ∀ k ∈ S, (w.insts k).isSome)
    (h : ∀ (t : Nat) p, ps[t]? = some p → CGives names S m lim calm p [] w D (Rs t))
    (hrun : CRuns lim w D ps w' D' (outs.map .ret)) :
    outs.length = ps.length ∧ (∀ (t : Nat) o, outs[t]? = some o → Rs t o) ∧ StoreOk m D' ∧ ∀ k ∈ S, Keeps w w' k := by
  have h0 : CPoolOk names S m lim calm w D ps Rs fun _ => [] := ⟨hg, hD, hS, by simp, by simp, by simp, h⟩
  obtain ⟨⟨Os, hf⟩, hk⟩ := h0.run hrun
  have hlen := cruns_length hrun
  simp only [List.length_map] at hlen
  exact ⟨hlen, fun t o ho => hf.gives t (.ret o) (by rw [List.getElem?_map, ho]; rfl), hf.store, hk⟩

/-- Pools of tasks that each give a certain result, or `KeyError` if the run is not calm. -/
theorem cpool_map {ι : Type} {jobs : List ι} {task : ι → CProg α} {res : ι → Except Err α} {w w' : World} {D D' : VecStore}
    {outs : List (Except Err α)} (hg : Good names w) (hD : StoreOk m D) (hS : ∀ k ∈ S, (w.insts k).isSome)
    (h : ∀ j ∈ jobs, CGives names S m lim calm (task j) [] w D fun o => o = res j ∨ (¬ calm ∧ o = .error .keyError))
    (hrun : CRuns lim w D (jobs.map task) w' D' (outs.map .ret)) :
    (outs.length = jobs.length ∧ StoreOk m D' ∧ ∀ (t : Nat) o j, outs[t]? = some o → jobs[t]? = some j →
      o = res j ∨ o = .error .keyError) ∧ (calm → outs = jobs.map res) := by
  obtain ⟨h1, h2, h3, _⟩ := cpool_results (names := names) (S := S) (m := m) (calm := calm)
    (Rs := fun t o => ∀ j, jobs[t]? = some j → o = res j ∨ (¬ calm ∧ o = .error .keyError)) hg hD hS (by
    intro t p hp
    rw [List.getElem?_map] at hp
    obtain ⟨j, hj, rfl⟩ := Option.map_eq_some_iff.1 hp
    have e : (fun o => ∀ j, jobs[t]? = some j → o = res j ∨ (¬ calm ∧ o = .error .keyError)) =
        fun o => o = res j ∨ (¬ calm ∧ o = .error .keyError) := by
      funext o
      simp [hj]
    rw [e]
    exact h j (List.mem_of_getElem? hj)) hrun
  have hlen : outs.length = jobs.length := by simpa using h1
  refine ⟨⟨hlen, h3, fun t o j ho hj => ?_⟩, fun hc => ?_⟩
  · rcases h2 t o ho j hj with h | ⟨_, h⟩
    · exact Or.inl h
    · exact Or.inr h
  · apply List.ext_getElem?
    intro t
    rw [List.getElem?_map]
    cases ho : outs[t]? with
    | none =>
      have : jobs[t]? = none := by
        rw [List.getElem?_eq_none_iff] at ho ⊢
        omega
      rw [this]; rfl
    | some o =>
      obtain ⟨hlt, _⟩ := List.getElem?_eq_some_iff.1 ho
      have hj : jobs[t]? = some (jobs[t]'(by omega)) := List.getElem?_eq_getElem (by omega)
      rcases h2 t o ho _ hj with h | ⟨h, _⟩
      · rw [hj, h]; rfl
      · exact absurd hc h

theorem cruns_step {w w1 w' : World} {D D1 D' : VecStore} {ps ps' : List (CProg α)} {t : Nat} {p q : CProg α}
    (hp : ps[t]? = some p) (he : p.step lim w D = (w1, D1, q)) (h : CRuns lim w1 D1 (ps.set t q) w' D' ps') :
    CRuns lim w D ps w' D' ps' := by
  refine .step hp ?_
  rw [he]
  exact h

theorem cruns_trans {a b c : World} {A B C : VecStore} {ps qs rs : List (CProg α)} (h1 : CRuns lim a A ps b B qs)
    (h2 : CRuns lim b B qs c C rs) : CRuns lim a A ps c C rs := by
  induction h1 with
  | refl => exact h2
  | step hp _ ih => exact .step hp (ih h2)

/-- A task can always be run to its end. -/
theorem cruns_finish (p : CProg α) : ∀ (w : World) (D : VecStore) (ps : List (CProg α)) (t : Nat), ps[t]? = some p →
    ∃ w' D' r, CRuns lim w D ps w' D' (ps.set t (.ret r)) := by
  have go : ∀ (q : CProg α), (∀ (w : World) (D : VecStore) (ps : List (CProg α)) (t : Nat), ps[t]? = some q →
      ∃ w' D' r, CRuns lim w D ps w' D' (ps.set t (.ret r))) →
      ∀ (w w1 : World) (D D1 : VecStore) (ps : List (CProg α)) (t : Nat) (p : CProg α), ps[t]? = some p →
      p.step lim w D = (w1, D1, q) → ∃ w' D' r, CRuns lim w D ps w' D' (ps.set t (.ret r)) := by
    intro q hq w w1 D D1 ps t p hp he
    have hlt : t < ps.length := (List.getElem?_eq_some_iff.1 hp).1
    obtain ⟨w', D', r, hr⟩ := hq w1 D1 (ps.set t q) t (by rw [List.getElem?_set_self hlt])
    refine ⟨w', D', r, .step hp ?_⟩
    rw [he]
    simpa using hr
  have hret : ∀ (x : Except Err α) (w : World) (D : VecStore) (ps : List (CProg α)) (t : Nat), ps[t]? = some (.ret x) →
      ∃ w' D' r, CRuns lim w D ps w' D' (ps.set t (.ret r)) := by
    intro x w D ps t hp
    refine ⟨w, D, x, ?_⟩
    have : ps.set t (.ret x) = ps := by
      obtain ⟨hlt, he⟩ := List.getElem?_eq_some_iff.1 hp
      rw [← he]
      exact List.set_getElem_self hlt
    rw [this]
    exact .refl _ _ _
  induction p with
  | ret x => exact hret x
  | run p k ih =>
    have hrun : ∀ (x : Except Err _) (w : World) (D : VecStore) (ps : List (CProg α)) (t : Nat),
        ps[t]? = some (.run (.ret x) k) → ∃ w' D' r, CRuns lim w D ps w' D' (ps.set t (.ret r)) := by
      intro x w D ps t hp
      cases x with
      | ok x => exact go _ (ih x) w w D D ps t _ hp rfl
      | error e => exact go _ (hret (.error e)) w w D D ps t _ hp rfl
    induction p with
    | ret x => exact hrun x
    | select i q k' ih' =>
      intro w D ps t hp
      cases he : w.select i q true with
      | mk w1 res =>
        cases res with
        | ok j => exact go _ (ih' j) w w1 D D ps t _ hp (by simp only [CProg.step, DbProg.step, he])
        | error e => exact go _ (hrun (.error e)) w w1 D D ps t _ hp (by simp only [CProg.step, DbProg.step, he])
    | unique i c k' ih' =>
      intro w D ps t hp
      cases he : w.unique i (some [c]) true with
      | mk w1 res =>
        cases res with
        | ok j => exact go _ (ih' j) w w1 D D ps t _ hp (by simp only [CProg.step, DbProg.step, he])
        | error e => exact go _ (hrun (.error e)) w w1 D D ps t _ hp (by simp only [CProg.step, DbProg.step, he])
    | read i op k' ih' =>
      intro w D ps t hp
      cases he : w.read i op with
      | mk w1 res =>
        cases res with
        | ok j => exact go _ (ih' j) w w1 D D ps t _ hp (by simp only [CProg.step, DbProg.step, he])
        | error e => exact go _ (hrun (.error e)) w w1 D D ps t _ hp (by simp only [CProg.step, DbProg.step, he])
    | len i k' ih' =>
      intro w D ps t hp
      cases he : w.len i with
      | some n => exact go _ (ih' n) w w D D ps t _ hp (by simp only [CProg.step, DbProg.step, he])
      | none => exact go _ (hrun (.error .crash)) w w D D ps t _ hp (by simp only [CProg.step, DbProg.step, he])
    | toId i raw idc a k' ih' =>
      intro w D ps t hp
      cases he : w.toId i raw idc a with
      | ok v => exact go _ (ih' v) w w D D ps t _ hp (by simp only [CProg.step, DbProg.step, he])
      | error e => exact go _ (hrun (.error e)) w w D D ps t _ hp (by simp only [CProg.step, DbProg.step, he])
    | toRaw i raw idc n k' ih' =>
      intro w D ps t hp
      cases he : w.toRaw i raw idc n with
      | ok v => exact go _ (ih' v) w w D D ps t _ hp (by simp only [CProg.step, DbProg.step, he])
      | error e => exact go _ (hrun (.error e)) w w D D ps t _ hp (by simp only [CProg.step, DbProg.step, he])
    | close i k' ih' =>
      intro w D ps t hp
      exact go _ ih' w (w.close i).1 D D ps t _ hp (by simp only [CProg.step, DbProg.step])
  | look s n k ih => exact fun w D ps t hp => go _ (ih _) w w D D ps t _ hp rfl
  | full s k ih => exact fun w D ps t hp => go _ (ih _) w w D D ps t _ hp rfl
  | clear s k ih => exact fun w D ps t hp => go _ ih w w D _ ps t _ hp rfl
  | put s n v k ih => exact fun w D ps t hp => go _ ih w w D _ ps t _ hp rfl

theorem cruns_exists (lim : KKind → Nat) (w : World) (D : VecStore) (ps : List (CProg α)) :
    ∃ (w' : World) (D' : VecStore) (outs : List (Except Err α)), CRuns lim w D ps w' D' (outs.map .ret) := by
  have key : ∀ k, k ≤ ps.length → ∃ (w' : World) (D' : VecStore) (outs : List (Except Err α)), outs.length = k ∧
      CRuns lim w D ps w' D' (outs.map .ret ++ ps.drop k) := by
    intro k
    induction k with
    | zero => exact fun _ => ⟨w, D, [], rfl, by simpa using CRuns.refl w D ps⟩
    | succ k ih =>
      intro hk
      obtain ⟨w1, D1, outs, hl, hrun⟩ := ih (by omega)
      have hget : (outs.map CProg.ret ++ ps.drop k)[k]? = some (ps[k]'(by omega)) := by
        rw [List.getElem?_append_right (by simp [hl])]
        simp [hl]
      obtain ⟨w2, D2, r, h2⟩ := cruns_finish (lim := lim) _ w1 D1 _ k hget
      refine ⟨w2, D2, outs ++ [r], by simp [hl], cruns_trans hrun ?_⟩
      have e : (outs.map CProg.ret ++ ps.drop k).set k (.ret r) = (outs ++ [r]).map CProg.ret ++ ps.drop (k + 1) := by
        rw [List.set_append_right _ _ (by simp [hl])]
        simp only [List.length_map, hl, Nat.sub_self, List.map_append, List.map_cons, List.map_nil, List.append_assoc]
        rw [List.drop_eq_getElem_cons (by omega : k < ps.length)]
        rfl
      rw [e] at h2
      exact h2
  obtain ⟨w', D', outs, hl, h⟩ := key ps.length le_rfl
  refine ⟨w', D', outs, ?_⟩
  simpa using h

/-! ## Parts of tasks -/

/-- A part of a task computes something: the task goes on with the result, or ends with the exception; if the run is not
calm it may end with `KeyError`. -/
def CDelivers (names : List String) (S : List Nat) (m : Mem) (lim : KKind → Nat) (calm : Prop) (w0 : World)
    (P : (α → CProg β) → CProg β) (res : Except Err α) : Prop :=
  ∀ w D k R, Good names w → (∀ i ∈ S, Keeps w0 w i) → StoreOk m D → (∀ e, res = .error e → R (.error e)) →
    (¬ calm → R (.error .keyError)) →
    (∀ x w'' D'', res = .ok x → Still names S w w'' → Rely m calm D D'' → CGives names S m lim calm (k x) [] w'' D'' R) →
    CGives names S m lim calm (P k) [] w D R

variable {w0 : World}

theorem CDelivers.bind {P : (α → CProg β) → CProg β} {res : Except Err α} (hP : CDelivers names S m lim calm w0 P res)
    {Q : α → (γ → CProg β) → CProg β} {res' : α → Except Err γ}
    (hQ : ∀ x, res = .ok x → CDelivers names S m lim calm w0 (Q x) (res' x)) :
    CDelivers names S m lim calm w0 (fun k => P fun x => Q x k) (res.bind res') := by
  intro w D k R hg hv hD he hc hk
  refine hP w D _ R hg hv hD ?_ hc ?_
  · intro e h
    exact he e (by rw [h]; rfl)
  · intro x w1 D1 hx s1 r1
    refine hQ x hx w1 D1 k R s1.1 (fun i hi => (hv i hi).trans (s1.2 i hi)) r1.1 ?_ hc ?_
    · intro e h
      exact he e (by rw [hx]; exact h)
    · intro y w2 D2 hy s2 r2
      exact hk y w2 D2 (by rw [hx]; exact hy) (s1.trans s2) (r1.trans r2)

theorem cd_ok (x : α) : CDelivers names S m lim calm w0 (fun k : α → CProg β => k x) (.ok x) :=
  fun w D _ _ hg _ hD _ _ hk => hk x w D rfl (Still.refl hg) (Rely.refl hD)

theorem cd_error (e : Err) : CDelivers names S m lim calm w0 (fun _ : α → CProg β => .ret (.error e)) (.error e) :=
  fun _ _ _ _ _ _ _ he _ _ => he e rfl

theorem cd_result (res : Except Err α) : CDelivers names S m lim calm w0 (fun k : α → CProg β => cResult res k) res := by
  cases res with
  | error e => exact cd_error e
  | ok x => exact cd_ok x

theorem cd_run {P : (α → DbProg α) → DbProg α} {res : Except Err α} (h : DeliversIn names S (sharedInv w0 S) P res) :
    CDelivers names S m lim calm w0 (fun k : α → CProg β => .run (P done) k) res := by
  intro w D k R hg hv hD he _ hk
  refine ⟨res, h [] w done res hg hv ?_ ?_, he, fun x hx w' D' hs hr => hk x w' D' hx hs hr⟩
  · rintro e rfl; rfl
  · rintro x _ rfl _; rfl

theorem cd_map {P : (α → CProg β) → CProg β} {res : Except Err α} (h : CDelivers names S m lim calm w0 P res) (f : α → γ) :
    CDelivers names S m lim calm w0 (fun k : γ → CProg β => P fun x => k (f x)) (res.map f) := by
  have := CDelivers.bind h (Q := fun x k => k (f x)) (res' := fun x => .ok (f x)) fun x _ => cd_ok _
  have e : (res.bind fun x => .ok (f x)) = res.map f := by cases res <;> rfl
  rw [e] at this
  exact this

/-! ## Vectors -/

theorem gives_fetch {s : KKind} {n : Nat} {w : World} {D : VecStore} {k : List ℚ → CProg α} {R : Except Err α → Prop}
    (hin : calm → ∃ v, (D s).lookup n = some v) (hc : ¬ calm → R (.error .keyError))
    (hk : ∀ x w'' D'', memVec m (sideReq s n) = .ok x → Still names S w w'' → Rely m calm D D'' →
      CGives names S m lim calm (k x) [] w'' D'' R) : CGives names S m lim calm (cFetch s n k) [] w D R := by
  intro w' D' hs hr
  cases hl : (D' s).lookup n with
  | none =>
    by_cases h : calm
    · obtain ⟨v, hv⟩ := hin h
      have := hr.2 h s n v hv
      rw [hl] at this
      cases this
    · exact hc h
  | some v => exact hk v w' D' ((hr.1 s).2 n v hl) hs hr

variable {ds : Nat} {T : Option (String → DType)} {B : Nat}

theorem cd_vec (hn : NamesOk names) (hds : ds ∈ S) (hS0 : ∀ k ∈ S, (w0.insts k).isSome) (hf : FittedOn w0 ds m T B)
    (hnm : Named m) (oom : Bool) (hcalm : calm → oom = false ∧ Roomy m lim) (s : KKind) (n : Nat) :
    CDelivers names S m lim calm w0 (fun k : List ℚ → CProg β => cVec oom ds s n k) (memVec m (sideReq s n)) := by
  have h1 := CDelivers.bind (m := m) (lim := lim) (calm := calm) (β := β)
    (cd_run (delivers_rawOf (names := names) hds hf s n))
    (Q := fun v (k : List ℚ → CProg β) => if v.getD .null = .null then .ret (.error .notFound)
      else .look s n fun o =>
        match o with
        | some _ => cFetch s n k
        | none => .full s fun big =>
          let rest : CProg β := .run (.read ds (.max (sideOf s).other) fun m =>
              .select ds (idQuery (sideOf s).own n) fun d => .read d (.values (some [(sideOf s).other, "interaction"])) fun res =>
              .close d (withResult (toVec (sideOf s).other (valOf m) (.ok res)) done)) fun v =>
            if oom then .clear s (cFetch s n k) else .put s n v (cFetch s n k)
          if big then .clear s rest else rest)
    (res' := fun _ => memVec m (sideReq s n)) (by
      intro v hv
      cases hv
      by_cases hlt : n < (sideMap s m).length
      · obtain ⟨hnn, hne⟩ := side_named hf.fresh hnm s hlt
        have hres : memVec m (sideReq s n) = .ok (vecSpec m (sideReq s n)) := by rw [memVec_side hf.fresh, if_pos hlt]
        simp only [hnn, if_false]
        intro w D k R hg hv hD he hc hk
        have rest : ∀ w1 D1, Still names S w w1 → Rely m calm D D1 → CGives names S m lim calm
            (.run (.read ds (.max (sideOf s).other) fun m =>
              .select ds (idQuery (sideOf s).own n) fun d => .read d (.values (some [(sideOf s).other, "interaction"])) fun res =>
              .close d (withResult (toVec (sideOf s).other (valOf m) (.ok res)) done)) fun v =>
            if oom then .clear s (cFetch s n k) else .put s n v (cFetch s n k)) [] w1 D1 R := by
          intro w1 D1 s1 r1
          refine cd_run (delivers_compute hn hds hS0 hf s n hne) w1 D1 _ R s1.1 (fun i hi => (hv i hi).trans (s1.2 i hi)) r1.1
            (by simp) hc ?_
          intro x w2 D2 hx s2 r2
          cases hx
          by_cases ho : oom = true
          · have hnc : ¬ calm := fun h => by rw [(hcalm h).1] at ho; cases ho
            simp only [ho, if_true]
            intro w3 D3 s3 r3
            have r4 : Rely m calm D3 (D3.clear s) := ⟨storeOk_clear r3.1 s, fun h => absurd h hnc⟩
            refine ⟨r4, gives_fetch (fun h => absurd h hnc) hc fun x w4 D4 hx s4 r5 => ?_⟩
            exact hk x w4 D4 hx (s1.trans (s2.trans (s3.trans s4))) (r1.trans (r2.trans (r3.trans (r4.trans r5))))
          · simp only [ho, if_false, Bool.false_eq_true]
            intro w3 D3 s3 r3
            have r4 : Rely m calm D3 (D3.put s n (vecSpec m (sideReq s n))) := by
              refine ⟨storeOk_put r3.1 hres, fun _ t i v hv => ?_⟩
              rw [put_lookup]
              split
              · rename_i hti
                rw [hti.1, hti.2] at hv
                have := (r3.1 s).2 n v hv
                rw [hres] at this
                cases this
                rfl
              · exact hv
            refine ⟨r4, gives_fetch (fun _ => ⟨_, by rw [put_lookup, if_pos ⟨rfl, rfl⟩]⟩) hc fun x w4 D4 hx s4 r5 => ?_⟩
            exact hk x w4 D4 hx (s1.trans (s2.trans (s3.trans s4))) (r1.trans (r2.trans (r3.trans (r4.trans r5))))
        intro w1 D1 s1 r1
        cases hl : (D1 s).lookup n with
        | some v =>
          simp only
          refine gives_fetch (fun _ => ⟨v, hl⟩) hc fun x w2 D2 hx s2 r2 => hk x w2 D2 hx (s1.trans s2) (r1.trans r2)
        | none =>
          simp only
          intro w2 D2 s2 r2
          by_cases hb : lim s < (D2 s).length
          · have hnc : ¬ calm := by
              intro h
              have := (hcalm h).2 s
              have := store_length hf.fresh r2.1 s
              omega
            simp only [hb, decide_true, if_true]
            intro w3 D3 s3 r3
            have r4 : Rely m calm D3 (D3.clear s) := ⟨storeOk_clear r3.1 s, fun h => absurd h hnc⟩
            exact ⟨r4, rest w3 (D3.clear s) (s1.trans (s2.trans s3)) (r1.trans (r2.trans (r3.trans r4)))⟩
          · simp only [hb, decide_false, if_false, Bool.false_eq_true]
            exact rest w2 D2 (s1.trans s2) (r1.trans r2)
      · have hres : memVec m (sideReq s n) = .error .notFound := by rw [memVec_side hf.fresh, if_neg hlt]
        rw [hres, List.getElem?_eq_none (by omega)]
        simp only [Option.getD_none, if_true]
        exact cd_error _)
  exact h1

/-- The vectors of several ids, as the same data in memory gives them. -/
theorem cd_vecs (hn : NamesOk names) (hds : ds ∈ S) (hS0 : ∀ k ∈ S, (w0.insts k).isSome) (hf : FittedOn w0 ds m T B)
    (hnm : Named m) : ∀ (qs : List (KKind × Nat × Bool)), (∀ q ∈ qs, calm → q.2.2 = false ∧ Roomy m lim) →
    ∀ acc : List (List ℚ), CDelivers names S m lim calm w0 (fun k : List (List ℚ) → CProg β => cVecs ds k qs acc)
      ((qs.mapM fun q => memVec m (sideReq q.1 q.2.1)).map fun l => acc ++ l)
  | [], _, acc => by
    have := cd_ok (names := names) (S := S) (m := m) (lim := lim) (calm := calm) (w0 := w0) (β := β) acc
    simpa [cVecs, pure, Except.pure, Except.map] using this
  | q :: qs, h, acc => by
    have := CDelivers.bind (cd_vec (β := β) hn hds hS0 hf hnm q.2.2 (h q (by simp)) q.1 q.2.1)
      (Q := fun v k => cVecs ds k qs (acc ++ [v]))
      (res' := fun v => (qs.mapM fun q => memVec m (sideReq q.1 q.2.1)).map fun l => (acc ++ [v]) ++ l)
      fun v _ => cd_vecs hn hds hS0 hf hnm qs (fun q hq => h q (by simp [hq])) _
    have e : ((q :: qs).mapM fun q => memVec m (sideReq q.1 q.2.1)).map (fun l => acc ++ l) =
        (memVec m (sideReq q.1 q.2.1)).bind fun v =>
          (qs.mapM fun q => memVec m (sideReq q.1 q.2.1)).map fun l => (acc ++ [v]) ++ l := by
      rw [List.mapM_cons]
      cases memVec m (sideReq q.1 q.2.1) with
      | error e => rfl
      | ok p =>
        cases qs.mapM fun q => memVec m (sideReq q.1 q.2.1) with
        | error e => rfl
        | ok l => simp [bind, Except.bind, pure, Except.pure, Except.map]
    rw [e]
    exact this

/-- The result of a task that ends with what a part of it computes. -/
theorem cd_task {α' : Type} {P : (α → CProg α') → CProg α'} {res : Except Err α} (h : CDelivers names S m lim calm w0 P res)
    (hg : Good names w0) {D : VecStore} (hD : StoreOk m D) (f : α → α') :
    CGives names S m lim calm (P fun x => .ret (.ok (f x))) [] w0 D
      fun o => o = res.map f ∨ (¬ calm ∧ o = .error .keyError) := by
  refine h w0 D _ _ hg (fun i _ => Keeps.refl w0 i) hD ?_ (fun hc => Or.inr ⟨hc, rfl⟩) ?_
  · rintro e rfl
    exact Or.inl rfl
  · rintro x _ _ rfl _ _
    exact Or.inl rfl

/-! ## CDAE and DMF -/

theorem cd_cdaeScores (hn : NamesOk names) (hds : ds ∈ S) (hS0 : ∀ k ∈ S, (w0.insts k).isSome) (hf : FittedOn w0 ds m T B)
    (hnm : Named m) (hroom : calm → Roomy m lim) (t : ℚ) (net : Nat → List ℚ → Except Err (List ℚ)) (uid : Nat) :
    CDelivers names S m lim calm w0 (fun k : List ℚ → CProg β => cCdaeScores t net ds uid k)
      ((memVec m (.user uid)).bind fun v => net uid (onesFrom t v)) :=
  CDelivers.bind (cd_vec hn hds hS0 hf hnm false (fun h => ⟨rfl, hroom h⟩) .user uid) fun _ _ => cd_result _

theorem cd_cdaePredict (hn : NamesOk names) (hds : ds ∈ S) (hS0 : ∀ k ∈ S, (w0.insts k).isSome) (hf : FittedOn w0 ds m T B)
    (hnm : Named m) (hroom : calm → Roomy m lim) (t : ℚ) (net : Nat → List ℚ → Except Err (List ℚ)) (u i : Option Nat) :
    CDelivers names S m lim calm w0 (fun k : Option ℚ → CProg β => cCdaePredict t net ds u i k)
      (memCdaePredict t net m u i) := by
  cases u with
  | none => exact cd_ok _
  | some u =>
    have := CDelivers.bind (cd_cdaeScores (β := β) hn hds hS0 hf hnm hroom t net u)
      (Q := fun preds (k : Option ℚ → CProg β) => match i with
        | none => .ret (.error .crash)
        | some i => cResult (match preds[i]? with | some q => .ok (some q) | none => .error .outOfRange) k)
      (res' := fun preds => match i with
        | none => .error .crash
        | some i => match preds[i]? with | some q => .ok (some q) | none => .error .outOfRange) (by
        intro preds _
        cases i with
        | none => exact cd_error _
        | some i => exact cd_result _)
    have e : (((memVec m (.user u)).bind fun v => net u (onesFrom t v)).bind fun preds => match i with
        | none => .error .crash
        | some i => match preds[i]? with | some q => .ok (some q) | none => .error .outOfRange) =
        memCdaePredict t net m (some u) i := by
      simp only [memCdaePredict]
      cases memVec m (.user u) with
      | error e => rfl
      | ok v =>
        simp only [Except.bind]
        cases net u (onesFrom t v) with
        | error e => rfl
        | ok p => cases i <;> rfl
    rw [e] at this
    exact this

/-- A `_rank` method on the database with dictionaries computes what a `_rank` method in memory computes. -/
def CRankAlike (names : List String) (S : List Nat) (m : Mem) (lim : KKind → Nat) (calm : Prop) (w0 : World) (rk : CRankFn β)
    (rk' : RankFn) : Prop :=
  ∀ uid iids n novelty, CDelivers names S m lim calm w0 (rk uid iids n novelty) (rk' uid iids n novelty)

theorem cd_cdaeRank (hn : NamesOk names) (hds : ds ∈ S) (hS0 : ∀ k ∈ S, (w0.insts k).isSome) (hf : FittedOn w0 ds m T B)
    (hnm : Named m) (hroom : calm → Roomy m lim) (t : ℚ) (net : Nat → List ℚ → Except Err (List ℚ)) :
    CRankAlike (β := β) names S m lim calm w0 (cCdaeRank t net ds) (memCdaeRank t net m) := by
  intro uid iids n novelty
  have := CDelivers.bind (cd_cdaeScores (β := β) hn hds hS0 hf hnm hroom t net uid)
    (Q := fun preds (k : List (ℚ × Nat) → CProg β) => .run (dbCdaeItems ds uid iids novelty done) fun keep =>
      k (nlargest n (preds.zipIdx.filter fun p => p.2 ∈ keep)))
    (res' := fun preds => (cdaeItems m uid iids novelty).bind fun keep =>
      .ok (nlargest n (preds.zipIdx.filter fun p => p.2 ∈ keep)))
    fun preds _ => CDelivers.bind (cd_run (delivers_cdaeItems hn hds hS0 hf uid iids novelty)) fun keep _ => cd_ok _
  have e : (((memVec m (.user uid)).bind fun v => net uid (onesFrom t v)).bind fun preds =>
      (cdaeItems m uid iids novelty).bind fun keep => .ok (nlargest n (preds.zipIdx.filter fun p => p.2 ∈ keep))) =
      memCdaeRank t net m uid iids n novelty := by
    unfold memCdaeRank cdaeRank
    cases memVec m (.user uid) with
    | error e => rfl
    | ok v =>
      simp only [Except.bind]
      cases net uid (onesFrom t v) with
      | error e => rfl
      | ok p => cases cdaeItems m uid iids novelty <;> rfl
  rw [e] at this
  exact this

theorem cd_dmfPredict (hn : NamesOk names) (hds : ds ∈ S) (hS0 : ∀ k ∈ S, (w0.insts k).isSome) (hf : FittedOn w0 ds m T B)
    (hnm : Named m) (hroom : calm → Roomy m lim) (net : List ℚ → List ℚ → Except Err ℚ) (u i : Option Nat) :
    CDelivers names S m lim calm w0 (fun k : Option ℚ → CProg β => cDmfPredict net ds u i k) (memDmfPredict net m u i) := by
  cases u with
  | none => cases i <;> exact cd_error _
  | some u =>
    cases i with
    | none => exact cd_error _
    | some i =>
      have hv := fun s n => cd_vec (β := β) hn hds hS0 hf hnm false (fun h => ⟨rfl, hroom h⟩) s n
      have := CDelivers.bind (hv .user u)
        (Q := fun a (k : Option ℚ → CProg β) => cVec false ds .item i fun b => cResult (net a b) fun x => k (some x))
        (res' := fun a => (memVec m (.item i)).bind fun b => (net a b).bind fun x => .ok (some x))
        fun a _ => CDelivers.bind (hv .item i)
          (Q := fun b (k : Option ℚ → CProg β) => cResult (net a b) fun x => k (some x))
          fun b _ => CDelivers.bind (cd_result _) fun x _ => cd_ok _
      have e : ((memVec m (sideReq .user u)).bind fun a => (memVec m (.item i)).bind fun b => (net a b).bind fun x => .ok (some x)) =
          memDmfPredict net m (some u) (some i) := by
        simp only [memDmfPredict, sideReq]
        cases memVec m (.user u) with
        | error e => rfl
        | ok a =>
          simp only [Except.bind]
          cases memVec m (.item i) with
          | error e => rfl
          | ok b =>
            simp only
            cases net a b <;> rfl
      rw [e] at this
      exact this

theorem cd_scores {f : Nat → (Option (ℚ × Nat) → CProg β) → CProg β} {g : Nat → Except Err (Option (ℚ × Nat))}
    (h : ∀ i, CDelivers names S m lim calm w0 (f i) (g i)) : ∀ (is : List Nat) (acc : List (Option (ℚ × Nat))),
    CDelivers names S m lim calm w0 (fun k => cScores f k is acc) ((is.mapM g).map fun l => acc ++ l)
  | [], acc => by
    have := cd_ok (names := names) (S := S) (m := m) (lim := lim) (calm := calm) (w0 := w0) (β := β) acc
    simpa [cScores, pure, Except.pure, Except.map] using this
  | i :: is, acc => by
    have := CDelivers.bind (h i) (Q := fun p k => cScores f k is (acc ++ [p]))
      (res' := fun p => (is.mapM g).map fun l => (acc ++ [p]) ++ l) fun p _ => cd_scores h is _
    have e : ((i :: is).mapM g).map (fun l => acc ++ l) =
        (g i).bind fun p => (is.mapM g).map fun l => (acc ++ [p]) ++ l := by
      rw [List.mapM_cons]
      cases g i with
      | error e => rfl
      | ok p =>
        cases is.mapM g with
        | error e => rfl
        | ok l => simp [bind, Except.bind, pure, Except.pure, Except.map]
    rw [e]
    exact this

theorem cd_baseRank (hn : NamesOk names) (hds : ds ∈ S) (hS0 : ∀ k ∈ S, (w0.insts k).isSome) (hf : FittedOn w0 ds m T B)
    {f : Option Nat → Option Nat → (Option ℚ → CProg β) → CProg β} {f' : PredictFn ℚ}
    (h : ∀ u i, CDelivers names S m lim calm w0 (f u i) (f' u i)) :
    CRankAlike (β := β) names S m lim calm w0 (cBaseRank ds f) (baseRank m f') := by
  intro uid iids n novelty
  have hsc : ∀ i, CDelivers names S m lim calm w0
      (fun k : Option (ℚ × Nat) → CProg β => f (some uid) (some i) fun p => k (p.map fun s => (s, i))) (scored f' uid i) := by
    intro i
    have := cd_map (h (some uid) (some i)) fun p => p.map fun s => (s, i)
    have e : (f' (some uid) (some i)).map (fun p => p.map fun s => (s, i)) = scored f' uid i := by
      unfold scored
      cases f' (some uid) (some i) <;> rfl
    rw [e] at this
    exact this
  have go : ∀ cand : List Nat, CDelivers names S m lim calm w0 (fun k : List (ℚ × Nat) → CProg β =>
      cScores (fun i k => f (some uid) (some i) fun p => k (p.map fun s => (s, i)))
        (fun preds => k (nlargest n (preds.filterMap id))) cand [])
      (match cand.mapM (scored f' uid) with | .error e => .error e | .ok preds => .ok (nlargest n (preds.filterMap id))) := by
    intro cand
    have := CDelivers.bind (cd_scores hsc cand []) (Q := fun preds (k : List (ℚ × Nat) → CProg β) =>
      k (nlargest n (preds.filterMap id))) (res' := fun preds => .ok (nlargest n (preds.filterMap id))) fun p _ => cd_ok _
    have e : (((cand.mapM (scored f' uid)).map fun l => [] ++ l).bind fun preds => .ok (nlargest n (preds.filterMap id))) =
        (match cand.mapM (scored f' uid) with
          | .error e => .error e
          | .ok preds => .ok (nlargest n (preds.filterMap id))) := by
      cases cand.mapM (scored f' uid) <;> rfl
    rw [e] at this
    exact this
  unfold cBaseRank baseRank candidates
  cases novelty with
  | false => exact go iids
  | true =>
    simp only [if_true]
    rw [C64_rated m hf.fresh]
    exact CDelivers.bind (cd_run (delivers_rated hn hds hS0 hf uid))
      (Q := fun rated (k : List (ℚ × Nat) → CProg β) =>
        cScores (fun i k => f (some uid) (some i) fun p => k (p.map fun s => (s, i)))
          (fun preds => k (nlargest n (preds.filterMap id))) (novelIids iids rated) [])
      (res' := fun rated => match (novelIids iids rated).mapM (scored f' uid) with
        | .error e => .error e
        | .ok preds => .ok (nlargest n (preds.filterMap id))) fun rated _ => go _

/-! ## Calls -/

/-- The ids that `predict` looks up. -/
def bothOf (m : Mem) (user item : Lit) : Except Err (Option Nat × Option Nat) :=
  (userOf m user).bind fun u =>
    match m.itemToIid item with
    | .error e => .error e
    | .ok none => .error .notFound
    | .ok (some i) => .ok (some u, some i)

theorem predict_bind (m : Mem) (f' : PredictFn ℚ) (user item : Lit) :
    predicted m f' user item = (bothOf m user item).bind fun p => (f' p.1 p.2).bind fun o =>
      match o with | none => .error .crash | some x => .ok x := by
  unfold bothOf userOf
  simp only [predicted, predict, assertKnown, tryPredict, Bool.true_eq_false, if_false, Bool.false_eq_true]
  cases m.userToUid user with
  | error e => rfl
  | ok u =>
    cases u with
    | none => rfl
    | some u =>
      simp only [Except.bind]
      cases m.itemToIid item with
      | error e => rfl
      | ok i =>
        cases i with
        | none => rfl
        | some i =>
          simp only
          cases f' (some u) (some i) with
          | error e => rfl
          | ok o => cases o <;> rfl

theorem delivers_both (hds : ds ∈ S) (hf : FittedOn w0 ds m T B) (user item : Lit) :
    DeliversIn names S (sharedInv w0 S) (fun k : Option Nat × Option Nat → DbProg β =>
      .toId ds "user" "uid" user fun v =>
      if v = none then .ret (.error .notFound)
      else .toId ds "item" "iid" item fun v =>
        if v = none then .ret (.error .notFound)
        else .toId ds "user" "uid" user fun u => .toId ds "item" "iid" item fun i => k (u.map idCell, i.map idCell))
      (bothOf m user item) := by
  have st := shared_stable (names := names) w0 S
  have hu := delivers_toUid (β := β) (names := names) hds hf user
  have hi := delivers_toIid (β := β) (names := names) hds hf item
  unfold bothOf userOf
  cases eu : m.userToUid user with
  | error e =>
    rw [eu] at hu
    exact DeliversIn.bind st hu (Q := fun v k => _) (res' := fun _ => .error e) fun v hv => by cases hv
  | ok u =>
    rw [eu] at hu
    cases u with
    | none =>
      refine DeliversIn.bind st hu (Q := fun v k => if v = none then .ret (.error .notFound)
        else .toId ds "item" "iid" item fun v =>
          if v = none then .ret (.error .notFound)
          else .toId ds "user" "uid" user fun u => .toId ds "item" "iid" item fun i => k (u.map idCell, i.map idCell))
        (res' := fun _ => .error .notFound) fun v hv => ?_
      cases hv
      exact deliversIn_error _
    | some u =>
      simp only [except_bind_ok]
      refine DeliversIn.bind st hu (Q := fun v k => if v = none then .ret (.error .notFound)
        else .toId ds "item" "iid" item fun v =>
          if v = none then .ret (.error .notFound)
          else .toId ds "user" "uid" user fun u => .toId ds "item" "iid" item fun i => k (u.map idCell, i.map idCell))
        (res' := fun _ => match m.itemToIid item with
          | .error e => .error e
          | .ok none => .error .notFound
          | .ok (some i) => .ok (some u, some i)) fun v hv => ?_
      cases hv
      cases ei : m.itemToIid item with
      | error e =>
        rw [ei] at hi
        exact DeliversIn.bind st hi (Q := fun v k => _) (res' := fun _ => .error e) fun v hv => by cases hv
      | ok i =>
        rw [ei] at hi
        cases i with
        | none =>
          refine DeliversIn.bind st hi (Q := fun v k => if v = none then .ret (.error .notFound)
            else .toId ds "user" "uid" user fun u => .toId ds "item" "iid" item fun i => k (u.map idCell, i.map idCell))
            (res' := fun _ => .error .notFound) fun v hv => ?_
          cases hv
          exact deliversIn_error _
        | some i =>
          refine DeliversIn.bind st hi (Q := fun v k => if v = none then .ret (.error .notFound)
            else .toId ds "user" "uid" user fun u => .toId ds "item" "iid" item fun i => k (u.map idCell, i.map idCell))
            (res' := fun _ => .ok (some u, some i)) fun v hv => ?_
          cases hv
          refine DeliversIn.bind st hu (Q := fun u k => .toId ds "item" "iid" item fun i => k (u.map idCell, i.map idCell))
            (res' := fun _ => .ok (some u, some i)) fun v hv => ?_
          cases hv
          refine DeliversIn.bind st hi (Q := fun i k => k (some (idCell (codeVal u)), i.map idCell))
            (res' := fun _ => .ok (some u, some i)) fun v hv => ?_
          cases hv
          simp only [Option.map_some, idCell_code]
          exact deliversIn_ok _

theorem rank_bind (m : Mem) (rk' : RankFn) (user : Lit) (items : List Lit) (novelty skip : Bool) (n : Option Nat) :
    ((userOf m user).bind fun uid => (knownIids m skip items).bind fun iids =>
      if iids.length < n.getD iids.length then .error .assertion
      else (rk' uid iids (n.getD iids.length) novelty).bind fun l => toRaw m l) = rank m rk' user items novelty skip n := by
  unfold rank userOf
  cases m.userToUid user with
  | error e => rfl
  | ok o =>
    cases o with
    | none => rfl
    | some uid =>
      simp only [except_bind_ok]
      cases knownIids m skip items with
      | error e => rfl
      | ok iids =>
        simp only [except_bind_ok]
        split
        · rfl
        · cases rk' uid iids (n.getD iids.length) novelty <;> rfl

theorem cd_serve (hds : ds ∈ S) (hf : FittedOn w0 ds m T B)
    {f : Option Nat → Option Nat → (Option ℚ → CProg Reply) → CProg Reply} {f' : PredictFn ℚ} {rk : CRankFn Reply}
    {rk' : RankFn} (h : ∀ u i, CDelivers names S m lim calm w0 (f u i) (f' u i))
    (hrk : CRankAlike names S m lim calm w0 rk rk') (hg : Good names w0) {D : VecStore} (hD : StoreOk m D) (q : Request) :
    CGives names S m lim calm (cServe ds (nItemsOf m) f rk q) [] w0 D
      fun o => o = memServeBy m f' rk' q ∨ (¬ calm ∧ o = .error .keyError) := by
  have hraw : ∀ l : List (ℚ × Nat), CDelivers names S m lim calm w0 (fun k : List (ℚ × Option Val) → CProg Reply =>
      .run (dbToRaw ds done l []) k) (toRaw m l) := by
    intro l
    have := cd_run (m := m) (lim := lim) (calm := calm) (β := Reply)
      (delivers_raw (β := List (ℚ × Option Val)) (names := names) hds hf l [])
    have e : ((toRaw m l).map fun x => [] ++ x) = toRaw m l := by cases toRaw m l <;> rfl
    rw [e] at this
    exact this
  cases q with
  | predict user item =>
    have := CDelivers.bind (cd_run (m := m) (lim := lim) (calm := calm) (β := Reply)
        (delivers_both (β := Option Nat × Option Nat) (names := names) hds hf user item))
      (Q := fun p (k : ℚ → CProg Reply) => f p.1 p.2 fun x => match x with | none => .ret (.error .crash) | some x => k x)
      (res' := fun p => (f' p.1 p.2).bind fun o => match o with | none => .error .crash | some x => .ok x) (by
      intro p _
      refine CDelivers.bind (h p.1 p.2) (Q := fun x k => match x with | none => .ret (.error .crash) | some x => k x) ?_
      intro x _
      cases x with
      | none => exact cd_error _
      | some x => exact cd_ok _)
    rw [← predict_bind] at this
    have := cd_task this hg hD Reply.score
    have e : (predicted m f' user item).map Reply.score = memServeBy m f' rk' (.predict user item) := by
      simp only [predicted, memServeBy]
      cases predict m true f' user item false with
      | error e => rfl
      | ok o => cases o <;> rfl
    rw [e] at this
    exact this
  | rank user items novelty skip n =>
    have hk := cd_run (m := m) (lim := lim) (calm := calm) (β := Reply)
      (delivers_known (β := List Nat) (names := names) hds hf skip items [])
    have e : ((knownIids m skip items).map fun l => [] ++ l) = knownIids m skip items := by
      cases knownIids m skip items <;> rfl
    rw [e] at hk
    have := CDelivers.bind (cd_run (m := m) (lim := lim) (calm := calm) (β := Reply)
        (delivers_user (β := Nat) (names := names) hds hf user))
      (Q := fun uid (k : List (ℚ × Option Val) → CProg Reply) => .run (dbKnown ds skip done items []) fun iids =>
        if iids.length < n.getD iids.length then .ret (.error .assertion)
        else rk uid iids (n.getD iids.length) novelty fun l => .run (dbToRaw ds done l []) k)
      (res' := fun uid => (knownIids m skip items).bind fun iids =>
        if iids.length < n.getD iids.length then .error .assertion
        else (rk' uid iids (n.getD iids.length) novelty).bind fun l => toRaw m l) (by
        intro uid _
        refine CDelivers.bind hk (Q := fun iids (k : List (ℚ × Option Val) → CProg Reply) =>
          if iids.length < n.getD iids.length then .ret (.error .assertion)
          else rk uid iids (n.getD iids.length) novelty fun l => .run (dbToRaw ds done l []) k) ?_
        intro iids _
        split
        · exact cd_error _
        · exact CDelivers.bind (hrk _ _ _ _) fun l _ => hraw l)
    rw [rank_bind] at this
    exact cd_task this hg hD Reply.ranking
  | recommend user n novelty threshold =>
    have := CDelivers.bind (cd_run (m := m) (lim := lim) (calm := calm) (β := Reply)
        (delivers_user (β := Nat) (names := names) hds hf user))
      (Q := fun uid (k : List (ℚ × Option Val) → CProg Reply) =>
        rk uid (List.range (nItemsOf m)) (n.getD (nItemsOf m)) novelty fun l =>
        .run (dbToRaw ds done (match threshold with | none => l | some t => l.filter fun p => t ≤ p.1) []) k)
      (res' := fun uid => (rk' uid (List.range (nItemsOf m)) (n.getD (nItemsOf m)) novelty).bind fun l =>
        toRaw m (match threshold with | none => l | some t => l.filter fun p => t ≤ p.1)) (by
        intro uid _
        exact CDelivers.bind (hrk _ _ _ _) fun l _ => hraw _)
    have e := recommend_bind m rk' user n novelty threshold
    have h2 := (congrArg (CDelivers names S m lim calm w0 _) e).mp this
    exact cd_task h2 hg hD Reply.ranking

end

end DRec.Conc
