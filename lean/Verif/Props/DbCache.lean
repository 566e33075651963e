import Verif.Spec.DbCache
import Verif.Lemmas.DbCache
import Verif.Props.DbNets

/-!
# C128: Interaction vectors of a database dataset asked for by several threads

The dictionaries of computed vectors are shared by all threads.  Whatever the interleaving, a vector is right; but a vector
that is in the dictionary when it is looked for may be gone when it is fetched.
-/

namespace DRec.Conc

open Spec

theorem vecTask_gives {names : List String} {w : World} (hn : NamesOk names) (hg : Good names w) {i : Nat} {x : Inst} {m : Mem}
    (h : Ready w i x m) (hnm : Named m) {lim : KKind → Nat} {D : VecStore} (hD : StoreOk m D) {calm : Prop}
    {qs : List (KKind × Nat × Bool)} (hc : ∀ q ∈ qs, calm → q.2.2 = false ∧ Roomy m lim) :
    CGives names [i] m lim calm (vecTask i qs) [] w D fun o => o = memVecs m qs ∨ (¬ calm ∧ o = .error .keyError) := by
  have hS : ∀ k ∈ [i], (w.insts k).isSome := by simp [h.same.object]
  have := cd_task (cd_vecs hn (by simp) hS (ready_fitted h) hnm qs hc []) hg hD id
  have e : ∀ r : Except Err (List (List ℚ)), (r.map fun l => [] ++ l).map id = r := fun r => by cases r <;> rfl
  rw [e] at this
  exact this

/-- **C128**, in general: whatever the interleaving, with or without enough memory and whatever the limits of the
dictionaries, every thread gets the right vectors (the exception for an unknown id) or `KeyError`, and the dictionaries
hold right vectors afterwards. -/
theorem C128_right_or_missing (names : List String) (w : World) (hw : Reached names w) (i : Nat) (x : Inst) (m : Mem)
    (h : Ready w i x m) (hnm : Named m) (lim : KKind → Nat) (D : VecStore) (hD : StoreOk m D)
    (jobs : List (List (KKind × Nat × Bool))) (w' : World) (D' : VecStore) (outs : List (Except Err (List (List ℚ))))
    (hrun : CRuns lim w D (jobs.map (vecTask i)) w' D' (outs.map .ret)) :
    outs.length = jobs.length ∧ StoreOk m D' ∧
    ∀ (t : Nat) o qs, outs[t]? = some o → jobs[t]? = some qs → o = memVecs m qs ∨ o = .error .keyError := by
  obtain ⟨hn, hg⟩ := reached_good hw
  have hS : ∀ k ∈ [i], (w.insts k).isSome := by simp [h.same.object]
  exact (cpool_map (calm := False) hg hD hS
    (fun qs _ => vecTask_gives hn hg h hnm hD fun _ _ hc => hc.elim) hrun).1

/-- **C128**, enough room: if memory suffices and there are no more users and items than the limits of the dictionaries
say, every thread gets the right vectors. -/
theorem C128_right_partial (names : List String) (w : World) (hw : Reached names w) (i : Nat) (x : Inst) (m : Mem)
    (h : Ready w i x m) (hnm : Named m) (lim : KKind → Nat) (hroom : Roomy m lim) (D : VecStore) (hD : StoreOk m D)
    (jobs : List (List (KKind × Nat × Bool))) (hmem : ∀ qs ∈ jobs, ∀ q ∈ qs, q.2.2 = false) (w' : World) (D' : VecStore)
    (outs : List (Except Err (List (List ℚ)))) (hrun : CRuns lim w D (jobs.map (vecTask i)) w' D' (outs.map .ret)) :
    outs = jobs.map (memVecs m) := by
  obtain ⟨hn, hg⟩ := reached_good hw
  have hS : ∀ k ∈ [i], (w.insts k).isSome := by simp [h.same.object]
  exact (cpool_map (calm := True) hg hD hS
    (fun qs hqs => vecTask_gives hn hg h hnm hD fun q hq _ => ⟨hmem qs hqs q hq, hroom⟩) hrun).2 trivial

/-- **C128**, refuted without these limits: as soon as a dictionary is longer than its limit, a thread that asks for a
vector in the dictionary can get `KeyError` because another thread asks for a vector that is not there, for all datasets,
dictionaries and ids: the other thread empties the dictionary after the first one has seen the key. -/
theorem C128_refuted (names : List String) (w : World) (hw : Reached names w) (i : Nat) (x : Inst) (m : Mem)
    (h : Ready w i x m) (hnm : Named m) (lim : KKind → Nat) (D : VecStore) (s : KKind) (hfull : lim s < (D s).length)
    (u v : Nat) (hu : u < (sideMap s m).length) (hv : v < (sideMap s m).length) (hin : ((D s).lookup u).isSome)
    (hout : (D s).lookup v = none) : ∃ (w' : World) (D' : VecStore) (o : Except Err (List (List ℚ))),
      CRuns lim w D ([[(s, u, false)], [(s, v, false)]].map (vecTask i)) w' D' ([.error .keyError, o].map .ret) := by
  obtain ⟨hn, hg⟩ := reached_good hw
  have hf := ready_fitted h
  have hraw : ∀ n, n < (sideMap s m).length → ∃ a, w.toRaw i (sideOf s).raw (sideOf s).own n = .ok (some a) ∧ a ≠ .null := by
    intro n hlt
    have hnn := (side_named hf.fresh hnm s hlt).1
    refine ⟨(sideMap s m)[n], ?_, ?_⟩
    · have := toRaw_fitted hg hf (side_ids hf.fresh s) (side_all hf.fresh s) n
      rw [this, List.getElem?_eq_getElem hlt]
    · rw [List.getElem?_eq_getElem hlt] at hnn
      exact hnn
  obtain ⟨a, ha, ha'⟩ := hraw u hu
  obtain ⟨b, hb, hb'⟩ := hraw v hv
  obtain ⟨y, hy⟩ := Option.isSome_iff_exists.1 hin
  simp only [List.map_cons, List.map_nil, vecTask, cVecs, cVec]
  have fin : ∀ q : CProg (List (List ℚ)), ∃ (w' : World) (D' : VecStore) (o : Except Err (List (List ℚ))),
      CRuns lim w (D.clear s) [.ret (.error .keyError), q] w' D' [.ret (.error .keyError), .ret o] := by
    intro q
    obtain ⟨w', D', r, hr⟩ := cruns_finish (lim := lim) q w (D.clear s) [.ret (.error .keyError), q] 1 rfl
    exact ⟨w', D', r, hr⟩
  have st : ∀ {D D1 : VecStore} {ps : List (CProg (List (List ℚ)))} {t : Nat} {p q : CProg (List (List ℚ))}, ps[t]? = some p →
      p.step lim w D = (w, D1, q) → (∃ (w' : World) (D' : VecStore) (o : Except Err (List (List ℚ))),
        CRuns lim w D1 (ps.set t q) w' D' [.ret (.error .keyError), .ret o]) →
      ∃ (w' : World) (D' : VecStore) (o : Except Err (List (List ℚ))),
        CRuns lim w D ps w' D' [.ret (.error .keyError), .ret o] :=
    fun hp he ⟨w', D', o, ho⟩ => ⟨w', D', o, cruns_step hp he ho⟩
  refine st (t := 0) rfl (by simp only [CProg.step, DbProg.step, ha]; rfl) ?_
  refine st (t := 0) rfl (by simp only [CProg.step, done]; rfl) ?_
  simp only [List.set_cons_zero, Option.getD_some, ha', if_false]
  refine st (t := 0) rfl (by simp only [CProg.step, hy]; rfl) ?_
  refine st (t := 1) rfl (by simp only [CProg.step, DbProg.step, hb]; rfl) ?_
  refine st (t := 1) rfl (by simp only [CProg.step, done]; rfl) ?_
  simp only [List.set_cons_zero, List.set_cons_succ, Option.getD_some, hb', if_false]
  refine st (t := 1) rfl (by simp only [CProg.step, hout]; rfl) ?_
  refine st (t := 1) rfl (by simp only [CProg.step, hfull, decide_true, if_true]; rfl) ?_
  refine st (t := 1) rfl (by simp only [CProg.step]; rfl) ?_
  refine st (t := 0) rfl (by simp only [cFetch, CProg.step]; rfl) ?_
  simp only [VecStore.clear, if_true, List.lookup_nil]
  exact fin _

/-- **C128**, termination: any pool of such threads has a complete run. -/
theorem C128_returns (w : World) (i : Nat) (lim : KKind → Nat) (D : VecStore) (jobs : List (List (KKind × Nat × Bool))) :
    ∃ (w' : World) (D' : VecStore) (outs : List (Except Err (List (List ℚ)))),
      CRuns lim w D (jobs.map (vecTask i)) w' D' (outs.map .ret) := cruns_exists lim w D _

/-- **C127**, answers with the dictionaries: any number of calls of `predict`, `rank` and `recommend` of a CDAE (a DMF) that
share the dictionaries of vectors, interleaved in any way, return (or raise) what the recommender with the same network
returns (or raises) in memory, if there are no more users and items than the limits of the dictionaries say; otherwise some
calls may raise `KeyError` instead. -/
theorem C127_dictionaries (names : List String) (w : World) (hw : Reached names w) (i : Nat) (x : Inst) (m : Mem)
    (h : Ready w i x m) (hnm : Named m) (lim : KKind → Nat) (D : VecStore) (hD : StoreOk m D) (qs : List Request) (w' : World)
    (D' : VecStore) (outs : List (Except Err Reply)) (task : Request → CProg Reply) (res : Request → Except Err Reply)
    (htask : (∃ t net, task = cCdaeServe t net i (nItemsOf m) ∧
        res = memServeBy m (memCdaePredict t net m) (memCdaeRank t net m)) ∨
      ∃ net, task = cDmfServe net i (nItemsOf m) ∧ res = memServeBy m (memDmfPredict net m) (baseRank m (memDmfPredict net m)))
    (hrun : CRuns lim w D (qs.map task) w' D' (outs.map .ret)) :
    (Roomy m lim → outs = qs.map res) ∧ StoreOk m D' ∧ outs.length = qs.length ∧
    ∀ (t : Nat) o q, outs[t]? = some o → qs[t]? = some q → o = res q ∨ o = .error .keyError := by
  obtain ⟨hn, hg⟩ := reached_good hw
  have hS : ∀ k ∈ [i], (w.insts k).isSome := by simp [h.same.object]
  have hf := ready_fitted h
  have key := cpool_map (names := names) (S := [i]) (calm := Roomy m lim) (res := res) hg hD hS (by
    intro q _
    rcases htask with ⟨t, net, rfl, rfl⟩ | ⟨net, rfl, rfl⟩
    · exact cd_serve (by simp) hf (cd_cdaePredict hn (by simp) hS hf hnm id t net)
        (cd_cdaeRank hn (by simp) hS hf hnm id t net) hg hD q
    · exact cd_serve (by simp) hf (cd_dmfPredict hn (by simp) hS hf hnm id net)
        (cd_baseRank hn (by simp) hS hf (cd_dmfPredict hn (by simp) hS hf hnm id net)) hg hD q) hrun
  exact ⟨key.2, key.1.2.1, key.1.1, key.1.2.2⟩

/-! ## A concrete dataset -/

/-- The dictionaries when nothing has been asked for. -/
def noVecs : VecStore := fun _ => []

theorem noVecs_ok (m : Mem) : StoreOk m noVecs := fun _ => ⟨by simp [noVecs], by simp [noVecs]⟩

/-- The vector of the first user is known. -/
def oneVec : VecStore := fun s => match s with | .user => [(0, [5, 3])] | .item => []

theorem oneVec_ok : StoreOk exBothMem.assignIds.1 oneVec := by
  intro s
  cases s with
  | item => exact ⟨by simp [oneVec], by simp [oneVec]⟩
  | user =>
    refine ⟨by simp [oneVec], fun n v h => ?_⟩
    by_cases hn : n = 0
    · subst hn
      have : v = [5, 3] := by simpa [oneVec] using h.symm
      subst this
      decide +kernel
    · have hb : (n == 0) = false := by simpa using hn
      simp [oneVec, List.lookup, hb] at h

/-- Three threads: two vectors (with enough room), an unknown item. -/
example : ∃ w1 y w2 D2, ∃ outs : List (Except Err (List (List ℚ))), Reached exDbNames w1 ∧
    Ready w1 0 y exBothMem.assignIds.1 ∧ Named exBothMem.assignIds.1 ∧ Roomy exBothMem.assignIds.1 (fun _ => 2) ∧
    StoreOk exBothMem.assignIds.1 oneVec ∧
    CRuns (fun _ => 2) w1 oneVec ([[(.user, 0, false), (.item, 0, false)], [(.user, 1, false)], [(.item, 5, false)]].map
      (vecTask 0)) w2 D2 (outs.map .ret) ∧
    outs = [.ok [[5, 3], [5, 4]], .ok [[4, 0]], .error .notFound] := by
  obtain ⟨x, hx⟩ := exWorld_trainable
  have hw : Reached exDbNames exWorld := ⟨exDbCols, _, _, [], by decide, by decide, by decide, by decide, trivial, rfl⟩
  obtain ⟨w1, y, h1, h2, h3⟩ := C116_ready exDbNames exWorld hw 0 x exBothMem hx
  have hroom : Roomy exBothMem.assignIds.1 fun _ => 2 := fun s => by cases s <;> decide +kernel
  obtain ⟨w2, D2, outs, hrun⟩ := C128_returns w1 0 (fun _ => 2) oneVec
    [[(.user, 0, false), (.item, 0, false)], [(.user, 1, false)], [(.item, 5, false)]]
  refine ⟨w1, y, w2, D2, outs, h2, h3, exAssigned_named, hroom, oneVec_ok, hrun, ?_⟩
  rw [C128_right_partial exDbNames w1 h2 0 y _ h3 exAssigned_named _ hroom oneVec oneVec_ok _ (by simp) w2 D2 outs hrun]
  decide +kernel

/-- With a limit of zero vectors: a thread asks for the vector of the first user, which is known, and gets `KeyError`. -/
example : ∃ w1 y, ∃ (w2 : World) (D2 : VecStore) (o : Except Err (List (List ℚ))), Reached exDbNames w1 ∧
    Ready w1 0 y exBothMem.assignIds.1 ∧ memVecs exBothMem.assignIds.1 [(.user, 0, false)] = .ok [[5, 3]] ∧
    CRuns (fun _ => 0) w1 oneVec ([[(.user, 0, false)], [(.user, 1, false)]].map (vecTask 0)) w2 D2
      ([.error .keyError, o].map .ret) := by
  obtain ⟨x, hx⟩ := exWorld_trainable
  have hw : Reached exDbNames exWorld := ⟨exDbCols, _, _, [], by decide, by decide, by decide, by decide, trivial, rfl⟩
  obtain ⟨w1, y, h1, h2, h3⟩ := C116_ready exDbNames exWorld hw 0 x exBothMem hx
  obtain ⟨w2, D2, o, hrun⟩ := C128_refuted exDbNames w1 h2 0 y _ h3 exAssigned_named (fun _ => 0) oneVec .user (by decide) 0 1
    (by decide +kernel) (by decide +kernel) (by decide) (by decide)
  exact ⟨w1, y, w2, D2, o, h2, h3, by decide +kernel, hrun⟩

/-- Calls of a DMF that share the dictionaries. -/
example : ∃ w1 y w2 D2, ∃ outs : List (Except Err Reply), Reached exDbNames w1 ∧
    Ready w1 0 y exBothMem.assignIds.1 ∧ Roomy exBothMem.assignIds.1 (fun _ => 2) ∧
    CRuns (fun _ => 2) w1 oneVec ([Request.predict (.int 2) (.int 20), .rank (.int 1) [.int 10, .int 20] false true none,
      .recommend (.int 2) (some 1) true none].map (cDmfServe exDmfNet 0 (nItemsOf exBothMem.assignIds.1))) w2 D2
      (outs.map .ret) ∧
    outs = [.ok (.score 12), .ok (.ranking [(37, some (.num 10)), (15, some (.num 20))]),
      .ok (.ranking [(12, some (.num 20))])] := by
  obtain ⟨x, hx⟩ := exWorld_trainable
  have hw : Reached exDbNames exWorld := ⟨exDbCols, _, _, [], by decide, by decide, by decide, by decide, trivial, rfl⟩
  obtain ⟨w1, y, h1, h2, h3⟩ := C116_ready exDbNames exWorld hw 0 x exBothMem hx
  have hroom : Roomy exBothMem.assignIds.1 fun _ => 2 := fun s => by cases s <;> decide +kernel
  obtain ⟨w2, D2, outs, hrun⟩ := cruns_exists (fun _ => 2) w1 oneVec
    ([Request.predict (.int 2) (.int 20), .rank (.int 1) [.int 10, .int 20] false true none,
      .recommend (.int 2) (some 1) true none].map (cDmfServe exDmfNet 0 (nItemsOf exBothMem.assignIds.1)))
  refine ⟨w1, y, w2, D2, outs, h2, h3, hroom, hrun, ?_⟩
  rw [(C127_dictionaries exDbNames w1 h2 0 y _ h3 exAssigned_named _ oneVec oneVec_ok _ w2 D2 outs _ _
    (Or.inr ⟨exDmfNet, rfl, rfl⟩) hrun).1 hroom]
  decide +kernel

end DRec.Conc
