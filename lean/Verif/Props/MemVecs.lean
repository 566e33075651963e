import Verif.Model.MemVecs
import Verif.Spec.MemVecs
import Verif.Props.MemOom

/-!
# C128: Interaction vectors of an in-memory dataset asked for by several threads
-/

namespace DRec.Conc

open Spec

/-! ## Invariant -/

/-- What holds of a thread in each place: `built` tells whether both matrices were there at the beginning. -/
def ThreadOk (m : Mem) (built : Prop) (ds : Mem) (th : VecThread) : Prop :=
  match th.pc with
  | .start => True
  | .present => th.req.Known m
  | .shape => th.req.Known m ∧ ds.cache = some (fullMat m)
  | .absent => th.req.Known m
  | .build => th.req.Known m
  | .write M => th.req.Known m ∧ M = fullMat m
  | .transpose => th.req.Known m ∧ ds.cache = some (fullMat m)
  | .fetch => th.req.Known m ∧ ds.cache = some (fullMat m)
  | .marker => False
  | .slow => False
  | .done r => VecAnswer m th.req r ∨ (¬ built ∧ (∃ i, th.req = .item i) ∧ r = .error .crash)

/-- What holds of the matrices. -/
structure MatsOk (m : Mem) (built : Prop) (ds : Mem) : Prop where
  same : SameRecords ds m
  cache : ds.cache = none ∨ ds.cache = some (fullMat m)
  cacheT : ds.cacheT = none ∨ ds.cacheT = some (fullMat m)
  built : built → ds.cache = some (fullMat m) ∧ ds.cacheT = some (fullMat m)

theorem vecKnown_ok {m ds : Mem} (h : Fresh m) (hs : SameRecords ds m) (q : VecReq) :
    (q.Known m → vecKnown ds q = .ok ()) ∧ (¬ q.Known m → vecKnown ds q = .error .notFound) := by
  obtain ⟨_, _, h3, h4, h5⟩ := hs
  have hi := h3.trans h.ids.has
  cases q with
  | user u =>
    simp only [VecReq.Known, vecKnown, Mem.uidToUser, hi, if_true, h4]
    refine ⟨fun hu => ?_, fun hu => ?_⟩
    · rw [List.getElem?_eq_getElem hu]
    · rw [List.getElem?_eq_none (by omega)]
  | item i =>
    simp only [VecReq.Known, vecKnown, Mem.iidToItem, hi, if_true, h5]
    refine ⟨fun hu => ?_, fun hu => ?_⟩
    · rw [List.getElem?_eq_getElem hu]
    · rw [List.getElem?_eq_none (by omega)]

theorem vecStep_ok {m ds : Mem} {built : Prop} (h : Fresh m) (hu : 2 ≤ m.userMap.length) (hm : MatsOk m built ds)
    {th : VecThread} (ho : th.oom = false) (ht : ThreadOk m built ds th) :
    MatsOk m built (vecStep th.oom th.req ds th.pc).1 ∧
    ((ds.cache = some (fullMat m)) → (vecStep th.oom th.req ds th.pc).1.cache = some (fullMat m)) ∧
    ThreadOk m built (vecStep th.oom th.req ds th.pc).1 { th with pc := (vecStep th.oom th.req ds th.pc).2 } := by
  obtain ⟨q, oom, pc⟩ := th
  simp only at ho
  subst ho
  have hb : ds.buildMatrix = .ok (fullMat m) := by
    rw [buildMatrix_ok ds (hm.same.fresh h), fullMat_congr hm.same]
  cases pc with
  | start =>
    by_cases hq : q.Known m
    · simp only [vecStep, (vecKnown_ok h hm.same q).1 hq]
      exact ⟨hm, id, hq⟩
    · simp only [vecStep, (vecKnown_ok h hm.same q).2 hq]
      exact ⟨hm, id, Or.inl ⟨fun h => absurd h hq, fun _ => rfl⟩⟩
  | present =>
    refine ⟨hm, id, ?_⟩
    simp only [vecStep]
    rcases hm.cache with hc | hc
    · simp only [hc, if_true]; exact ht
    · simp only [hc, reduceCtorEq, if_false]; exact ⟨ht, hc⟩
  | shape =>
    have hn : ¬ (fullMat m).nrows ≤ 1 := by
      have : (fullMat m).nrows = m.userMap.length := rfl
      omega
    simp only [vecStep, ht.2, hn, if_false]
    exact ⟨hm, id, ht.1⟩
  | absent =>
    refine ⟨hm, id, ?_⟩
    simp only [vecStep]
    rcases hm.cache with hc | hc
    · simp only [hc, if_true]; exact ht
    · simp only [hc, reduceCtorEq, if_false]; exact ⟨ht, hc⟩
  | build =>
    simp only [vecStep, hb, Bool.false_eq_true, if_false]
    exact ⟨hm, id, ht, rfl⟩
  | write M =>
    obtain ⟨hq, rfl⟩ := ht
    exact ⟨⟨hm.same, Or.inr rfl, hm.cacheT, fun hb => ⟨rfl, (hm.built hb).2⟩⟩, fun _ => rfl, hq, rfl⟩
  | transpose =>
    simp only [vecStep, ht.2]
    exact ⟨⟨hm.same, Or.inr rfl, Or.inr rfl, fun _ => ⟨rfl, rfl⟩⟩, fun _ => trivial, ht.1, rfl⟩
  | fetch =>
    refine ⟨hm, id, ?_⟩
    obtain ⟨hq, hc⟩ := ht
    simp only [vecStep, ThreadOk]
    cases q with
    | user u =>
      have : u < (fullMat m).nrows := hq
      refine Or.inl ⟨fun _ => ?_, fun h => absurd hq h⟩
      simp only [vecFetch, hc, this, if_true, fullMat_row m h u hq]
    | item i =>
      rcases hm.cacheT with hT | hT
      · refine Or.inr ⟨fun hb => ?_, ⟨i, rfl⟩, by simp [vecFetch, hT]⟩
        have := (hm.built hb).2
        rw [hT] at this
        cases this
      · have : i < (fullMat m).ncols := hq
        refine Or.inl ⟨fun _ => ?_, fun h => absurd hq h⟩
        simp only [vecFetch, hT, this, if_true, fullMat_col m h i]
  | marker => exact ht.elim
  | slow => exact ht.elim
  | done r => exact ⟨hm, id, ht⟩

theorem ThreadOk.mono {m ds ds' : Mem} {built : Prop} {th : VecThread} (h : ThreadOk m built ds th)
    (hc : ds.cache = some (fullMat m) → ds'.cache = some (fullMat m)) : ThreadOk m built ds' th := by
  unfold ThreadOk at h ⊢
  split at h <;> simp_all

/-- What holds of the pool. -/
def VecPoolOk (m : Mem) (built : Prop) (qs : List (VecReq × Bool)) (ds : Mem) (ts : List VecThread) : Prop :=
  MatsOk m built ds ∧ ts.map (fun th => (th.req, th.oom)) = qs ∧ ∀ th ∈ ts, ThreadOk m built ds th

theorem vecPoolStep_ok {m ds : Mem} {built : Prop} (h : Fresh m) (hu : 2 ≤ m.userMap.length) {qs : List (VecReq × Bool)}
    (ho : ∀ q ∈ qs, q.2 = false) {ts : List VecThread} (hp : VecPoolOk m built qs ds ts) (t : Nat) :
    VecPoolOk m built qs (vecPoolStep t ds ts).1 (vecPoolStep t ds ts).2 := by
  obtain ⟨hm, hq, hall⟩ := hp
  unfold vecPoolStep
  cases ht : ts[t]? with
  | none => exact ⟨hm, hq, hall⟩
  | some th =>
    obtain ⟨hlt, he⟩ := List.getElem?_eq_some_iff.1 ht
    have hmem : th ∈ ts := List.mem_of_getElem? ht
    have hoom : th.oom = false := ho (th.req, th.oom) (by rw [← hq]; exact List.mem_map.2 ⟨th, hmem, rfl⟩)
    obtain ⟨h1, h2, h3⟩ := vecStep_ok h hu hm hoom (hall th hmem)
    refine ⟨h1, ?_, ?_⟩
    · rw [← hq, List.map_set]
      have e : (th.req, th.oom) = (ts.map fun th => (th.req, th.oom))[t]'(by simpa using hlt) := by simp [he]
      simp only
      rw [e, List.set_getElem_self]
    · intro th' hth'
      rcases List.mem_or_eq_of_mem_set hth' with h | rfl
      · exact (hall th' h).mono h2
      · exact h3

theorem vecSchedule_ok {m : Mem} {built : Prop} (h : Fresh m) (hu : 2 ≤ m.userMap.length) {qs : List (VecReq × Bool)}
    (ho : ∀ q ∈ qs, q.2 = false) : ∀ (sched : List Nat) {ds : Mem} {ts : List VecThread}, VecPoolOk m built qs ds ts →
    VecPoolOk m built qs (vecSchedule sched ds ts).1 (vecSchedule sched ds ts).2
  | [], _, _, hp => hp
  | t :: sched, _, _, hp => vecSchedule_ok h hu ho sched (vecPoolStep_ok h hu ho hp t)

theorem vecStart_req (qs : List (VecReq × Bool)) : (vecStart qs).map (fun th => (th.req, th.oom)) = qs := by
  simp [vecStart, Function.comp_def]

/-- **C128**, in memory: with at least two users and enough memory, whatever the interleaving, a thread that asks for the
vector of a user gets the totals of the interactions (the exception for an unknown id); a thread that asks for the vector of
an item gets the same or, only if no vector was asked for before, `TypeError`. -/
theorem C128_memory_partial (m : Mem) (h : Fresh m) (hu : 2 ≤ m.userMap.length) (hc : m.cache = none) (hT : m.cacheT = none)
    (qs : List (VecReq × Bool)) (ho : ∀ q ∈ qs, q.2 = false) (sched : List Nat) (t : Nat) (th : VecThread)
    (r : Except Err (List ℚ)) :
    (((vecSchedule sched m (vecStart qs)).2[t]? = some th → th.pc = .done r →
      VecAnswer m th.req r ∨ ((∃ i, th.req = .item i) ∧ r = .error .crash))) ∧
    (∀ q0 : VecReq, q0.Known m → (vecSchedule sched (serve m q0).1 (vecStart qs)).2[t]? = some th → th.pc = .done r →
      VecAnswer m th.req r) := by
  have h0 : ∀ built ds, ∀ th ∈ vecStart qs, ThreadOk m built ds th := by
    intro built ds th hth
    obtain ⟨q, _, rfl⟩ := List.mem_map.1 hth
    trivial
  refine ⟨fun ht hr => ?_, fun q0 hq0 ht hr => ?_⟩
  · have hp : VecPoolOk m False qs m (vecStart qs) :=
      ⟨⟨⟨rfl, rfl, rfl, rfl, rfl⟩, Or.inl hc, Or.inl hT, False.elim⟩, vecStart_req qs, h0 _ _⟩
    have := (vecSchedule_ok h hu ho sched hp).2.2 th (List.mem_of_getElem? ht)
    unfold ThreadOk at this
    rw [hr] at this
    rcases this with h | ⟨_, h⟩
    · exact Or.inl h
    · exact Or.inr h
  · have hs : (serve m q0).1 = { m with cache := some (fullMat m), cacheT := some (fullMat m) } := by
      cases q0 with
      | user u =>
        have h1 : m.uidToUser u = .ok (some m.userMap[u]) := by simp [Mem.uidToUser, h.ids.has, show u < _ from hq0]; rfl
        simp only [serve, Mem.userVec, h1, hc, buildMatrix_ok m h]
      | item i =>
        have h1 : m.iidToItem i = .ok (some m.itemMap[i]) := by simp [Mem.iidToItem, h.ids.has, show i < _ from hq0]; rfl
        simp only [serve, Mem.itemVec, h1, hc, buildMatrix_ok m h]
    rw [hs] at ht
    have hp : VecPoolOk m True qs { m with cache := some (fullMat m), cacheT := some (fullMat m) } (vecStart qs) :=
      ⟨⟨⟨rfl, rfl, rfl, rfl, rfl⟩, Or.inr rfl, Or.inr rfl, fun _ => ⟨rfl, rfl⟩⟩, vecStart_req qs, h0 _ _⟩
    have := (vecSchedule_ok h hu ho sched hp).2.2 th (List.mem_of_getElem? ht)
    unfold ThreadOk at this
    rw [hr] at this
    rcases this with h | ⟨h, _⟩
    · exact h
    · exact absurd trivial h

/-! ## Termination -/

/-- Steps left at most. -/
def VecPc.left : VecPc → Nat
  | .start => 9
  | .present => 8
  | .shape => 7
  | .absent => 6
  | .build => 5
  | .write _ => 4
  | .transpose => 3
  | .fetch => 1
  | .marker => 2
  | .slow => 1
  | .done _ => 0

theorem vecStep_left (oom : Bool) (q : VecReq) (ds : Mem) (pc : VecPc) :
    (vecStep oom q ds pc).2.left ≤ pc.left - 1 := by
  cases pc with
  | start => simp only [vecStep]; split <;> simp [VecPc.left]
  | present => simp only [vecStep]; split <;> simp [VecPc.left]
  | shape =>
    simp only [vecStep]
    split
    · simp [VecPc.left]
    · simp only; split <;> simp [VecPc.left]
  | absent => simp only [vecStep]; split <;> simp [VecPc.left]
  | build =>
    simp only [vecStep]
    split
    · simp [VecPc.left]
    · split <;> simp [VecPc.left]
  | write M => simp [vecStep, VecPc.left]
  | transpose => simp only [vecStep]; split <;> simp [VecPc.left]
  | fetch => simp [vecStep, VecPc.left]
  | marker => simp [vecStep, VecPc.left]
  | slow => simp [vecStep, VecPc.left]
  | done r => simp [vecStep, VecPc.left]

/-- **C128**, termination: a thread is done as soon as it had nine turns, whatever the others do. -/
theorem C128_memory_returns (m : Mem) (qs : List (VecReq × Bool)) (sched : List Nat) (t : Nat) (ht : t < qs.length)
    (hturns : 9 ≤ sched.count t) : ∃ th r, (vecSchedule sched m (vecStart qs)).2[t]? = some th ∧
      (th.req, th.oom) = qs[t] ∧ th.pc = .done r := by
  have gen : ∀ (sched : List Nat) (ds : Mem) (ts : List VecThread) (th : VecThread), ts[t]? = some th →
      ∃ th', (vecSchedule sched ds ts).2[t]? = some th' ∧ (th'.req, th'.oom) = (th.req, th.oom) ∧
        th'.pc.left ≤ th.pc.left - sched.count t := by
    intro sched
    induction sched with
    | nil => exact fun ds ts th h => ⟨th, h, rfl, by simp⟩
    | cons s sched ih =>
      intro ds ts th h
      by_cases hs : s = t
      · subst hs
        obtain ⟨hlt, _⟩ := List.getElem?_eq_some_iff.1 h
        have e : (vecPoolStep s ds ts).2[s]? = some { th with pc := (vecStep th.oom th.req ds th.pc).2 } := by
          simp only [vecPoolStep, h]
          rw [List.getElem?_set_self hlt]
        obtain ⟨th', h1, h2, h3⟩ := ih (vecPoolStep s ds ts).1 (vecPoolStep s ds ts).2 _ e
        refine ⟨th', h1, h2, ?_⟩
        have := vecStep_left th.oom th.req ds th.pc
        rw [List.count_cons_self]
        simp only at h3
        omega
      · have e : (vecPoolStep s ds ts).2[t]? = some th := by
          simp only [vecPoolStep]
          split
          · exact h
          · rw [List.getElem?_set_ne hs]; exact h
        obtain ⟨th', h1, h2, h3⟩ := ih (vecPoolStep s ds ts).1 (vecPoolStep s ds ts).2 _ e
        refine ⟨th', h1, h2, ?_⟩
        rw [List.count_cons_of_ne hs]
        exact h3
  obtain ⟨th, h1, h2, h3⟩ := gen sched m (vecStart qs) ⟨qs[t].1, qs[t].2, .start⟩ (by
    simp [vecStart, List.getElem?_eq_getElem ht])
  have : th.pc.left = 0 := by
    have h3' : th.pc.left ≤ 9 - sched.count t := h3
    omega
  cases hpc : th.pc with
  | done r => exact ⟨th, r, h1, h2, hpc⟩
  | _ => rw [hpc] at this; simp [VecPc.left] at this

/-! ## One thread -/

theorem vecSchedule_one (sched : List Nat) (ds : Mem) (q : VecReq) (oom : Bool) (pc : VecPc) :
    vecSchedule (0 :: sched) ds [⟨q, oom, pc⟩] =
      vecSchedule sched (vecStep oom q ds pc).1 [⟨q, oom, (vecStep oom q ds pc).2⟩] := rfl

/-- **C128**, one thread: a request that is not disturbed does what the sequential model of the functions does (C15, C117),
also when memory runs out. -/
theorem C128_memory_alone (m : Mem) (q : VecReq) (oom : Bool) :
    vecSchedule (List.replicate 9 0) m (vecStart [(q, oom)]) =
      ((match q with | .user u => m.userVecM oom u | .item i => m.itemVecM oom i).1,
        [⟨q, oom, .done (match q with | .user u => m.userVecM oom u | .item i => m.itemVecM oom i).2⟩]) := by
  simp only [vecStart, List.map_cons, List.map_nil, List.replicate, vecSchedule_one]
  cases q with
  | user u =>
    rcases h1 : m.uidToUser u with e | _ | x
    · simp [vecStep, vecKnown, h1, Mem.userVecM, Mem.userVec, vecSchedule]
    · simp [vecStep, vecKnown, h1, Mem.userVecM, Mem.userVec, vecSchedule]
    · rcases hc : m.cache with _ | M
      · cases oom
        · rcases hM : m.buildMatrix with e | M
          · simp [vecStep, vecKnown, h1, Mem.userVecM, Mem.userVec, vecSchedule, hc, hM]
          · simp [vecStep, vecKnown, h1, Mem.userVecM, Mem.userVec, vecSchedule, hc, hM, vecFetch]
        · simp [vecStep, vecKnown, h1, Mem.userVecM, vecSchedule, hc, vecSlow]
          rfl
      · by_cases hn : M.nrows ≤ 1
        · simp [vecStep, vecKnown, h1, Mem.userVecM, Mem.userVec, vecSchedule, hc, hn, vecSlow]
          rfl
        · simp [vecStep, vecKnown, h1, Mem.userVecM, Mem.userVec, vecSchedule, hc, hn, vecFetch]
  | item i =>
    rcases h1 : m.iidToItem i with e | _ | x
    · simp [vecStep, vecKnown, h1, Mem.itemVecM, Mem.itemVec, vecSchedule]
    · simp [vecStep, vecKnown, h1, Mem.itemVecM, Mem.itemVec, vecSchedule]
    · rcases hc : m.cache with _ | M
      · cases oom
        · rcases hM : m.buildMatrix with e | M
          · simp [vecStep, vecKnown, h1, Mem.itemVecM, Mem.itemVec, vecSchedule, hc, hM]
          · simp [vecStep, vecKnown, h1, Mem.itemVecM, Mem.itemVec, vecSchedule, hc, hM, vecFetch]
        · simp [vecStep, vecKnown, h1, Mem.itemVecM, vecSchedule, hc, vecSlow]
          rfl
      · by_cases hn : M.nrows ≤ 1
        · simp [vecStep, vecKnown, h1, Mem.itemVecM, Mem.itemVec, vecSchedule, hc, hn, vecSlow]
          rfl
        · rcases hT : m.cacheT with _ | T <;>
            simp [vecStep, vecKnown, h1, Mem.itemVecM, Mem.itemVec, vecSchedule, hc, hn, hT, vecFetch]

/-! ## Disagreement -/

theorem vecKnown_self {m : Mem} (h : Fresh m) {q : VecReq} (hq : q.Known m) : vecKnown m q = .ok () :=
  (vecKnown_ok h ⟨rfl, rfl, rfl, rfl, rfl⟩ q).1 hq

theorem vecKnown_mats (m : Mem) (M T : Option Mat) (q : VecReq) :
    vecKnown { m with cache := M, cacheT := T } q = vecKnown m q := by
  cases q <;> rfl

/-- **C128 fails** for items: a vector of any known item of any dataset with two or more users, asked for while another
thread is between lines 495 and 498 of the first request, raises `TypeError`. -/
theorem C128_memory_refuted (m : Mem) (h : Fresh m) (hu : 2 ≤ m.userMap.length) (hc : m.cache = none) (hT : m.cacheT = none)
    (q : VecReq) (hq : q.Known m) (i : Nat) (hi : i < m.itemMap.length) :
    ((vecSchedule [0, 0, 0, 0, 0, 1, 1, 1, 1, 1] m (vecStart [(q, false), (.item i, false)])).2.map VecThread.pc)[1]? =
      some (.done (.error .crash)) := by
  have h1 := vecKnown_self h hq
  have h2 : vecKnown m (.item i) = .ok () := vecKnown_self h hi
  have h3 : vecKnown { m with cache := some (fullMat m), cacheT := none } (.item i) = .ok () := h2
  have hn : ¬ (fullMat m).nrows ≤ 1 := by
    have : (fullMat m).nrows = m.userMap.length := rfl
    omega
  simp [vecSchedule, vecPoolStep, vecStart, vecStep, h1, h3, hc, hT, buildMatrix_ok m h, hn, vecFetch]

/-- **C128 fails** for datasets of one user: a request between the writing of the matrix and the reading from it is
answered with the row `[0]` of the marker that another request leaves behind (line 179), whatever the interactions are. -/
theorem C128_memory_single (m : Mem) (h : Fresh m) (hu : m.userMap.length = 1) (hc : m.cache = none) (q : VecReq)
    (hq : q.Known m) :
    ((vecSchedule [0, 0, 0, 0, 0, 0, 1, 1, 1, 1, 0] m (vecStart [(.user 0, false), (q, false)])).2.map VecThread.pc)[0]? =
      some (.done (.ok [0])) := by
  have h1 := vecKnown_self h hq
  have h2 : vecKnown m (.user 0) = .ok () := vecKnown_self h (show 0 < m.userMap.length by omega)
  have h3 : vecKnown { m with cache := some (fullMat m), cacheT := some (fullMat m) } q = .ok () := by
    rw [vecKnown_mats, h1]
  have hn : (fullMat m).nrows ≤ 1 := by
    have : (fullMat m).nrows = m.userMap.length := rfl
    omega
  have hz : zeroMat.nrows = 1 := rfl
  have hr : zeroMat.row 0 = [0] := by decide
  simp [vecSchedule, vecPoolStep, vecStart, vecStep, h2, h3, hc, buildMatrix_ok m h, hn, vecFetch, hz, hr]

/-- **C128 fails** when memory runs out in another thread: the first user gets `[0]`, every other user `IndexError`. -/
theorem C128_memory_oom (m : Mem) (h : Fresh m) (hc : m.cache = none) (u : Nat) (hu : u < m.userMap.length) (q : VecReq)
    (hq : q.Known m) :
    ((vecSchedule [0, 0, 0, 1, 1, 1, 1, 0, 0, 0, 1, 0] m (vecStart [(.user u, false), (q, true)])).2.map
      VecThread.pc)[0]? = some (.done (if u = 0 then .ok [0] else .error .outOfRange)) := by
  have h1 := vecKnown_self h hq
  have h2 : vecKnown m (.user u) = .ok () := vecKnown_self h hu
  have hz : zeroMat.nrows = 1 := rfl
  have hr : zeroMat.row 0 = [0] := by decide
  by_cases h0 : u = 0
  · subst h0
    simp [vecSchedule, vecPoolStep, vecStart, vecStep, h1, h2, hc, buildMatrix_ok m h, vecFetch, hz, hr]
  · simp [vecSchedule, vecPoolStep, vecStart, vecStep, h1, h2, hc, buildMatrix_ok m h, vecFetch, hz, h0]

/-! ## Examples -/

/-- A user with two interactions. -/
def exOneUser : Mem := (mkMem .int [(.num 1, .num 10, 3), (.num 1, .num 20, 5)]).assignIds.1

theorem exOneUser_fresh : Fresh exOneUser :=
  C15_fresh_after_assign _ (by decide) (by decide) (by decide) (by
    intro r hr
    simp only [mkMem, List.zipIdx_cons, List.zipIdx_nil, List.map_cons, List.map_nil, List.mem_cons, List.not_mem_nil,
      or_false] at hr
    rcases hr with rfl | rfl
    · exact ⟨3, by decide⟩
    · exact ⟨5, by decide⟩)

/-- The hypotheses of the theorems hold; the wrong vector above is not the right one. -/
example : Fresh exOom ∧ exOom.cache = none ∧ exOom.cacheT = none ∧ 2 ≤ exOom.userMap.length ∧
    (VecReq.item 1).Known exOom ∧ ¬ (VecReq.item 7).Known exOom ∧ vecSpec exOom (.user 0) = [3, 5, 0] ∧
    Fresh exOneUser ∧ exOneUser.cache = none ∧ exOneUser.userMap.length = 1 ∧ vecSpec exOneUser (.user 0) = [3, 5] ∧
    (vecSchedule [0, 1, 0, 1, 0, 1, 0, 1, 0, 1, 0, 1, 0, 1, 0, 1] exOom
      (vecStart [(.user 1, false), (.item 0, false)])).2.map VecThread.pc = [.done (.ok [4, 0, 1]), .done (.ok [3, 4])] := by
  refine ⟨exOom_fresh, rfl, rfl, by decide +kernel, by unfold VecReq.Known; decide +kernel, by unfold VecReq.Known; decide +kernel,
    by decide +kernel, exOneUser_fresh, rfl, by decide +kernel, by decide +kernel, by decide +kernel⟩

end DRec.Conc
