import Verif.Spec.DbNets
import Verif.Spec.DbCache
import Verif.Lemmas.DbKnnFit
import Verif.Lemmas.DbVec
import Verif.Props.Vectors
import Verif.Props.Recommender

/-! # CDAE and DMF on a database dataset -/

namespace DRec.Conc

open Spec

/-! ## Vectors in memory -/

theorem memVec_eq {m : Mem} (h : Fresh m) (q : VecReq) :
    memVec m q = match q with
      | .user u => if u < m.userMap.length then .ok (vecSpec m (.user u)) else .error .notFound
      | .item i => if i < m.itemMap.length then .ok (vecSpec m (.item i)) else .error .notFound := by
  have h' : Fresh { m with cache := none, cacheT := none } := fresh_congr h rfl rfl rfl rfl rfl
  have hm := h.ids.has
  cases q with
  | user u =>
    simp only [memVec, serve, Mem.userVec, Mem.uidToUser]
    rw [if_pos hm]
    by_cases hu : u < m.userMap.length
    · rw [if_pos hu, List.getElem?_eq_getElem hu]
      simp only
      rw [buildMatrix_ok _ h']
      simp only
      have : u < (fullMat { m with cache := none, cacheT := none }).nrows := hu
      rw [if_pos this, fullMat_row _ h' u hu]
      rfl
    · rw [if_neg hu, List.getElem?_eq_none (by omega)]
  | item i =>
    simp only [memVec, serve, Mem.itemVec, Mem.iidToItem]
    rw [if_pos hm]
    by_cases hi : i < m.itemMap.length
    · rw [if_pos hi, List.getElem?_eq_getElem hi]
      simp only
      rw [buildMatrix_ok _ h']
      simp only
      have : i < (fullMat { m with cache := none, cacheT := none }).ncols := hi
      rw [if_pos this, fullMat_col _ h']
      rfl
    · rw [if_neg hi, List.getElem?_eq_none (by omega)]

/-- The other side. -/
def flipSide : KKind → KKind
  | .user => .item
  | .item => .user

theorem side_ids {m : Mem} (h : Fresh m) (s : KKind) : IdsFor m (sideOf s).raw (sideOf s).own (sideMap s m) := by
  cases s
  · exact h.ids.user
  · exact h.ids.item

theorem side_all {m : Mem} (h : Fresh m) (s : KKind) : ∀ v ∈ sideMap s m, ∃ r ∈ m.rows, r.get (sideOf s).raw = v := by
  cases s
  · exact h.users
  · exact h.items

theorem side_flip (s : KKind) : (sideOf (flipSide s)).own = (sideOf s).other := by
  cases s <;> rfl

theorem memVec_side {m : Mem} (h : Fresh m) (s : KKind) (n : Nat) :
    memVec m (sideReq s n) = if n < (sideMap s m).length then .ok (vecSpec m (sideReq s n)) else .error .notFound := by
  rw [memVec_eq h]
  cases s <;> rfl

theorem vecSpec_side (m : Mem) (s : KKind) (n : Nat) :
    vecSpec m (sideReq s n) = (List.range (sideMap (flipSide s) m).length).map fun j : Nat =>
      (((rowsWith (sideOf s).own n m.rows).filter fun r => decide (r.get (sideOf s).other = .num (j : ℚ))).map
        fun r => numCell (r.get "interaction")).sum := by
  cases s with
  | user =>
    simp only [sideReq, vecSpec, flipSide, sideMap]
    apply List.map_congr_left
    intro j _
    unfold pairTotal rowsWith
    rw [List.filter_filter]
    congr 2
    apply List.filter_congr
    intro r _
    simp only [sideOf, Side.user, Bool.decide_and]
    exact Bool.and_comm _ _
  | item =>
    simp only [sideReq, vecSpec, flipSide, sideMap]
    apply List.map_congr_left
    intro j _
    unfold pairTotal rowsWith
    rw [List.filter_filter]
    congr 2
    apply List.filter_congr
    intro r _
    simp only [sideOf, Side.item, Bool.decide_and]
    rfl

/-! ## Vectors of a database dataset -/

section
variable {α β : Type} {names : List String} {S : List Nat} {w0 : World} {ds : Nat} {m : Mem} {T : Option (String → DType)}
  {B : Nat}

theorem max_id {m : Mem} {raw idc : String} {map : List Val} (h : IdsFor m raw idc map)
    (hall : ∀ v ∈ map, ∃ r ∈ m.rows, r.get raw = v) (hne : m.rows ≠ []) {res : ReadRes}
    (hsp : ReadSpec names T (memPlain m) (.max idc) res) : 0 < map.length ∧ valOf res = .num ((map.length - 1 : ℕ) : ℚ) := by
  obtain ⟨r0, hr0⟩ := List.exists_mem_of_ne_nil _ hne
  have hlen : 0 < map.length := List.length_pos_of_mem (h.code r0 hr0).1
  refine ⟨hlen, ?_⟩
  cases res with
  | val v =>
    simp only [ReadSpec, memPlain, List.map_map] at hsp
    obtain ⟨r, hr, hlast⟩ := hall _ (List.getElem_mem (show map.length - 1 < map.length by omega))
    have hcode : r.get idc = .num ((map.length - 1 : ℕ) : ℚ) := by
      rw [(h.code r hr).2, hlast, List.Nodup.idxOf_getElem h.nodup]
    have hM : (.num ((map.length - 1 : ℕ) : ℚ) : Val) ∈ m.rows.map ((cellOf · idc) ∘ Row.toRec m.cols) :=
      List.mem_map.2 ⟨r, hr, by simp only [Function.comp_apply]; rw [cellOf_toRec _ _ _ h.hasCol, hcode]⟩
    rcases hsp with ⟨_, hnull⟩ | ⟨_, hmem, hmax⟩
    · exact absurd (hnull _ hM) (by simp)
    · obtain ⟨a, ha, hav⟩ := List.mem_map.1 hmem
      simp only [Function.comp_apply] at hav
      rw [cellOf_toRec _ _ _ h.hasCol, (h.code a ha).2] at hav
      subst hav
      have h5 := hmax _ hM (by simp)
      simp only [SqlLess, Less, not_lt] at h5
      have h6 : map.length - 1 ≤ map.idxOf (a.get raw) := by exact_mod_cast h5
      have h7 := List.idxOf_lt_length_of_mem (h.code a ha).1
      have : map.idxOf (a.get raw) = map.length - 1 := by omega
      simp only [valOf, this]
  | recs l => exact hsp.elim
  | one r => exact hsp.elim
  | count n => exact hsp.elim

theorem toVec_rows {rows : List Row} {cols : List String} {other : String} {n : Nat} (hc : other ∈ cols)
    (hi : "interaction" ∈ cols) (hcode : ∀ r ∈ rows, ∃ j : Nat, j < n + 1 ∧ r.get other = .num (j : ℚ))
    (hnum : ∀ r ∈ rows, ∃ q, r.get "interaction" = .num q) :
    toVec other (.num (n : ℚ)) (.ok (.recs (rows.map fun r => (r.toRec cols).filter fun q => q.1 ∈ [other, "interaction"]))) =
      .ok ((List.range (n + 1)).map fun j : Nat =>
        ((rows.filter fun r => decide (r.get other = .num (j : ℚ))).map fun r => numCell (r.get "interaction")).sum) := by
  have hent : ∀ r ∈ rows, vecEntryOf other ((r.toRec cols).filter fun q => q.1 ∈ [other, "interaction"]) =
      .ok ((((r.get other).toNat?).getD 0), numCell (r.get "interaction")) := by
    intro r hr
    obtain ⟨j, _, hj⟩ := hcode r hr
    obtain ⟨q, hq⟩ := hnum r hr
    unfold vecEntryOf
    rw [lookup_pick hc (by simp), lookup_pick hi (by simp), hj, hq, toNat?_num]
    rfl
  unfold toVec
  simp only
  rw [toNat?_num, List.mapM_map]
  simp only [Function.comp_def]
  rw [mapM_except_ok _ _ _ hent]
  simp only
  unfold mkMat
  rw [if_pos]
  · simp only [Except.map, Mat.row]
    congr 1
    apply List.map_congr_left
    intro j _
    simp only [Mat.entry, List.map_map, List.filter_map]
    congr 1
    simp only [Function.comp_def]
    congr 1
    apply List.filter_congr
    intro r hr
    obtain ⟨k, _, hk⟩ := hcode r hr
    rw [hk, toNat?_num]
    simp
  · rw [List.all_eq_true]
    intro e he
    simp only [List.map_map, List.mem_map, Function.comp_apply] at he
    obtain ⟨r, hr, rfl⟩ := he
    obtain ⟨k, hk1, hk⟩ := hcode r hr
    simp [hk, toNat?_num, hk1]

theorem delivers_rawOf (hds : ds ∈ S) (hf : FittedOn w0 ds m T B) (s : KKind) (n : Nat) :
    DeliversIn names S (sharedInv w0 S)
      (fun k : Option Val → DbProg β => .toRaw ds (sideOf s).raw (sideOf s).own n k) (.ok (sideMap s m)[n]?) := by
  intro O w k r _ hv he hk w' hw
  have hf' := (hf.keep (hv ds hds)).keep (hw.shared ds hds)
  have e := toRaw_fitted hw.good hf' (side_ids hf.fresh s) (side_all hf.fresh s) n
  simp only [e]
  exact Or.inl ⟨_, rfl, hk _ w' rfl hw.carries⟩

theorem delivers_maxId (hn : NamesOk names) (hds : ds ∈ S) (hS0 : ∀ k ∈ S, (w0.insts k).isSome)
    (hf : FittedOn w0 ds m T B) (s : KKind) (hne : m.rows ≠ []) :
    DeliversIn names S (sharedInv w0 S) (fun k : Val → DbProg β => .read ds (.max (sideOf s).own) fun r => k (valOf r))
      (.ok (.num (((sideMap s m).length - 1 : ℕ) : ℚ))) := by
  intro O w k r _ hv _ hk
  obtain ⟨⟨h1, h2⟩, h3⟩ := at_shared hds hS0 hf.shows O w hv
  refine gives_read hn h1 h2 (op := .max (sideOf s).own) ⟨hf.nums.full, (side_ids hf.fresh s).hasCol⟩ h3 ?_
  intro w'' res hw hres
  rw [(max_id (side_ids hf.fresh s) (side_all hf.fresh s) hne hres).2]
  exact hk _ w'' rfl hw

theorem side_named {m : Mem} (hf : Fresh m) (hnm : Named m) (s : KKind) {n : Nat} (hlt : n < (sideMap s m).length) :
    (sideMap s m)[n]?.getD .null ≠ .null ∧ m.rows ≠ [] := by
  obtain ⟨r0, hr0, hraw⟩ := side_all hf s _ (List.getElem_mem hlt)
  refine ⟨?_, List.ne_nil_of_mem hr0⟩
  rw [List.getElem?_eq_getElem hlt, Option.getD_some, ← hraw]
  cases s
  · exact (hnm r0 hr0).1
  · exact (hnm r0 hr0).2

theorem delivers_compute (hn : NamesOk names) (hds : ds ∈ S) (hS0 : ∀ k ∈ S, (w0.insts k).isSome)
    (hf : FittedOn w0 ds m T B) (s : KKind) (n : Nat) (hne : m.rows ≠ []) :
    DeliversIn names S (sharedInv w0 S) (fun k : List ℚ → DbProg β => .read ds (.max (sideOf s).other) fun m =>
        .select ds (idQuery (sideOf s).own n) fun d => .read d (.values (some [(sideOf s).other, "interaction"])) fun res =>
        .close d (withResult (toVec (sideOf s).other (valOf m) (.ok res)) k)) (.ok (vecSpec m (sideReq s n))) := by
  have st := shared_stable (names := names) w0 S
  have hmax := delivers_maxId (β := β) hn hds hS0 hf (flipSide s) hne
  rw [side_flip] at hmax
  have hoc : (sideOf s).other ∈ m.cols := by rw [← side_flip]; exact (side_ids hf.fresh (flipSide s)).hasCol
  have hin := delivers_within (β := β) hn hds hS0 hf.shows hf.nums (c := (sideOf s).own)
    (by cases s <;> simp [sideOf, Side.user, Side.item]) n
    (P := fun d k => .read d (.values (some [(sideOf s).other, "interaction"])) k)
    (fun p _ => delivers_values hn
      (at_own (j := p) (m := { m with rows := rowsWith (sideOf s).own n m.rows }) (T := T) (B := B) hS0)
      hf.nums.full (by
        intro c hc
        simp only [List.mem_cons, List.not_mem_nil, or_false] at hc
        rcases hc with rfl | rfl
        · exact hoc
        · exact hf.fresh.hasInter))
  refine DeliversIn.bind st hmax (Q := fun mx (k : List ℚ → DbProg β) =>
    .select ds (idQuery (sideOf s).own n) fun d => .read d (.values (some [(sideOf s).other, "interaction"])) fun res =>
    .close d (withResult (toVec (sideOf s).other mx (.ok res)) k)) (res' := fun _ => .ok (vecSpec m (sideReq s n))) ?_
  intro mx hmx
  cases hmx
  refine DeliversIn.bind st hin (Q := fun res (k : List ℚ → DbProg β) =>
    withResult (toVec (sideOf s).other (.num (((sideMap (flipSide s) m).length - 1 : ℕ) : ℚ)) (.ok res)) k)
    (res' := fun _ => .ok (vecSpec m (sideReq s n))) ?_
  intro res hres
  cases hres
  obtain ⟨r0, hr0⟩ := List.exists_mem_of_ne_nil _ hne
  have hpos : 0 < (sideMap (flipSide s) m).length :=
    List.length_pos_of_mem ((side_ids hf.fresh (flipSide s)).code r0 hr0).1
  have hv := toVec_rows (rows := rowsWith (sideOf s).own n m.rows) (n := (sideMap (flipSide s) m).length - 1) hoc
    hf.fresh.hasInter (by
      intro r hr
      have hr := mem_rowsWith hr
      have hc := (side_ids hf.fresh (flipSide s)).code r hr
      rw [side_flip] at hc
      exact ⟨_, by have := List.idxOf_lt_length_of_mem hc.1; omega, hc.2⟩)
    (fun r hr => hf.fresh.numeric r (mem_rowsWith hr))
  have e : (sideMap (flipSide s) m).length - 1 + 1 = (sideMap (flipSide s) m).length := by omega
  rw [e, ← vecSpec_side] at hv
  rw [hv]
  exact deliversIn_ok _

theorem delivers_vec (hn : NamesOk names) (hds : ds ∈ S) (hS0 : ∀ k ∈ S, (w0.insts k).isSome)
    (hf : FittedOn w0 ds m T B) (hnm : Named m) (s : KKind) (n : Nat) :
    DeliversIn names S (sharedInv w0 S) (fun k : List ℚ → DbProg β => dbVec ds (sideOf s) n k) (memVec m (sideReq s n)) := by
  have st := shared_stable (names := names) w0 S
  rw [memVec_side hf.fresh]
  have h1 := DeliversIn.bind st (delivers_rawOf (β := β) (names := names) hds hf s n)
    (Q := fun v (k : List ℚ → DbProg β) => if v.getD .null = .null then .ret (.error .notFound)
      else .read ds (.max (sideOf s).other) fun m =>
        .select ds (idQuery (sideOf s).own n) fun d => .read d (.values (some [(sideOf s).other, "interaction"])) fun res =>
        .close d (withResult (toVec (sideOf s).other (valOf m) (.ok res)) k))
    (res' := fun _ => if n < (sideMap s m).length then .ok (vecSpec m (sideReq s n)) else .error .notFound) (by
      intro v hv
      cases hv
      by_cases hlt : n < (sideMap s m).length
      · obtain ⟨hnn, hne⟩ := side_named hf.fresh hnm s hlt
        rw [if_pos hlt]
        simp only [hnn, if_false]
        exact delivers_compute hn hds hS0 hf s n hne
      · rw [if_neg hlt, List.getElem?_eq_none (by omega)]
        simp only [Option.getD_none, if_true]
        exact deliversIn_error _)
  exact h1

theorem delivers_vecs (hn : NamesOk names) (hds : ds ∈ S) (hS0 : ∀ k ∈ S, (w0.insts k).isSome)
    (hf : FittedOn w0 ds m T B) (hnm : Named m) (s : KKind) : ∀ (ns : List Nat) (acc : List (List ℚ)),
    DeliversIn names S (sharedInv w0 S) (fun k : List (List ℚ) → DbProg β => dbVecs ds (sideOf s) k ns acc)
      ((ns.mapM fun n => memVec m (sideReq s n)).map fun l => acc ++ l)
  | [], acc => by
    have := deliversIn_ok (names := names) (S := S) (inv := sharedInv w0 S) (β := β) acc
    simpa [dbVecs, pure, Except.pure, Except.map] using this
  | n :: ns, acc => by
    have := DeliversIn.bind (shared_stable w0 S) (delivers_vec (β := β) hn hds hS0 hf hnm s n)
      (Q := fun v k => dbVecs ds (sideOf s) k ns (acc ++ [v]))
      (res' := fun v => (ns.mapM fun n => memVec m (sideReq s n)).map fun l => (acc ++ [v]) ++ l)
      fun v _ => delivers_vecs hn hds hS0 hf hnm s ns _
    have e : ((n :: ns).mapM fun n => memVec m (sideReq s n)).map (fun l => acc ++ l) =
        (memVec m (sideReq s n)).bind fun v => (ns.mapM fun n => memVec m (sideReq s n)).map fun l => (acc ++ [v]) ++ l := by
      rw [List.mapM_cons]
      cases memVec m (sideReq s n) with
      | error e => rfl
      | ok p =>
        cases ns.mapM fun n => memVec m (sideReq s n) with
        | error e => rfl
        | ok l => simp [bind, Except.bind, pure, Except.pure, Except.map]
    rw [e]
    exact this

theorem delivers_batch (hn : NamesOk names) (hds : ds ∈ S) (hS0 : ∀ k ∈ S, (w0.insts k).isSome)
    (hf : FittedOn w0 ds m T B) (hnm : Named m) (users items : List Nat) :
    DeliversIn names S (sharedInv w0 S) (fun k : List (List ℚ) × List (List ℚ) → DbProg β =>
      dbVecs ds Side.user (fun us => dbVecs ds Side.item (fun is => k (us, is)) items []) users []) (memBatch m users items) := by
  have st := shared_stable (names := names) w0 S
  have e : memBatch m users items = ((users.mapM fun n => memVec m (sideReq .user n)).map fun l => [] ++ l).bind fun us =>
      ((items.mapM fun n => memVec m (sideReq .item n)).map fun l => [] ++ l).bind fun is => .ok (us, is) := by
    simp only [memBatch, sideReq]
    cases users.mapM fun n => memVec m (.user n) with
    | error e => rfl
    | ok us => cases items.mapM fun n => memVec m (.item n) <;> rfl
  rw [e]
  refine DeliversIn.bind st (delivers_vecs hn hds hS0 hf hnm .user users []) (Q := fun us k =>
    dbVecs ds Side.item (fun is => k (us, is)) items []) ?_
  intro us _
  exact DeliversIn.bind st (delivers_vecs hn hds hS0 hf hnm .item items []) (Q := fun is k => k (us, is))
    fun is _ => deliversIn_ok _

/-! ## CDAE -/

theorem delivers_cdaeScores (hn : NamesOk names) (hds : ds ∈ S) (hS0 : ∀ k ∈ S, (w0.insts k).isSome)
    (hf : FittedOn w0 ds m T B) (hnm : Named m) (t : ℚ) (net : Nat → List ℚ → Except Err (List ℚ)) (uid : Nat) :
    DeliversIn names S (sharedInv w0 S) (fun k : List ℚ → DbProg β => dbCdaeScores t net ds uid k)
      ((memVec m (.user uid)).bind fun v => net uid (onesFrom t v)) :=
  DeliversIn.bind (shared_stable w0 S) (delivers_vec hn hds hS0 hf hnm .user uid) fun _ _ => deliversIn_result _

theorem delivers_cdaePredict (hn : NamesOk names) (hds : ds ∈ S) (hS0 : ∀ k ∈ S, (w0.insts k).isSome)
    (hf : FittedOn w0 ds m T B) (hnm : Named m) (t : ℚ) (net : Nat → List ℚ → Except Err (List ℚ)) (u i : Option Nat) :
    DeliversIn names S (sharedInv w0 S) (fun k : Option ℚ → DbProg β => dbCdaePredict t net ds u i k)
      (memCdaePredict t net m u i) := by
  cases u with
  | none => exact deliversIn_ok _
  | some u =>
    have := DeliversIn.bind (shared_stable w0 S) (delivers_cdaeScores (β := β) hn hds hS0 hf hnm t net u)
      (Q := fun preds (k : Option ℚ → DbProg β) => match i with
        | none => .ret (.error .crash)
        | some i => withResult (match preds[i]? with | some q => .ok (some q) | none => .error .outOfRange) k)
      (res' := fun preds => match i with
        | none => .error .crash
        | some i => match preds[i]? with | some q => .ok (some q) | none => .error .outOfRange) (by
        intro preds _
        cases i with
        | none => exact deliversIn_error _
        | some i => exact deliversIn_result _)
    have e : (((memVec m (.user u)).bind fun v => net u (onesFrom t v)).bind fun preds => match i with
        | none => .error .crash
        | some i => match preds[i]? with | some q => .ok (some q) | none => .error .outOfRange) =
        memCdaePredict t net m (some u) i := by
      simp only [memCdaePredict]
      cases memVec m (.user u) with
      | error e => rfl
      | ok v =>
        simp only [Except.bind]
        cases net u (onesFrom t v) <;> rfl
    rw [e] at this
    exact this

theorem delivers_missing (hn : NamesOk names) {inv : List Nat → World → Prop} (hst : Stable names S inv) {j : Nat}
    (ha : At S inv j m T B) (h : Numbers m T) : ∀ (is acc : List Nat),
    DeliversIn names S inv (fun k : List Nat → DbProg β => dbMissing j k is acc)
      (.ok (acc ++ is.filter fun i : Nat => decide (Val.num (i : ℚ) ∉ m.rows.map (·.get "iid"))))
  | [], acc => by
    have := deliversIn_ok (names := names) (S := S) (inv := inv) (β := β) acc
    simpa [dbMissing] using this
  | i :: is, acc => by
    have hone := delivers_one (β := β) hn ha h (ws := [eqWritten "iid" i]) (by simp) (eqWritten_fits (by simp) i)
      (cs := none) (fun _ h => h) (Q := fun r => decide (r.get "iid" = .num (i : ℚ))) (by
        intro r _
        simp [Sat, eqWritten, Holds, SLit.value]) (idQuery_written i)
    have := DeliversIn.bind hst hone
      (Q := fun res (k : List Nat → DbProg β) => match res with
        | .one (some _) => dbMissing j k is acc
        | _ => dbMissing j k is (acc ++ [i]))
      (res' := fun _ => .ok (acc ++ (i :: is).filter fun i : Nat => decide (Val.num (i : ℚ) ∉ m.rows.map (·.get "iid")))) (by
        intro res hres
        cases hres
        cases hfi : m.rows.find? fun r => decide (r.get "iid" = .num (i : ℚ)) with
        | none =>
          have hni : Val.num (i : ℚ) ∉ m.rows.map (·.get "iid") := by
            intro hmem
            obtain ⟨r, hr, he⟩ := List.mem_map.1 hmem
            have := List.find?_eq_none.1 hfi r hr
            simp [he] at this
          have := delivers_missing hn hst ha h is (acc ++ [i])
          rw [List.filter_cons_of_pos (by simpa using hni)]
          simpa using this
        | some r =>
          have hi : Val.num (i : ℚ) ∈ m.rows.map (·.get "iid") := by
            have h1 := List.find?_some hfi
            exact List.mem_map.2 ⟨r, List.mem_of_find?_eq_some hfi, by simpa using h1⟩
          have := delivers_missing hn hst ha h is acc
          rw [List.filter_cons_of_neg (by simpa using hi)]
          simpa using this)
    exact this

theorem cdaeItems_eq (hm : IdsOk m) (uid : Nat) (iids : List Nat) (novelty : Bool) :
    cdaeItems m uid iids novelty = .ok (if novelty then
      if (rowsWith "uid" uid m.rows).length < iids.length then novelIids iids ((rowsWith "uid" uid m.rows).map (·.get "iid"))
      else (iids.filter fun i : Nat => decide (Val.num (i : ℚ) ∉ (rowsWith "uid" uid m.rows).map (·.get "iid"))).dedup
      else iids.dedup) := by
  unfold cdaeItems
  cases novelty with
  | false => rfl
  | true =>
    simp only [if_true]
    rw [uidRows_ok hm.user.hasCol]
    simp only
    split_ifs with hlt
    · have : ({ m.copy with rows := rowsWith "uid" uid m.rows } : Mem).valuesOf "iid" =
          .ok ((rowsWith "uid" uid m.rows).map (·.get "iid")) := by
        have hc : "iid" ∈ m.copy.cols := hm.item.hasCol
        simp [Mem.valuesOf, handleColumns, hc, Except.map]
      rw [this]
      rfl
    · rw [mapM_except_ok _ (fun i : Nat => (i, decide (Val.num (i : ℚ) ∈ (rowsWith "uid" uid m.rows).map (·.get "iid"))))]
      · simp only [Except.map]
        congr 2
        rw [List.filterMap_map, ← List.filterMap_eq_filter]
        apply List.filterMap_congr
        intro i _
        by_cases hi : Val.num (i : ℚ) ∈ (rowsWith "uid" uid m.rows).map (·.get "iid") <;> simp only [Function.comp_apply, Option.guard, hi, not_true_eq_false, not_false_eq_true, decide_true, decide_false, if_true, if_false, Bool.false_eq_true]
      · intro i _
        rw [ownsIid_ok (uds := { m.copy with rows := rowsWith "uid" uid m.rows }) hm.item.hasCol]
        rfl

theorem delivers_cdaeItems (hn : NamesOk names) (hds : ds ∈ S) (hS0 : ∀ k ∈ S, (w0.insts k).isSome)
    (hf : FittedOn w0 ds m T B) (uid : Nat) (iids : List Nat) (novelty : Bool) :
    DeliversIn names S (sharedInv w0 S) (fun k : List Nat → DbProg β => dbCdaeItems ds uid iids novelty k)
      (cdaeItems m uid iids novelty) := by
  rw [cdaeItems_eq hf.fresh.ids]
  unfold dbCdaeItems
  cases novelty with
  | false => exact deliversIn_ok _
  | true =>
    simp only [if_true]
    have := delivers_within (β := β) hn hds hS0 hf.shows hf.nums (c := "uid") (by simp) uid
      (P := fun d k => .len d fun n => if n < iids.length then .read d (.values (some ["iid"])) fun res =>
        k (novelIids iids (columnOf "iid" res)) else dbMissing d (fun l => k l.dedup) iids [])
      (res := .ok (if (rowsWith "uid" uid m.rows).length < iids.length then
          novelIids iids ((rowsWith "uid" uid m.rows).map (·.get "iid"))
        else (iids.filter fun i : Nat => decide (Val.num (i : ℚ) ∉ (rowsWith "uid" uid m.rows).map (·.get "iid"))).dedup)) (by
        intro p _
        have hat := at_own (j := p) (m := { m with rows := rowsWith "uid" uid m.rows }) (T := T) (B := B) hS0
        have st := own_stable (names := names) w0 S p { m with rows := rowsWith "uid" uid m.rows } T B
        refine DeliversIn.bind st (delivers_len hat) (Q := fun n k => if n < iids.length then
          .read p (.values (some ["iid"])) fun res => k (novelIids iids (columnOf "iid" res))
          else dbMissing p (fun l => k l.dedup) iids []) (res' := fun n => .ok (if n < iids.length then
            novelIids iids ((rowsWith "uid" uid m.rows).map (·.get "iid"))
          else (iids.filter fun i : Nat => decide (Val.num (i : ℚ) ∉ (rowsWith "uid" uid m.rows).map (·.get "iid"))).dedup)) ?_
        intro n _
        by_cases hlt : n < iids.length
        · simp only [hlt, if_true]
          refine DeliversIn.bind st (delivers_values hn hat hf.nums.full (cs := ["iid"]) (by
            intro c hc
            simp only [List.mem_singleton] at hc
            subst hc
            exact hf.fresh.ids.item.hasCol)) (Q := fun res k => k (novelIids iids (columnOf "iid" res)))
            (res' := fun _ => .ok (novelIids iids ((rowsWith "uid" uid m.rows).map (·.get "iid")))) ?_
          intro res hres
          cases hres
          rw [column_cells hf.fresh.ids.item.hasCol (by simp)]
          exact deliversIn_ok _
        · simp only [hlt, if_false]
          refine DeliversIn.bind st (delivers_missing hn st hat (hf.nums.filter _) iids []) (Q := fun l k => k l.dedup)
            (res' := fun _ => .ok (iids.filter fun i : Nat =>
              decide (Val.num (i : ℚ) ∉ (rowsWith "uid" uid m.rows).map (·.get "iid"))).dedup) ?_
          intro l hl
          cases hl
          exact deliversIn_ok _)
    have e : (fun k : List Nat → DbProg β => DbProg.select ds (idQuery "uid" uid) fun d => .len d fun n =>
        if n < iids.length then .read d (.values (some ["iid"])) fun res => .close d (k (novelIids iids (columnOf "iid" res)))
        else dbMissing d (fun l => .close d (k l.dedup)) iids []) =
        fun k => .select ds (idQuery "uid" uid) fun d => (fun d k => .len d fun n => if n < iids.length then
          .read d (.values (some ["iid"])) fun res => k (novelIids iids (columnOf "iid" res))
          else dbMissing d (fun l => k l.dedup) iids []) d fun x => .close d (k x) := rfl
    rw [e]
    exact this

theorem delivers_cdaeRank (hn : NamesOk names) (hds : ds ∈ S) (hS0 : ∀ k ∈ S, (w0.insts k).isSome)
    (hf : FittedOn w0 ds m T B) (hnm : Named m) (t : ℚ) (net : Nat → List ℚ → Except Err (List ℚ)) :
    RankAlike (β := β) names S w0 (dbCdaeRank t net ds) (memCdaeRank t net m) := by
  intro uid iids n novelty
  have st := shared_stable (names := names) w0 S
  have := DeliversIn.bind st (delivers_cdaeScores (β := β) hn hds hS0 hf hnm t net uid)
    (Q := fun preds (k : List (ℚ × Nat) → DbProg β) => dbCdaeItems ds uid iids novelty fun keep =>
      k (nlargest n (preds.zipIdx.filter fun p => p.2 ∈ keep)))
    (res' := fun preds => (cdaeItems m uid iids novelty).bind fun keep =>
      .ok (nlargest n (preds.zipIdx.filter fun p => p.2 ∈ keep)))
    fun preds _ => DeliversIn.bind st (delivers_cdaeItems hn hds hS0 hf uid iids novelty) fun keep _ => deliversIn_ok _
  have e : (((memVec m (.user uid)).bind fun v => net uid (onesFrom t v)).bind fun preds =>
      (cdaeItems m uid iids novelty).bind fun keep => .ok (nlargest n (preds.zipIdx.filter fun p => p.2 ∈ keep))) =
      memCdaeRank t net m uid iids n novelty := by
    unfold memCdaeRank cdaeRank
    cases memVec m (.user uid) with
    | error e => rfl
    | ok v =>
      simp only [Except.bind]
      cases net uid (onesFrom t v) with
      | error e => rfl
      | ok p => cases cdaeItems m uid iids novelty <;> rfl
  rw [e] at this
  exact this

/-! ## DMF -/

theorem delivers_dmfPredict (hn : NamesOk names) (hds : ds ∈ S) (hS0 : ∀ k ∈ S, (w0.insts k).isSome)
    (hf : FittedOn w0 ds m T B) (hnm : Named m) (net : List ℚ → List ℚ → Except Err ℚ) (u i : Option Nat) :
    DeliversIn names S (sharedInv w0 S) (fun k : Option ℚ → DbProg β => dbDmfPredict net ds u i k)
      (memDmfPredict net m u i) := by
  have st := shared_stable (names := names) w0 S
  cases u with
  | none => cases i <;> exact deliversIn_error _
  | some u =>
    cases i with
    | none => exact deliversIn_error _
    | some i =>
      have := DeliversIn.bind st (delivers_vec (β := β) hn hds hS0 hf hnm .user u)
        (Q := fun a (k : Option ℚ → DbProg β) => dbVec ds Side.item i fun b => withResult (net a b) fun x => k (some x))
        (res' := fun a => (memVec m (.item i)).bind fun b => (net a b).bind fun x => .ok (some x))
        fun a _ => DeliversIn.bind st (delivers_vec (β := β) hn hds hS0 hf hnm .item i)
          (Q := fun b (k : Option ℚ → DbProg β) => withResult (net a b) fun x => k (some x))
          fun b _ => DeliversIn.bind st (deliversIn_result _) fun x _ => deliversIn_ok _
      have e : ((memVec m (sideReq .user u)).bind fun a => (memVec m (.item i)).bind fun b => (net a b).bind fun x => .ok (some x)) =
          memDmfPredict net m (some u) (some i) := by
        simp only [memDmfPredict, sideReq]
        cases memVec m (.user u) with
        | error e => rfl
        | ok a =>
          simp only [Except.bind]
          cases memVec m (.item i) with
          | error e => rfl
          | ok b =>
            simp only
            cases net a b <;> rfl
      rw [e] at this
      exact this

theorem delivers_baseRankBy (hn : NamesOk names) (hds : ds ∈ S) (hS0 : ∀ k ∈ S, (w0.insts k).isSome)
    (hf : FittedOn w0 ds m T B) {f : Option Nat → Option Nat → (Option ℚ → DbProg β) → DbProg β} {f' : PredictFn ℚ}
    (h : ∀ u i, DeliversIn names S (sharedInv w0 S) (f u i) (f' u i)) :
    RankAlike (β := β) names S w0 (dbBaseRankBy ds f) (baseRank m f') := by
  intro uid iids n novelty
  have st := shared_stable (names := names) w0 S
  have hsc : ∀ i, DeliversIn names S (sharedInv w0 S)
      (fun k : Option (ℚ × Nat) → DbProg β => f (some uid) (some i) fun p => k (p.map fun s => (s, i))) (scored f' uid i) := by
    intro i
    have := DeliversIn.bind st (h (some uid) (some i)) (Q := fun p (k : Option (ℚ × Nat) → DbProg β) =>
      k (p.map fun s => (s, i))) (res' := fun p => .ok (p.map fun s => (s, i))) fun p _ => deliversIn_ok _
    have e : ((f' (some uid) (some i)).bind fun p => .ok (p.map fun s => (s, i))) = scored f' uid i := by
      unfold scored
      cases f' (some uid) (some i) <;> rfl
    rw [e] at this
    exact this
  have go : ∀ cand : List Nat, DeliversIn names S (sharedInv w0 S) (fun k : List (ℚ × Nat) → DbProg β =>
      dbScores (fun i k => f (some uid) (some i) fun p => k (p.map fun s => (s, i)))
        (fun preds => k (nlargest n (preds.filterMap id))) cand [])
      (match cand.mapM (scored f' uid) with | .error e => .error e | .ok preds => .ok (nlargest n (preds.filterMap id))) := by
    intro cand
    have := DeliversIn.bind st (delivers_scores st hsc cand []) (Q := fun preds (k : List (ℚ × Nat) → DbProg β) =>
      k (nlargest n (preds.filterMap id))) (res' := fun preds => .ok (nlargest n (preds.filterMap id)))
      fun p _ => deliversIn_ok _
    have e : (((cand.mapM (scored f' uid)).map fun l => [] ++ l).bind fun preds => .ok (nlargest n (preds.filterMap id))) =
        (match cand.mapM (scored f' uid) with
          | .error e => .error e
          | .ok preds => .ok (nlargest n (preds.filterMap id))) := by
      cases cand.mapM (scored f' uid) <;> rfl
    rw [e] at this
    exact this
  unfold dbBaseRankBy baseRank candidates
  cases novelty with
  | false => exact go iids
  | true =>
    simp only [if_true]
    rw [C64_rated m hf.fresh]
    refine DeliversIn.bind st (delivers_rated hn hds hS0 hf uid)
      (Q := fun rated (k : List (ℚ × Nat) → DbProg β) =>
        dbScores (fun i k => f (some uid) (some i) fun p => k (p.map fun s => (s, i)))
          (fun preds => k (nlargest n (preds.filterMap id))) (novelIids iids rated) [])
      (res' := fun rated => match (novelIids iids rated).mapM (scored f' uid) with
        | .error e => .error e
        | .ok preds => .ok (nlargest n (preds.filterMap id))) fun rated _ => go _

end

end DRec.Conc
