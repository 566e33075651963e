import Mathlib.Data.List.Sort
import Verif.Spec.DbList
import Verif.Lemmas.DbKnnFit
import Verif.Lemmas.DbSampler
import Verif.Props.Generators

/-! # Lemmas: ListSampler and Caser on a database dataset -/

namespace DRec.Conc

open Spec

/-! ## Records read -/

/-- A record with all its columns read. -/
def asRead (cols : List String) (r : Row) : Row := recRow ((r.toRec cols).filter fun q => q.1 ∈ cols)

theorem asRead_get {cols : List String} {c : String} (hc : c ∈ cols) (r : Row) : (asRead cols r).get c = r.get c := by
  have h := lookup_pick hc hc r
  by_cases hr : c = "rid"
  · subst hr
    unfold asRead recRow Row.get at *
    simp only [if_true] at h ⊢
    cases hl : List.lookup "rid" ((r.toRec cols).filter fun q => q.1 ∈ cols) with
    | none => rw [hl] at h; cases h
    | some v =>
      rw [hl] at h
      simp only [Option.getD_some] at h
      subst h
      simp
  · unfold asRead recRow Row.get
    rw [if_neg hr]
    unfold Row.get at h
    rw [if_neg hr] at h
    rw [if_neg hr]
    exact h

theorem asRead_toRec (cols : List String) (r : Row) : (asRead cols r).toRec cols = r.toRec cols := by
  unfold Row.toRec
  apply List.map_congr_left
  intro c hc
  rw [asRead_get hc]

/-- A sampled element with its records as they are read. -/
def readSampled (cols : List String) (s : Sampled) : Sampled :=
  ⟨s.group, s.positives.map (asRead cols), s.targets.map (asRead cols), s.negatives⟩

/-- A pass with records as they are read. -/
def readAttempt (cols : List String) : Attempt → Attempt
  | .retry => .retry
  | .done s => .done (readSampled cols s)

theorem dicts_read (cols : List String) (s : Sampled) : dicts cols (readSampled cols s) = dicts cols s := by
  simp [dicts, readSampled, asRead_toRec]

theorem sortRows_read {cols : List String} {c : Option String} (hc : ∀ s ∈ c, s ∈ cols) (l : List Row) :
    sortRows c (l.map (asRead cols)) = (sortRows c l).map (asRead cols) := by
  cases c with
  | none => rfl
  | some c =>
    unfold sortRows
    symm
    apply List.map_insertionSort
    intro a _ b _
    simp only [sortKey, asRead_get (hc c rfl)]

theorem cutRows_map (f : Row → Row) (p : Option (Nat × Nat)) (l : List Row) : cutRows p (l.map f) = (cutRows p l).map f := by
  cases p with
  | none => rfl
  | some p => simp [cutRows, List.map_take, List.map_drop]

theorem splitTargets_map (f : Row → Row) (t : Nat) (p : Option (Nat × Nat)) (l : List Row) :
    splitTargets t p (l.map f) = ((splitTargets t p l).1.map f, (splitTargets t p l).2.map f) := by
  cases p with
  | none => simp [splitTargets, List.map_take, List.map_drop]
  | some p => simp [splitTargets, List.map_take, List.map_drop]

/-- Reading does not change the rest of a pass. -/
theorem finish_read {cfg : ListCfg} {cols : List String} (hs : ∀ s ∈ cfg.sortCol, s ∈ cols)
    (hn : cfg.nTargets ≠ none → cfg.negCol ∈ cols) (negIds : List Val) (g : Val) (recs : List Row) (pad : Nat) (s : Nat → Nat) :
    cfg.finish negIds g (recs.map (asRead cols)) pad s = (cfg.finish negIds g recs pad s).map (readAttempt cols) := by
  unfold ListCfg.finish
  simp only [sortRows_read hs, List.length_map]
  cases windowOf cfg.maxPos (sortRows cfg.sortCol recs).length (cfg.nTargets.getD 0) pad with
  | error e => rfl
  | ok p =>
    cases ht : cfg.nTargets with
    | none =>
      simp only [cutRows_map]
      rfl
    | some t =>
      have e : ((sortRows cfg.sortCol recs).map (asRead cols)).map (·.get cfg.negCol) =
          (sortRows cfg.sortCol recs).map (·.get cfg.negCol) := by
        rw [List.map_map]
        apply List.map_congr_left
        intro r _
        exact asRead_get (hn (by simp [ht])) r
      simp only [e, splitTargets_map, List.length_map]
      by_cases hl : (negIds.filter fun v => decide (v ∉ (sortRows cfg.sortCol recs).map (·.get cfg.negCol))).length <
          cfg.negRatio * (splitTargets t p (sortRows cfg.sortCol recs)).2.length
      · rw [if_pos hl, if_pos hl]
        rfl
      · rw [if_neg hl, if_neg hl]
        rfl

/-! ## The sampler in memory -/

/-- The positive records of a group, before sorting. -/
def groupRows (cfg : ListCfg) (m : Mem) (n : Nat) : List Row :=
  thresholdRows (cfg.threshold.map PyNum.value) (rowsWith cfg.groupCol n m.rows)

theorem sortRows_length (c : Option String) (l : List Row) : (sortRows c l).length = l.length := by
  cases c with
  | none => rfl
  | some c => exact List.length_insertionSort _ _

theorem keyOn_one {c : String} (v : Val) (r : Row) : keyOn [c] r = [v] ↔ r.get c = v := by simp [keyOn]

theorem attempt_eq (cfg : ListCfg) (m : Mem) (n pad : Nat) (s : Nat → Nat) :
    (memSampler cfg m).attempt [.num (n : ℚ)] pad s =
      if cfg.short (groupRows cfg m n).length then .ok .retry
      else cfg.finish (memSampler cfg m).negIds (.num (n : ℚ)) (groupRows cfg m n) pad s := by
  have hp : (memSampler cfg m).positives [.num (n : ℚ)] = sortRows cfg.sortCol (groupRows cfg m n) := by
    unfold LSampler.positives groupRows rowsWith
    simp only [memSampler]
    congr 2
    apply List.filter_congr
    intro r _
    exact decide_eq_decide.2 (keyOn_one _ r)
  have hsh : ((sortRows cfg.sortCol (groupRows cfg m n)).length < (memSampler cfg m).minPos ∨
      (sortRows cfg.sortCol (groupRows cfg m n)).length < (memSampler cfg m).minPos + (memSampler cfg m).nTargets.getD 0) ↔
      cfg.short (groupRows cfg m n).length := by
    rw [sortRows_length]
    simp only [memSampler, ListCfg.short]
    cases cfg.nTargets with
    | none => simp
    | some t => simp
  unfold LSampler.attempt
  rw [hp]
  by_cases h : cfg.short (groupRows cfg m n).length
  · rw [if_pos h]
    simp only
    rw [if_pos (hsh.2 h)]
  · rw [if_neg h]
    simp only
    rw [if_neg fun h' => h (hsh.1 h')]
    rfl

/-! ## Programs -/

section
variable {α β : Type} {names : List String} {S : List Nat} {inv : List Nat → World → Prop} {j : Nat} {m : Mem}
  {T : Option (String → DType)} {B : Nat}

theorem delivers_all (hn : NamesOk names) (ha : At S inv j m T B) (hf : FullCols m.cols) :
    DeliversIn names S inv (fun k : ReadRes → DbProg β => .read j (.values none) k)
      (.ok (.recs (m.rows.map fun r => (r.toRec m.cols).filter fun q => q.1 ∈ m.cols))) := by
  intro O w k r _ hv _ hk
  obtain ⟨⟨h1, h2⟩, h3⟩ := ha O w hv
  refine gives_read hn h1 h2 (op := .values none) ⟨hf, fun _ h => h⟩ h3 ?_
  intro w'' res hw hres
  cases res with
  | recs l =>
    simp only [ReadSpec, memPlain, Option.getD_none, List.map_map] at hres
    apply hk _ w'' _ hw
    rw [hres]
    rfl
  | _ => exact hres.elim

/-- Work on a selection of a shared or an own dataset. -/
theorem delivers_selection (hn : NamesOk names) {w0 : World} (hsh : ∀ O w, inv O w → sharedInv w0 S O w)
    (ha : At S inv j m T B) (hf : FullCols m.cols) {ws : List (List Char × SCond × List Char)}
    (hpre : SelectPre names ws (memPlain m) T) (hcols : ∀ c ∈ ws, c.2.1.col ∈ m.cols) {Q : Row → Bool}
    (hQ : ∀ r ∈ m.rows, Sat ws r ↔ Q r = true) {q : List Char} (hq : q = queryText ws)
    {P : Nat → (α → DbProg β) → DbProg β} {res : Except Err α}
    (hP : ∀ p, p ∉ S → DeliversIn names S (ownInv w0 S p { m with rows := m.rows.filter Q } T B) (P p) res) :
    DeliversIn names S inv (fun k => .select j q fun d => P d fun x => .close d (k x)) res := by
  intro O w k r hg hv he hk
  obtain ⟨⟨h1, hs⟩, hS⟩ := ha O w hv
  refine gives_select hn h1 hs hf hpre hcols hQ hS hq ?_
  intro w1 j c1 hj1 hj2 hsh1
  refine hP j hj1 (j :: O) w1 _ r c1.1 ⟨shared_stable (names := names) w0 S O w w1 (hsh O w hv) c1, by simp, hsh1⟩ he ?_
  intro x w2 hx c2 u hu
  obtain ⟨d1, d2, d3⟩ := close_move (S := S) hu.good (by simp : j ∈ j :: O) hj1 hu.alive
  have hfil : (j :: O).filter (· ≠ j) = O := by
    rw [List.filter_cons_of_neg (by simp)]
    apply List.filter_eq_self.2
    intro a ha
    simp only [decide_eq_true_eq]
    rintro rfl
    exact hj2 ha
  refine ⟨d1, ?_⟩
  rw [hfil]
  apply hk x _ hx
  refine ((c1.trans c2.cons).trans hu.carries.cons).trans ⟨d2, fun k hk => d3 k ?_⟩
  rintro rfl
  exact hk.elim hj1 hj2

theorem delivers_tail (hn : NamesOk names) (hst : Stable names S inv) (ha : At S inv j m T B) (hf : FullCols m.cols)
    {cfg : ListCfg} (hs : ∀ s ∈ cfg.sortCol, s ∈ m.cols) (hneg : cfg.nTargets ≠ none → cfg.negCol ∈ m.cols)
    (negIds : List Val) (g : Val) (d : LDraw) :
    DeliversIn names S inv (fun k : Attempt → DbProg β => dbTail cfg negIds j g d k)
      ((if cfg.short m.rows.length then .ok .retry else cfg.finish negIds g m.rows d.pad d.sample).map
        (readAttempt m.cols)) := by
  refine DeliversIn.bind hst (delivers_len ha) (Q := fun n k => if cfg.short n then k .retry
    else .read j (.values none) fun res => withResult (cfg.finish negIds g ((recsOf res).map recRow) d.pad d.sample) k)
    (res' := fun _ => (if cfg.short m.rows.length then .ok .retry else cfg.finish negIds g m.rows d.pad d.sample).map
        (readAttempt m.cols)) ?_
  intro n hn'
  cases hn'
  by_cases h : cfg.short m.rows.length
  · simp only [if_pos h]
    exact deliversIn_ok _
  · simp only [if_neg h]
    refine DeliversIn.bind hst (delivers_all hn ha hf)
      (Q := fun res k => withResult (cfg.finish negIds g ((recsOf res).map recRow) d.pad d.sample) k)
      (res' := fun _ => (cfg.finish negIds g m.rows d.pad d.sample).map (readAttempt m.cols)) ?_
    intro res hres
    cases hres
    have e : (recsOf (.recs (m.rows.map fun r => (r.toRec m.cols).filter fun q => q.1 ∈ m.cols))).map recRow =
        m.rows.map (asRead m.cols) := by
      simp only [recsOf, List.map_map]
      rfl
    rw [e, finish_read hs hneg]
    exact deliversIn_result _

end

/-- What is needed of the arguments of a sampler. -/
structure CfgOk (cfg : ListCfg) : Prop where
  group : cfg.groupCol ∈ ["uid", "iid"]
  neg : cfg.negCol ∈ ["uid", "iid"]
  thr : ∀ t ∈ cfg.threshold, PrintedNum t

theorem check_sort {cfg : ListCfg} {b : Bool} {cols : List String} (h : cfg.check b cols = .ok ()) :
    ∀ s ∈ cfg.sortCol, s ∈ cols := by
  unfold ListCfg.check at h
  split at h; · cases h
  split at h; · cases h
  split at h; · cases h
  split at h
  · cases h
  · rename_i h4
    intro s hs
    by_contra hc
    exact h4 ⟨s, hs, hc⟩

section
variable {β : Type} {names : List String} {S : List Nat} {w0 : World} {ds : Nat} {m : Mem} {T : Option (String → DType)}
  {B : Nat} {cfg : ListCfg}

theorem delivers_attempt (hn : NamesOk names) (hds : ds ∈ S) (hS0 : ∀ k ∈ S, (w0.insts k).isSome)
    (hf : FittedOn w0 ds m T B) (hc : CfgOk cfg) (hs : ∀ s ∈ cfg.sortCol, s ∈ m.cols) (n : Nat) (d : LDraw) :
    DeliversIn names S (sharedInv w0 S)
      (fun k : Attempt → DbProg β => dbAttempt cfg ds (memSampler cfg m).negIds (.num (n : ℚ)) d k)
      (((memSampler cfg m).attempt [.num (n : ℚ)] d.pad d.sample).map (readAttempt m.cols)) := by
  have hneg : cfg.negCol ∈ m.cols := hf.nums.cols _ (by
    have := hc.neg
    simp only [List.mem_cons, List.not_mem_nil, or_false] at this ⊢
    tauto)
  have hq : cfg.query (.num (n : ℚ)) = idQuery cfg.groupCol n := rfl
  rw [attempt_eq]
  unfold dbAttempt
  rw [hq]
  cases ht : cfg.threshold with
  | none =>
    refine delivers_within hn hds hS0 hf.shows hf.nums hc.group n
      (P := fun p k => dbTail cfg (memSampler cfg m).negIds p (.num (n : ℚ)) d k) ?_
    intro p _
    have := delivers_tail (β := β) hn (own_stable w0 S p { m with rows := rowsWith cfg.groupCol n m.rows } T B)
      (at_own (T := T) (B := B) hS0) hf.nums.full (cfg := cfg) hs (fun _ => hneg) (memSampler cfg m).negIds (.num (n : ℚ)) d
    simp only [groupRows, ht, Option.map_none, thresholdRows]
    exact this
  | some t =>
    obtain ⟨l, l1, l2, l3, l4⟩ := pyNum_lit t (hc.thr t ht)
    refine delivers_within hn hds hS0 hf.shows hf.nums hc.group n
      (P := fun p k => .select p (boundQuery ">=" t.text) fun p' =>
        dbTail cfg (memSampler cfg m).negIds p' (.num (n : ℚ)) d fun a => .close p' (k a)) ?_
    intro p _
    have hnum : Numbers { m with rows := rowsWith cfg.groupCol n m.rows } T := hf.nums.filter _
    refine delivers_selection hn (inv := ownInv w0 S p { m with rows := rowsWith cfg.groupCol n m.rows } T B)
      (fun O w h => h.1) (at_own (T := T) (B := B) hS0) hf.nums.full (thr_pre hnum .ge l3 l2) ?_
      (Q := fun r => match r.get "interaction" with | .num a => decide (t.value ≤ a) | _ => false) ?_
      (q := boundQuery ">=" t.text) ?_
      (P := fun p' k => dbTail cfg (memSampler cfg m).negIds p' (.num (n : ℚ)) d k) ?_
    · intro c hc
      simp only [thrWritten, List.mem_singleton] at hc
      subst hc
      exact hf.nums.cols _ (by simp)
    · intro r hr
      obtain ⟨v, hv⟩ := hnum.cells "interaction" (by simp) r hr
      exact sat_reach l2 hv
    · rw [← l1, boundQuery_ge]
      rfl
    · intro p' _
      have := delivers_tail (β := β) hn (own_stable w0 S p'
          { m with rows := thresholdRows (some t.value) (rowsWith cfg.groupCol n m.rows) } T B)
        (at_own (T := T) (B := B) hS0) hf.nums.full (cfg := cfg) hs (fun _ => hneg) (memSampler cfg m).negIds
          (.num (n : ℚ)) d
      simp only [groupRows, ht, Option.map_some, thresholdRows]
      exact this

/-- The elements sampled, as they are read. -/
def readOne (cols : List String) (o : Option (Sampled × List LDraw)) : Option (Sampled × List LDraw) :=
  o.map fun p => (readSampled cols p.1, p.2)

theorem delivers_one_element (hn : NamesOk names) (hds : ds ∈ S) (hS0 : ∀ k ∈ S, (w0.insts k).isSome)
    (hf : FittedOn w0 ds m T B) (hc : CfgOk cfg) (hs : ∀ s ∈ cfg.sortCol, s ∈ m.cols) {groups : List Val}
    (hg : (memSampler cfg m).groups = groups.map fun v => [v]) (hnum : ∀ v ∈ groups, ∃ n : Nat, v = .num (n : ℚ)) :
    ∀ (draws : List LDraw) (tries : Nat), DeliversIn names S (sharedInv w0 S)
      (fun k : Option (Sampled × List LDraw) → DbProg β => dbOne cfg ds groups (memSampler cfg m).negIds k tries draws)
      (((memSampler cfg m).one tries draws).map (readOne m.cols))
  | [], tries => by
    simp only [dbOne, LSampler.one]
    exact deliversIn_ok _
  | d :: draws, tries => by
    simp only [dbOne, LSampler.one, hg, List.length_map, List.getElem?_map]
    cases hd : groups[d.group % groups.length]? with
    | none =>
      exact deliversIn_error _
    | some g =>
      obtain ⟨n, rfl⟩ := hnum g (List.mem_of_getElem? hd)
      simp only [Option.map_some]
      have := DeliversIn.bind (shared_stable w0 S) (delivers_attempt (β := β) hn hds hS0 hf hc hs n d)
        (Q := fun a (k : Option (Sampled × List LDraw) → DbProg β) => match a with
          | .done s => k (some (s, draws))
          | .retry => if tries + 1 > 20 then .ret (.error .assertion)
            else dbOne cfg ds groups (memSampler cfg m).negIds k (tries + 1) draws)
        (res' := fun a => match a with
          | .done s => .ok (some (s, draws))
          | .retry => if tries + 1 > 20 then .error .assertion
            else ((memSampler cfg m).one (tries + 1) draws).map (readOne m.cols)) (by
          intro a _
          cases a with
          | done s => exact deliversIn_ok _
          | retry =>
            by_cases ht : tries + 1 > 20
            · simp only [if_pos ht]
              exact deliversIn_error _
            · simp only [if_neg ht]
              exact delivers_one_element hn hds hS0 hf hc hs hg hnum draws (tries + 1))
      cases ha : (memSampler cfg m).attempt [.num (n : ℚ)] d.pad d.sample with
      | error e =>
        rw [ha] at this
        exact this
      | ok a =>
        rw [ha] at this
        cases a with
        | done s => exact this
        | retry =>
          by_cases ht : tries + 1 > 20
          · simp only [readAttempt, Except.map, Except.bind, if_pos ht] at this ⊢
            exact this
          · simp only [readAttempt, Except.map, Except.bind, if_neg ht] at this ⊢
            exact this

theorem delivers_sample (hn : NamesOk names) (hds : ds ∈ S) (hS0 : ∀ k ∈ S, (w0.insts k).isSome)
    (hf : FittedOn w0 ds m T B) (hc : CfgOk cfg) (hs : ∀ s ∈ cfg.sortCol, s ∈ m.cols) {groups : List Val}
    (hg : (memSampler cfg m).groups = groups.map fun v => [v]) (hnum : ∀ v ∈ groups, ∃ n : Nat, v = .num (n : ℚ)) :
    ∀ (n : Nat) (draws : List LDraw) (acc : List Sampled), DeliversIn names S (sharedInv w0 S)
      (fun k : Option (List Sampled) → DbProg β => dbSample cfg ds groups (memSampler cfg m).negIds k n draws acc)
      (((memSampler cfg m).sample n draws).map fun o => o.map fun l => acc ++ l.map (readSampled m.cols))
  | 0, draws, acc => by
    simp only [dbSample, LSampler.sample]
    have := deliversIn_ok (names := names) (S := S) (inv := sharedInv w0 S) (β := β) (some acc)
    simpa [Except.map] using this
  | n + 1, draws, acc => by
    simp only [dbSample, LSampler.sample]
    have := DeliversIn.bind (shared_stable w0 S) (delivers_one_element (β := β) hn hds hS0 hf hc hs hg hnum draws 0)
      (Q := fun o (k : Option (List Sampled) → DbProg β) => match o with
        | none => k none
        | some (s, rest) => dbSample cfg ds groups (memSampler cfg m).negIds k n rest (acc ++ [s]))
      (res' := fun o => match o with
        | none => .ok none
        | some (s, rest) => ((memSampler cfg m).sample n rest).map fun o =>
            o.map fun l => (acc ++ [s]) ++ l.map (readSampled m.cols)) (by
        intro o _
        cases o with
        | none => exact deliversIn_ok _
        | some p => exact delivers_sample hn hds hS0 hf hc hs hg hnum n p.2 _)
    cases ho : (memSampler cfg m).one 0 draws with
    | error e =>
      rw [ho] at this
      exact this
    | ok o =>
      rw [ho] at this
      cases o with
      | none => exact this
      | some p =>
        obtain ⟨s, rest⟩ := p
        simp only [readOne, Except.map, Except.bind, Option.map_some] at this ⊢
        cases hs2 : (memSampler cfg m).sample n rest with
        | error e =>
          rw [hs2] at this
          exact this
        | ok o =>
          rw [hs2] at this
          cases o with
          | none => exact this
          | some l =>
            have e : acc ++ (readSampled m.cols s :: l.map (readSampled m.cols)) =
                (acc ++ [readSampled m.cols s]) ++ l.map (readSampled m.cols) := by simp
            simp only [Option.map_some, List.map_cons]
            rw [e]
            exact this

theorem mapM_cons_map {α γ : Type} (f : α → Except Err γ) (a : α) (as : List α) (acc : List γ) :
    ((a :: as).mapM f).map (fun l => acc ++ l) = (f a).bind fun b => (as.mapM f).map fun l => (acc ++ [b]) ++ l := by
  rw [List.mapM_cons]
  cases f a with
  | error e => rfl
  | ok p =>
    cases as.mapM f with
    | error e => rfl
    | ok l => simp [bind, Except.bind, pure, Except.pure, Except.map]

/-- What is made of the answers, as they are read. -/
def madeOf {γ : Type} (cols : List String) (f : Option (List Sampled) → Except Err γ) (L : LSampler)
    (c : Nat × List LDraw) : Except Err γ :=
  (L.sample c.1 c.2).bind fun o => f (o.map fun l => l.map (readSampled cols))

theorem delivers_calls {γ : Type} (hn : NamesOk names) (hds : ds ∈ S) (hS0 : ∀ k ∈ S, (w0.insts k).isSome)
    (hf : FittedOn w0 ds m T B) (hc : CfgOk cfg) (hs : ∀ s ∈ cfg.sortCol, s ∈ m.cols) {groups : List Val}
    (hg : (memSampler cfg m).groups = groups.map fun v => [v]) (hnum : ∀ v ∈ groups, ∃ n : Nat, v = .num (n : ℚ))
    (f : Option (List Sampled) → Except Err γ) :
    ∀ (cs : List (Nat × List LDraw)) (acc : List γ), DeliversIn names S (sharedInv w0 S)
      (fun k : List γ → DbProg β => dbCalls cfg ds groups (memSampler cfg m).negIds f k cs acc)
      ((cs.mapM (madeOf m.cols f (memSampler cfg m))).map fun l => acc ++ l)
  | [], acc => by
    have := deliversIn_ok (names := names) (S := S) (inv := sharedInv w0 S) (β := β) acc
    simpa [dbCalls, pure, Except.pure, Except.map] using this
  | c :: cs, acc => by
    rw [mapM_cons_map]
    have h1 := DeliversIn.bind (shared_stable w0 S) (delivers_sample (β := β) hn hds hS0 hf hc hs hg hnum c.1 c.2 [])
      (Q := fun o (k : γ → DbProg β) => withResult (f o) k) (res' := f) (fun o _ => deliversIn_result _)
    have h2 := DeliversIn.bind (shared_stable w0 S) h1
      (Q := fun b (k : List γ → DbProg β) => dbCalls cfg ds groups (memSampler cfg m).negIds f k cs (acc ++ [b]))
      (res' := fun b => (cs.mapM (madeOf m.cols f (memSampler cfg m))).map fun l => (acc ++ [b]) ++ l)
      (fun b _ => delivers_calls hn hds hS0 hf hc hs hg hnum f cs _)
    have e : madeOf m.cols f (memSampler cfg m) c = (((memSampler cfg m).sample c.1 c.2).map fun o =>
        o.map fun l => [] ++ l.map (readSampled m.cols)).bind f := by
      unfold madeOf
      cases (memSampler cfg m).sample c.1 c.2 with
      | error e => rfl
      | ok o => rfl
    rw [e]
    exact h2

/-! ## The constructor -/

theorem dedupGo_values (c : String) (rows : List Row) (seen : List (List Val)) :
    (dedupGo (keyOn [c]) rows seen).map (·.get c) = (distinctVals (rows.map (·.get c))).filter fun v => [v] ∉ seen := by
  induction rows generalizing seen with
  | nil => rfl
  | cons r rows ih =>
    have hk : keyOn [c] r = [r.get c] := rfl
    simp only [dedupGo, List.map_cons, distinctVals, hk]
    by_cases h : [r.get c] ∈ seen
    · rw [if_pos h, ih, List.filter_cons_of_neg (by simpa using h), List.filter_filter]
      apply List.filter_congr
      intro v _
      by_cases hv : v = r.get c
      · subst hv; simp [h]
      · simp [hv]
    · rw [if_neg h, List.map_cons, ih, List.filter_cons_of_pos (by simpa using h), List.filter_filter]
      congr 1
      apply List.filter_congr
      intro v _
      by_cases hv : v = r.get c
      · subst hv; simp
      · simp [hv]

theorem uniqueVals_distinct {ds : Mem} {c : String} (hc : c ∈ ds.cols) (hr : c ≠ "rid") :
    uniqueVals ds c = .ok (distinctVals (ds.rows.map (·.get c))) := by
  have h1 : handleColumns ds.cols (some [c]) = .ok [c] := handleColumns_ok (by simpa using hc)
  have h2 : ("rid" = c) = False := by simpa using fun h => hr h.symm
  unfold uniqueVals Mem.unique
  rw [h1]
  simp only [Except.map, Mem.uniqueOn, Mem.copy, List.mem_singleton, h2, if_false, List.singleton_append]
  have h3 : [c, "rid"].filter (fun x => decide (x ≠ "rid")) = [c] := by simp [hr]
  rw [h3, dedupGo_values]
  simp

theorem distinctVals_twin (l : List Val) : distinctVals (distinctVals l) = distinctVals l := by
  have : ∀ l : List Val, l.Nodup → distinctVals l = l := by
    intro l
    induction l with
    | nil => intro _; rfl
    | cons v l ih =>
      intro h
      rw [List.nodup_cons] at h
      rw [distinctVals, ih h.2, List.filter_eq_self.2]
      intro a ha
      simp only [ne_eq, decide_not, Bool.not_eq_eq_eq_not, Bool.not_true, decide_eq_false_iff_not]
      rintro rfl
      exact h.1 ha
  exact this _ (nodup_distinctVals l)

theorem groups_one (cfg : ListCfg) (m : Mem) :
    (memSampler cfg m).groups = (distinctVals (m.rows.map (·.get cfg.groupCol))).map fun v => [v] := by
  have h := dedupGo_values cfg.groupCol m.rows []
  simp only [List.not_mem_nil, not_false_eq_true, decide_true, List.filter_true] at h
  rw [← h, List.map_map]
  rfl

theorem groups_nat (hf : Fresh m) {c : String} (hc : c ∈ ["uid", "iid"]) :
    ∀ v ∈ distinctVals (m.rows.map (·.get c)), ∃ n : Nat, v = .num (n : ℚ) := by
  intro v hv
  obtain ⟨r, hr, rfl⟩ := List.mem_map.1 ((mem_distinctVals _ _).1 hv)
  simp only [List.mem_cons, List.not_mem_nil, or_false] at hc
  rcases hc with rfl | rfl
  · exact ⟨_, (hf.ids.user.code r hr).2⟩
  · exact ⟨_, (hf.ids.item.code r hr).2⟩

theorem delivers_training {γ : Type} (hn : NamesOk names) (hds : ds ∈ S) (hS0 : ∀ k ∈ S, (w0.insts k).isSome)
    (hf : FittedOn w0 ds m T B) (hc : CfgOk cfg) {x : Inst} (h1 : x.hasIds = m.hasIds) (h2 : x.columns = m.cols)
    (f : Option (List Sampled) → Except Err γ) (cs : List (Nat × List LDraw)) :
    DeliversIn names S (sharedInv w0 S)
      (fun k : List γ → DbProg β => dbListSampler cfg ds x fun groups negIds => dbCalls cfg ds groups negIds f k cs [])
      ((cfg.check m.hasIds m.cols).bind fun _ => cs.mapM (madeOf m.cols f (memSampler cfg m))) := by
  have st := shared_stable (names := names) w0 S
  have hcol : ∀ c ∈ ["uid", "iid"], c ∈ m.cols ∧ c ≠ "rid" := by
    intro c hc
    refine ⟨hf.nums.cols _ ?_, ?_⟩
    · simp only [List.mem_cons, List.not_mem_nil, or_false] at hc ⊢
      tauto
    · rintro rfl
      simp at hc
  unfold dbListSampler
  rw [h1, h2]
  refine DeliversIn.bind st (deliversIn_result (cfg.check m.hasIds m.cols)) (Q := fun _ k =>
    readUnique ds cfg.groupCol fun groups => readUnique ds cfg.negCol fun ids =>
      dbCalls cfg ds groups (distinctVals ids) f k cs []) ?_
  intro _ hchk
  have hs := check_sort hchk
  refine DeliversIn.bind st (delivers_unique hn hds hS0 hf hc.group
    (uniqueVals_distinct (hcol _ hc.group).1 (hcol _ hc.group).2)) (Q := fun groups k =>
      readUnique ds cfg.negCol fun ids => dbCalls cfg ds groups (distinctVals ids) f k cs [])
    (res' := fun _ => cs.mapM (madeOf m.cols f (memSampler cfg m))) ?_
  intro groups hgs
  cases hgs
  refine DeliversIn.bind st (delivers_unique hn hds hS0 hf hc.neg
    (uniqueVals_distinct (hcol _ hc.neg).1 (hcol _ hc.neg).2)) (Q := fun ids k =>
      dbCalls cfg ds (distinctVals (m.rows.map (·.get cfg.groupCol))) (distinctVals ids) f k cs [])
    (res' := fun _ => cs.mapM (madeOf m.cols f (memSampler cfg m))) ?_
  intro ids hids
  cases hids
  rw [distinctVals_twin]
  have := delivers_calls (β := β) hn hds hS0 hf hc hs (groups_one cfg m) (groups_nat hf.fresh hc.group) f cs []
  have e : ((cs.mapM (madeOf m.cols f (memSampler cfg m))).map fun l => [] ++ l) =
      cs.mapM (madeOf m.cols f (memSampler cfg m)) := by
    cases cs.mapM (madeOf m.cols f (memSampler cfg m)) <;> rfl
  rw [e] at this
  exact this

/-! ## Caser -/

theorem sequence_rows {m : Mem} (hm : IdsOk m) (c : Caser) (sortCol : Option String) (uid : Nat) :
    c.sequence m sortCol uid =
      .ok (lastOf c.L ((sortRows (sortCol.filter (· ∈ m.cols)) (rowsWith "uid" uid m.rows)).map (·.get "iid"))) := by
  unfold Caser.sequence
  rw [uidRows_ok hm.user.hasCol]
  rfl

theorem mem_sortRows (c : Option String) (l : List Row) (r : Row) : r ∈ sortRows c l ↔ r ∈ l := by
  cases c with
  | none => rfl
  | some c => exact List.mem_insertionSort _

theorem delivers_caserRank (hn : NamesOk names) (hds : ds ∈ S) (hS0 : ∀ k ∈ S, (w0.insts k).isSome)
    (hf : FittedOn w0 ds m T B) (c : Caser) (sortCol : Option String) (net : Nat → List Val → Except Err (List ℚ)) :
    RankAlike (β := β) names S w0 (dbCaserRank c ds m.cols sortCol net) (memCaserRank c m sortCol net) := by
  intro uid iids n novelty
  have hic : "iid" ∈ m.cols := hf.nums.cols _ (by simp)
  have hsort : ∀ s ∈ sortCol.filter (· ∈ m.cols), s ∈ m.cols := by
    intro s hs
    rw [Option.mem_def, Option.filter_eq_some_iff] at hs
    simpa using hs.2
  have hcols : ∀ l : List Row, ((sortRows (sortCol.filter (· ∈ m.cols)) (l.map (asRead m.cols))).map (·.get "iid")) =
      (sortRows (sortCol.filter (· ∈ m.cols)) l).map (·.get "iid") := by
    intro l
    rw [sortRows_read hsort, List.map_map]
    apply List.map_congr_left
    intro r _
    exact asRead_get hic r
  have h1 := delivers_within (β := β) hn hds hS0 hf.shows hf.nums (c := "uid") (by simp) uid
    (P := fun d k => .read d (.values none) k)
    (res := .ok (.recs ((rowsWith "uid" uid m.rows).map fun r => (r.toRec m.cols).filter fun q => q.1 ∈ m.cols)))
    (fun p _ => delivers_all hn (at_own (j := p) (m := { m with rows := rowsWith "uid" uid m.rows }) (T := T) (B := B) hS0)
      hf.nums.full)
  have h2 := DeliversIn.bind (shared_stable w0 S) h1 (Q := fun res k =>
    let own := (sortRows (sortCol.filter (· ∈ m.cols)) ((recsOf res).map recRow)).map (·.get "iid")
    withResult (net uid (lastOf c.L own)) fun preds =>
    if novelty then
      k (nlargest n (preds.zipIdx.filter fun p => p.2 ∈ iids.filter fun i => .num (i : ℚ) ∉ own))
    else k (nlargest n preds.zipIdx)) (res' := fun _ => memCaserRank c m sortCol net uid iids n novelty) (by
      intro res hres
      cases hres
      have e : (recsOf (.recs ((rowsWith "uid" uid m.rows).map fun r => (r.toRec m.cols).filter fun q => q.1 ∈ m.cols))).map
          recRow = (rowsWith "uid" uid m.rows).map (asRead m.cols) := by
        simp only [recsOf, List.map_map]
        rfl
      simp only [e, hcols]
      unfold memCaserRank
      rw [sequence_rows hf.fresh.ids]
      simp only
      cases net uid (lastOf c.L ((sortRows (sortCol.filter (· ∈ m.cols)) (rowsWith "uid" uid m.rows)).map (·.get "iid"))) with
      | error e => exact deliversIn_error _
      | ok preds =>
        simp only [withResult]
        unfold caserRank
        rw [ratedIids_ok hf.fresh.ids]
        simp only
        cases novelty with
        | false => exact deliversIn_ok _
        | true =>
          simp only [if_true]
          have e2 : (iids.filter fun i : Nat => decide (Val.num (i : ℚ) ∉ (sortRows (sortCol.filter (· ∈ m.cols))
              (rowsWith "uid" uid m.rows)).map (·.get "iid"))) =
              iids.filter fun i : Nat => decide (Val.num (i : ℚ) ∉ (rowsWith "uid" uid m.rows).map (·.get "iid")) := by
            apply List.filter_congr
            intro i _
            rw [decide_eq_decide, not_iff_not, List.mem_map, List.mem_map]
            simp only [mem_sortRows]
          rw [e2]
          exact deliversIn_ok _)
  exact h2

end

end DRec.Conc
