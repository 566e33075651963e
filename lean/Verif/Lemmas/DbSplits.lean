import Verif.Spec.DbSplits
import Verif.Lemmas.Both
import Verif.Lemmas.KnnMem
import Verif.Props.Splits
import Verif.Props.SplitThreads
import Verif.Props.DbThreads

/-! # Splits of a database dataset: steps -/

namespace DRec.Conc

open Spec

/-! ## Direct interactions -/

theorem optimize_state {w : World} {i : Nat} {x : Inst} (hx : w.insts i = some x) (hg : w.gens = 0)
    (he : (w.optimize i true).2 = none) : ∃ y, (w.optimize i true).1.insts i = some y ∧ y.state = .table := by
  unfold World.optimize at he ⊢
  simp only [hx] at he ⊢
  by_cases hs : x.state = .table ∧ True
  · rw [if_pos hs]
    exact ⟨_, put_self _ _ _, hs.1⟩
  · rw [if_neg hs, if_neg (by omega)] at he ⊢
    split at he
    · rename_i us t h1 h2
      split at he
      · rename_i hl
        simp only [hl, if_true]
        unfold World.shrink at he ⊢
        rw [if_neg (fun h : x.reset.state = .table => hs ⟨h, trivial⟩)] at he ⊢
        split at he
        · cases he
        · rename_i scols rows hev
          split at he
          · rename_i hr
            simp only [hr, if_true]
            exact ⟨_, put_self _ _ _, rfl⟩
          · cases he
      · rename_i hl
        simp only [hl, if_false]
        unfold World.split at he ⊢
        split at he
        · cases he
        · split at he
          · cases he
          · rename_i hr
            split at he
            · rename_i hr2
              simp only [hr2, if_true]
              exact ⟨_, put_self _ _ _, rfl⟩
            · cases he
    · cases he

theorem record_state {w : World} {i : Nat} {x : Inst} (hx : w.insts i = some x) (hg : w.gens = 0)
    (he : (w.record i).2 = none) : ∃ y, (w.record i).1.insts i = some y ∧
      (y.state = .table ∨ (y.state = x.state ∧ y.direct = x.direct + 1 ∧ x.direct < 3)) := by
  unfold World.record at he ⊢
  simp only [hx] at he ⊢
  by_cases hc : 4 ≤ x.direct + 1 ∧ w.gens = 0
  · rw [if_pos hc] at he ⊢
    obtain ⟨y, h1, h2⟩ := optimize_state (put_self _ _ _) (by exact hg) he
    exact ⟨y, h1, Or.inl h2⟩
  · rw [if_neg hc]
    exact ⟨_, put_self _ _ _, Or.inr ⟨rfl, rfl, by omega⟩⟩

/-! ## Users and items -/

theorem pick_lookup {cols : List String} {c : String} (hc : c ∈ cols) (r : Row) :
    (((r.toRec cols).filter fun q => q.1 ∈ [c]).lookup c).getD .null = r.get c := by
  have : ((r.toRec cols).filter fun q => q.1 ∈ [c]) = r.toRec (cols.filter fun d => d ∈ [c]) := by
    unfold Row.toRec
    rw [List.filter_map]
    rfl
  rw [this, lookup_toRec r c _ (by simp [hc])]
  rfl

theorem dbUnique_good {names : List String} (hn : NamesOk names) {w w1 : World} (hg : Good names w) {i j : Nat}
    {m : Mem} (hm : MemOk m) (hp : plainOf w i = some (memPlain m)) {x : Inst} (hx : w.insts i = some x) {c : String}
    (hc : c ∈ m.cols) (hr : c ≠ "rid") {vs : List Val} (h : dbUnique w i c = (w1, .ok (j, vs))) :
    Good names w1 ∧ uniqueVals m c = .ok vs ∧ (∃ q, plainOf w1 = setAt (plainOf w) j (some q)) ∧
      plainOf w j = none ∧ j ≠ i ∧
      ∃ y, w1.insts i = some y ∧ y.types = x.types ∧ y.columns = x.columns ∧
        (y.state = .table ∨ (y.state = x.state ∧ y.direct = x.direct + 1 ∧ x.direct < 3)) := by
  obtain ⟨md, hmd, hmok, hmp⟩ := mem_unique_plain hm true (cs := [c]) (by simpa using hc) (by simpa using Ne.symm hr)
  unfold dbUnique at h
  cases hu : (w.unique i (some [c]) true).2 with
  | error e =>
    have eu : w.unique i (some [c]) true = ((w.unique i (some [c]) true).1, .error e) := by rw [← hu]
    rw [eu] at h; cases h
  | ok j' =>
    have eu : w.unique i (some [c]) true = ((w.unique i (some [c]) true).1, .ok j') := by rw [← hu]
    rw [eu] at h
    simp only at h
    obtain ⟨g1, g2⟩ := step_good hn hg (op := .unique i (some [c]) true) (by simp [Admissible])
    simp only [runOp] at g1 g2
    rw [hu] at g2
    obtain ⟨⟨s1, s2⟩, p, s3, s4⟩ := g2
    simp only [DbOp.inst] at s2 s3
    rw [hp] at s3; cases s3
    simp only [DbOp.effect, ← hmp] at s4
    have hpj : plainOf (w.unique i (some [c]) true).1 j' = some (memPlain md) := by rw [s4]; simp [setAt]
    obtain ⟨z, _, _, hz, _⟩ := plain_inv g1 hpj
    cases hrd : ((w.unique i (some [c]) true).1.read j' (.values (some [c]))).2 with
    | error e =>
      have er : (w.unique i (some [c]) true).1.read j' (.values (some [c])) =
        (((w.unique i (some [c]) true).1.read j' (.values (some [c]))).1, .error e) := by rw [← hrd]
      rw [er] at h; cases h
    | ok res =>
      have er : (w.unique i (some [c]) true).1.read j' (.values (some [c])) =
        (((w.unique i (some [c]) true).1.read j' (.values (some [c]))).1, .ok res) := by rw [← hrd]
      rw [er] at h
      simp only [Prod.mk.injEq, Except.ok.injEq] at h
      obtain ⟨h1, rfl, h2⟩ := h
      rw [read_world] at h1
      obtain ⟨r1, r2, r3, _, _⟩ := record_good hn g1 hz
      have hrs := read_good hn g1 hz hpj hrd
      subst h1
      refine ⟨r1, ?_, ⟨_, r2.trans s4⟩, s1, s2, ?_⟩
      · cases res with
        | recs l =>
          simp only [ReadSpec] at hrs
          simp only [BothOp.onMem, if_true] at hmd
          have hcm : c ∈ md.cols := by
            have := congrArg Plain.cols hmp
            simp only [memPlain, Plain.unique, Option.getD_some] at this
            rw [this]
            split <;> simp
          simp only [uniqueVals, hmd, Except.map, Except.ok.injEq]
          rw [← h2, hrs]
          simp only [columnOf, memPlain, List.map_map]
          apply List.map_congr_left
          intro r _
          exact (pick_lookup hcm r).symm
        | _ => exact absurd hrs id
      · -- the dataset itself
        have hxi : (w.unique i (some [c]) true).1.insts i = ((w.copy i).1.record i).1.insts i ∧
            ((w.copy i).1.record i).2 = none := by
          have hh : handleColumns x.columns (some [c]) = .ok [c] := by
            have : x.columns = m.cols := by
              obtain ⟨x', _, _, hx', _, _, hpe⟩ := plain_inv hg hp
              rw [hx] at hx'; cases hx'
              exact (congrArg Plain.cols hpe).symm
            simp [handleColumns, this, hc]
          obtain ⟨c1, c2, _, _, c5, c6, c7⟩ := copy_good hg hx
          have ec : w.copy i = ((w.copy i).1, none) := by rw [← c1]
          have hxc : (w.copy i).1.insts i = some x := by rw [c6 i (Ne.symm c5)]; exact hx
          obtain ⟨q1, _, _, _, q5⟩ := record_good hn c2 hxc
          simp only [World.unique, hx, hh, World.inPlaceOrCopy, if_true] at hu ⊢
          unfold World.onCopy at hu ⊢
          rw [ec] at hu ⊢
          simp only at hu ⊢
          cases he : ((w.copy i).1.record i).2 with
          | some e =>
            have er : (w.copy i).1.record i = (((w.copy i).1.record i).1, some e) := by rw [← he]
            rw [er] at hu; cases hu
          | none =>
            have er : (w.copy i).1.record i = (((w.copy i).1.record i).1, none) := by rw [← he]
            rw [er] at hu ⊢
            simp only at hu ⊢
            refine ⟨?_, trivial⟩
            obtain ⟨y, hy, _⟩ := q5 he
            have hk := (keep_uniqueOn q1.reg w.nextI [c]) i y (Ne.symm c5) hy
            cases hf : (((w.copy i).1.record i).1.uniqueOn w.nextI [c]).2 with
            | some e =>
              have ef : ((w.copy i).1.record i).1.uniqueOn w.nextI [c] =
                ((((w.copy i).1.record i).1.uniqueOn w.nextI [c]).1, some e) := by rw [← hf]
              rw [ef] at hu; cases hu
            | none =>
              have ef : ((w.copy i).1.record i).1.uniqueOn w.nextI [c] =
                ((((w.copy i).1.record i).1.uniqueOn w.nextI [c]).1, none) := by rw [← hf]
              rw [ef]
              simp only
              rw [hk.1, hy]
        obtain ⟨c1, c2, _, _, c5, c6, c7⟩ := copy_good hg hx
        have hxc : (w.copy i).1.insts i = some x := by rw [c6 i (Ne.symm c5)]; exact hx
        obtain ⟨_, _, _, _, q5⟩ := record_good hn c2 hxc
        obtain ⟨y, hy, y1, y2⟩ := q5 hxi.2
        obtain ⟨y', hy', y3⟩ := record_state hxc c2.gens hxi.2
        rw [hy] at hy'; cases hy'
        refine ⟨y, ?_, y2, y1, y3⟩
        rw [r3 i (Ne.symm s2), hxi.1]
        exact hy

/-! ## The pool -/

/-- The query of a user as written. -/
def userWritten (v : Val) : Written :=
  [([], ⟨"user", .eq, .int (match v with | .num q => q.num | _ => 0)⟩, [])]

theorem userWritten_num (n : Int) : userWritten (.num (n : ℚ)) = [([], ⟨"user", .eq, .int n⟩, [])] := by
  simp [userWritten]

theorem userWritten_text (n : Int) : queryText (userWritten (.num (n : ℚ))) = userQuery (.num (n : ℚ)) := by
  rw [userWritten_num]
  unfold userQuery
  symm
  simp only [queryText, SCond.text, SLit.text, List.nil_append, List.append_nil, cellText]
  rw [if_pos (by simp)]
  rfl

theorem userWritten_sat {cols : List String} (hc : "user" ∈ cols) (n : Int) (r : Row) :
    SatRec (userWritten (.num (n : ℚ))) (r.toRec cols) ↔ r.get "user" = .num n := by
  rw [userWritten_num]
  simp [SatRec, Holds, SLit.value, cellOf_toRec _ _ _ hc]

theorem pool_result {names : List String} (hn : NamesOk names) {w : World} (hg : Good names w) {i : Nat} {m : Mem}
    (hp : plainOf w i = some (memPlain m)) {x : Inst} (hx : w.insts i = some x) (hu : IntUsers m)
    (hty : ∀ ty, x.types = some ty → ty "user" = .int) (hf : FullCols m.cols) {us : List Val}
    (hus : ∀ v ∈ us, ∃ r ∈ m.rows, r.get "user" = v) (hlim : x.state = .table ∨ x.direct + us.length < 4) {s : State}
    (h : PoolRun w i us s) :
    Good names s.w ∧
    s.tasks = us.map (fun v => Phase.done (.ok (.recs ((recordsOf m.rows v).map (Row.toRec m.cols))))) ∧
    ∀ k q, plainOf w k = some q → plainOf s.w k = some q := by
  obtain ⟨hr, hd⟩ := h
  have hint : ∀ v ∈ us, ∃ n : Int, v = .num (n : ℚ) := by
    intro v hv
    obtain ⟨r, hr, rfl⟩ := hus v hv
    exact hu.whole r hr
  have hq : us.map userQuery = (us.map userWritten).map queryText := by
    rw [List.map_map]
    apply List.map_congr_left
    intro v hv
    obtain ⟨n, rfl⟩ := hint v hv
    exact (userWritten_text n).symm
  have hpre : ∀ ws ∈ us.map userWritten, SelectPre names ws (memPlain m) x.types := by
    intro ws hws
    obtain ⟨v, hv, rfl⟩ := List.mem_map.1 hws
    obtain ⟨n, rfl⟩ := hint v hv
    refine ⟨⟨by simp [userWritten], ?_⟩, ?_⟩
    · intro c hc
      simp only [userWritten, List.mem_singleton] at hc
      subst hc
      exact ⟨by simp [Blank], by simp [Blank], (by decide : NameOk "user"), trivial⟩
    · intro c hc
      simp only [userWritten, List.mem_singleton] at hc
      subst hc
      refine ⟨trivial, ?_, ?_⟩
      · intro ty ht
        simp only [FitsType, hty ty ht, SLit.isStr]
      · intro rec hrec
        simp only [memPlain, List.mem_map] at hrec
        obtain ⟨r, hr, rfl⟩ := hrec
        rw [cellOf_toRec _ _ _ hu.hasUser]
        obtain ⟨k, hk⟩ := hu.whole r hr
        rw [hk]
        exact ⟨trivial, by simp⟩
  have hinv : Inv names w x (memPlain m) (us.map userWritten) i s := by
    rw [hq] at hr
    clear hd
    induction hr with
    | refl => exact Inv.init hg hx hp _
    | step k _ hs ih => exact ih.step hn (by simpa using hlim) hpre hs
  refine ⟨hinv.own.good, ?_, fun k q hk => ?_⟩
  · apply List.ext_getElem
    · rw [hinv.len, List.length_map, List.length_map]
    · intro k h1 h2
      simp only [List.length_map] at h2
      obtain ⟨r, hr⟩ := hd _ (List.getElem_mem h1)
      have hv := hint _ (List.getElem_mem h2)
      obtain ⟨n, hv⟩ := hv
      have ht := hinv.task k (.done r) (userWritten us[k]) (by rw [List.getElem?_eq_getElem h1, hr])
        (by simp [h2])
      obtain ⟨t1, t2⟩ := ht
      obtain ⟨res, rfl⟩ := t2 hf (by
        intro c hc
        simp only [userWritten, List.mem_singleton] at hc
        subst hc
        exact hu.hasUser)
      have := t1 res rfl
      rw [hr, List.getElem_map, this, hv]
      congr 3
      simp only [Plain.select, memPlain, recordsOf]
      symm
      apply filter_plain
      intro r _
      simp only [decide_eq_decide]
      exact userWritten_sat hu.hasUser n r
  · by_cases hki : k = i
    · subst hki
      rw [hk] at hp; cases hp
      exact hinv.own.plain
    · obtain ⟨z, _, _, hz, _⟩ := plain_inv hg hk
      rw [plainOf_frame hz (hinv.old k z hki hz)]
      exact hk

/-! ## The tasks -/

theorem recRow_rid {cols : List String} (hc : "rid" ∈ cols) (r : Row) : (recRow (r.toRec cols)).rid = r.rid := by
  simp [recRow, lookup_toRec r "rid" cols hc, Row.get]

theorem recRow_get {cols : List String} {c : String} (hr : "rid" ∈ cols) (hc : c ∈ cols) (r : Row) :
    (recRow (r.toRec cols)).get c = r.get c := by
  unfold Row.get
  by_cases h : c = "rid"
  · rw [if_pos h, if_pos h, recRow_rid hr]
  · rw [if_neg h, if_neg h]
    have := lookup_toRec r c cols hc
    simp only [recRow, this, Option.getD_some, Row.get, if_neg h]

theorem latestRids_congr (label : String) (k : Nat) (f : Row → Row) (rows : List Row)
    (h1 : ∀ r, (f r).rid = r.rid) (h2 : ∀ r, (f r).get label = r.get label) :
    latestRids label k (rows.map f) = latestRids label k rows := by
  unfold latestRids
  rw [List.map_map]
  have : (fun r : Row => (sortKey label r, r.rid)) ∘ f = fun r => (sortKey label r, r.rid) := by
    funext r
    simp [sortKey, h1, h2]
  rw [this]

theorem leaveKTask_congr {cols : List String} (hr : "rid" ∈ cols) (minN k : Nat) (last : Option String)
    (rng : Nat → Nat) (rows : List Row) :
    leaveKTask cols minN k last rng ((rows.map (Row.toRec cols)).map recRow) =
      leaveKTask cols minN k last rng rows := by
  rw [List.map_map]
  have h1 : ∀ r : Row, ((recRow ∘ Row.toRec cols) r).rid = r.rid := fun r => recRow_rid hr r
  have e1 : (rows.map (recRow ∘ Row.toRec cols)).map (·.rid) = rows.map (·.rid) := by
    rw [List.map_map]; exact List.map_congr_left fun r _ => h1 r
  unfold leaveKTask
  rw [e1, List.length_map]
  cases last with
  | none => rfl
  | some label =>
    by_cases hl : label ∈ cols
    · simp only [hl, if_true]
      rw [latestRids_congr label k _ rows h1 (fun r => recRow_get hr hl r)]
    · simp only [hl, if_false]

theorem dbLeaveKUser_eq {m : Mem} (hu : IntUsers m) (hr : "rid" ∈ m.cols) (k : KArg) (minN : Nat)
    (last : Option String) (rng : Nat → Nat) {v : Val} (hv : ∃ r ∈ m.rows, r.get "user" = v) :
    dbLeaveKUser m.cols k minN last rng (.done (.ok (.recs ((recordsOf m.rows v).map (Row.toRec m.cols))))) =
      leaveKUser m k minN last rng v := by
  rw [leaveKUser_int hu _ _ _ _ hv]
  simp only [dbLeaveKUser, List.length_map]
  exact leaveKTask_congr hr _ _ _ _ _

theorem dbMatrixUser_eq {m : Mem} (hu : IntUsers m) (hr : "rid" ∈ m.cols) (hi : "item" ∈ m.cols) (minN : Nat)
    (U I : List Val) {v : Val} (hv : ∃ r ∈ m.rows, r.get "user" = v) :
    dbMatrixUser minN U I v (.done (.ok (.recs ((recordsOf m.rows v).map (Row.toRec m.cols))))) =
      matrixUser m minN U I v := by
  obtain ⟨r0, hr0, rfl⟩ := hv
  obtain ⟨n, hn⟩ := hu.whole r0 hr0
  unfold matrixUser
  rw [hn, userRows_int hu n]
  have e1 : ∀ l : List Row, ((l.map (Row.toRec m.cols)).map fun r => (recRow r).rid) = l.map (·.rid) := by
    intro l
    rw [List.map_map]
    exact List.map_congr_left fun r _ => recRow_rid hr r
  have e2 : ((recordsOf m.rows (.num n)).map (Row.toRec m.cols)).filter (fun r => (recRow r).get "item" ∈ I) =
      ((recordsOf m.rows (.num n)).filter fun r => r.get "item" ∈ I).map (Row.toRec m.cols) := by
    symm
    apply filter_plain
    intro r _
    rw [recRow_get hr hi]
  simp only [dbMatrixUser, List.length_map, e1, e2, List.map_map]
  rfl

/-! ## The two sets -/

theorem dbFinish_good {names : List String} (hn : NamesOk names) {w w' : World} (hg : Good names w) {i a b : Nat}
    {m : Mem} (hm : MemOk m) (hp : plainOf w i = some (memPlain m)) {mem : (v : SVar) → v.Ty}
    (h : dbFinish w i mem = (w', .ok (a, b))) :
    Good names w' ∧ plainOf w' a = some (memPlain (splitFinish m mem).1) ∧
      plainOf w' b = some (memPlain (splitFinish m mem).2) ∧ plainOf w a = none ∧ plainOf w b = none ∧
      ∀ k q, plainOf w k = some q → plainOf w' k = some q := by
  obtain ⟨d1, e1, _, p1⟩ := mem_drop_plain hm (mem .test) true true
  obtain ⟨d2, e2, _, p2⟩ := mem_drop_plain hm (mem .rem ++ mem .test) false true
  simp only [BothOp.onMem, if_true, Except.ok.injEq] at e1 e2
  subst e1 e2
  have drop1 : ∀ (w w1 : World) (ids : List Nat) (keep : Bool) (c : Nat), Good names w →
      plainOf w i = some (memPlain m) → w.drop i ids keep true = (w1, .ok c) →
      Good names w1 ∧ plainOf w c = none ∧ c ≠ i ∧
        plainOf w1 = setAt (plainOf w) c (some ((memPlain m).drop ids keep)) := by
    intro w w1 ids keep c hg hp hd
    obtain ⟨g1, g2⟩ := step_good hn hg (op := .drop i ids keep true) trivial
    simp only [runOp, hd] at g1 g2
    obtain ⟨⟨s1, s2⟩, p, s3, s4⟩ := g2
    simp only [DbOp.inst] at s2 s3
    rw [hp] at s3; cases s3
    exact ⟨g1, s1, s2, s4⟩
  unfold dbFinish at h
  split at h
  · cases h
  · rename_i w1 test h1
    obtain ⟨g1, n1, i1, q1⟩ := drop1 _ _ _ _ _ hg hp h1
    split at h
    · cases h
    · rename_i w2 train h2
      simp only [Prod.mk.injEq, Except.ok.injEq] at h
      obtain ⟨rfl, rfl, rfl⟩ := h
      obtain ⟨g2, n2, i2, q2⟩ := drop1 _ _ _ _ _ g1 (by rw [q1]; simp [setAt, Ne.symm i1, hp]) h2
      have hne : train ≠ test := by
        rintro rfl
        rw [q1] at n2
        simp [setAt] at n2
      have n2' : plainOf w train = none := by
        rw [q1] at n2
        simpa [setAt, hne] using n2
      refine ⟨g2, ?_, ?_, n2', n1, ?_⟩
      · rw [q2]; simp only [setAt, if_true]; rw [← p2]; rfl
      · rw [q2, q1]
        simp only [setAt, if_true, if_neg (Ne.symm hne)]
        rw [← p1]; rfl
      · intro k q hk
        have hk1 : k ≠ test := by rintro rfl; rw [n1] at hk; cases hk
        have hk2 : k ≠ train := by rintro rfl; rw [n2'] at hk; cases hk
        rw [q2, q1]
        simp [setAt, hk1, hk2, hk]

theorem close_plain {names : List String} {w : World} (hg : Good names w) {j : Nat} {q : Plain}
    (hj : plainOf w j = some q) :
    Good names (w.close j).1 ∧ ∀ k p, k ≠ j → plainOf w k = some p → plainOf (w.close j).1 k = some p := by
  obtain ⟨x, _, _, hx, _⟩ := plain_inv hg hj
  obtain ⟨_, c2, c3⟩ := close_good hg hx
  refine ⟨c2, fun k p hk hp => ?_⟩
  rw [c3]
  simp [setAt, hk, hp]

/-! ## When `unique` returns -/

theorem reduces_iff (x : Inst) (n : Nat) (st : Src) (cs : List String) :
    ({ x with columns := cs, queries := x.queries + 1, nRows := n, state := st } : Inst).shouldReduce 0 = true ↔
      UniqueReduces x n := by
  simp only [Inst.shouldReduce, UniqueReduces, Bool.and_eq_true, decide_eq_true_eq]
  constructor
  · rintro ⟨⟨⟨⟨⟨a, b⟩, c⟩, d⟩, e⟩, _⟩
    exact ⟨by omega, b, d, by omega⟩
  · rintro ⟨a, b, c, d⟩
    exact ⟨⟨⟨⟨⟨by omega, b⟩, by omega⟩, c⟩, by omega⟩, trivial⟩

theorem uniqueOn_eval {t : Table} {x : Inst} {rows : List Row} (hs : Shows t x rows) {c : String}
    (hc : c ∈ x.columns) (hr : c ≠ "rid") :
    ∃ sc rows', evalSrc t (.sub (withRid [c]) x.state [.ridFirst [c]]) = .ok (sc, rows') ∧
      rows'.length = (Plain.unique (some [c]) ⟨x.columns, rows.map (Row.toRec x.columns), x.hasIds⟩).recs.length := by
  obtain ⟨sc, h1, h2, _⟩ := hs.ev
  have hsub : [c] ⊆ x.columns := by simpa using hc
  have hsub' : withRid [c] ⊆ x.columns := by
    intro a ha
    simp only [withRid, List.mem_singleton, Ne.symm hr, if_false, List.mem_append] at ha
    rcases ha with rfl | rfl
    · exact hc
    · exact hs.rid
  have hev := evalSrc_mk h1 (cols := withRid [c]) (conds := [.ridFirst [c]]) (by simp [withRid, Ne.symm hr])
    (fun a ha => h2 (hsub' ha)) (by
    intro d hd
    simp only [List.mem_singleton] at hd
    subst hd
    simp only [SqlCond.valid, Bool.and_eq_true, decide_eq_true_eq, List.all_eq_true]
    exact ⟨⟨h2 hs.rid, rfl⟩, fun a ha => h2 (hsub ha)⟩)
  refine ⟨_, _, hev, ?_⟩
  simp only [Plain.unique, Option.getD_some, List.length_map]
  rw [List.filter_map, List.length_map]
  congr 1
  apply List.filter_congr
  intro r _
  rw [Bool.eq_iff_iff]
  simp only [List.all_cons, List.all_nil, Bool.and_true, SqlCond.holds, List.all_eq_true, Bool.or_eq_true,
    Bool.not_eq_true', decide_eq_false_iff_not, decide_eq_true_eq, Function.comp_apply, FirstOn, List.mem_map,
    forall_exists_index, and_imp, forall_apply_eq_imp_iff₂]
  simp only [keyOn_toRec hsub, cellOf_toRec _ _ _ hs.rid, Row.get, if_true, Less, Nat.cast_lt, not_lt]
  constructor
  · intro hh r' hr' hk
    exact (hh r' hr').resolve_left (fun hh' => hh' hk)
  · intro hh r' hr'
    by_cases hk : keyOn [c] r' = keyOn [c] r
    · exact Or.inr (hh r' hr' hk)
    · exact Or.inl hk

theorem uniqueOn_outcome {names : List String} {w : World} (hg : Good names w) {j : Nat} {p : Plain}
    (hp : plainOf w j = some p) {x : Inst} (hx : w.insts j = some x) {c : String} (hc : c ∈ p.cols) (hr : c ≠ "rid") :
    (¬ UniqueReduces x (p.unique (some [c])).recs.length →
      (w.uniqueOn j [c]).2 = none ∧ ∃ y, (w.uniqueOn j [c]).1.insts j = some y ∧ y.direct = x.direct) ∧
    (UniqueReduces x (p.unique (some [c])).recs.length → (∀ us, w.users x.table = some us → us.length ≠ 1) →
      (w.uniqueOn j [c]).2 = some .assertion) := by
  obtain ⟨x', t, rows, hx', ht, hs, rfl⟩ := plain_inv hg hp
  rw [hx] at hx'; cases hx'
  obtain ⟨sc, rows', hev, hlen⟩ := uniqueOn_eval hs hc hr
  rw [← hlen]
  unfold World.uniqueOn World.update
  simp only [hx, put_self]
  have ht' : (w.put j { x with columns := withRid [c] }).tables x.table = some t := ht
  have hgens : (w.put j { x with columns := withRid [c] }).gens = 0 := hg.gens
  simp only [ht', hev, hgens]
  have hred := reduces_iff x rows'.length (.sub (withRid [c]) x.state [.ridFirst [c]]) (withRid [c])
  constructor
  · intro hnr
    rw [if_neg (fun h => hnr (hred.1 h))]
    exact ⟨rfl, _, put_self _ _ _, rfl⟩
  · intro hrd hus
    rw [if_pos (hred.2 hrd)]
    obtain ⟨us, hu, _⟩ := hg.reg.own j x hx
    unfold World.optimize
    simp only [put_self]
    rw [if_neg (by simp), if_neg (by simp [World.put, hg.gens])]
    have hu' : ∀ (y z : Inst), ((w.put j y).put j z).users x.table = some us := fun _ _ => hu
    have ht2 : ∀ (y z : Inst), ((w.put j y).put j z).tables x.table = some t := fun _ _ => ht
    simp only [hu', ht2]
    rw [if_neg (hus us hu)]
    unfold World.split
    have hb : ∀ y : Inst, y.columns = withRid [c] → y.buildTable = .error .assertion := by
      intro y hy
      unfold Inst.buildTable
      rw [if_neg]
      rw [hy]
      simp only [tableCols, withRid, List.mem_singleton, Ne.symm hr, if_false, List.all_cons, List.all_nil]
      intro h
      simp at h
      obtain ⟨h1, h2, h3⟩ := h
      rw [← h1] at h2
      exact absurd h2 (by decide)
    rw [hb _ rfl]

theorem unique_outcome {names : List String} (hn : NamesOk names) {w : World} (hg : Good names w) {i : Nat} {m : Mem}
    (hm : MemOk m) (hp : plainOf w i = some (memPlain m)) {x : Inst} (hx : w.insts i = some x)
    (hf : FullCols m.cols) {c : String} (hc : c ∈ m.cols) (hr : c ≠ "rid") {vs : List Val}
    (hv : uniqueVals m c = .ok vs) :
    (¬ UniqueReduces x vs.length →
      ∃ w1 j y, w.unique i (some [c]) true = (w1, .ok j) ∧ w1.insts j = some y ∧ y.direct = 0) ∧
    (UniqueReduces x vs.length → x.state = .table ∨ x.direct < 3 →
      (w.unique i (some [c]) true).2 = .error .assertion) := by
  obtain ⟨md, hmd, hmok, hmp⟩ := mem_unique_plain hm true (cs := [c]) (by simpa using hc) (by simpa using Ne.symm hr)
  have hl : vs.length = ((memPlain m).unique (some [c])).recs.length := by
    simp only [BothOp.onMem, if_true] at hmd
    simp only [uniqueVals, hmd, Except.map, Except.ok.injEq] at hv
    rw [← hmp, ← hv]
    simp [memPlain]
  have hxc : x.columns = m.cols := by
    obtain ⟨x', _, _, hx', _, _, hpe⟩ := plain_inv hg hp
    rw [hx] at hx'; cases hx'
    exact (congrArg Plain.cols hpe).symm
  have hh : handleColumns x.columns (some [c]) = .ok [c] := by simp [handleColumns, hxc, hc]
  obtain ⟨c1, c2, c3, _, c5, c6, c7⟩ := copy_good hg hx
  have ec : w.copy i = ((w.copy i).1, none) := by rw [← c1]
  have hxi : (w.copy i).1.insts i = some x := by rw [c6 i (Ne.symm c5)]; exact hx
  obtain ⟨r1, r2, r3, r4, _⟩ := record_good hn c2 hxi
  have er : (w.copy i).1.record i = (((w.copy i).1.record i).1, none) := by rw [← r4 (hxc ▸ hf)]
  have hj : ((w.copy i).1.record i).1.insts w.nextI = some { x with direct := 0 } := by rw [r3 _ c5, c7]
  have hpj : plainOf ((w.copy i).1.record i).1 w.nextI = some (memPlain m) := by
    rw [r2, c3]; simp [setAt, hp]
  obtain ⟨u1, u2⟩ := uniqueOn_outcome r1 hpj hj hc hr
  rw [← hl] at u1 u2
  simp only [World.unique, hx, hh, World.inPlaceOrCopy, if_true, World.onCopy]
  rw [ec]
  simp only
  rw [er]
  simp only
  constructor
  · intro hnr
    obtain ⟨v1, y, v2, v3⟩ := u1 hnr
    have ef : ((w.copy i).1.record i).1.uniqueOn w.nextI [c] =
      ((((w.copy i).1.record i).1.uniqueOn w.nextI [c]).1, none) := by rw [← v1]
    rw [ef]
    exact ⟨_, _, y, rfl, v2, v3⟩
  · intro hrd hst
    have v1 := u2 hrd (by
      intro us hus he
      obtain ⟨y, hy, hyt⟩ : ∃ y, ((w.copy i).1.record i).1.insts i = some y ∧ y.table = x.table := by
        unfold World.record
        simp only [hxi]
        split
        · rename_i h4
          have hs : x.state = .table := hst.resolve_right (by omega)
          unfold World.optimize
          simp only [put_self, hs, true_and, if_true]
          exact ⟨_, rfl, rfl⟩
        · exact ⟨_, put_self _ _ _, rfl⟩
      obtain ⟨us1, a1, a2⟩ := r1.reg.own _ _ hy
      obtain ⟨us2, b1, b2⟩ := r1.reg.own _ _ hj
      rw [hyt] at a1
      rw [hus] at a1 b1
      cases a1; cases b1
      obtain ⟨z, hz⟩ := List.length_eq_one_iff.1 he
      rw [hz] at a2 b2
      simp only [List.mem_singleton] at a2 b2
      exact c5 (b2.trans a2.symm))
    have ef : ((w.copy i).1.record i).1.uniqueOn w.nextI [c] =
      ((((w.copy i).1.record i).1.uniqueOn w.nextI [c]).1, some .assertion) := by rw [← v1]
    rw [ef]

theorem dbUnique_returns {names : List String} (hn : NamesOk names) {w : World} (hg : Good names w) {i : Nat} {m : Mem}
    (hm : MemOk m) (hp : plainOf w i = some (memPlain m)) {x : Inst} (hx : w.insts i = some x)
    (hf : FullCols m.cols) {c : String} (hc : c ∈ m.cols) (hr : c ≠ "rid") {vs : List Val}
    (hv : uniqueVals m c = .ok vs) (hnr : ¬ UniqueReduces x vs.length) :
    ∃ w1 j, dbUnique w i c = (w1, .ok (j, vs)) := by
  obtain ⟨w1, j, y, h1, h2, h3⟩ := (unique_outcome hn hg hm hp hx hf hc hr hv).1 hnr
  have key : ∃ w1 j vs', dbUnique w i c = (w1, .ok (j, vs')) := by
    unfold dbUnique
    rw [h1]
    simp only
    obtain ⟨g1, g2⟩ := step_good hn hg (op := .unique i (some [c]) true) (by simp [Admissible])
    simp only [runOp, h1] at g1 g2
    obtain ⟨_, p, s3, s4⟩ := g2
    simp only [DbOp.effect] at s4
    obtain ⟨t, rows, ht, hs⟩ := g1.get h2
    have hyc : c ∈ y.columns := by
      have := plainOf_eq h2 ht hs
      rw [s4] at this
      simp only [setAt, if_true, Option.some.injEq] at this
      have := congrArg Plain.cols this
      simp only [Plain.unique, Option.getD_some] at this
      rw [← this]
      split <;> simp
    have hrec : w1.record j = (w1.put j { y with direct := 1 }, none) := by
      unfold World.record
      simp only [h2, h3]
      rw [if_neg (by omega)]
    obtain ⟨res, hres⟩ : ∃ res, (w1.put j { y with direct := 1 }).look j (.values (some [c])) = .ok res := by
      obtain ⟨qc, hq, hpre⟩ := hs.query
      have ht' : (w1.put j { y with direct := 1 }).tables y.table = some t := ht
      have hq' : evalSrc t ({ y with direct := 1 } : Inst).query = .ok (qc, rows) := hq
      unfold World.look
      simp only [put_self, ht', handleColumns_ok (cs := some [c]) (cols := y.columns) (by simpa using hyc), hq', bind,
        Except.bind]
      exact ⟨_, rfl⟩
    unfold World.read
    rw [hrec]
    simp only [hres]
    exact ⟨_, _, _, rfl⟩
  obtain ⟨w1, j, vs', h⟩ := key
  have := (dbUnique_good hn hg hm hp hx hc hr h).2.1
  rw [hv] at this
  cases this
  exact ⟨w1, j, h⟩

/-! ## While a value generator is open -/

theorem drop_eval {t : Table} {x : Inst} {rows : List Row} (hs : Shows t x rows) (ids : List Nat) (keep : Bool) :
    ∃ rows', evalSrc t (.sub x.columns x.state [if keep then .ridIn ids else .ridNotIn ids]) = .ok (x.columns, rows') ∧
      Plain.drop ids keep ⟨x.columns, rows.map (Row.toRec x.columns), x.hasIds⟩ =
        ⟨x.columns, rows'.map (Row.toRec x.columns), x.hasIds⟩ := by
  obtain ⟨sc, h1, h2, _⟩ := hs.ev
  have hev := evalSrc_mk h1 (conds := [if keep then .ridIn ids else .ridNotIn ids]) hs.ne h2 (by
    intro c hc
    simp only [List.mem_singleton] at hc
    subst hc
    cases keep <;> simpa [SqlCond.valid] using h2 hs.rid)
  refine ⟨_, hev, ?_⟩
  simp only [Plain.drop]
  rw [List.filter_map]
  congr 2
  apply List.filter_congr
  intro r _
  simp only [Function.comp_apply, List.all_cons, List.all_nil, Bool.and_true, cellOf_toRec _ _ _ hs.rid]
  have hr : (∃ n ∈ ids, r.get "rid" = .num (n : ℚ)) ↔ r.rid ∈ ids := by
    simp only [Row.get, if_true, Val.num.injEq, Nat.cast_inj]
    constructor
    · rintro ⟨n, hn, he⟩; rw [he]; exact hn
    · intro hm; exact ⟨_, hm, rfl⟩
  have hd : decide (∃ n ∈ ids, r.get "rid" = .num (n : ℚ)) = decide (r.rid ∈ ids) := by
    rw [Bool.eq_iff_iff]; simp only [decide_eq_true_eq]; exact hr
  rw [hd]
  cases keep <;> simp [SqlCond.holds]

theorem drop_open {names : List String} {w : World} (hg : Good names w) {i : Nat} {p : Plain}
    (hp : plainOf w i = some p) (ids : List Nat) (keep : Bool) :
    ∃ w2 c, World.drop { w with gens := 1 } i ids keep true = ({ w2 with gens := 1 }, .ok c) ∧ Good names w2 ∧
      plainOf w c = none ∧ c ≠ i ∧ plainOf w2 = setAt (plainOf w) c (some (p.drop ids keep)) := by
  obtain ⟨x, t, rows, hx, ht, hs, rfl⟩ := plain_inv hg hp
  obtain ⟨c1, c2, c3, c4, c5, c6, c7⟩ := copy_good hg hx
  have hxi : (w.copy i).1.insts i = some x := by rw [c6 i (Ne.symm c5)]; exact hx
  obtain ⟨g1, g2⟩ := c2.counters (y := { x with direct := x.direct + 1 }) hxi rfl rfl rfl rfl hs.types rfl
  obtain ⟨rows', hev, hpl⟩ := drop_eval hs ids keep
  have htc : (w.copy i).1.tables x.table = some t := by
    simp only [World.copy, hx, ht]
    exact ht
  let st : Src := .sub x.columns x.state [if keep then .ridIn ids else .ridNotIn ids]
  let z : Inst := { x with direct := 0, queries := x.queries + 1, nRows := rows'.length, state := st }
  have hz : Shows t z rows' := ⟨hs.rid, hs.types, ⟨x.columns, hev, List.Subset.refl _, Or.inr (List.prefix_refl _)⟩, rfl⟩
  have hj : ((w.copy i).1.put i { x with direct := x.direct + 1 }).insts w.nextI = some { x with direct := 0 } := by
    rw [put_ne _ _ c5, c7]
  obtain ⟨k1, k2⟩ := (g1.but w.nextI).put (y := z) hj rfl htc hz
  refine ⟨((w.copy i).1.put i { x with direct := x.direct + 1 }).put w.nextI z, w.nextI, ?_, k1, plainOf_none c4, c5, ?_⟩
  · have ec : World.copy { w with gens := 1 } i = ({ (w.copy i).1 with gens := 1 }, none) := by
      simp only [World.copy, hx, ht]
      rfl
    unfold World.drop World.inPlaceOrCopy World.onCopy
    rw [if_pos rfl, ec]
    simp only
    have er : World.record { (w.copy i).1 with gens := 1 } i =
        ({ ((w.copy i).1.put i { x with direct := x.direct + 1 }) with gens := 1 }, none) := by
      unfold World.record
      simp only [hxi]
      rw [if_neg (by simp)]
      rfl
    rw [er]
    simp only
    have ed : World.dropOn { ((w.copy i).1.put i { x with direct := x.direct + 1 }) with gens := 1 } w.nextI ids keep =
        ({ (((w.copy i).1.put i { x with direct := x.direct + 1 }).put w.nextI z) with gens := 1 }, none) := by
      unfold World.dropOn World.update
      have htp : ((w.copy i).1.put i { x with direct := x.direct + 1 }).tables x.table = some t := htc
      simp only [hj, htp, hev]
      rw [if_neg (by simp [Inst.shouldReduce])]
      rfl
    rw [ed]
  · rw [k2, g2, c3]
    funext k
    by_cases hk : k = w.nextI
    · simp only [setAt, hk, if_true]
      rw [hpl]
    · simp [setAt, hk]

theorem pickRids_congr : ∀ (l l' : List Row) (i : Nat) (js : List Nat), l.map (·.rid) = l'.map (·.rid) →
    pickRids l i js = pickRids l' i js
  | _, _, _, [], _ => by simp [pickRids]
  | [], [], _, _ :: _, _ => rfl
  | [], _ :: _, _, _, h => by simp at h
  | _ :: _, [], _, _, h => by simp at h
  | r :: l, r' :: l', i, j :: js, h => by
    simp only [List.map_cons, List.cons.injEq] at h
    simp only [pickRids, h.1, pickRids_congr l l' _ _ h.2]

theorem gens_reset {names : List String} {w : World} (hg : Good names w) : { w with gens := 1 - 1 } = w := by
  have := hg.gens
  cases w
  simp only at this
  subst this
  rfl

theorem dbRandomSplit_good {names : List String} (hn : NamesOk names) {w : World} (hg : Good names w) {i : Nat}
    {m : Mem} (hm : MemOk m) (hp : plainOf w i = some (memPlain m)) (hf : FullCols m.cols) (ratio : ℚ)
    (rng : Nat → Nat) :
    (∀ e, randomSplit m ratio rng = .error e → (dbRandomSplit w i ratio rng).2 = .error e) ∧
    ∀ mtrain mtest, randomSplit m ratio rng = .ok (mtrain, mtest) →
      ∃ w' train test, dbRandomSplit w i ratio rng = (w', .ok (train, test)) ∧ Good names w' ∧
        plainOf w' train = some (memPlain mtrain) ∧ plainOf w' test = some (memPlain mtest) ∧
        ∀ k q, plainOf w k = some q → plainOf w' k = some q := by
  obtain ⟨x, t, rows, hx, ht, hs, hpe⟩ := plain_inv hg hp
  have hlen : w.len i = some m.rows.length := by
    have := congrArg (fun q : Plain => q.recs.length) hpe
    simp only [memPlain, List.length_map] at this
    simp only [World.len, hx, Option.map_some, hs.len, this]
  have hcols : m.cols = x.columns := congrArg Plain.cols hpe
  unfold randomSplit dbRandomSplit
  by_cases hr : 0 < ratio ∧ ratio < 1
  · rw [if_pos hr, if_pos hr]
    simp only [hlen]
    set idxs := (pySample (List.range m.rows.length) (shareOf m.rows.length ratio) rng).insertionSort (· ≤ ·)
    by_cases hi : idxs.length > 0
    · rw [if_pos hi, if_pos hi]
      refine ⟨(fun e he => by cases he), fun mtrain mtest he => ?_⟩
      simp only [Except.ok.injEq, Prod.mk.injEq] at he
      obtain ⟨rfl, rfl⟩ := he
      obtain ⟨r1, r2, r3, r4, r5⟩ := record_good hn hg hx
      obtain ⟨k, hk⟩ := works_good hn hg (op := .read i (.values (some ["rid"]))) hp trivial
        ⟨hf, by simpa [memPlain] using hm.rid⟩
      cases hrd : (w.read i (.values (some ["rid"]))).2 with
      | error e =>
        have er : w.read i (.values (some ["rid"])) = ((w.read i (.values (some ["rid"]))).1, .error e) := by rw [← hrd]
        simp only [runOp] at hk
        rw [er] at hk
        cases hk
      | ok res =>
        have er : w.read i (.values (some ["rid"])) = ((w.record i).1, .ok res) := by
          rw [← read_world w i (.values (some ["rid"])), ← hrd]
        have hrs := read_good hn hg hx hp hrd
        cases res with
        | recs l =>
          simp only [ReadSpec, Option.getD_some] at hrs
          rw [er]
          have hrids : pickRids (l.map recRow) 0 idxs = pickRids m.rows 0 idxs := by
            apply pickRids_congr
            rw [hrs, List.map_map, memPlain, List.map_map]
            simp only [List.map_map]
            apply List.map_congr_left
            intro r _
            have := pick_lookup hm.rid r
            simp only [Function.comp_apply, recRow]
            cases hlk : ((r.toRec m.cols).filter fun q => q.1 ∈ ["rid"]).lookup "rid" with
            | none => rw [hlk] at this; simp [Row.get] at this
            | some v =>
              rw [hlk] at this
              simp only [Option.getD_some, Row.get, if_true] at this
              subst this
              simp
          simp only [hrids]
          set rids := pickRids m.rows 0 idxs
          have hg1 : (w.record i).1.gens = 0 := r1.gens
          simp only [hg1]
          have hp1 : plainOf (w.record i).1 i = some (memPlain m) := by rw [r2]; exact hp
          obtain ⟨w2, c, d1, d2, d3, d4, d5⟩ := drop_open r1 hp1 rids true
          rw [d1]
          simp only
          obtain ⟨w3, c', e1, e2, e3, e4, e5⟩ := drop_open d2 (i := i) (p := memPlain m)
            (by rw [d5]; simp [setAt, Ne.symm d4, hp1]) rids false
          rw [e1]
          simp only
          rw [gens_reset e2]
          obtain ⟨m1, f1, _, q1⟩ := mem_drop_plain hm rids true true
          obtain ⟨m2, f2, _, q2⟩ := mem_drop_plain hm rids false true
          simp only [BothOp.onMem, if_true, Except.ok.injEq] at f1 f2
          subst f1 f2
          have hne : c' ≠ c := by
            rintro rfl
            rw [d5] at e3
            simp [setAt] at e3
          refine ⟨w3, c', c, rfl, e2, ?_, ?_, ?_⟩
          · rw [e5, q2]; simp [setAt]
          · rw [e5, d5, q1]; simp [setAt, Ne.symm hne]
          · intro k q hk
            rw [← r2] at hk
            have hk1 : k ≠ c := by rintro rfl; rw [d3] at hk; cases hk
            have hk2 : k ≠ c' := by
              rintro rfl
              rw [d5] at e3
              simp only [setAt, hk1, if_false] at e3
              rw [e3] at hk; cases hk
            rw [e5, d5]
            simp [setAt, hk1, hk2, hk]
        | _ => exact absurd hrs id
    · rw [if_neg hi, if_neg hi]
      exact ⟨(fun e he => by cases he; rfl), (fun _ _ he => by cases he)⟩
  · rw [if_neg hr, if_neg hr]
    exact ⟨(fun e he => by cases he; rfl), (fun _ _ he => by cases he)⟩

end DRec.Conc
