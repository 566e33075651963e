import Verif.Spec.DbEval
import Verif.Lemmas.DbEval
import Verif.Props.EvalTask

/-! # Evaluation of database datasets: the task of a user -/

namespace DRec.Conc

open Spec

theorem memOk_filter {m : Mem} (h : MemOk m) (Q : Row → Bool) : MemOk { m with rows := m.rows.filter Q } :=
  ⟨h.rid, h.sorted.sublist List.filter_sublist, h.cache⟩

/-- Conditions with number literals on number columns. -/
theorem selectPre_num {names : List String} {m : Mem} {T : Option (String → DType)}
    {ws : List (List Char × SCond × List Char)} (hne : ws ≠ [])
    (h : ∀ c ∈ ws, Blank c.1 ∧ Blank c.2.2 ∧ NameOk c.2.1.col ∧ c.2.1.lit.Writable ∧ (∃ q, c.2.1.lit.value = .num q) ∧
      c.2.1.col ∈ m.cols ∧ (∀ ty, T = some ty → ty c.2.1.col ≠ .obj) ∧ ∀ r ∈ m.rows, ∃ q, r.get c.2.1.col = .num q) :
    SelectPre names ws (memPlain m) T := by
  refine ⟨⟨hne, fun c hc => ⟨(h c hc).1, (h c hc).2.1, (h c hc).2.2.1, (h c hc).2.2.2.1⟩⟩, fun c hc => ?_⟩
  obtain ⟨_, _, _, _, ⟨q, hq⟩, hcol, hty, hrows⟩ := h c hc
  have hstr : ∀ s, c.2.1.lit ≠ .str s := by
    intro s hs
    rw [hs] at hq; cases hq
  refine ⟨?_, ?_, ?_⟩
  · unfold NoColumn
    split
    · rename_i s hs; exact absurd hs (hstr s)
    · trivial
  · intro ty hT
    have := hty ty hT
    unfold FitsType
    split
    · rename_i s h1 h2; exact absurd h2 (hstr s)
    · rename_i h1 _; exact this h1
    · cases hl : c.2.1.lit with
      | str s => exact absurd hl (hstr s)
      | _ => rfl
  · intro r hr
    simp only [memPlain] at hr
    obtain ⟨r', hr', rfl⟩ := List.mem_map.1 hr
    rw [cellOf_toRec _ _ _ hcol, hq]
    obtain ⟨q', hq'⟩ := hrows r' hr'
    rw [hq']
    refine ⟨?_, by simp⟩
    cases c.2.1.op <;> trivial

/-! ## The texts -/

/-- `interaction op thr` as a written condition. -/
def boundWritten (op : Op) (lit : SLit) : List Char × SCond × List Char := ([], ⟨"interaction", op, lit⟩, [])

theorem boundQuery_ge (lit : SLit) : boundQuery ">=" lit.text = queryText [boundWritten .ge lit] := by
  simp only [boundQuery, boundWritten, queryText, SCond.text, List.nil_append, List.append_nil]
  have h1 : ("interaction " ++ ">=" ++ " ").toList = "interaction".toList ++ (' ' :: Op.ge.text.toList ++ [' ']) := by decide
  rw [h1]
  simp [List.append_assoc]

theorem boundQuery_lt (lit : SLit) : boundQuery "<" lit.text = queryText [boundWritten .lt lit] := by
  simp only [boundQuery, boundWritten, queryText, SCond.text, List.nil_append, List.append_nil]
  have h1 : ("interaction " ++ "<" ++ " ").toList = "interaction".toList ++ (' ' :: Op.lt.text.toList ++ [' ']) := by decide
  rw [h1]
  simp [List.append_assoc]

/-- `column == n` as a written condition. -/
def eqWritten (c : String) (n : Int) : List Char × SCond × List Char := ([], ⟨c, .eq, .int n⟩, [])

theorem userQuery_written (n : Int) : userQuery (.num n) = queryText [eqWritten "user" n] := by
  unfold userQuery eqWritten
  simp only [queryText, SCond.text, SLit.text, List.nil_append, List.append_nil, cellText]
  rw [if_pos (by simp)]
  rfl

theorem itemQuery_written (n : Int) : "item == ".toList ++ cellText (.num n) = queryText [eqWritten "item" n] := by
  unfold eqWritten
  simp only [queryText, SCond.text, SLit.text, List.nil_append, List.append_nil, cellText]
  rw [if_pos (by simp)]
  rfl

theorem trainQuery_written (n : Int) (lit : SLit) :
    userQuery (.num n) ++ ", ".toList ++ boundQuery ">=" lit.text =
      queryText [eqWritten "user" n, ([' '], (boundWritten .ge lit).2.1, [])] := by
  rw [userQuery_written, boundQuery_ge]
  simp only [queryText, eqWritten, boundWritten, List.nil_append, List.append_nil]
  have : ", ".toList = [',', ' '] := by decide
  rw [this]
  simp [List.append_assoc]

/-- The filters. -/
def geQ (t : ℚ) (r : Row) : Bool := match r.get "interaction" with
  | .num q => t ≤ q
  | _ => false

def ltQ (t : ℚ) (r : Row) : Bool := match r.get "interaction" with
  | .num q => q < t
  | _ => false

theorem sat_ge {lit : SLit} {t : ℚ} (h : lit.value = .num t) (r : Row) (hr : ∃ q, r.get "interaction" = .num q) :
    Sat [boundWritten .ge lit] r ↔ geQ t r = true := by
  obtain ⟨q, hq⟩ := hr
  simp [Sat, boundWritten, Holds, SameKind, Less, h, geQ, hq]

theorem sat_lt {lit : SLit} {t : ℚ} (h : lit.value = .num t) (r : Row) (hr : ∃ q, r.get "interaction" = .num q) :
    Sat [boundWritten .lt lit] r ↔ ltQ t r = true := by
  obtain ⟨q, hq⟩ := hr
  simp [Sat, boundWritten, Holds, Less, h, ltQ, hq]

theorem sat_eq (c : String) (n : Int) (r : Row) : Sat [eqWritten c n] r ↔ decide (r.get c = .num n) = true := by
  simp [Sat, eqWritten, Holds, SLit.value]

theorem sat_train {lit : SLit} {t : ℚ} (h : lit.value = .num t) (n : Int) (r : Row)
    (hr : ∃ q, r.get "interaction" = .num q) :
    Sat [eqWritten "user" n, ([' '], (boundWritten .ge lit).2.1, [])] r ↔
      (geQ t r && decide (r.get "user" = .num n)) = true := by
  obtain ⟨q, hq⟩ := hr
  have hv : (SLit.int n).value = .num n := rfl
  simp [Sat, eqWritten, boundWritten, Holds, hv, SameKind, Less, h, geQ, hq, and_comm]

/-! ## Reading records -/

/-- A record read with its item and interaction. -/
def seen (cols : List String) (r : Row) : Row :=
  recRow ((r.toRec cols).filter fun q => q.1 ∈ ["item", "interaction"])

theorem lookup_pick {cols cs : List String} {c : String} (hc : c ∈ cols) (hcs : c ∈ cs) (r : Row) :
    ((((r.toRec cols).filter fun q => q.1 ∈ cs).lookup c).getD .null) = r.get c := by
  have : ((r.toRec cols).filter fun q => q.1 ∈ cs) = r.toRec (cols.filter fun d => d ∈ cs) := by
    unfold Row.toRec
    rw [List.filter_map]
    rfl
  rw [this, lookup_toRec r c _ (by simp [hc, hcs])]
  rfl

theorem seen_item {cols : List String} (hc : "item" ∈ cols) (r : Row) : (seen cols r).get "item" = r.get "item" := by
  unfold seen recRow Row.get
  simp only [show ("item" = "rid") = False by decide, if_false]
  exact lookup_pick hc (by simp) r

theorem seen_interaction {cols : List String} (hc : "interaction" ∈ cols) (r : Row) :
    (seen cols r).get "interaction" = r.get "interaction" := by
  unfold seen recRow Row.get
  simp only [show ("interaction" = "rid") = False by decide, if_false]
  exact lookup_pick hc (by simp) r

theorem pySample_map {α β : Type} (f : α → β) : ∀ (n : Nat) (l : List α) (s : Nat → Nat),
    pySample (l.map f) n s = (pySample l n s).map f
  | 0, _, _ => rfl
  | n + 1, l, s => by
    simp only [pySample, List.length_map, List.getElem?_map]
    cases h : l[s 0 % l.length]? with
    | none => rfl
    | some x =>
      simp only [Option.map_some, List.map_cons]
      rw [List.eraseIdx_map, pySample_map f n]

theorem bestItem_map {g : Row → Row} (h1 : ∀ r, (g r).get "item" = r.get "item")
    (h2 : ∀ r, (g r).get "interaction" = r.get "interaction") (l : List Row) : bestItem (l.map g) = bestItem l := by
  have hk : ∀ r, sortKey "interaction" (g r) = sortKey "interaction" r := fun r => by simp only [sortKey, h2]
  cases l with
  | nil => rfl
  | cons a l =>
    simp only [bestItem, List.map_cons, pyMaxBy, Option.map_some]
    have : ∀ (l : List Row) (a : Row), (l.map g).foldl (fun b y => if -sortKey "interaction" b < -sortKey "interaction" y then y
          else b) (g a) =
        g (l.foldl (fun b y => if -sortKey "interaction" b < -sortKey "interaction" y then y else b) a) := by
      intro l
      induction l with
      | nil => intro a; rfl
      | cons b l ih =>
        intro a
        simp only [List.map_cons, List.foldl_cons, hk]
        split
        · exact ih b
        · exact ih a
    rw [this, h1]

/-! ## The task -/

theorem gives_positives {α : Type} {names : List String} (hn : NamesOk names) {S O : List Nat} {w : World} {uds pos : Nat}
    (hp : pos ∈ O) {m : Mem} {T : Option (String → DType)} {B : Nat} (hs : ShowsMem w pos m T B)
    (hf : FullCols m.cols) (hS : ∀ k ∈ S, (w.insts k).isSome) (hud : uds ∈ O ∧ uds ∉ S ∧ pos ∉ S ∧ uds ≠ pos)
    {nPos : Option Nat} {rng : Nat → Nat} {k : List Row → DbProg (Outcome α)} {r : Except Err (Outcome α)}
    (hskip : samplePos m.rows nPos rng = none → r = .ok .skip)
    (next : ∀ w'' sampled, Carries names S O w w'' → samplePos m.rows nPos rng = some sampled →
      Gives names S (k (sampled.map (seen m.cols))) O w'' r) :
    Gives names S (readPositives uds pos nPos rng k) O w r := by
  have hcs : ["item", "interaction"] ⊆ m.cols := fun a ha => hf.1 (by
    simp only [List.mem_cons, List.not_mem_nil, or_false] at ha
    rcases ha with rfl | rfl <;> simp)
  cases nPos with
  | none =>
    unfold readPositives
    apply gives_values hn (Or.inr hp) hs hf hcs hS
    intro w'' hw
    have := next w'' m.rows hw rfl
    simp only [recsOf, List.map_map]
    exact this
  | some n =>
    unfold readPositives
    apply gives_len (Or.inr hp) hs
    intro w1 hw1
    by_cases hl : m.rows.length < n
    · simp only [hl, if_true]
      rw [hskip (by simp [samplePos, hl])]
      apply gives_closing
      · simp [hud.2.2.2]
      · intro x hx
        simp only [List.mem_cons, List.not_mem_nil, or_false] at hx
        rcases hx with rfl | rfl
        · exact ⟨hud.1, hud.2.1⟩
        · exact ⟨hp, hud.2.2.1⟩
    · simp only [hl, if_false]
      apply gives_values hn (Or.inr hp) (hs.keep (hw1.2 pos (Or.inr hp))) hf hcs
        (fun k hk => (hw1.2 k (Or.inl hk)).alive (hS k hk))
      intro w'' hw
      have := next w'' (pySample m.rows n rng) (hw1.trans hw) (by simp [samplePos, hl])
      simp only [recsOf, List.map_map]
      rw [← pySample_map] at this
      exact this

theorem firstOf {m : Mem} {u : Int} {x : Val} (hc : "interaction" ∈ m.cols) :
    foundOrZero (.one (((recordsOf m.rows (.num u)).find? fun r => decide (r.get "item" = x)).map fun r =>
      (r.toRec m.cols).filter fun q => q.1 ∈ ["interaction"])) = firstInteraction m (.num u) x := by
  unfold firstInteraction itemOf
  cases (recordsOf m.rows (.num u)).find? fun r => decide (r.get "item" = x) with
  | none => rfl
  | some r =>
    have hg : (recRow ((r.toRec m.cols).filter fun q => q.1 ∈ ["interaction"])).get "interaction" = r.get "interaction" := by
      unfold recRow Row.get
      simp only [show ("interaction" = "rid") = False by decide, if_false]
      exact lookup_pick hc (by simp) r
    simp only [Option.map_some, foundOrZero, sortKey, hg]
    cases r.get "interaction" <;> rfl

theorem gives_relevancies {α : Type} {names : List String} (hn : NamesOk names) {S O : List Nat} {uds : Nat} (hu : uds ∈ O)
    {m : Mem} (hi : IntItems m) (hf : FullCols m.cols) {T : Option (String → DType)}
    (hT : ∀ ty, T = some ty → ty "item" ≠ .obj) {B : Nat} {u : Int} {k : List (Val × ℚ) → DbProg α} {r : Except Err α} :
    ∀ (vs : List Val) (acc : List (Val × ℚ)) (w : World),
      ShowsMem w uds { m with rows := recordsOf m.rows (.num u) } T B → (∀ k ∈ S, (w.insts k).isSome) →
      (∀ v ∈ vs, ∃ n : Int, v = .num n) →
      (∀ w'', Carries names S O w w'' → Gives names S (k (acc ++ vs.map fun x => (x, firstInteraction m (.num u) x))) O w'' r) →
      Carries names S O w w →
      Gives names S (readRelevancies uds k vs acc) O w r
  | [], acc, w, _, _, _, next, hc => by
    have := next w hc
    simpa [readRelevancies] using this
  | v :: vs, acc, w, hs, hS, hv, next, _ => by
    obtain ⟨n, rfl⟩ := hv v (by simp)
    unfold readRelevancies
    have hic : "item" ∈ m.cols := hi.hasItem
    have hxc : "interaction" ∈ m.cols := hf.1 (by simp)
    refine gives_one hn (Or.inr hu) hs hf (ws := [eqWritten "item" n]) ?_ ?_ (cs := some ["interaction"]) (by simpa using hxc)
      (Q := fun r => decide (r.get "item" = .num n)) (fun r _ => sat_eq "item" n r) hS (itemQuery_written n) ?_
    · apply selectPre_num (by simp)
      intro c hc
      simp only [List.mem_singleton] at hc
      subst hc
      refine ⟨by simp [eqWritten, Blank], by simp [eqWritten, Blank], (by decide : NameOk "item"), trivial, ⟨n, rfl⟩, hic, hT, ?_⟩
      intro r hr
      obtain ⟨k, hk⟩ := hi.whole r (List.mem_filter.1 hr).1
      exact ⟨k, hk⟩
    · intro c hc
      simp only [List.mem_singleton] at hc
      subst hc
      exact hic
    · intro w'' hw
      simp only [Option.getD_some]
      rw [firstOf hxc]
      refine gives_relevancies hn hu hi hf hT vs _ w'' (hs.keep (hw.2 uds (Or.inr hu)))
        (fun k hk => (hw.2 k (Or.inl hk)).alive (hS k hk)) (fun x hx => hv x (List.mem_cons_of_mem _ hx)) ?_
        ⟨hw.1, fun k _ => Keeps.refl _ _⟩
      intro w3 hw3
      have := next w3 (hw.trans hw3)
      simpa using this

theorem relevanciesOf_eq {ds d : Mem} {u : Val} (hr : d.rows = recordsOf ds.rows u)
    (hc : "item" ∈ d.cols) (hd : d.dtype "item" = .int) {items : List Val}
    (hw : ∀ x ∈ items, ∃ n : Int, x = .num n) :
    relevanciesOf d items = .ok ((distinctVals items).map fun x => (x, firstInteraction ds u x)) := by
  unfold relevanciesOf
  apply mapM_except_ok
  intro x hx
  obtain ⟨n, rfl⟩ := hw x (mem_distinct_iff.1 hx)
  rw [itemRows_int hc hd, hr]
  simp only [Except.map, cellOrZero_first]

/-- What holds while a task runs: its selection of the user's records. -/
structure Running (names : List String) (S O : List Nat) (w : World) (uds : Nat) (own : List Nat) (m : Mem) (u : Int)
    (T : Option (String → DType)) (B : Nat) : Prop where
  good : Good names w
  mine : uds ∈ O
  shows : ShowsMem w uds { m with rows := recordsOf m.rows (.num u) } T B
  shared : ∀ k ∈ S, (w.insts k).isSome
  nodup : own.Nodup
  own : ∀ k ∈ own, k ∈ O ∧ k ∉ S

theorem Running.carry {names : List String} {S O : List Nat} {w w' : World} {uds : Nat} {own : List Nat} {m : Mem} {u : Int}
    {T : Option (String → DType)} {B : Nat} (h : Running names S O w uds own m u T B) (hc : Carries names S O w w') :
    Running names S O w' uds own m u T B :=
  ⟨hc.1, h.mine, h.shows.keep (hc.2 uds (Or.inr h.mine)), fun k hk => (hc.2 k (Or.inl hk)).alive (h.shared k hk), h.nodup,
    h.own⟩

/-- A part of a task that computes something, whatever other tasks do: the task goes on with the result, or ends with
the exception. -/
def Delivers {α β : Type} (names : List String) (S : List Nat) (w0 : World) (P : (α → DbProg β) → DbProg β)
    (res : Except Err α) : Prop :=
  ∀ (O : List Nat) (w : World) (k : α → DbProg β) (r : Except Err β), Good names w → (∀ i ∈ S, Keeps w0 w i) →
    (∀ e, res = .error e → r = .error e) →
    (∀ x w'', res = .ok x → Carries names S O w w'' → Gives names S (k x) O w'' r) → Gives names S (P k) O w r

theorem delivers_result {α β : Type} {names : List String} {S : List Nat} {w0 : World} (res : Except Err α) :
    Delivers names S w0 (fun k : α → DbProg β => withResult res k) res := by
  intro O w k r hg _ he hk
  cases res with
  | error e => exact (he e rfl).symm
  | ok x => exact hk x w rfl ⟨hg, fun k _ => Keeps.refl _ _⟩

/-- The program of a model computes what the model computes, for items with integer ids. -/
structure Answers (names : List String) (S : List Nat) (w0 : World) (dm : DbModel) (model : EvalModel) (u : Int) : Prop where
  nItems : dm.nItems = model.nItems
  rank : ∀ items novelty, (∀ v ∈ items, ∃ n : Int, v = .num n) →
    Delivers names S w0 (dm.rank (.num u) items novelty) (model.rank (.num u) items novelty)
  recommend : ∀ n novelty low, Delivers names S w0 (dm.recommend (.num u) n novelty low) (model.recommend (.num u) n novelty low)

theorem answers_asDb (names : List String) (S : List Nat) (w0 : World) (model : EvalModel) (u : Int) :
    Answers names S w0 model.asDb model u :=
  ⟨rfl, fun _ _ _ => delivers_result _, fun _ _ _ => delivers_result _⟩

theorem gives_rank {names : List String} (hn : NamesOk names) {S O : List Nat} {w : World} {uds : Nat} {own : List Nat}
    {m : Mem} {u : Int} {T : Option (String → DType)} {B : Nat} (h : Running names S O w uds own m u T B)
    (hi : IntItems m) (hf : FullCols m.cols) (hT : ∀ ty, T = some ty → ty "item" ≠ .obj) {d : Mem}
    (hd : d.rows = recordsOf m.rows (.num u) ∧ d.cols = m.cols ∧ d.dtype = m.dtype) {w0 : World} (hk : ∀ i ∈ S, Keeps w0 w i)
    {dm : DbModel} {model : EvalModel} (hm : Answers names S w0 dm model u) (a : EvalArgs)
    {sampled : List Row} (hs : ∀ r ∈ sampled, ∃ n : Int, r.get "item" = .num n) {neg : List Val}
    (hneg : ∀ v ∈ neg, ∃ n : Int, v = .num n) (rng : EvalRng) :
    Gives names S (dbRank dm a (.num u) uds own (sampled.map (seen m.cols)) neg rng) O w
      (rankData model a (.num u) d sampled neg rng) := by
  have hic : "item" ∈ m.cols := hi.hasItem
  have hxc : "interaction" ∈ m.cols := hf.1 (by simp)
  have hmap : (sampled.map (seen m.cols)).map (·.get "item") = sampled.map (·.get "item") := by
    rw [List.map_map]
    apply List.map_congr_left
    intro r _
    exact seen_item hic r
  have hbest : bestItem (sampled.map (seen m.cols)) = bestItem sampled :=
    bestItem_map (seen_item hic) (seen_interaction hxc) sampled
  unfold dbRank rankData
  rw [hmap, hbest]
  simp only
  have hall : ∀ v ∈ sampled.map (·.get "item") ++ neg, ∃ n : Int, v = .num n := by
    intro v hv
    rcases List.mem_append.1 hv with hv | hv
    · obtain ⟨r, hr, rfl⟩ := List.mem_map.1 hv
      exact hs r hr
    · exact hneg v hv
  generalize sampled.map (·.get "item") ++ neg = all at hall
  have hallS : ∀ v ∈ pySample all all.length rng.shuffle, ∃ n : Int, v = .num n :=
    fun v hv => hall v (pySample_subset _ _ _ hv)
  split
  · exact gives_closing _ own O w h.nodup h.own
  · refine hm.rank _ _ hallS O w _ _ h.good hk ?_ ?_
    · intro e he
      rw [he]
    · intro ranked w' he hc
      have h' := h.carry hc
      rw [he]
      simp only
      rw [relevanciesOf_eq hd.1 (hd.2.1 ▸ hic) (by rw [hd.2.2]; exact hi.int) hallS]
      simp only
      refine gives_relevancies hn h'.mine hi hf hT _ _ _ h'.shows h'.shared ?_ ?_ ⟨h'.good, fun k _ => Keeps.refl _ _⟩
      · intro v hv
        exact hallS v (mem_distinct_iff.1 hv)
      · intro w'' _
        rw [List.nil_append]
        exact gives_closing _ own O w'' h'.nodup h'.own

theorem genLoop_congr {nItems : Nat} {b b' : List Val} (h : ∀ v, v ∈ b ↔ v ∈ b') (wanted : Nat) :
    ∀ (draws : List Nat) (cur : List Val), genLoop nItems b wanted cur draws = genLoop nItems b' wanted cur draws
  | [], _ => rfl
  | d :: ds, cur => by
    simp only [genLoop, h]
    split
    · split
      · exact genLoop_congr h wanted ds _
      · exact genLoop_congr h wanted ds _
    · rfl

theorem same_length {b b' : List Val} (h : ∀ v, v ∈ b ↔ v ∈ b') (hb : b.Nodup) (hb' : b'.Nodup) : b.length = b'.length :=
  ((List.perm_ext_iff_of_nodup hb hb').2 h).length_eq

theorem genLoop_ints {nItems : Nat} {b : List Val} {wanted : Nat} :
    ∀ {draws : List Nat} {cur l : List Val}, (∀ v ∈ cur, ∃ n : Int, v = .num n) →
      genLoop nItems b wanted cur draws = some l → ∀ v ∈ l, ∃ n : Int, v = .num n
  | [], cur, l, hc, h => by
    simp only [genLoop] at h
    split at h
    · cases h
    · cases h; exact hc
  | d :: ds, cur, l, hc, h => by
    simp only [genLoop] at h
    split at h
    · split at h
      · refine genLoop_ints ?_ h
        intro v hv
        rcases List.mem_append.1 hv with hv | hv
        · exact hc v hv
        · simp only [List.mem_singleton] at hv
          exact ⟨(randint0 (nItems - 1) d : ℕ), by rw [hv]; norm_cast⟩
      · exact genLoop_ints hc h
    · cases h; exact hc

/-- Outcome after the negatives are known. -/
def afterNeg (model : EvalModel) (a : EvalArgs) (user : Val) (uds : Mem) (sampled : List Row) (rng : EvalRng) :
    Except Err (Outcome (List Val)) → Except Err (Outcome EvalData)
  | .error e => .error e
  | .ok .skip => .ok .skip
  | .ok .more => .ok .more
  | .ok (.done neg) => rankData model a user uds sampled neg rng

theorem gives_generate {names : List String} (hn : NamesOk names) {S O : List Nat} {w : World} {uds : Nat} {own : List Nat}
    {m : Mem} {u : Int} {T : Option (String → DType)} {B : Nat} (h : Running names S O w uds own m u T B)
    (hi : IntItems m) (hf : FullCols m.cols) (hT : ∀ ty, T = some ty → ty "item" ≠ .obj) {d : Mem}
    (hd : d.rows = recordsOf m.rows (.num u) ∧ d.cols = m.cols ∧ d.dtype = m.dtype) {w0 : World} (hk : ∀ i ∈ S, Keeps w0 w i)
    {dm : DbModel} {model : EvalModel} (hm : Answers names S w0 dm model u) (a : EvalArgs)
    {sampled : List Row} (hs : ∀ r ∈ sampled, ∃ n : Int, r.get "item" = .num n) {first : List Val}
    (hfirst : ∀ v ∈ first, ∃ n : Int, v = .num n) (wanted : Nat) {black black' : List Val}
    (hb : ∀ v, v ∈ black ↔ v ∈ black') (hn1 : black.Nodup) (hn2 : black'.Nodup) (rng : EvalRng) :
    Gives names S (dbGenerate dm a (.num u) uds own (sampled.map (seen m.cols)) first wanted black rng) O w
      (afterNeg model a (.num u) d sampled rng
        (if (model.nItems : Int) - black'.length < wanted then .ok .skip
          else match genLoop model.nItems black' wanted first rng.items with
            | none => .ok .more
            | some l => .ok (.done l))) := by
  unfold dbGenerate
  rw [same_length hb hn1 hn2, genLoop_congr hb, hm.nItems]
  split
  · exact gives_closing _ own O w h.nodup h.own
  · cases hg : genLoop model.nItems black' wanted first rng.items with
    | none => rfl
    | some l => exact gives_rank hn h hi hf hT hd hk hm a hs (genLoop_ints hfirst hg) rng

/-- A database dataset shows an evaluable dataset. -/
structure Test (w : World) (i : Nat) (m : Mem) (T : Option (String → DType)) (B : Nat) : Prop where
  shows : ShowsMem w i m T B
  full : FullCols m.cols
  ok : MemOk m
  rows : Evaluable m
  types : ∀ ty, T = some ty → ty "user" = .int ∧ ty "item" = .int ∧ ty "interaction" ≠ .obj

theorem Test.carry {names : List String} {S O : List Nat} {w w' : World} {i : Nat} {m : Mem} {T : Option (String → DType)}
    {B : Nat} (h : Test w i m T B) (hc : Carries names S O w w') (hi : i ∈ S ∨ i ∈ O) : Test w' i m T B :=
  ⟨h.shows.keep (hc.2 i hi), h.full, h.ok, h.rows, h.types⟩

theorem evaluable_filter {m : Mem} (h : Evaluable m) (Q : Row → Bool) : Evaluable { m with rows := m.rows.filter Q } :=
  ⟨⟨h.users.hasUser, h.users.int, fun r hr => h.users.whole r (List.mem_filter.1 hr).1⟩,
    ⟨h.items.hasItem, h.items.int, fun r hr => h.items.whole r (List.mem_filter.1 hr).1⟩,
    fun r hr => h.numbers r (List.mem_filter.1 hr).1⟩

/-- Selecting with one or two of the conditions the evaluation uses. -/
theorem gives_where {α : Type} {names : List String} (hn : NamesOk names) {S O : List Nat} {w : World} {i : Nat}
    (hi : i ∈ S ∨ i ∈ O) {m : Mem} {T : Option (String → DType)} {B : Nat} (hs : Test w i m T B)
    {ws : List (List Char × SCond × List Char)} (hne : ws ≠ [])
    (hws : ∀ c ∈ ws, (Blank c.1 ∧ Blank c.2.2 ∧ c.2.1.lit.Writable ∧ (∃ q, c.2.1.lit.value = .num q)) ∧
      (c.2.1.col = "user" ∨ c.2.1.col = "interaction"))
    {Q : Row → Bool} (hQ : ∀ r ∈ m.rows, Sat ws r ↔ Q r = true)
    (hS : ∀ k ∈ S, (w.insts k).isSome) {q : List Char} (hq : q = queryText ws) {k : Nat → DbProg α} {r : Except Err α}
    (next : ∀ w'' j, Carries names S O w w'' → j ∉ S → j ∉ O → Test w'' j { m with rows := m.rows.filter Q } T B →
      (∀ k ∈ S, (w''.insts k).isSome) → Gives names S (k j) (j :: O) w'' r) :
    Gives names S (.select i q k) O w r := by
  have hxc : "interaction" ∈ m.cols := hs.full.1 (by simp)
  have hcols : ∀ c ∈ ws, c.2.1.col ∈ m.cols := by
    intro c hc
    rcases (hws c hc).2 with h | h
    · rw [h]; exact hs.rows.users.hasUser
    · rw [h]; exact hxc
  refine gives_select hn hi hs.shows hs.full ?_ hcols hQ hS hq ?_
  · apply selectPre_num hne
    intro c hc
    obtain ⟨⟨h1, h2, h3, h4⟩, h5⟩ := hws c hc
    refine ⟨h1, h2, ?_, h3, h4, hcols c hc, ?_, ?_⟩
    · rcases h5 with h | h <;> rw [h]
      · exact (by decide : NameOk "user")
      · exact (by decide : NameOk "interaction")
    · intro ty hty
      obtain ⟨t1, _, t3⟩ := hs.types ty hty
      rcases h5 with h | h <;> rw [h]
      · rw [t1]; decide
      · exact t3
    · intro r hr
      rcases h5 with h | h <;> rw [h]
      · obtain ⟨n, hn⟩ := hs.rows.users.whole r hr
        exact ⟨n, hn⟩
      · exact hs.rows.numbers r hr
  · intro w'' j hc hj1 hj2 hsh
    exact next w'' j hc hj1 hj2 ⟨hsh, hs.full, memOk_filter hs.ok Q, evaluable_filter hs.rows Q, hs.types⟩
      fun k hk => (hc.2 k (Or.inl hk)).alive (hS k hk)

theorem column_values {cols : List String} (hc : "item" ∈ cols) (rows : List Row) :
    columnOf "item" (.recs (rows.map fun r => (r.toRec cols).filter fun q => q.1 ∈ ["item"])) =
      rows.map (·.get "item") := by
  simp only [columnOf, List.map_map]
  apply List.map_congr_left
  intro r _
  exact lookup_pick hc (by simp) r

theorem ints_of {m : Mem} (h : IntItems m) {l : List Row} (hl : l ⊆ m.rows) : ∀ v ∈ l.map (·.get "item"), ∃ n : Int, v = .num n := by
  intro v hv
  obtain ⟨r, hr, rfl⟩ := List.mem_map.1 hv
  exact h.whole r (hl hr)

theorem samplePos_subset {l : List Row} {n : Option Nat} {rng : Nat → Nat} {s : List Row} (h : samplePos l n rng = some s) :
    s ⊆ l := by
  unfold samplePos at h
  cases n with
  | none => cases h; exact fun _ hx => hx
  | some n =>
    simp only at h
    split at h
    · cases h
    · cases h; exact pySample_subset _ _ _

theorem Carries.of_cons {names : List String} {S O : List Nat} {a b c : World} {j : Nat}
    (h1 : Carries names S O a b) (h2 : Carries names S (j :: O) b c) : Carries names S O a c := h1.trans h2.cons

theorem gives_ranking {names : List String} (hn : NamesOk names) {w : World} {test train : Nat}
    {m : Mem} {T T' : Option (String → DType)} {B B' : Nat} (ht : Test w test m T B)
    {dm : DbModel} {model : EvalModel} {w0 : World} (hk : ∀ i ∈ [test, train], Keeps w0 w i)
    (htr : Test w train model.train T' B') (a : EvalArgs) {thr : List Char} (hthr : Prints thr a.threshold) (u : Int)
    (rng : EvalRng) (hgen : NoGeneration a ∨ (B < 5000 ∧ B' < 5000)) (hm : Answers names [test, train] w0 dm model u) :
    Gives names [test, train] (dbRankingUser dm test train thr a (.num u) rng) [] w (rankingUser model m a (.num u) rng) := by
  obtain ⟨lit, hwr, rfl, hval⟩ := hthr
  obtain ⟨d, hd, hdr, hdc, hdt⟩ := userDs_int ht.rows.users u
  have hic : "item" ∈ m.cols := ht.rows.items.hasItem
  have hS : ∀ k ∈ [test, train], (w.insts k).isSome := by
    intro k hk
    simp only [List.mem_cons, List.not_mem_nil, or_false] at hk
    rcases hk with rfl | rfl
    · obtain ⟨x, hx, _⟩ := ht.shows.inst; simp [hx]
    · obtain ⟨x, hx, _⟩ := htr.shows.inst; simp [hx]
  have bound : ∀ op, ∀ c ∈ [boundWritten op lit], (Blank c.1 ∧ Blank c.2.2 ∧ c.2.1.lit.Writable ∧
      (∃ q, c.2.1.lit.value = .num q)) ∧ (c.2.1.col = "user" ∨ c.2.1.col = "interaction") := by
    intro op c hc
    simp only [List.mem_singleton] at hc
    subst hc
    exact ⟨⟨by simp [boundWritten, Blank], by simp [boundWritten, Blank], hwr, _, hval⟩, Or.inr rfl⟩
  have hrank : rankingUser model m a (.num u) rng =
      match samplePos (thresholdRows (some a.threshold) (recordsOf m.rows (.num u))) a.nPos rng.pos with
      | none => .ok .skip
      | some sampled => afterNeg model a (.num u) d sampled rng
          (negativesOf model a (.num u) (thresholdRows (some a.threshold) (recordsOf m.rows (.num u))) sampled.length
            (belowThreshold a.threshold (recordsOf m.rows (.num u))) rng) := by
    unfold rankingUser
    rw [hd]
    simp only [hdr]
    cases samplePos (thresholdRows (some a.threshold) (recordsOf m.rows (.num u))) a.nPos rng.pos with
    | none => rfl
    | some sampled =>
      simp only
      rcases negativesOf model a (.num u) (thresholdRows (some a.threshold) (recordsOf m.rows (.num u))) sampled.length
            (belowThreshold a.threshold (recordsOf m.rows (.num u))) rng with e | (_ | _ | _) <;> rfl
  rw [hrank]
  unfold dbRankingUser
  -- the records of the user
  refine gives_where hn (Or.inl (by simp)) ht (ws := [eqWritten "user" u]) (by simp) ?_
    (Q := fun r => decide (r.get "user" = .num u)) (fun r _ => sat_eq "user" u r) hS (userQuery_written u) ?_
  · intro c hc
    simp only [List.mem_singleton] at hc
    subst hc
    exact ⟨⟨by simp [eqWritten, Blank], by simp [eqWritten, Blank], trivial, u, rfl⟩, Or.inl rfl⟩
  intro w1 uds c1 hu1 hu2 tu s1
  -- the positive records
  refine gives_where hn (Or.inr (by simp)) tu (ws := [boundWritten .ge lit]) (by simp) (bound _)
    (Q := geQ a.threshold) (fun r hr => sat_ge hval r (tu.rows.numbers r hr)) s1 (boundQuery_ge lit) ?_
  intro w2 pos c2 hp1 hp2 tp s2
  have hup : uds ≠ pos := by
    rintro rfl
    simp at hp2
  refine gives_positives hn (by simp) tp.shows tp.full s2 ⟨by simp, hu1, hp1, hup⟩ (m := _) ?_ ?_
  · intro h
    have h' : samplePos (thresholdRows (some a.threshold) (recordsOf m.rows (.num u))) a.nPos rng.pos = none := h
    rw [h']
  intro w3 sampled c3 hsam
  have hsam' : samplePos (thresholdRows (some a.threshold) (recordsOf m.rows (.num u))) a.nPos rng.pos = some sampled := hsam
  rw [hsam']
  simp only
  have tu3 := (tu.carry c2 (Or.inr (by simp))).carry c3 (Or.inr (by simp))
  have s3 : ∀ k ∈ [test, train], (w3.insts k).isSome := fun k hk => (c3.2 k (Or.inl hk)).alive (s2 k hk)
  have hsamI : ∀ r ∈ sampled, ∃ n : Int, r.get "item" = .num n :=
    fun r hr => tp.rows.items.whole r (samplePos_subset hsam hr)
  -- the negative records
  refine gives_where hn (Or.inr (by simp)) tu3 (ws := [boundWritten .lt lit]) (by simp) (bound _)
    (Q := ltQ a.threshold) (fun r hr => sat_lt hval r (tu3.rows.numbers r hr)) s3 (boundQuery_lt lit) ?_
  intro w4 neg c4 hn1 hn2 tn s4
  refine gives_values hn (Or.inr (by simp)) tn.shows tn.full (by simpa using hic) s4 ?_
  intro w5 c5
  dsimp only
  rw [column_values hic]
  have hnegs : (m.rows.filter fun r => decide (r.get "user" = .num u)).filter (ltQ a.threshold) =
      belowThreshold a.threshold (recordsOf m.rows (.num u)) := rfl
  rw [hnegs]
  have s5 : ∀ k ∈ [test, train], (w5.insts k).isSome := fun k hk => (c5.2 k (Or.inl hk)).alive (s4 k hk)
  have tu5 := (tu3.carry c4 (Or.inr (by simp))).carry c5 (Or.inr (by simp))
  have tp5 := ((tp.carry c3 (Or.inr (by simp))).carry c4 (Or.inr (by simp))).carry c5 (Or.inr (by simp))
  have htr5 := ((((htr.carry c1 (Or.inl (by simp))).carry c2 (Or.inl (by simp))).carry c3 (Or.inl (by simp))).carry c4
    (Or.inl (by simp))).carry c5 (Or.inl (by simp))
  have k5 : ∀ i ∈ [test, train], Keeps w0 w5 i := fun i hi => ((((((hk i hi).trans (c1.2 i (Or.inl hi))).trans
    (c2.2 i (Or.inl hi))).trans (c3.2 i (Or.inl hi))).trans (c4.2 i (Or.inl hi))).trans (c5.2 i (Or.inl hi)))
  simp only [List.mem_cons, List.not_mem_nil, or_false, not_or] at hn2 hp2
  have run5 : Running names [test, train] [neg, pos, uds] w5 uds [uds, pos, neg] m u T B :=
    ⟨c5.1, by simp, tu5.shows, s5, by simp [hup, Ne.symm hn2.1, Ne.symm hn2.2], by
      intro k hk
      simp only [List.mem_cons, List.not_mem_nil, or_false] at hk
      rcases hk with rfl | rfl | rfl
      · exact ⟨by simp, hu1⟩
      · exact ⟨by simp, hp1⟩
      · exact ⟨by simp, hn1⟩⟩
  have hTi : ∀ ty, T = some ty → ty "item" ≠ .obj := fun ty h => by rw [(ht.types ty h).2.1]; decide
  have hnegI : ∀ v ∈ (belowThreshold a.threshold (recordsOf m.rows (.num u))).map (·.get "item"), ∃ n : Int, v = .num n :=
    ints_of tn.rows.items (fun _ h => h)
  cases hN : a.nNeg with
  | none =>
    simp only [negativesOf, hN]
    exact gives_rank hn run5 ht.rows.items ht.full hTi ⟨hdr, hdc, hdt⟩ k5 hm a hsamI hnegI rng
  | some n =>
    simp only [negativesOf, hN, List.length_map]
    have hfirstI : ∀ v ∈ pySample ((belowThreshold a.threshold (recordsOf m.rows (.num u))).map (·.get "item"))
        (min (n.wanted sampled.length) (belowThreshold a.threshold (recordsOf m.rows (.num u))).length) rng.neg,
        ∃ n : Int, v = .num n := fun v hv => hnegI v (pySample_subset _ _ _ hv)
    generalize pySample ((belowThreshold a.threshold (recordsOf m.rows (.num u))).map (·.get "item"))
        (min (n.wanted sampled.length) (belowThreshold a.threshold (recordsOf m.rows (.num u))).length) rng.neg = first
      at hfirstI
    by_cases hcase : first.length < n.wanted sampled.length ∧ a.generate = true
    · rw [if_pos hcase, if_pos hcase]
      have hB : B < 5000 ∧ B' < 5000 := by
        rcases hgen with (h | h) | h
        · rw [hN] at h; cases h
        · rw [hcase.2] at h; cases h
        · exact h
      obtain ⟨vs, hvs, hvn, hvm⟩ := uniqueVals_user (ds := { m with rows := thresholdRows (some a.threshold) (recordsOf m.rows (.num u)) })
        (c := "item") hic (by decide)
      have hvm' : ∀ v, v ∈ vs ↔ v ∈ (thresholdRows (some a.threshold) (recordsOf m.rows (.num u))).map (·.get "item") := by
        intro v
        rw [hvm v]
        simp
      by_cases hte : a.trainEval = true
      · simp only [hte, if_true, blacklist]
        refine gives_items hn (Or.inr (by simp)) tp5.ok tp5.shows tp5.full hB.1 s5 hvs ?_
        intro w6 c6
        refine gives_generate hn (run5.carry c6) ht.rows.items ht.full hTi ⟨hdr, hdc, hdt⟩
          (fun i hi => (k5 i hi).trans (c6.2 i (Or.inl hi))) hm a hsamI hfirstI _ ?_
          (nodup_distinctVals _) (nodup_distinctVals _) rng
        intro v
        rw [mem_distinctVals, mem_distinctVals, hvm']
      · simp only [Bool.not_eq_true] at hte
        simp only [hte, blacklist, trainPositives, userRows_int htr.rows.users, Except.map]
        rw [if_neg (by simp), if_neg (by simp)]
        -- the positive train records
        refine gives_where hn (Or.inl (by simp)) htr5 (ws := [eqWritten "user" u, ([' '], (boundWritten .ge lit).2.1, [])])
          (by simp) ?_ (Q := fun r => geQ a.threshold r && decide (r.get "user" = .num u))
          (fun r hr => sat_train hval u r (htr5.rows.numbers r hr)) s5 (trainQuery_written u lit) ?_
        · intro c hc
          simp only [List.mem_cons, List.not_mem_nil, or_false] at hc
          rcases hc with rfl | rfl
          · exact ⟨⟨by simp [eqWritten, Blank], by simp [eqWritten, Blank], trivial, u, rfl⟩, Or.inl rfl⟩
          · exact ⟨⟨by simp [Blank], by simp [Blank], hwr, _, hval⟩, Or.inr rfl⟩
        intro w6 tpos c6 hq1 hq2 tt s6
        have htic : "item" ∈ model.train.cols := htr.rows.items.hasItem
        obtain ⟨ts, hts, htn, htm⟩ := uniqueVals_user (ds := { model.train with rows := model.train.rows.filter fun r => geQ a.threshold r && decide (r.get "user" = .num u) })
          (c := "item") htic (by decide)
        have htm' : ∀ v, v ∈ ts ↔ v ∈ (thresholdRows (some a.threshold) (recordsOf model.train.rows (.num u))).map (·.get "item") := by
          intro v
          rw [htm v]
          have : (thresholdRows (some a.threshold) (recordsOf model.train.rows (.num u))) =
              model.train.rows.filter fun r => geQ a.threshold r && decide (r.get "user" = .num u) := by
            unfold recordsOf
            simp only [thresholdRows, List.filter_filter]
            rfl
          rw [this]
          simp
        refine gives_items hn (Or.inr (by simp)) tt.ok tt.shows tt.full hB.2 s6 hts ?_
        intro w7 c7
        have tp7 := (tp5.carry c6 (Or.inr (by simp))).carry c7 (Or.inr (by simp))
        have tu7 := (tu5.carry c6 (Or.inr (by simp))).carry c7 (Or.inr (by simp))
        have s7 : ∀ k ∈ [test, train], (w7.insts k).isSome := fun k hk => (c7.2 k (Or.inl hk)).alive (s6 k hk)
        refine gives_items hn (Or.inr (by simp)) tp7.ok tp7.shows tp7.full hB.1 s7 hvs ?_
        intro w8 c8
        simp only [List.mem_cons, List.not_mem_nil, or_false, not_or] at hq2
        have run7 : Running names [test, train] [tpos, neg, pos, uds] w7 uds [uds, pos, neg, tpos] m u T B :=
          ⟨c7.1, by simp, tu7.shows, s7, by
            simp [hup, Ne.symm hn2.1, Ne.symm hn2.2, Ne.symm hq2.1, Ne.symm hq2.2.1, Ne.symm hq2.2.2], by
            intro k hk
            simp only [List.mem_cons, List.not_mem_nil, or_false] at hk
            rcases hk with rfl | rfl | rfl | rfl
            · exact ⟨by simp, hu1⟩
            · exact ⟨by simp, hp1⟩
            · exact ⟨by simp, hn1⟩
            · exact ⟨by simp, hq1⟩⟩
        refine gives_generate hn (run7.carry c8) ht.rows.items ht.full hTi ⟨hdr, hdc, hdt⟩
          (fun i hi => (((k5 i hi).trans (c6.2 i (Or.inl hi))).trans (c7.2 i (Or.inl hi))).trans (c8.2 i (Or.inl hi))) hm a hsamI hfirstI _ ?_
          (nodup_distinctVals _) (nodup_distinctVals _) rng
        intro v
        rw [mem_distinctVals, mem_distinctVals, List.mem_append, List.mem_append, hvm', htm']
    · rw [if_neg hcase, if_neg hcase]
      exact gives_rank hn run5 ht.rows.items ht.full hTi ⟨hdr, hdc, hdt⟩ k5 hm a hsamI hfirstI rng

theorem gives_recommendation {names : List String} (hn : NamesOk names) {w : World} {test : Nat} {S : List Nat}
    (htest : test ∈ S) (hS : ∀ k ∈ S, (w.insts k).isSome)
    {m : Mem} {T : Option (String → DType)} {B : Nat} (ht : Test w test m T B) {dm : DbModel} {model : EvalModel}
    {w0 : World} (hk : ∀ i ∈ S, Keeps w0 w i)
    (a : EvalArgs) {thr : List Char} (hthr : Prints thr a.threshold) (n : Option Nat) (low : Option ℚ) (u : Int)
    (rng : EvalRng) (hrec : ∀ k recs, model.recommend (.num u) k a.novelty low = .ok recs →
      ∀ p ∈ recs, ∃ i : Int, p.2 = .num i) (hm : Answers names S w0 dm model u) :
    Gives names S (dbRecommendationUser dm test thr a n low (.num u) rng) [] w
      (recommendationUser model m a n low (.num u) rng) := by
  obtain ⟨lit, hwr, rfl, hval⟩ := hthr
  obtain ⟨d, hd, hdr, hdc, hdt⟩ := userDs_int ht.rows.users u
  have hic : "item" ∈ m.cols := ht.rows.items.hasItem
  have hxc : "interaction" ∈ m.cols := ht.full.1 (by simp)
  unfold recommendationUser dbRecommendationUser
  rw [hd]
  simp only [hdr]
  refine gives_where hn (Or.inl htest) ht (ws := [eqWritten "user" u]) (by simp) ?_
    (Q := fun r => decide (r.get "user" = .num u)) (fun r _ => sat_eq "user" u r) hS (userQuery_written u) ?_
  · intro c hc
    simp only [List.mem_singleton] at hc
    subst hc
    exact ⟨⟨by simp [eqWritten, Blank], by simp [eqWritten, Blank], trivial, u, rfl⟩, Or.inl rfl⟩
  intro w1 uds c1 hu1 hu2 tu s1
  refine gives_where hn (Or.inr (by simp)) tu (ws := [boundWritten .ge lit]) (by simp) ?_
    (Q := geQ a.threshold) (fun r hr => sat_ge hval r (tu.rows.numbers r hr)) s1 (boundQuery_ge lit) ?_
  · intro c hc
    simp only [List.mem_singleton] at hc
    subst hc
    exact ⟨⟨by simp [boundWritten, Blank], by simp [boundWritten, Blank], hwr, _, hval⟩, Or.inr rfl⟩
  intro w2 pos c2 hp1 hp2 tp s2
  have hup : uds ≠ pos := by
    rintro rfl
    simp at hp2
  refine gives_positives hn (by simp) tp.shows tp.full s2 ⟨by simp, hu1, hp1, hup⟩ (m := _) ?_ ?_
  · intro h
    have h' : samplePos (thresholdRows (some a.threshold) (recordsOf m.rows (.num u))) a.nPos rng.pos = none := h
    rw [h']
  intro w3 sampled c3 hsam
  have hsam' : samplePos (thresholdRows (some a.threshold) (recordsOf m.rows (.num u))) a.nPos rng.pos = some sampled := hsam
  rw [hsam']
  simp only [List.length_map]
  have tu3 := (tu.carry c2 (Or.inr (by simp))).carry c3 (Or.inr (by simp))
  have s3 : ∀ k ∈ S, (w3.insts k).isSome := fun k hk => (c3.2 k (Or.inl hk)).alive (s2 k hk)
  have own : ∀ k ∈ [uds, pos], k ∈ [pos, uds] ∧ k ∉ S := by
    intro k hk
    simp only [List.mem_cons, List.not_mem_nil, or_false] at hk
    rcases hk with rfl | rfl
    · exact ⟨by simp, hu1⟩
    · exact ⟨by simp, hp1⟩
  split
  · exact gives_closing _ _ _ _ (by simp [hup]) own
  cases n with
  | none => rfl
  | some n =>
    simp only
    refine hm.recommend n a.novelty low _ w3 _ _ c3.1 (fun i hi => (((hk i hi).trans (c1.2 i (Or.inl hi))).trans
      (c2.2 i (Or.inl hi))).trans (c3.2 i (Or.inl hi))) ?_ ?_
    · intro e he
      rw [he]
    · intro recs w4 hr c4
      rw [hr]
      simp only
      have tu4 := tu3.carry c4 (Or.inr (by simp))
      have s4 : ∀ k ∈ S, (w4.insts k).isSome := fun k hk => (c4.2 k (Or.inl hk)).alive (s3 k hk)
      have hmap : (sampled.map (seen m.cols)).map (·.get "item") = sampled.map (·.get "item") := by
        rw [List.map_map]
        apply List.map_congr_left
        intro r _
        exact seen_item hic r
      have hbest : bestItem (sampled.map (seen m.cols)) = bestItem sampled :=
        bestItem_map (seen_item hic) (seen_interaction hxc) sampled
      have hall : ∀ v ∈ sampled.map (·.get "item") ++ recs.map (·.2), ∃ n : Int, v = .num n := by
        intro v hv
        rcases List.mem_append.1 hv with hv | hv
        · exact ints_of tp.rows.items (samplePos_subset hsam) v hv
        · obtain ⟨p, hp, rfl⟩ := List.mem_map.1 hv
          exact hrec n recs hr p hp
      rw [relevanciesOf_eq hdr (hdc ▸ hic) (by rw [hdt]; exact ht.rows.items.int) hall]
      rw [hmap, hbest]
      refine gives_relevancies hn (by simp) ht.rows.items ht.full
        (fun ty h => by rw [(ht.types ty h).2.1]; decide) _ _ _ tu4.shows s4 ?_ ?_ ⟨c4.1, fun k _ => Keeps.refl _ _⟩
      · intro v hv
        exact hall v (mem_distinct_iff.1 hv)
      · intro w'' _
        rw [List.nil_append]
        exact gives_closing _ _ _ w'' (by simp [hup]) own

end DRec.Conc
