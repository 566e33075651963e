import Verif.Lemmas.DbHistory
import Verif.Lemmas.Dedup

/-! # Reads of the database dataset -/

namespace DRec

open Spec

theorem sqlExt_spec (le : Val → Val → Bool) (less : Val → Val → Prop)
    (hle : ∀ a b, a ≠ .null → b ≠ .null → (le a b = true ↔ ¬ less b a))
    (htr : ∀ a b c, a ≠ .null → b ≠ .null → c ≠ .null → ¬ less b a → ¬ less c b → ¬ less c a)
    (hir : ∀ a, ¬ less a a) (hto : ∀ a b, less a b → ¬ less b a) (vs : List Val) :
    Extreme less vs (sqlExt le vs) := by
  have key : ∀ (l : List Val) (m : Val), (∀ v ∈ l, v ≠ .null) → m ≠ .null →
      let e := l.foldl (fun m v => if m = .null then v else if le m v then v else m) m
      e ≠ .null ∧ e ∈ m :: l ∧ ∀ u ∈ m :: l, ¬ less e u := by
    intro l
    induction l with
    | nil => intro m _ hm; exact ⟨hm, by simp, by simpa using hir m⟩
    | cons a l ih =>
      intro m hl hm
      have ha := hl a (by simp)
      simp only [List.foldl_cons, if_neg hm]
      by_cases hc : le m a = true
      · rw [if_pos hc]
        obtain ⟨h1, h2, h3⟩ := ih a (fun v hv => hl v (by simp [hv])) ha
        refine ⟨h1, List.mem_cons_of_mem _ h2, fun u hu => ?_⟩
        rcases List.mem_cons.1 hu with rfl | hu
        · exact htr _ a _ hm ha h1 ((hle _ _ hm ha).1 hc) (h3 a (by simp))
        · exact h3 u hu
      · rw [if_neg hc]
        have hma : less a m := by
          by_contra hh; exact hc ((hle _ _ hm ha).2 hh)
        obtain ⟨h1, h2, h3⟩ := ih m (fun v hv => hl v (by simp [hv])) hm
        refine ⟨h1, ?_, fun u hu => ?_⟩
        · rcases List.mem_cons.1 h2 with h2 | h2
          · rw [h2]; simp
          · exact List.mem_cons_of_mem _ (List.mem_cons_of_mem _ h2)
        · rcases List.mem_cons.1 hu with rfl | hu
          · exact h3 _ (by simp)
          · rcases List.mem_cons.1 hu with rfl | hu
            · exact htr _ m _ ha hm h1 (hto _ _ hma) (h3 m (by simp))
            · exact h3 u (List.mem_cons_of_mem _ hu)
  unfold sqlExt
  cases hf : vs.filter (· ≠ .null) with
  | nil =>
    left
    refine ⟨rfl, fun u hu => ?_⟩
    by_contra hne
    have : u ∈ vs.filter (· ≠ .null) := List.mem_filter.2 ⟨hu, by simpa using hne⟩
    rw [hf] at this; simp at this
  | cons a l =>
    right
    have hmem : ∀ v, v ∈ a :: l ↔ v ∈ vs ∧ v ≠ .null := by
      intro v; rw [← hf, List.mem_filter]; simp
    simp only [List.foldl_cons, if_true]
    obtain ⟨h1, h2, h3⟩ := key l a (fun v hv => ((hmem v).1 (by simp [hv])).2) ((hmem a).1 (by simp)).2
    exact ⟨h1, ((hmem _).1 h2).1, fun u hu hne => h3 u ((hmem u).2 ⟨hu, hne⟩)⟩

theorem sqlLe_iff (a b : Val) (ha : a ≠ .null) (hb : b ≠ .null) : sqlLe a b = true ↔ ¬ SqlLess b a := by
  cases a <;> cases b <;> simp [sqlLe, SqlLess, Less] at *

theorem sqlLess_trans (a b c : Val) (ha : a ≠ .null) (hb : b ≠ .null) (hc : c ≠ .null) (h1 : ¬ SqlLess b a)
    (h2 : ¬ SqlLess c b) : ¬ SqlLess c a := by
  cases a <;> cases b <;> cases c <;> simp [SqlLess, Less] at * <;>
    first | exact h1.trans h2 | exact String.le_trans h1 h2

theorem sqlLess_irr (a : Val) : ¬ SqlLess a a := by cases a <;> simp [SqlLess, Less]

theorem sqlLess_asymm (a b : Val) (h : SqlLess a b) : ¬ SqlLess b a := by
  cases a <;> cases b <;> simp [SqlLess, Less] at * <;> first | exact h.le | exact String.not_lt.1 (String.lt_asymm h)

theorem handleColumns_sub {cols : List String} {cs : Option (List String)} {l : List String}
    (h : handleColumns cols cs = .ok l) : cs.getD cols = l ∧ l ⊆ cols := by
  cases cs with
  | none =>
    simp only [handleColumns, Except.ok.injEq] at h
    subst h
    exact ⟨rfl, fun _ h => h⟩
  | some l' =>
    simp only [handleColumns] at h
    split at h
    · rename_i hall
      simp only [Except.ok.injEq] at h
      subst h
      refine ⟨rfl, fun a hm => ?_⟩
      simpa using List.all_eq_true.1 hall a hm
    · cases h

theorem handleColumns_ok {cols : List String} {cs : Option (List String)} (h : cs.getD cols ⊆ cols) :
    handleColumns cols cs = .ok (cs.getD cols) := by
  cases cs with
  | none => rfl
  | some l =>
    simp only [handleColumns, Option.getD_some] at h ⊢
    rw [if_pos]
    rw [List.all_eq_true]
    intro a ha
    simpa using h ha

theorem find_toRec {cols : List String} {ws : List (List Char × SCond × List Char)} {rows : List Row}
    (hc : ∀ w ∈ ws, w.2.1.col ∈ cols) :
    (rows.map (Row.toRec cols)).find? (fun r => decide (SatRec ws r)) =
      (rows.filter fun r => decide (Sat ws r)).head?.map (Row.toRec cols) := by
  rw [← List.head?_filter, ← filter_toRec hc, List.head?_map]

theorem look_good {names : List String} {w : World} {i : Nat} {x : Inst} {t : Table} {rows : List Row}
    (hx : w.insts i = some x) (ht : w.tables x.table = some t) (hs : Shows t x rows) (htn : t.cols ⊆ names)
    {op : ReadOp} {res : ReadRes} (hl : w.look i op = .ok res) :
    ReadSpec names x.types ⟨x.columns, rows.map (Row.toRec x.columns), x.hasIds⟩ op res := by
  obtain ⟨sc, h1, h2, h3⟩ := hs.ev
  obtain ⟨qc, hq, hpre⟩ := hs.query
  unfold World.look at hl
  simp only [hx, ht] at hl
  cases op with
  | values cs =>
    simp only at hl
    cases hh : handleColumns x.columns cs with
    | error e => rw [hh] at hl; cases hl
    | ok l =>
      simp only [hh, hq, bind, Except.bind, Except.ok.injEq] at hl
      subst hl
      simp only [ReadSpec, (handleColumns_sub hh).1, List.map_map]
      apply List.map_congr_left
      intro r _
      simp only [Function.comp_apply, decode_eq hpre]
      rfl
  | selectOne q cs =>
    simp only at hl
    cases hp : x.parse q with
    | error e => rw [hp] at hl; cases hl
    | ok conds =>
      rw [hp] at hl
      cases hh : handleColumns x.columns cs with
      | error e => rw [hh] at hl; cases hl
      | ok l =>
        rw [hh] at hl
        simp only [bind, Except.bind] at hl
        cases he : evalSrc t (x.queryWith conds) with
        | error e => rw [he] at hl; cases hl
        | ok pr =>
          rw [he] at hl
          simp only [Except.ok.injEq] at hl
          subst hl
          intro ws hqt hsp
          subst hqt
          obtain ⟨hw, hall⟩ := hsp
          obtain ⟨ty, hty⟩ := Option.isSome_iff_exists.1 hs.types
          rcases parse_text hty ws hw (fun w hw' => (hall w hw').2.1 ty hty) with ⟨hc, hpar⟩ | ⟨hc, e, hpar⟩
          · rw [hpar] at hp
            have hconds := (Except.ok.inj hp).symm
            subst hconds
            obtain ⟨qc', h4, h5⟩ := select_rows hs htn ws hc (fun w hw' => (hall w hw').1) (by
              intro w hw' r hr
              have := (hall w hw').2.2 (r.toRec x.columns) (List.mem_map_of_mem hr)
              rwa [cellOf_toRec _ _ _ (hc w hw')] at this)
            rw [h4] at he
            have := Except.ok.inj he
            subst this
            simp only [(handleColumns_sub hh).1, find_toRec hc, Option.map_map]
            congr 1
            funext r
            simp only [Function.comp_apply, decode_eq h5]
            rfl
          · rw [hpar] at hp; cases hp
  | countUnique cs =>
    simp only at hl
    cases hh : handleColumns x.columns cs with
    | error e => rw [hh] at hl; cases hl
    | ok l =>
      obtain ⟨hl1, hl2⟩ := handleColumns_sub hh
      by_cases hne : l = []
      · subst hne
        simp [hh, bind, Except.bind, evalSrc, h1] at hl
      · have hev := evalSrc_mk h1 (cols := l) (conds := []) hne (fun a ha => h2 (hl2 ha)) (by simp)
        simp only [hh, hev, bind, Except.bind, Except.ok.injEq] at hl
        subst hl
        simp only [ReadSpec, hl1, List.map_map]
        have : (rows.filter fun r => [].all (SqlCond.holds sc rows r)) = rows := by simp
        rw [this]
        have e : (List.map ((fun r => List.map (cellOf r) l) ∘ Row.toRec x.columns) rows) = rows.map (keyOn l) :=
          List.map_congr_left fun r _ => keyOn_toRec hl2 r
        rw [e]
        exact dedupGo_length _ _
  | max c =>
    simp only at hl
    split at hl
    · rename_i hc
      have hev := evalSrc_mk h1 (cols := [c]) (conds := []) (by simp) (by simpa using h2 hc) (by simp)
      simp only [hev, bind, Except.bind, Except.ok.injEq] at hl
      subst hl
      simp only [ReadSpec, List.map_map, List.all_nil, List.filter_true]
      have e : (List.map ((cellOf · c) ∘ Row.toRec x.columns) rows) = rows.map (·.get c) :=
        List.map_congr_left fun r _ => cellOf_toRec _ _ _ hc
      rw [e]
      exact sqlExt_spec _ _ sqlLe_iff sqlLess_trans sqlLess_irr sqlLess_asymm _
    · cases hl
  | min c =>
    simp only at hl
    split at hl
    · rename_i hc
      have hev := evalSrc_mk h1 (cols := [c]) (conds := []) (by simp) (by simpa using h2 hc) (by simp)
      simp only [hev, bind, Except.bind, Except.ok.injEq] at hl
      subst hl
      simp only [ReadSpec, List.map_map, List.all_nil, List.filter_true]
      have e : (List.map ((cellOf · c) ∘ Row.toRec x.columns) rows) = rows.map (·.get c) :=
        List.map_congr_left fun r _ => cellOf_toRec _ _ _ hc
      rw [e]
      exact sqlExt_spec _ _ (fun a b ha hb => sqlLe_iff b a hb ha)
        (fun a b c ha hb hc h1 h2 => sqlLess_trans c b a hc hb ha h2 h1) sqlLess_irr
        (fun a b h => sqlLess_asymm b a h) _
    · cases hl

/-- A read that returns shows what is there. -/
theorem read_good {names : List String} (hn : NamesOk names) {w : World} (h : Good names w) {i : Nat} {p : Plain}
    {x : Inst} (hx : w.insts i = some x) (hp : plainOf w i = some p) {op : ReadOp} {res : ReadRes}
    (hr : (w.read i op).2 = .ok res) : ReadSpec names x.types p op res := by
  obtain ⟨r1, r2, _, _, r5⟩ := record_good hn h hx
  unfold World.read at hr
  cases he : (w.record i).2 with
  | some e =>
    have er : w.record i = ((w.record i).1, some e) := by rw [← he]
    rw [er] at hr; cases hr
  | none =>
    have er : w.record i = ((w.record i).1, none) := by rw [← he]
    rw [er] at hr
    obtain ⟨y, hy, _, hty⟩ := r5 he
    obtain ⟨t, rows, ht, hs⟩ := r1.get hy
    have := look_good hy ht hs (r1.tables _ _ ht).names hr
    rw [hty] at this
    have hpy := plainOf_eq hy ht hs
    rw [r2, hp] at hpy
    rw [Option.some.inj hpy]
    exact this

theorem look_works {w : World} {i : Nat} {x : Inst} {t : Table} {rows : List Row}
    (hx : w.insts i = some x) (ht : w.tables x.table = some t) (hs : Shows t x rows) {op : ReadOp}
    (hw : Works ⟨x.columns, rows.map (Row.toRec x.columns), x.hasIds⟩ (.read i op)) :
    ∃ res, w.look i op = .ok res := by
  obtain ⟨sc, h1, h2, h3⟩ := hs.ev
  obtain ⟨qc, hq, hpre⟩ := hs.query
  unfold World.look
  simp only [hx, ht]
  cases op with
  | values cs =>
    simp only [handleColumns_ok hw.2, hq, bind, Except.bind]
    exact ⟨_, rfl⟩
  | selectOne q cs => exact absurd hw id
  | countUnique cs =>
    have hne : cs.getD x.columns ≠ [] := by
      cases cs with
      | none => exact hs.ne
      | some l => intro he; exact hw.2.2 (by simpa using he)
    have hev := evalSrc_mk h1 (cols := cs.getD x.columns) (conds := []) hne (fun a ha => h2 (hw.2.1 ha)) (by simp)
    simp only [handleColumns_ok hw.2.1, hev, bind, Except.bind]
    exact ⟨_, rfl⟩
  | max c =>
    have hev := evalSrc_mk h1 (cols := [c]) (conds := []) (by simp) (by simpa using h2 hw.2) (by simp)
    simp only [if_pos hw.2, hev, bind, Except.bind]
    exact ⟨_, rfl⟩
  | min c =>
    have hev := evalSrc_mk h1 (cols := [c]) (conds := []) (by simp) (by simpa using h2 hw.2) (by simp)
    simp only [if_pos hw.2, hev, bind, Except.bind]
    exact ⟨_, rfl⟩

/-- Operations that cannot go wrong return. -/
theorem works_good {names : List String} (hn : NamesOk names) {w : World} (h : Good names w) {op : DbOp} {p : Plain}
    (hp : plainOf w op.inst = some p) (ha : Admissible names w op) (hw : Works p op) :
    ∃ k, (runOp w op).2 = .ok k := by
  have hout : ∀ i (r : World × Option Err), r.2 = none → ∃ k, (outcome i r).2 = .ok k := by
    intro i r hr; exact ⟨i, by simp [outcome, hr]⟩
  obtain ⟨x, t, rows, hx, ht, hs, hpe⟩ := plain_inv h hp
  cases op with
  | select i ws c =>
    simp only [DbOp.inst] at hx hp
    obtain ⟨_, _, g3⟩ := inPlaceOrCopy_good hn (select_means hn ws) h hp (fun z hz => ha p z hp hz) c
    exact g3 hw.1 hw.1 hw.2
  | drop i ids k c =>
    simp only [DbOp.inst] at hx hp
    obtain ⟨_, _, g3⟩ := inPlaceOrCopy_good hn (drop_means hn ids k) h hp (fun _ _ => trivial) c
    exact g3 hw hw trivial
  | unique i cs c =>
    simp only [DbOp.inst] at hx hp
    obtain ⟨w1, w2, w3⟩ := hw
    have hpc : p.cols = x.columns := by rw [hpe]
    have hl := handleColumns_ok (cols := x.columns) (cs := cs) (by rw [← hpc]; exact w3)
    simp only [runOp, World.unique, hx, hl]
    have hne : cs.getD x.columns ≠ [] := by
      cases cs with
      | none => exact hs.ne
      | some l => intro he; exact ha (by simpa using he)
    obtain ⟨_, _, g3⟩ := inPlaceOrCopy_good hn (uniqueOn_means hn _ hne cs) h hp
      (fun _ _ => ⟨by rw [hpc], by rw [← hpc]; exact w3⟩) c
    exact g3 w1 w2 trivial
  | copy i => exact hout _ _ (copy_good h hx).1
  | close i => exact hout _ _ (close_good h hx).1
  | read i o =>
    simp only [DbOp.inst] at hx hp
    obtain ⟨r1, r2, _, r4, r5⟩ := record_good hn h hx
    have hfull : FullCols x.columns := by
      rw [hpe] at hw
      cases o with
      | selectOne q cs => exact absurd hw id
      | values cs => exact hw.1
      | countUnique cs => exact hw.1
      | max c => exact hw.1
      | min c => exact hw.1
    have he := r4 hfull
    have er : w.record i = ((w.record i).1, none) := by rw [← he]
    obtain ⟨y, hy, _, hty⟩ := r5 he
    obtain ⟨t', rows', ht', hs'⟩ := r1.get hy
    have hpy := plainOf_eq hy ht' hs'
    rw [r2, hp] at hpy
    rw [Option.some.inj hpy] at hw
    obtain ⟨res, hres⟩ := look_works hy ht' hs' hw
    refine ⟨i, ?_⟩
    simp only [runOp, World.read]
    rw [er]
    simp only [hres]
    rfl
  | assign i =>
    simp only [DbOp.inst] at hx hp
    obtain ⟨a1, a2, a3, a4⟩ := ha p hp
    obtain ⟨_, _, _, g4⟩ := assign_good hn h hp a1 a2 a3 a4
    exact hout _ _ (g4 hw)
  | removeIds i =>
    simp only [DbOp.inst] at hx hp
    exact hout _ _ (removeIds_good h hp (ha p hp)).1
  | apply i c f =>
    simp only [DbOp.inst] at hx hp
    obtain ⟨d, hd⟩ := ha
    obtain ⟨_, _, _, g4⟩ := apply_good hn h hp (hd p hp)
    exact hout _ _ (g4 hw.1 hw.2.1 hw.2.2.1 hw.2.2.2)
  | openGen i => exact absurd ha id
  | closeGen => exact absurd ha id
  | reopen => exact absurd ha id

end DRec
