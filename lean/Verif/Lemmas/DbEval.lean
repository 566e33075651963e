import Verif.Model.DbEval
import Verif.Lemmas.DbSplits

/-! # Evaluation of database datasets: steps -/

namespace DRec.Conc

open Spec

/-! ## What operations leave of the objects -/

/-- Only object `i` changes, and it keeps its types and does not get a larger base count. -/
def Touch (i : Nat) (w w' : World) : Prop :=
  (∀ k, k ≠ i → w'.insts k = w.insts k) ∧
  ∀ x, w.insts i = some x → ∃ x', w'.insts i = some x' ∧ x'.types = x.types ∧ x'.nBefore ≤ x.nBefore

theorem Touch.refl (i : Nat) (w : World) : Touch i w w := ⟨fun _ _ => rfl, fun x hx => ⟨x, hx, rfl, le_refl _⟩⟩

theorem Touch.trans {i : Nat} {a b c : World} (h1 : Touch i a b) (h2 : Touch i b c) : Touch i a c := by
  refine ⟨fun k hk => (h2.1 k hk).trans (h1.1 k hk), fun x hx => ?_⟩
  obtain ⟨y, hy, t1, n1⟩ := h1.2 x hx
  obtain ⟨z, hz, t2, n2⟩ := h2.2 y hy
  exact ⟨z, hz, t2.trans t1, le_trans n2 n1⟩

theorem Touch.put {i : Nat} {w w0 : World} (hw : w0.insts = w.insts) {x y : Inst} (hx : w.insts i = some x) (ht : y.types = x.types)
    (hb : y.nBefore ≤ x.nBefore) : Touch i w (w0.put i y) := by
  refine ⟨fun k hk => by rw [put_ne _ _ hk, hw], fun z hz => ?_⟩
  rw [hx] at hz; cases hz
  exact ⟨y, put_self _ _ _, ht, hb⟩

theorem optimize_touch {w : World} {i : Nat} {x : Inst} (hx : w.insts i = some x) (b : Bool) :
    Touch i w (w.optimize i b).1 := by
  have base : Touch i w (w.put i x.reset) := Touch.put rfl hx rfl (le_refl _)
  have hx' : (w.put i x.reset).insts i = some x.reset := put_self _ _ _
  unfold World.optimize
  simp only [hx]
  split
  · exact base
  · split
    · exact base
    · split
      · rename_i us t _ _
        split
        · unfold World.shrink
          split
          · exact base
          · split
            · exact base
            · split
              · exact base.trans (Touch.put rfl hx' rfl (le_refl _))
              · exact base
        · unfold World.split
          split
          · exact base
          · split
            · exact base
            · split
              · refine base.trans ?_
                have := Touch.put (w := w.put i x.reset) (w0 := (((w.put i x.reset).putT (w.put i x.reset).nextT
                  (some ⟨‹_›, (‹List Row›).map (Row.restrict x.reset.columns)⟩)).putU x.reset.table (some (us.erase i))).putU
                    (w.put i x.reset).nextT (some [i])) rfl hx' (y := { x.reset with state := .table, table := (w.put i x.reset).nextT }) rfl (le_refl _)
                exact ⟨this.1, this.2⟩
              · exact base
      · exact base

/-- An object that is read or copied: no more selections pending, the same internal ids, and a plain table stays one. -/
def Steady (x x' : Inst) : Prop :=
  x'.queries ≤ x.queries ∧ x'.hasIds = x.hasIds ∧ (x.state = .table → x'.state = .table)

theorem Steady.refl (x : Inst) : Steady x x := ⟨le_refl _, rfl, id⟩

theorem Steady.trans {x y z : Inst} (h1 : Steady x y) (h2 : Steady y z) : Steady x z :=
  ⟨le_trans h2.1 h1.1, h2.2.1.trans h1.2.1, fun h => h2.2.2 (h1.2.2 h)⟩

theorem optimize_steady {w : World} {i : Nat} {x : Inst} (hx : w.insts i = some x) (b : Bool) :
    ∃ x', (w.optimize i b).1.insts i = some x' ∧ Steady x x' := by
  have base : Steady x x.reset := ⟨Nat.zero_le _, rfl, id⟩
  have tab : ∀ t, Steady x { x.reset with state := .table, table := t } := fun t => ⟨Nat.zero_le _, rfl, fun _ => rfl⟩
  unfold World.optimize
  simp only [hx]
  split
  · exact ⟨_, put_self _ _ _, base⟩
  · split
    · exact ⟨_, put_self _ _ _, base⟩
    · split
      · split
        · unfold World.shrink
          split
          · exact ⟨_, put_self _ _ _, base⟩
          · split
            · exact ⟨_, put_self _ _ _, base⟩
            · split
              · exact ⟨_, put_self _ _ _, tab _⟩
              · exact ⟨_, put_self _ _ _, base⟩
        · unfold World.split
          split
          · exact ⟨_, put_self _ _ _, base⟩
          · split
            · exact ⟨_, put_self _ _ _, base⟩
            · split
              · exact ⟨_, put_self _ _ _, tab _⟩
              · exact ⟨_, put_self _ _ _, base⟩
      · exact ⟨_, put_self _ _ _, base⟩

theorem record_steady {w : World} {i : Nat} {x : Inst} (hx : w.insts i = some x) :
    ∃ x', (w.record i).1.insts i = some x' ∧ Steady x x' := by
  have base : Steady x { x with direct := x.direct + 1 } := ⟨le_refl _, rfl, id⟩
  unfold World.record
  simp only [hx]
  split
  · obtain ⟨x', h1, h2⟩ := optimize_steady (w := w.put i { x with direct := x.direct + 1 }) (put_self _ _ _) true
    exact ⟨x', h1, base.trans h2⟩
  · exact ⟨_, put_self _ _ _, base⟩

theorem record_touch {w : World} {i : Nat} {x : Inst} (hx : w.insts i = some x) :
    Touch i w (w.record i).1 ∧
    (x.direct < 3 → (w.record i).1.insts i = some { x with direct := x.direct + 1 }) := by
  have base : Touch i w (w.put i { x with direct := x.direct + 1 }) := Touch.put rfl hx rfl (le_refl _)
  unfold World.record
  simp only [hx]
  split
  · refine ⟨base.trans (optimize_touch (put_self _ _ _) true), fun h => by omega⟩
  · exact ⟨base, fun _ => put_self _ _ _⟩

theorem update_touch {w : World} {i : Nat} {x : Inst} (hx : w.insts i = some x) (s : Src) :
    Touch i w (w.update i s).1 ∧
    (x.queries < 2 → (w.update i s).2 = none → ∃ y, (w.update i s).1.insts i = some y ∧ y.queries = x.queries + 1 ∧
      y.nBefore = x.nBefore ∧ y.direct = x.direct) := by
  unfold World.update
  simp only [hx]
  split
  · exact ⟨Touch.put rfl hx rfl (le_refl _), fun _ h => by cases h⟩
  · split
    · exact ⟨Touch.put rfl hx rfl (le_refl _), fun _ h => by cases h⟩
    · rename_i rows _
      split
      · rename_i hr
        simp only [Inst.shouldReduce, Bool.and_eq_true, decide_eq_true_eq] at hr
        refine ⟨(Touch.put (y := { x with queries := x.queries + 1, nRows := rows.length, state := s, nBefore := rows.length })
          rfl hx rfl (by
          have := hr.1.2
          show rows.length ≤ x.nBefore
          omega)).trans (optimize_touch (put_self _ _ _) true), fun h => by
          have := hr.1.1.1.2
          omega⟩
      · exact ⟨Touch.put rfl hx rfl (le_refl _), fun _ _ => ⟨_, put_self _ _ _, rfl, rfl, rfl⟩⟩

theorem selectOn_touch {w : World} {i : Nat} {x : Inst} (hx : w.insts i = some x) (q : List Char) :
    Touch i w (w.selectOn i q).1 ∧
    (x.queries < 2 → (w.selectOn i q).2 = none → ∃ y, (w.selectOn i q).1.insts i = some y ∧ y.queries = x.queries + 1 ∧
      y.nBefore = x.nBefore ∧ y.direct = x.direct) := by
  unfold World.selectOn
  simp only [hx]
  split
  · exact ⟨Touch.refl _ _, fun _ h => by cases h⟩
  · exact update_touch hx _

theorem uniqueOn_touch {w : World} {i : Nat} {x : Inst} (hx : w.insts i = some x) (l : List String) :
    Touch i w (w.uniqueOn i l).1 := by
  unfold World.uniqueOn
  simp only [hx]
  exact (Touch.put (y := { x with columns := withRid l }) rfl hx rfl (le_refl _)).trans (update_touch (put_self _ _ _) _).1

/-- What an operation on a copy of dataset `i` leaves of the objects. -/
theorem onCopy_touch {names : List String} (hn : NamesOk names) {w : World} (hg : Good names w) {i : Nat} {x : Inst}
    (hx : w.insts i = some x) {f : World → Nat → World × Option Err}
    (hf : ∀ (v : World) (j : Nat) (y : Inst), v.insts j = some y → Touch j v (f v j).1) {w' : World} {j : Nat}
    (h : w.onCopy i f = (w', .ok j)) :
    j = w.nextI ∧ w.insts j = none ∧ j ≠ i ∧ (∀ k, k ≠ i → k ≠ j → w'.insts k = w.insts k) ∧
    (∃ xi, w'.insts i = some xi ∧ xi.types = x.types ∧ xi.nBefore ≤ x.nBefore ∧ Steady x xi ∧
      (x.direct < 3 → xi = { x with direct := x.direct + 1 })) ∧
    (∃ y, w'.insts j = some y ∧ y.types = x.types ∧ y.nBefore ≤ x.nBefore) ∧
    ∃ v, v.insts j = some { x with direct := 0 } ∧ f v j = (w', none) := by
  obtain ⟨c1, c2, _, c4, c5, c6, c7⟩ := copy_good hg hx
  have ec : w.copy i = ((w.copy i).1, none) := by rw [← c1]
  have hxc : (w.copy i).1.insts i = some x := by rw [c6 i (Ne.symm c5)]; exact hx
  obtain ⟨_, _, q3, _, _⟩ := record_good hn c2 hxc
  obtain ⟨t1, t2⟩ := record_touch hxc
  unfold World.onCopy at h
  rw [ec] at h
  simp only at h
  cases he : ((w.copy i).1.record i).2 with
  | some e =>
    have er : (w.copy i).1.record i = (((w.copy i).1.record i).1, some e) := by rw [← he]
    rw [er] at h; cases h
  | none =>
    have er : (w.copy i).1.record i = (((w.copy i).1.record i).1, none) := by rw [← he]
    rw [er] at h
    simp only at h
    have hj : ((w.copy i).1.record i).1.insts w.nextI = some { x with direct := 0 } := by rw [q3 _ c5, c7]
    obtain ⟨u1, u2⟩ := hf _ w.nextI _ hj
    cases he2 : (f ((w.copy i).1.record i).1 w.nextI).2 with
    | some e =>
      have er2 : f ((w.copy i).1.record i).1 w.nextI = ((f ((w.copy i).1.record i).1 w.nextI).1, some e) := by rw [← he2]
      rw [er2] at h; cases h
    | none =>
      have er2 : f ((w.copy i).1.record i).1 w.nextI = ((f ((w.copy i).1.record i).1 w.nextI).1, none) := by rw [← he2]
      rw [er2] at h
      simp only [Prod.mk.injEq, Except.ok.injEq] at h
      obtain ⟨h1, rfl⟩ := h
      rw [h1] at u1 u2
      refine ⟨rfl, c4, c5, ?_, ?_, ?_, _, hj, by rw [er2, h1]⟩
      · intro k hk hk'
        rw [u1 k hk', t1.1 k hk, c6 k hk']
      · obtain ⟨xi, a1, a2, a3⟩ := t1.2 x hxc
        have hst : Steady x xi := by
          obtain ⟨x', b1, b2⟩ := record_steady hxc
          rw [a1] at b1
          cases b1
          exact b2
        refine ⟨xi, by rw [u1 i (Ne.symm c5)]; exact a1, a2, a3, hst, fun hd => ?_⟩
        have := t2 hd
        rw [a1] at this
        exact Option.some.inj this
      · obtain ⟨y, b1, b2, b3⟩ := u2 _ hj
        exact ⟨y, b1, b2, b3⟩

/-! ## Dataset operations of a task -/

/-- Dataset `k` still shows the same; its object has the same types and no larger base count. -/
def Keeps (w w' : World) (k : Nat) : Prop :=
  plainOf w' k = plainOf w k ∧
  ∀ x, w.insts k = some x → ∃ x', w'.insts k = some x' ∧ x'.types = x.types ∧ x'.nBefore ≤ x.nBefore ∧ Steady x x'

theorem Keeps.refl (w : World) (k : Nat) : Keeps w w k := ⟨rfl, fun x hx => ⟨x, hx, rfl, le_refl _, Steady.refl x⟩⟩

theorem Keeps.trans {a b c : World} {k : Nat} (h1 : Keeps a b k) (h2 : Keeps b c k) : Keeps a c k := by
  refine ⟨h2.1.trans h1.1, fun x hx => ?_⟩
  obtain ⟨y, hy, t1, n1, s1⟩ := h1.2 x hx
  obtain ⟨z, hz, t2, n2, s2⟩ := h2.2 y hy
  exact ⟨z, hz, t2.trans t1, le_trans n2 n1, s1.trans s2⟩

theorem Keeps.same {w w' : World} {k : Nat} (h1 : w'.insts k = w.insts k) (h2 : plainOf w' k = plainOf w k) :
    Keeps w w' k := ⟨h2, fun x hx => ⟨x, by rw [h1]; exact hx, rfl, le_refl _, Steady.refl x⟩⟩

theorem Keeps.alive {w w' : World} {k : Nat} (h : Keeps w w' k) (ha : (w.insts k).isSome) : (w'.insts k).isSome := by
  obtain ⟨x, hx⟩ := Option.isSome_iff_exists.1 ha
  obtain ⟨x', hx', _⟩ := h.2 x hx
  rw [hx']; rfl

/-- Dataset `i` shows what `m` shows, its object has these types and a base count of at most `B`. -/
structure ShowsMem (w : World) (i : Nat) (m : Mem) (T : Option (String → DType)) (B : Nat) : Prop where
  plain : plainOf w i = some (memPlain m)
  inst : ∃ x, w.insts i = some x ∧ x.types = T ∧ x.nBefore ≤ B

theorem ShowsMem.keep {w w' : World} {i : Nat} {m : Mem} {T : Option (String → DType)} {B : Nat}
    (h : ShowsMem w i m T B) (hk : Keeps w w' i) : ShowsMem w' i m T B := by
  obtain ⟨x, h1, h2, h3⟩ := h.inst
  obtain ⟨x', a1, a2, a3, _⟩ := hk.2 x h1
  exact ⟨by rw [hk.1, h.plain], x', a1, a2.trans h2, le_trans a3 h3⟩

/-- What other tasks may do while a task does nothing: the shared datasets `S` show the same, the own datasets `O` are
untouched. -/
structure Quiet (names : List String) (S O : List Nat) (w w' : World) : Prop where
  good : Good names w'
  shared : ∀ k ∈ S, Keeps w w' k
  own : ∀ k ∈ O, w'.insts k = w.insts k ∧ plainOf w' k = plainOf w k
  alive : ∀ k ∈ O, (w'.insts k).isSome

/-- What a step of a task with own datasets `O` does; `O'` are its datasets afterwards. -/
structure Move (names : List String) (S O : List Nat) (w w' : World) (O' : List Nat) : Prop where
  good : Good names w'
  shared : ∀ k ∈ S, Keeps w w' k
  others : ∀ k, k ∉ S → k ∉ O → (w.insts k).isSome → w'.insts k = w.insts k ∧ plainOf w' k = plainOf w k
  own : ∀ k ∈ O', k ∈ O ∨ w.insts k = none
  alive : ∀ k ∈ O', (w'.insts k).isSome

/-- The task returns `r` whatever other tasks do in between. -/
def Gives {α : Type} (names : List String) (S : List Nat) : DbProg α → List Nat → World → Except Err α → Prop
  | .ret x, _, _, r => x = r
  | .select i q k, O, w, r => ∀ w', Quiet names S O w w' → ∃ w'' j, w'.select i q true = (w'', .ok j) ∧
      Move names S O w' w'' (j :: O) ∧ Gives names S (k j) (j :: O) w'' r
  | .unique i c k, O, w, r => ∀ w', Quiet names S O w w' → ∃ w'' j, w'.unique i (some [c]) true = (w'', .ok j) ∧
      Move names S O w' w'' (j :: O) ∧ Gives names S (k j) (j :: O) w'' r
  | .read i op k, O, w, r => ∀ w', Quiet names S O w w' → ∃ w'' res, w'.read i op = (w'', .ok res) ∧
      Move names S O w' w'' O ∧ Gives names S (k res) O w'' r
  | .len i k, O, w, r => ∀ w', Quiet names S O w w' → ∃ n, w'.len i = some n ∧ Gives names S (k n) O w' r
  | .toId i raw idc a k, O, w, r => ∀ w', Quiet names S O w w' →
      (∃ v, w'.toId i raw idc a = .ok v ∧ Gives names S (k v) O w' r) ∨ ∃ e, w'.toId i raw idc a = .error e ∧ r = .error e
  | .toRaw i raw idc n k, O, w, r => ∀ w', Quiet names S O w w' →
      (∃ v, w'.toRaw i raw idc n = .ok v ∧ Gives names S (k v) O w' r) ∨ ∃ e, w'.toRaw i raw idc n = .error e ∧ r = .error e
  | .close i k, O, w, r => ∀ w', Quiet names S O w w' →
      Move names S O w' (w'.close i).1 (O.filter (· ≠ i)) ∧ Gives names S k (O.filter (· ≠ i)) (w'.close i).1 r

theorem Quiet.trans {names : List String} {S O : List Nat} {a b c : World} (h1 : Quiet names S O a b)
    (h2 : Quiet names S O b c) : Quiet names S O a c :=
  ⟨h2.good, fun k hk => (h1.shared k hk).trans (h2.shared k hk),
    fun k hk => ⟨(h2.own k hk).1.trans (h1.own k hk).1, (h2.own k hk).2.trans (h1.own k hk).2⟩, h2.alive⟩

theorem Gives.mono {α : Type} {names : List String} {S O : List Nat} {w w' : World} {p : DbProg α} {r : Except Err α}
    (h : Gives names S p O w r) (hq : Quiet names S O w w') : Gives names S p O w' r := by
  cases p with
  | ret x => exact h
  | select i q k => exact fun v hv => h v (hq.trans hv)
  | unique i c k => exact fun v hv => h v (hq.trans hv)
  | read i op k => exact fun v hv => h v (hq.trans hv)
  | len i k => exact fun v hv => h v (hq.trans hv)
  | toId i raw idc a k => exact fun v hv => h v (hq.trans hv)
  | toRaw i raw idc n k => exact fun v hv => h v (hq.trans hv)
  | close i k => exact fun v hv => h v (hq.trans hv)

/-- A step of a task is something other tasks may do. -/
theorem Move.quiet {names : List String} {S O O' P : List Nat} {w w' : World} (h : Move names S O w w' O')
    (hd : ∀ k ∈ P, k ∉ S ∧ k ∉ O) (ha : ∀ k ∈ P, (w.insts k).isSome) : Quiet names S P w w' := by
  refine ⟨h.good, h.shared, fun k hk => h.others k (hd k hk).1 (hd k hk).2 (ha k hk), fun k hk => ?_⟩
  rw [(h.others k (hd k hk).1 (hd k hk).2 (ha k hk)).1]
  exact ha k hk

theorem DbProg.step_gives {α : Type} {names : List String} {S O : List Nat} {w : World} {p : DbProg α} {r : Except Err α}
    (hg : Good names w) (h : Gives names S p O w r) (ha : ∀ k ∈ O, (w.insts k).isSome) :
    ∃ O', Move names S O w (p.step w).1 O' ∧ Gives names S (p.step w).2 O' (p.step w).1 r := by
  have hq : Quiet names S O w w := ⟨hg, fun k _ => Keeps.refl w k, fun _ _ => ⟨rfl, rfl⟩, ha⟩
  have hm : Move names S O w w O := ⟨hg, fun k _ => Keeps.refl w k, fun _ _ _ _ => ⟨rfl, rfl⟩, fun k hk => Or.inl hk, ha⟩
  cases p with
  | ret x => exact ⟨O, hm, h⟩
  | select i q k =>
    obtain ⟨w'', j, h1, h2, h3⟩ := h w hq
    simp only [DbProg.step, h1]
    exact ⟨_, h2, h3⟩
  | unique i c k =>
    obtain ⟨w'', j, h1, h2, h3⟩ := h w hq
    simp only [DbProg.step, h1]
    exact ⟨_, h2, h3⟩
  | read i op k =>
    obtain ⟨w'', j, h1, h2, h3⟩ := h w hq
    simp only [DbProg.step, h1]
    exact ⟨_, h2, h3⟩
  | len i k =>
    obtain ⟨n, h1, h2⟩ := h w hq
    simp only [DbProg.step, h1]
    exact ⟨O, hm, h2⟩
  | toId i raw idc a k =>
    rcases h w hq with ⟨v, h1, h2⟩ | ⟨e, h1, h2⟩
    · simp only [DbProg.step, h1]
      exact ⟨O, hm, h2⟩
    · simp only [DbProg.step, h1]
      exact ⟨O, hm, h2.symm⟩
  | toRaw i raw idc n k =>
    rcases h w hq with ⟨v, h1, h2⟩ | ⟨e, h1, h2⟩
    · simp only [DbProg.step, h1]
      exact ⟨O, hm, h2⟩
    · simp only [DbProg.step, h1]
      exact ⟨O, hm, h2.symm⟩
  | close i k =>
    obtain ⟨h1, h2⟩ := h w hq
    exact ⟨_, h1, h2⟩

/-- From here on everything the task relies on is as it was. -/
def Carries (names : List String) (S O : List Nat) (w w' : World) : Prop :=
  Good names w' ∧ ∀ k, k ∈ S ∨ k ∈ O → Keeps w w' k

theorem Carries.trans {names : List String} {S O : List Nat} {a b c : World} (h1 : Carries names S O a b)
    (h2 : Carries names S O b c) : Carries names S O a c :=
  ⟨h2.1, fun k hk => (h1.2 k hk).trans (h2.2 k hk)⟩

theorem Carries.cons {names : List String} {S O : List Nat} {a b : World} {j : Nat} (h : Carries names S (j :: O) a b) :
    Carries names S O a b := ⟨h.1, fun k hk => h.2 k (hk.imp id (List.mem_cons_of_mem _))⟩

theorem Quiet.carries {names : List String} {S O : List Nat} {w w' : World} (h : Quiet names S O w w') :
    Carries names S O w w' :=
  ⟨h.good, fun k hk => hk.elim (h.shared k) fun hk => Keeps.same (h.own k hk).1 (h.own k hk).2⟩

/-- Frame of an operation that makes dataset `j` from `i`. -/
theorem new_move {names : List String} {S O : List Nat} {w w' : World} {i j : Nat} {p' : Plain} (hi : i ∈ S ∨ i ∈ O)
    (hg : Good names w') (hj : w.insts j = none) (hp : plainOf w' = setAt (plainOf w) j (some p')) {x : Inst}
    (hx : w.insts i = some x) (hf : ∀ k, k ≠ i → k ≠ j → w'.insts k = w.insts k)
    (hxi : ∃ xi, w'.insts i = some xi ∧ xi.types = x.types ∧ xi.nBefore ≤ x.nBefore ∧ Steady x xi)
    (hy : ∃ y, w'.insts j = some y) (hS : ∀ k ∈ S, (w.insts k).isSome) (hO : ∀ k ∈ O, (w.insts k).isSome) :
    Move names S O w w' (j :: O) ∧ Carries names S O w w' ∧ j ∉ S := by
  have hne : ∀ k, (w.insts k).isSome → k ≠ j := by
    rintro k hk rfl
    rw [hj] at hk; cases hk
  have hk : ∀ k, (w.insts k).isSome → Keeps w w' k := by
    intro k hk
    have hkj := hne k hk
    by_cases hki : k = i
    · subst hki
      refine ⟨by rw [hp]; simp [setAt, hkj], fun z hz => ?_⟩
      rw [hx] at hz; cases hz
      exact hxi
    · exact Keeps.same (hf k hki hkj) (by rw [hp]; simp [setAt, hkj])
  refine ⟨⟨hg, fun k h => hk k (hS k h), ?_, ?_, ?_⟩, ⟨hg, fun k h => hk k (h.elim (hS k) (hO k))⟩, ?_⟩
  · intro k h1 h2 h3
    have hki : k ≠ i := by rintro rfl; exact hi.elim h1 h2
    exact ⟨hf k hki (hne k h3), by rw [hp]; simp [setAt, hne k h3]⟩
  · intro k h
    rcases List.mem_cons.1 h with rfl | h
    · exact Or.inr hj
    · exact Or.inl h
  · intro k h
    rcases List.mem_cons.1 h with rfl | h
    · obtain ⟨y, hy⟩ := hy
      rw [hy]; rfl
    · exact (hk k (hO k h)).alive (hO k h)
  · intro h
    exact hne j (hS j h) rfl

/-- Frame of a read of `i`. -/
theorem read_move {names : List String} (hn : NamesOk names) {S O : List Nat} {w : World} (hg : Good names w) {i : Nat}
    (hi : i ∈ S ∨ i ∈ O) {x : Inst} (hx : w.insts i = some x) (op : ReadOp) (hS : ∀ k ∈ S, (w.insts k).isSome)
    (hO : ∀ k ∈ O, (w.insts k).isSome) :
    Move names S O w (w.read i op).1 O ∧ Carries names S O w (w.read i op).1 := by
  rw [read_world]
  obtain ⟨r1, r2, _, _, _⟩ := record_good hn hg hx
  obtain ⟨t1, _⟩ := record_touch hx
  have hk : ∀ k, (w.insts k).isSome → Keeps w (w.record i).1 k := by
    intro k hk
    by_cases hki : k = i
    · subst hki
      refine ⟨by rw [r2], fun z hz => ?_⟩
      obtain ⟨z', b1, b2, b3⟩ := t1.2 z hz
      obtain ⟨z'', c1, c2⟩ := record_steady hz
      rw [b1] at c1; cases c1
      exact ⟨z', b1, b2, b3, c2⟩
    · exact Keeps.same (t1.1 k hki) (by rw [r2])
  refine ⟨⟨r1, fun k h => hk k (hS k h), ?_, fun k h => Or.inl h, fun k h => (hk k (hO k h)).alive (hO k h)⟩,
    r1, fun k h => hk k (h.elim (hS k) (hO k))⟩
  intro k h1 h2 _
  have hki : k ≠ i := by rintro rfl; exact hi.elim h1 h2
  exact ⟨t1.1 k hki, by rw [r2]⟩

/-- Records of a dataset after a selection. -/
theorem select_plain {m : Mem} {ws : List (List Char × SCond × List Char)} {Q : Row → Bool}
    (hc : ∀ c ∈ ws, c.2.1.col ∈ m.cols) (hQ : ∀ r ∈ m.rows, Sat ws r ↔ Q r = true) :
    (memPlain m).select ws = memPlain { m with rows := m.rows.filter Q } := by
  simp only [Plain.select, memPlain]
  congr 1
  symm
  apply filter_plain
  intro r hr
  rw [Bool.eq_iff_iff, decide_eq_true_eq, satRec_toRec hc, hQ r hr]

theorem gives_select {α : Type} {names : List String} (hn : NamesOk names) {S O : List Nat} {w : World} {i : Nat}
    (hi : i ∈ S ∨ i ∈ O) {m : Mem} {T : Option (String → DType)} {B : Nat} (hs : ShowsMem w i m T B)
    (hf : FullCols m.cols) {ws : List (List Char × SCond × List Char)} (hpre : SelectPre names ws (memPlain m) T)
    (hc : ∀ c ∈ ws, c.2.1.col ∈ m.cols) {Q : Row → Bool} (hQ : ∀ r ∈ m.rows, Sat ws r ↔ Q r = true)
    (hS : ∀ k ∈ S, (w.insts k).isSome) {q : List Char} (hq : q = queryText ws) {k : Nat → DbProg α} {r : Except Err α}
    (next : ∀ w'' j, Carries names S O w w'' → j ∉ S → j ∉ O → ShowsMem w'' j { m with rows := m.rows.filter Q } T B →
      Gives names S (k j) (j :: O) w'' r) :
    Gives names S (.select i q k) O w r := by
  intro w' hw
  subst hq
  have hs' := hs.keep (hw.carries.2 i hi)
  obtain ⟨x, hx, hT, hB⟩ := hs'.inst
  have hadm : Admissible names w' (.select i ws true) := by
    intro p z hp hz
    rw [hs'.plain] at hp; cases hp
    rw [hx] at hz; cases hz
    rw [hT]; exact hpre
  obtain ⟨j, hj⟩ := works_good hn hw.good (op := .select i ws true) hs'.plain hadm ⟨hf, hc⟩
  obtain ⟨g1, g2⟩ := step_good hn hw.good hadm
  rw [hj] at g2
  obtain ⟨_, p, s3, s4⟩ := g2
  simp only [DbOp.inst] at s3
  rw [hs'.plain] at s3; cases s3
  simp only [DbOp.effect] at s4
  simp only [runOp] at hj g1 s4
  have e : w'.select i (queryText ws) true = ((w'.select i (queryText ws) true).1, .ok j) := by rw [← hj]
  have e' := e
  unfold World.select World.inPlaceOrCopy at e'
  rw [if_pos rfl] at e'
  obtain ⟨_, t2, _, t4, ⟨xi, a1, a2, a3, a4, _⟩, ⟨y, b1, b2, b3⟩, _⟩ := onCopy_touch hn hw.good hx
    (fun v j y hy => (selectOn_touch hy (queryText ws)).1) e'
  have hS' : ∀ k ∈ S, (w'.insts k).isSome := fun k hk => (hw.shared k hk).alive (hS k hk)
  obtain ⟨n1, n2, n3⟩ := new_move hi g1 t2 s4 hx t4 ⟨xi, a1, a2, a3, a4⟩ ⟨y, b1⟩ hS' hw.alive
  refine ⟨_, j, e, n1, next _ j (hw.carries.trans n2) n3 ?_ ?_⟩
  · intro hjO
    have := hw.alive j hjO
    rw [t2] at this; cases this
  · refine ⟨?_, y, b1, b2.trans hT, le_trans b3 hB⟩
    rw [s4, ← select_plain hc hQ]
    simp [setAt]

theorem gives_values {α : Type} {names : List String} (hn : NamesOk names) {S O : List Nat} {w : World} {i : Nat}
    (hi : i ∈ S ∨ i ∈ O) {m : Mem} {T : Option (String → DType)} {B : Nat} (hs : ShowsMem w i m T B)
    (hf : FullCols m.cols) {cs : List String} (hc : cs ⊆ m.cols) (hS : ∀ k ∈ S, (w.insts k).isSome)
    {k : ReadRes → DbProg α} {r : Except Err α}
    (next : ∀ w'', Carries names S O w w'' →
      Gives names S (k (.recs (m.rows.map fun r => (r.toRec m.cols).filter fun q => q.1 ∈ cs))) O w'' r) :
    Gives names S (.read i (.values (some cs)) k) O w r := by
  intro w' hw
  have hs' := hs.keep (hw.carries.2 i hi)
  obtain ⟨x, hx, hT, hB⟩ := hs'.inst
  obtain ⟨j, hj⟩ := works_good hn hw.good (op := .read i (.values (some cs))) hs'.plain trivial ⟨hf, hc⟩
  simp only [runOp] at hj
  cases hr : (w'.read i (.values (some cs))).2 with
  | error e => rw [hr] at hj; cases hj
  | ok res =>
    have hsp := read_good hn hw.good hx hs'.plain hr
    have hS' : ∀ k ∈ S, (w'.insts k).isSome := fun k hk => (hw.shared k hk).alive (hS k hk)
    obtain ⟨n1, n2⟩ := read_move hn hw.good hi hx (.values (some cs)) hS' hw.alive
    refine ⟨_, res, by rw [← hr], n1, ?_⟩
    cases res with
    | recs l =>
      simp only [ReadSpec, memPlain, Option.getD_some, List.map_map] at hsp
      rw [hsp]
      exact next _ (hw.carries.trans n2)
    | _ => exact absurd hsp id

theorem gives_one {α : Type} {names : List String} (hn : NamesOk names) {S O : List Nat} {w : World} {i : Nat}
    (hi : i ∈ S ∨ i ∈ O) {m : Mem} {T : Option (String → DType)} {B : Nat} (hs : ShowsMem w i m T B)
    (hf : FullCols m.cols) {ws : List (List Char × SCond × List Char)} (hpre : SelectPre names ws (memPlain m) T)
    (hc : ∀ c ∈ ws, c.2.1.col ∈ m.cols) {cs : Option (List String)} (hcs : cs.getD m.cols ⊆ m.cols) {Q : Row → Bool}
    (hQ : ∀ r ∈ m.rows, Sat ws r ↔ Q r = true) (hS : ∀ k ∈ S, (w.insts k).isSome) {q : List Char} (hq : q = queryText ws)
    {k : ReadRes → DbProg α} {r : Except Err α}
    (next : ∀ w'', Carries names S O w w'' → Gives names S (k (.one ((m.rows.find? Q).map fun r =>
      (r.toRec m.cols).filter fun q => q.1 ∈ cs.getD m.cols))) O w'' r) :
    Gives names S (.read i (.selectOne q cs) k) O w r := by
  intro w' hw
  subst hq
  have hs' := hs.keep (hw.carries.2 i hi)
  obtain ⟨x, hx, hT, hB⟩ := hs'.inst
  obtain ⟨r1, r2, _, r4, r5⟩ := record_good hn hw.good hx
  have hxc : x.columns = m.cols := by
    obtain ⟨x', _, _, hx', _, _, hpe⟩ := plain_inv hw.good hs'.plain
    rw [hx] at hx'; cases hx'
    exact (congrArg Plain.cols hpe).symm
  have he := r4 (hxc ▸ hf)
  obtain ⟨y, hy, hyc, hyt⟩ := r5 he
  obtain ⟨t, rows, ht, hsh⟩ := r1.get hy
  have hpe := plainOf_eq hy ht hsh
  rw [r2, hs'.plain] at hpe
  have hrows : rows.map (Row.toRec y.columns) = (memPlain m).recs := (congrArg Plain.recs (Option.some.inj hpe)).symm
  obtain ⟨ty, hty⟩ := Option.isSome_iff_exists.1 hsh.types
  obtain ⟨hw1, hall⟩ := hpre
  have hyT : y.types = T := hyt.trans hT
  have hcy : ∀ c ∈ ws, c.2.1.col ∈ y.columns := fun c h => by rw [hyc, hxc]; exact hc c h
  have hpar : y.parse (queryText ws) = .ok (ws.map fun c => sqlOf c.2.1) := by
    rcases parse_text hty ws hw1 (fun c h => (hall c h).2.1 ty (by rw [← hyT]; exact hty)) with ⟨_, h⟩ | ⟨h, _⟩
    · exact h
    · exact absurd hcy h
  obtain ⟨qc, hev, _⟩ := select_rows hsh (r1.tables _ _ ht).names ws hcy (fun c h => (hall c h).1) (by
    intro c h r hr
    have := (hall c h).2.2 (r.toRec y.columns) (by rw [← hrows]; exact List.mem_map_of_mem hr)
    rwa [cellOf_toRec _ _ _ (hcy c h)] at this)
  have hh : handleColumns y.columns cs = .ok (cs.getD y.columns) := by
    have := handleColumns_ok (cols := y.columns) (cs := cs) (by rw [hyc, hxc]; exact hcs)
    exact this
  have hlook : ∃ res, (w'.record i).1.look i (.selectOne (queryText ws) cs) = .ok res := by
    unfold World.look
    simp only [hy, ht, hpar, hh, hev, bind, Except.bind]
    exact ⟨_, rfl⟩
  obtain ⟨res, hres⟩ := hlook
  have hr : (w'.read i (.selectOne (queryText ws) cs)).2 = .ok res := by
    have er : w'.record i = ((w'.record i).1, none) := by rw [← he]
    unfold World.read
    rw [er]
    exact hres
  have hsp := read_good hn hw.good hx hs'.plain hr
  have hS' : ∀ k ∈ S, (w'.insts k).isSome := fun k hk => (hw.shared k hk).alive (hS k hk)
  obtain ⟨n1, n2⟩ := read_move hn hw.good hi hx (.selectOne (queryText ws) cs) hS' hw.alive
  refine ⟨_, res, by rw [← hr], n1, ?_⟩
  cases res with
  | one o =>
    have h1 := hsp ws rfl (by rw [hT]; exact ⟨hw1, hall⟩)
    simp only [memPlain] at h1
    have h2 : (m.rows.map (Row.toRec m.cols)).find? (fun r => decide (SatRec ws r)) =
        (m.rows.find? Q).map (Row.toRec m.cols) := by
      rw [List.find?_map]
      congr 1
      have : ∀ l : List Row, (∀ r ∈ l, r ∈ m.rows) →
          l.find? ((fun r => decide (SatRec ws r)) ∘ Row.toRec m.cols) = l.find? Q := by
        intro l
        induction l with
        | nil => intro _; rfl
        | cons a l ih =>
          intro hl
          have ha : decide (SatRec ws (a.toRec m.cols)) = Q a := by
            rw [Bool.eq_iff_iff, decide_eq_true_eq, satRec_toRec hc, hQ a (hl a (by simp))]
          simp only [List.find?_cons, Function.comp_apply, ha]
          rw [ih fun r hr => hl r (List.mem_cons_of_mem _ hr)]
      exact this _ fun _ h => h
    rw [h2, Option.map_map] at h1
    rw [h1]
    exact next _ (hw.carries.trans n2)
  | _ => exact absurd hsp id

theorem gives_len {α : Type} {names : List String} {S O : List Nat} {w : World} {i : Nat} (hi : i ∈ S ∨ i ∈ O) {m : Mem}
    {T : Option (String → DType)} {B : Nat} (hs : ShowsMem w i m T B) {k : Nat → DbProg α} {r : Except Err α}
    (next : ∀ w'', Carries names S O w w'' → Gives names S (k m.rows.length) O w'' r) :
    Gives names S (.len i k) O w r := by
  intro w' hw
  have hs' := hs.keep (hw.carries.2 i hi)
  obtain ⟨x, t, rows, hx, ht, hsh, hpe⟩ := plain_inv hw.good hs'.plain
  refine ⟨m.rows.length, ?_, next _ hw.carries⟩
  unfold World.len
  rw [hx]
  have := congrArg (fun p : Plain => p.recs.length) hpe
  simp only [memPlain, List.length_map] at this
  simp only [Option.map_some, hsh.len, this]

theorem close_insts {names : List String} {w : World} (hg : Good names w) {i : Nat} {x : Inst} (hx : w.insts i = some x)
    {k : Nat} (hk : k ≠ i) : (w.close i).1.insts k = w.insts k := by
  obtain ⟨us, _, _, ls, _, _, heq⟩ := close_eq hg.reg hx
  rw [heq]
  simp [hk]

theorem close_move {names : List String} {S O : List Nat} {w : World} (hg : Good names w) {i : Nat} (hi : i ∈ O)
    (hiS : i ∉ S) (hO : ∀ k ∈ O, (w.insts k).isSome) :
    Move names S O w (w.close i).1 (O.filter (· ≠ i)) ∧ Good names (w.close i).1 ∧ ∀ k, k ≠ i → Keeps w (w.close i).1 k := by
  obtain ⟨x, hx⟩ := Option.isSome_iff_exists.1 (hO i hi)
  obtain ⟨_, c2, c3⟩ := close_good hg hx
  have hs : ∀ k, k ≠ i → (w.close i).1.insts k = w.insts k ∧ plainOf (w.close i).1 k = plainOf w k := by
    intro k hk
    exact ⟨close_insts hg hx hk, by rw [c3]; simp [setAt, hk]⟩
  refine ⟨⟨c2, ?_, ?_, ?_, ?_⟩, c2, fun k hk => Keeps.same (hs k hk).1 (hs k hk).2⟩
  · intro k hk
    have hki : k ≠ i := by rintro rfl; exact hiS hk
    exact Keeps.same (hs k hki).1 (hs k hki).2
  · intro k _ h2 _
    have hki : k ≠ i := by rintro rfl; exact h2 hi
    exact hs k hki
  · intro k hk
    exact Or.inl (List.mem_filter.1 hk).1
  · intro k hk
    obtain ⟨h1, h2⟩ := List.mem_filter.1 hk
    simp only [decide_eq_true_eq] at h2
    rw [(hs k h2).1]
    exact hO k h1

theorem gives_closing {α : Type} {names : List String} {S : List Nat} (x : Except Err α) :
    ∀ (l O : List Nat) (w : World), l.Nodup → (∀ k ∈ l, k ∈ O ∧ k ∉ S) →
      Gives names S (closing (.ret x) l) O w x
  | [], _, _, _, _ => rfl
  | i :: l, O, w, hnd, hl => by
    obtain ⟨h1, h2⟩ := List.nodup_cons.1 hnd
    intro w' hw
    obtain ⟨m1, _, _⟩ := close_move (S := S) hw.good (hl i (by simp)).1 (hl i (by simp)).2 hw.alive
    refine ⟨m1, gives_closing x l _ _ h2 fun k hk => ?_⟩
    obtain ⟨a, b⟩ := hl k (List.mem_cons_of_mem _ hk)
    refine ⟨List.mem_filter.2 ⟨a, ?_⟩, b⟩
    simp only [decide_eq_true_eq]
    rintro rfl
    exact h1 hk

/-- The different values in a column of a dataset, when making it does not reduce anything. -/
theorem gives_unique {α : Type} {names : List String} (hn : NamesOk names) {S O : List Nat} {w : World} {i : Nat}
    (hi : i ∈ S ∨ i ∈ O) {m : Mem} (hm : MemOk m) {T : Option (String → DType)} {B : Nat} (hs : ShowsMem w i m T B)
    (hf : FullCols m.cols) {c : String} (hic : c ∈ m.cols) (hrid : c ≠ "rid") (hS : ∀ k ∈ S, (w.insts k).isSome)
    {vs : List Val} (hvs : uniqueVals m c = .ok vs)
    (hnr : ∀ w' x, Keeps w w' i → w'.insts i = some x → ¬ UniqueReduces x vs.length)
    {k : List Val → DbProg α} {r : Except Err α}
    (next : ∀ w'', Carries names S O w w'' → Gives names S (k vs) O w'' r) :
    Gives names S (.unique i c fun d => .read d (.values (some [c])) fun res => .close d (k (columnOf c res))) O w r := by
  intro w' hw
  have hs' := hs.keep (hw.carries.2 i hi)
  obtain ⟨x, hx, hT, hxB⟩ := hs'.inst
  obtain ⟨w1, j, y, e, hy, hyd⟩ := (unique_outcome hn hw.good hm hs'.plain hx hf hic hrid hvs).1 (hnr w' x (hw.carries.2 i hi) hx)
  obtain ⟨g1, g2⟩ := step_good hn hw.good (op := .unique i (some [c]) true) (by simp [Admissible])
  simp only [runOp, e] at g1 g2
  obtain ⟨_, p, s3, s4⟩ := g2
  simp only [DbOp.inst] at s3
  rw [hs'.plain] at s3; cases s3
  simp only [DbOp.effect] at s4
  have hxc : x.columns = m.cols := by
    obtain ⟨x', _, _, hx', _, _, hpe⟩ := plain_inv hw.good hs'.plain
    rw [hx] at hx'; cases hx'
    exact (congrArg Plain.cols hpe).symm
  have hh : handleColumns x.columns (some [c]) = .ok [c] := by simp [handleColumns, hxc, hic]
  have e' := e
  simp only [World.unique, hx, hh, World.inPlaceOrCopy, if_true] at e'
  obtain ⟨_, t2, _, t4, ⟨xi, a1, a2, a3, a4, _⟩, ⟨y', b1, b2, b3⟩, _⟩ := onCopy_touch hn hw.good hx
    (fun v j y hy => uniqueOn_touch hy [c]) e'
  have hS' : ∀ k ∈ S, (w'.insts k).isSome := fun k hk => (hw.shared k hk).alive (hS k hk)
  obtain ⟨n1, n2, n3⟩ := new_move hi g1 t2 s4 hx t4 ⟨xi, a1, a2, a3, a4⟩ ⟨y, hy⟩ hS' hw.alive
  have hjO : j ∉ O := by
    intro h
    have := hw.alive j h
    rw [t2] at this; cases this
  refine ⟨w1, j, e, n1, ?_⟩
  -- read the new dataset
  intro v hv
  obtain ⟨v1, v2⟩ := hv.own j (by simp)
  have hyv : v.insts j = some y := v1.trans hy
  obtain ⟨md, hmd, _, hmp⟩ := mem_unique_plain hm true (cs := [c]) (by simpa using hic) (by simpa using Ne.symm hrid)
  have hpv : plainOf v j = some (memPlain md) := by
    rw [v2, s4, hmp]; simp [setAt]
  have hmc : md.cols = [c, "rid"] := by
    have := congrArg Plain.cols hmp
    simpa [memPlain, Plain.unique, Ne.symm hrid] using this
  obtain ⟨y0, t, rows, hy0, ht, hsh, hpe⟩ := plain_inv hv.good hpv
  rw [hyv] at hy0; cases hy0
  have hyc : y.columns = [c, "rid"] := by
    have := congrArg Plain.cols hpe
    simp only [memPlain] at this
    rw [← this, hmc]
  have hrec : v.record j = (v.put j { y with direct := 1 }, none) := by
    unfold World.record
    simp only [hyv, hyd]
    rw [if_neg (by omega)]
  have hlook : ∃ res, (v.put j { y with direct := 1 }).look j (.values (some [c])) = .ok res := by
    obtain ⟨qc, hq, _⟩ := hsh.query
    have ht' : (v.put j { y with direct := 1 }).tables y.table = some t := ht
    have hq' : evalSrc t ({ y with direct := 1 } : Inst).query = .ok (qc, rows) := hq
    unfold World.look
    simp only [put_self, ht', handleColumns_ok (cs := some [c]) (cols := y.columns) (by simp [hyc]), hq', bind,
      Except.bind]
    exact ⟨_, rfl⟩
  obtain ⟨res, hres⟩ := hlook
  have hr : (v.read j (.values (some [c]))).2 = .ok res := by
    unfold World.read
    rw [hrec]
    exact hres
  have hsp := read_good hn hv.good hyv hpv hr
  have hSv : ∀ k ∈ S, (v.insts k).isSome := fun k hk => (hv.shared k hk).alive ((n1.shared k hk).alive (hS' k hk))
  obtain ⟨m1, m2⟩ := read_move hn hv.good (Or.inr (by simp : j ∈ j :: O)) hyv (.values (some [c])) hSv hv.alive
  refine ⟨_, res, by rw [← hr], m1, ?_⟩
  have hcol : columnOf c res = vs := by
    cases res with
    | recs l =>
      simp only [ReadSpec] at hsp
      simp only [BothOp.onMem, if_true] at hmd
      simp only [uniqueVals, hmd, Except.map, Except.ok.injEq] at hvs
      rw [← hvs, hsp]
      simp only [columnOf, memPlain, List.map_map]
      apply List.map_congr_left
      intro r _
      exact pick_lookup (by simp [hmc]) r
    | _ => exact absurd hsp id
  simp only [hcol]
  -- and close it
  intro u hu
  obtain ⟨c1, c2, c3⟩ := close_move (S := S) hu.good (by simp : j ∈ j :: O) n3 hu.alive
  have hfil : (j :: O).filter (· ≠ j) = O := by
    rw [List.filter_cons_of_neg (by simp)]
    apply List.filter_eq_self.2
    intro a ha
    simp only [decide_eq_true_eq]
    rintro rfl
    exact hjO ha
  refine ⟨c1, ?_⟩
  rw [hfil]
  apply next
  refine (((hw.carries.trans n2).trans (hv.carries.cons.trans m2.cons)).trans hu.carries.cons).trans ⟨c2, fun k hk => c3 k ?_⟩
  rintro rfl
  exact hk.elim n3 hjO

/-- The set of items of a dataset, when making it does not reduce anything. -/
theorem gives_items {α : Type} {names : List String} (hn : NamesOk names) {S O : List Nat} {w : World} {i : Nat}
    (hi : i ∈ S ∨ i ∈ O) {m : Mem} (hm : MemOk m) {T : Option (String → DType)} {B : Nat} (hs : ShowsMem w i m T B)
    (hf : FullCols m.cols) (hB : B < 5000) (hS : ∀ k ∈ S, (w.insts k).isSome) {vs : List Val}
    (hvs : uniqueVals m "item" = .ok vs) {k : List Val → DbProg α} {r : Except Err α}
    (next : ∀ w'', Carries names S O w w'' → Gives names S (k vs) O w'' r) :
    Gives names S (readItems i k) O w r := by
  refine gives_unique hn hi hm hs hf (hf.1 (by simp)) (by decide) hS hvs ?_ next
  rintro w' x hk hx ⟨_, _, _, h⟩
  obtain ⟨x', hx', _, hB'⟩ := (hs.keep hk).inst
  rw [hx] at hx'; cases hx'
  omega

/-- Any other read that works. -/
theorem gives_read {α : Type} {names : List String} (hn : NamesOk names) {S O : List Nat} {w : World} {i : Nat}
    (hi : i ∈ S ∨ i ∈ O) {m : Mem} {T : Option (String → DType)} {B : Nat} (hs : ShowsMem w i m T B) {op : ReadOp}
    (hop : Works (memPlain m) (.read i op)) (hS : ∀ k ∈ S, (w.insts k).isSome) {k : ReadRes → DbProg α} {r : Except Err α}
    (next : ∀ w'' res, Carries names S O w w'' → ReadSpec names T (memPlain m) op res → Gives names S (k res) O w'' r) :
    Gives names S (.read i op k) O w r := by
  intro w' hw
  have hs' := hs.keep (hw.carries.2 i hi)
  obtain ⟨x, hx, hT, hB⟩ := hs'.inst
  obtain ⟨j, hj⟩ := works_good hn hw.good (op := .read i op) hs'.plain trivial hop
  simp only [runOp] at hj
  cases hr : (w'.read i op).2 with
  | error e => rw [hr] at hj; cases hj
  | ok res =>
    have hsp := read_good hn hw.good hx hs'.plain hr
    have hS' : ∀ k ∈ S, (w'.insts k).isSome := fun k hk => (hw.shared k hk).alive (hS k hk)
    obtain ⟨n1, n2⟩ := read_move hn hw.good hi hx op hS' hw.alive
    refine ⟨_, res, by rw [← hr], n1, next _ res (hw.carries.trans n2) ?_⟩
    rw [← hT]
    exact hsp

end DRec.Conc
