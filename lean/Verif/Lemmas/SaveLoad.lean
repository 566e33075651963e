import Verif.Spec.SaveLoad
import Mathlib.Data.List.Nodup
import Mathlib.Tactic.CasesM
import Mathlib.Data.List.Perm.Subperm

/-! # Lemmas on pickling -/

set_option linter.unusedSectionVars false

namespace DRec.Pick

open _root_.DRec.Pick.Spec

variable {A B V : Type}

theorem mem_refs {c : Cell A V} {b : A} : b ∈ c.refs ↔ ∃ f, (f, Ref.obj b) ∈ c.fields := by
  unfold Cell.refs
  rw [List.mem_filterMap]
  constructor
  · rintro ⟨⟨f, r⟩, hp, hr⟩
    cases r with
    | obj a =>
      simp only [Option.some.injEq] at hr
      subst hr
      exact ⟨f, hp⟩
    | glob n => simp at hr
  · rintro ⟨f, hf⟩
    exact ⟨(f, .obj b), hf, rfl⟩

theorem Reach.trans {h : Heap A V} {a b c : A} (h1 : Reach h a b) (h2 : Reach h b c) : Reach h a c := by
  induction h2 with
  | refl => exact h1
  | step _ hx hf ih => exact .step ih hx hf

theorem Reach.head {h : Heap A V} {a b c : A} {x : Cell A V} (hx : h a = some x) (hb : b ∈ x.refs) (h2 : Reach h b c) :
    Reach h a c := by
  obtain ⟨f, hf⟩ := mem_refs.1 hb
  exact Pick.Reach.trans (Reach.step .refl hx hf) h2

section
variable [DecidableEq A]

/-- What writing the objects `S` adds to the memo. -/
structure Ext (h : Heap A V) (S : List A) (memo memo' : List (A × Cell A V)) : Prop where
  pre : memo <+: memo'
  nodup : (memo.map (·.1)).Nodup → (memo'.map (·.1)).Nodup
  covers : ∀ s ∈ S, s ∈ memo'.map (·.1)
  cells : ∀ e ∈ memo', e ∉ memo → h e.1 = some e.2 ∧ e.2.portable = true ∧ ∀ b ∈ e.2.refs, b ∈ memo'.map (·.1)
  reach : ∀ e ∈ memo', e ∉ memo → ∃ s ∈ S, Reach h s e.1

theorem Ext.refl (h : Heap A V) (memo : List (A × Cell A V)) {S : List A} (hS : ∀ s ∈ S, s ∈ memo.map (·.1)) :
    Ext h S memo memo :=
  ⟨List.prefix_rfl, id, hS, fun _ h1 h2 => absurd h1 h2, fun _ h1 h2 => absurd h1 h2⟩

theorem Ext.mono_keys {h : Heap A V} {S : List A} {m m' : List (A × Cell A V)} (x : Ext h S m m') {a : A}
    (ha : a ∈ m.map (·.1)) : a ∈ m'.map (·.1) := by
  obtain ⟨e, he, rfl⟩ := List.mem_map.1 ha
  exact List.mem_map.2 ⟨e, x.pre.subset he, rfl⟩

theorem Ext.cons {h : Heap A V} {s : A} {S : List A} {m0 m1 m2 : List (A × Cell A V)} (x : Ext h [s] m0 m1)
    (y : Ext h S m1 m2) : Ext h (s :: S) m0 m2 where
  pre := x.pre.trans y.pre
  nodup := fun h0 => y.nodup (x.nodup h0)
  covers := by
    intro t ht
    rcases List.mem_cons.1 ht with rfl | ht
    · exact y.mono_keys (x.covers t (List.mem_singleton.2 rfl))
    · exact y.covers t ht
  cells := by
    intro e he hn
    by_cases h1 : e ∈ m1
    · obtain ⟨p, q, r⟩ := x.cells e h1 hn
      exact ⟨p, q, fun b hb => y.mono_keys (r b hb)⟩
    · exact y.cells e he h1
  reach := by
    intro e he hn
    by_cases h1 : e ∈ m1
    · obtain ⟨t, ht, hr⟩ := x.reach e h1 hn
      rw [List.mem_singleton] at ht
      subst ht
      exact ⟨t, List.mem_cons_self, hr⟩
    · obtain ⟨t, ht, hr⟩ := y.reach e he h1
      exact ⟨t, List.mem_cons_of_mem _ ht, hr⟩

theorem fold_ok {h : Heap A V} {g : List (A × Cell A V) → A → Except Err (List (A × Cell A V))}
    (hg : ∀ m a m', g m a = .ok m' → Ext h [a] m m') :
    ∀ (S : List A) (m m' : List (A × Cell A V)), S.foldlM g m = .ok m' → Ext h S m m' := by
  intro S
  induction S with
  | nil =>
    intro m m' he
    cases he
    exact Ext.refl h m (fun s hs => absurd hs List.not_mem_nil)
  | cons s S ih =>
    intro m m' he
    rw [List.foldlM_cons] at he
    cases h1 : g m s with
    | error e => rw [h1] at he; cases he
    | ok m1 =>
      rw [h1] at he
      exact (hg m s m1 h1).cons (ih m1 m' he)

theorem visit_ok (h : Heap A V) : ∀ (n : Nat) (m : List (A × Cell A V)) (a : A) (m' : List (A × Cell A V)),
    visit h n m a = .ok m' → Ext h [a] m m' := by
  intro n
  induction n with
  | zero => intro m a m' he; cases he
  | succ n ih =>
    intro m a m' he
    unfold visit at he
    by_cases ha : a ∈ m.map (·.1)
    · rw [if_pos ha] at he
      cases he
      exact Ext.refl h m (fun s hs => by rw [List.mem_singleton.1 hs]; exact ha)
    · rw [if_neg ha] at he
      cases hc : h a with
      | none => rw [hc] at he; cases he
      | some c =>
        rw [hc] at he
        dsimp only at he
        by_cases hp : c.portable = false
        · rw [if_pos hp] at he; cases he
        · rw [if_neg hp] at he
          have x := fold_ok ih _ _ _ he
          have ham : (a, c) ∈ m' := x.pre.subset (by simp)
          refine ⟨(List.prefix_append m _).trans x.pre, ?_, ?_, ?_, ?_⟩
          · intro hn
            refine x.nodup ?_
            rw [List.map_append, List.nodup_append]
            refine ⟨hn, by simp, ?_⟩
            intro b hb d hd
            rw [List.map_cons, List.map_nil, List.mem_singleton] at hd
            rintro rfl
            rw [hd] at hb
            exact ha hb
          · intro s hs
            rw [List.mem_singleton.1 hs]
            exact List.mem_map.2 ⟨_, ham, rfl⟩
          · intro e hem hen
            by_cases h1 : e = (a, c)
            · subst h1
              refine ⟨hc, by simpa using hp, fun b hb => x.covers b hb⟩
            · refine x.cells e hem ?_
              rw [List.mem_append, List.mem_singleton]
              exact fun hh => hh.elim hen h1
          · intro e hem hen
            by_cases h1 : e = (a, c)
            · subst h1
              exact ⟨a, List.mem_singleton.2 rfl, .refl⟩
            · obtain ⟨b, hb, hr⟩ := x.reach e hem (by
                rw [List.mem_append, List.mem_singleton]
                exact fun hh => hh.elim hen h1)
              exact ⟨a, List.mem_singleton.2 rfl, Reach.head hc hb hr⟩

/-- The memo of a complete dump. -/
structure Memo (h : Heap A V) (a : A) (memo : List (A × Cell A V)) : Prop where
  head : (memo.map (·.1)).idxOf a = 0
  root : a ∈ memo.map (·.1)
  nodup : (memo.map (·.1)).Nodup
  cells : ∀ e ∈ memo, h e.1 = some e.2 ∧ e.2.portable = true ∧ ∀ b ∈ e.2.refs, b ∈ memo.map (·.1)
  reach : ∀ e ∈ memo, Reach h a e.1

theorem visit_memo {h : Heap A V} {n : Nat} {a : A} {m : List (A × Cell A V)} (he : visit h (n + 1) [] a = .ok m) :
    Memo h a m := by
  have x := visit_ok h _ _ _ _ he
  refine ⟨?_, x.covers a (List.mem_singleton.2 rfl), x.nodup List.nodup_nil, fun e hem => x.cells e hem List.not_mem_nil, ?_⟩
  · unfold visit at he
    rw [if_neg (by simp)] at he
    cases hc : h a with
    | none => rw [hc] at he; cases he
    | some c =>
      rw [hc] at he
      dsimp only at he
      by_cases hp : c.portable = false
      · rw [if_pos hp] at he; cases he
      · rw [if_neg hp] at he
        obtain ⟨t, ht⟩ := (fold_ok (visit_ok h n) _ _ _ he).pre
        rw [← ht]
        simp
  · intro e hem
    obtain ⟨s, hs, hr⟩ := x.reach e hem List.not_mem_nil
    rw [List.mem_singleton.1 hs] at hr
    exact hr

theorem Memo.closed {h : Heap A V} {a : A} {m : List (A × Cell A V)} (x : Memo h a m) {b c : A} (hb : b ∈ m.map (·.1))
    (hr : Reach h b c) : c ∈ m.map (·.1) := by
  induction hr with
  | refl => exact hb
  | step _ hx hf ih =>
    obtain ⟨e, he, h1⟩ := List.mem_map.1 ih
    obtain ⟨p, _, r⟩ := x.cells e he
    rw [h1, hx] at p
    cases p
    exact r _ (mem_refs.2 ⟨_, hf⟩)

theorem Memo.mem {h : Heap A V} {a : A} {m : List (A × Cell A V)} (x : Memo h a m) {b : A} (hb : b ∈ m.map (·.1)) :
    ∃ c, (b, c) ∈ m ∧ h b = some c := by
  obtain ⟨⟨b', c⟩, he, rfl⟩ := List.mem_map.1 hb
  exact ⟨c, he, (x.cells _ he).1⟩

/-! ## Errors -/

/-- An object that cannot be pickled can be reached. -/
def Stuck (h : Heap A V) (a : A) : Prop := ∃ b c, Reach h a b ∧ h b = some c ∧ c.portable = false

theorem length_le {l : List A} {m : List A} (hn : m.Nodup) (hs : ∀ a ∈ m, a ∈ l) : m.length ≤ l.length :=
  (hn.subperm hs).length_le

theorem visit_error (h : Heap A V) (hc : Closed h) (l : List A) (hl : ∀ a, (h a).isSome → a ∈ l) :
    ∀ (n : Nat) (m : List (A × Cell A V)) (a : A) (e : Err), visit h n m a = .error e → (h a).isSome →
      (m.map (·.1)).Nodup → (∀ x ∈ m, h x.1 = some x.2) → l.length < n + m.length → e = .typeError ∧ Stuck h a := by
  intro n
  induction n with
  | zero =>
    intro m a e _ _ hn hm hlt
    have := length_le (l := l) hn (by
      intro b hb
      obtain ⟨x, hx, rfl⟩ := List.mem_map.1 hb
      exact hl _ (by rw [hm x hx]; rfl))
    rw [List.length_map] at this
    omega
  | succ n ih =>
    intro m a e he hs hn hm hlt
    unfold visit at he
    by_cases ha : a ∈ m.map (·.1)
    · rw [if_pos ha] at he; cases he
    · rw [if_neg ha] at he
      cases hca : h a with
      | none => rw [hca] at hs; cases hs
      | some c =>
        rw [hca] at he
        dsimp only at he
        by_cases hp : c.portable = false
        · rw [if_pos hp] at he
          cases he
          exact ⟨rfl, a, c, .refl, hca, hp⟩
        · rw [if_neg hp] at he
          have key : ∀ (S : List A) (m' : List (A × Cell A V)), S.foldlM (visit h n) m' = .error e →
              (∀ b ∈ S, b ∈ c.refs) → (m'.map (·.1)).Nodup → (∀ x ∈ m', h x.1 = some x.2) →
              l.length < n + m'.length → e = .typeError ∧ Stuck h a := by
            intro S
            induction S with
            | nil => intro m' h1; cases h1
            | cons s S ihS =>
              intro m' h1 hS hn' hm' hlt'
              rw [List.foldlM_cons] at h1
              have hsr : s ∈ c.refs := hS s List.mem_cons_self
              obtain ⟨f, hf⟩ := mem_refs.1 hsr
              cases h2 : visit h n m' s with
              | error e' =>
                rw [h2] at h1
                cases h1
                obtain ⟨p, b, x, q, r⟩ := ih m' s e h2 (hc a c f s hca hf) hn' hm' hlt'
                exact ⟨p, b, x, Reach.head hca hsr q, r⟩
              | ok m1 =>
                rw [h2] at h1
                have x := visit_ok h _ _ _ _ h2
                refine ihS m1 h1 (fun b hb => hS b (List.mem_cons_of_mem _ hb)) (x.nodup hn') ?_ ?_
                · intro y hy
                  by_cases hy' : y ∈ m'
                  · exact hm' y hy'
                  · exact (x.cells y hy hy').1
                · have := x.pre.length_le
                  omega
          refine key c.refs _ he (fun b hb => hb) ?_ ?_ ?_
          · rw [List.map_append, List.nodup_append]
            refine ⟨hn, by simp, ?_⟩
            intro b hb d hd
            rw [List.map_cons, List.map_nil, List.mem_singleton] at hd
            rintro rfl
            rw [hd] at hb
            exact ha hb
          · intro y hy
            rcases List.mem_append.1 hy with hy | hy
            · exact hm y hy
            · rw [List.mem_singleton.1 hy]; exact hca
          · rw [List.length_append, List.length_singleton]; omega

theorem dump_cases {n : Nat} {h : Heap A V} {a : A} (hc : Closed h) (hn : AtMost h n) (ha : (h a).isSome) :
    (∃ s, dump n h a = .ok s) ∧ ¬ Stuck h a ∨ dump n h a = .error .typeError ∧ Stuck h a := by
  obtain ⟨l, hl, hl'⟩ := hn
  unfold dump
  cases hv : visit h (n + 1) [] a with
  | error e =>
    obtain ⟨rfl, hs⟩ := visit_error h hc l hl' _ _ _ _ hv ha List.nodup_nil (fun x hx => absurd hx List.not_mem_nil)
      (by rw [List.length_nil]; omega)
    exact .inr ⟨rfl, hs⟩
  | ok m =>
    refine .inl ⟨⟨_, rfl⟩, ?_⟩
    rintro ⟨b, c, hr, hb, hp⟩
    have x := visit_memo hv
    obtain ⟨c', hm, hb'⟩ := x.mem (x.closed x.root hr)
    rw [hb] at hb'
    cases hb'
    have := (x.cells _ hm).2.1
    rw [hp] at this
    cases this

theorem dump_memo {n : Nat} {h : Heap A V} {a : A} {s : List (Cell Nat V)} (hd : dump n h a = .ok s) :
    ∃ m, visit h (n + 1) [] a = .ok m ∧ Memo h a m ∧ s = m.map fun e => e.2.map (m.map (·.1)).idxOf := by
  unfold dump at hd
  cases hv : visit h (n + 1) [] a with
  | error e => rw [hv] at hd; cases hd
  | ok m =>
    rw [hv] at hd
    cases hd
    exact ⟨m, rfl, visit_memo hv, rfl⟩

/-! ## Copies -/

theorem Cell.map_map {C : Type} (f : A → B) (g : B → C) (c : Cell A V) : (c.map f).map g = c.map (g ∘ f) := by
  unfold Cell.map
  simp only [List.map_map, Cell.mk.injEq, true_and]
  refine List.map_congr_left fun p _ => ?_
  obtain ⟨k, r⟩ := p
  cases r <;> rfl

theorem map_refs (f : A → B) (c : Cell A V) : (c.map f).refs = c.refs.map f := by
  unfold Cell.refs Cell.map
  dsimp only
  induction c.fields with
  | nil => rfl
  | cons p l ih =>
    obtain ⟨k, r⟩ := p
    cases r with
    | obj a => simpa [Ref.map] using ih
    | glob n => simpa [Ref.map] using ih

omit [DecidableEq A] in
theorem lookup_map (f : A → B) (l : List (String × Ref A)) (k : String) :
    (l.map fun p => (p.1, p.2.map f)).lookup k = (l.lookup k).map (Ref.map f) := by
  induction l with
  | nil => rfl
  | cons p l ih =>
    obtain ⟨k', r⟩ := p
    rw [List.map_cons, List.lookup_cons, List.lookup_cons]
    cases hk : k == k' with
    | true => rfl
    | false => exact ih

/-- `r` is a name or an object of the memo. -/
def InMemo (m : List (A × Cell A V)) : Ref A → Prop
  | .obj a => a ∈ m.map (·.1)
  | .glob _ => True

theorem lookup_mem {l : List (String × Ref A)} {k : String} {r : Ref A} (hl : l.lookup k = some r) : (k, r) ∈ l := by
  induction l with
  | nil => cases hl
  | cons p l ih =>
    obtain ⟨k', r'⟩ := p
    rw [List.lookup_cons] at hl
    cases hk : k == k' with
    | true =>
      rw [hk] at hl
      cases hl
      rw [eq_of_beq hk]
      exact List.mem_cons_self
    | false =>
      rw [hk] at hl
      exact List.mem_cons_of_mem _ (ih hl)

theorem follow_copy {h : Heap A V} {a : A} {m : List (A × Cell A V)} (x : Memo h a m) {h2 : Heap B V} {ψ : A → B}
    (hψ : ∀ e ∈ m, h2 (ψ e.1) = some (e.2.map ψ)) : ∀ (p : List String) (r : Ref A), InMemo m r →
      follow h2 (r.map ψ) p = (follow h r p).map (Ref.map ψ) ∧ ∀ t, follow h r p = some t → InMemo m t := by
  intro p
  induction p with
  | nil =>
    intro r hr
    cases r <;> exact ⟨rfl, fun t ht => by cases ht; exact hr⟩
  | cons f p ih =>
    intro r hr
    cases r with
    | glob n => exact ⟨rfl, fun t ht => by cases ht⟩
    | obj b =>
      obtain ⟨c, hm, hb⟩ := x.mem hr
      have e2 : h2 (ψ b) = some (c.map ψ) := hψ _ hm
      have e1 : follow h (.obj b) (f :: p) = (c.fields.lookup f).bind fun r => follow h r p := by
        simp only [follow, hb, Option.bind_some]
      have e3 : follow h2 (Ref.map ψ (.obj b)) (f :: p) = ((c.map ψ).fields.lookup f).bind fun r => follow h2 r p := by
        simp only [follow, Ref.map, e2, Option.bind_some]
      rw [e1, e3, show (c.map ψ).fields = c.fields.map fun p => (p.1, p.2.map ψ) from rfl, lookup_map]
      cases hf : c.fields.lookup f with
      | none => exact ⟨rfl, fun t ht => by cases ht⟩
      | some r' =>
        have hr' : InMemo m r' := by
          cases r' with
          | glob n => trivial
          | obj d => exact (x.cells _ hm).2.2 d (mem_refs.2 ⟨f, lookup_mem hf⟩)
        exact ih r' hr'

theorem seen_copy {h : Heap A V} {a : A} {m : List (A × Cell A V)} (x : Memo h a m) {h2 : Heap B V} {ψ : A → B}
    (hψ : ∀ e ∈ m, h2 (ψ e.1) = some (e.2.map ψ)) (p : List String) :
    seen h2 (.obj (ψ a)) p = seen h (.obj a) p := by
  obtain ⟨e, hin⟩ := follow_copy x hψ p (.obj a) x.root
  unfold seen
  rw [show (Ref.obj (ψ a)) = Ref.map ψ (.obj a) from rfl, e]
  cases hf : follow h (.obj a) p with
  | none => rfl
  | some t =>
    cases t with
    | glob n => rfl
    | obj b =>
      obtain ⟨c, hm, hb⟩ := x.mem (hin _ hf)
      have e2 : h2 (ψ b) = some (c.map ψ) := hψ _ hm
      simp only [Option.map_some, Option.bind_some, Ref.map, hb, e2, Cell.map, List.map_map]
      rfl

/-- The copies that `load` makes. -/
theorem load_copy {h : Heap A V} {a : A} {m : List (A × Cell A V)} (x : Memo h a m) (h' : Heap B V) :
    ∀ e ∈ m, load h' (m.map fun e => e.2.map (m.map (·.1)).idxOf) (.inr ((m.map (·.1)).idxOf e.1)) =
      some (e.2.map (.inr ∘ (m.map (·.1)).idxOf)) := by
  intro e he
  have hk : e.1 ∈ m.map (·.1) := List.mem_map.2 ⟨e, he, rfl⟩
  have hlt : (m.map (·.1)).idxOf e.1 < (m.map (·.1)).length := List.idxOf_lt_length_of_mem hk
  have hlt' : (m.map (·.1)).idxOf e.1 < m.length := by rwa [List.length_map] at hlt
  have h1 : (m.map (·.1))[(m.map (·.1)).idxOf e.1] = e.1 := List.getElem_idxOf hlt
  have h2 : m[(m.map (·.1)).idxOf e.1] = e := by
    have h3 : m[(m.map (·.1)).idxOf e.1].1 = e.1 := by
      rw [List.getElem_map] at h1
      exact h1
    have c1 := (x.cells _ (List.getElem_mem hlt')).1
    have c2 := (x.cells e he).1
    rw [h3, c2] at c1
    exact Prod.ext h3 (Option.some.inj c1).symm
  show Option.map _ _ = _
  rw [List.getElem?_map, List.getElem?_eq_getElem hlt', h2, Option.map_some, Option.map_some, Cell.map_map]

theorem idxOf_inj {l : List A} {a b : A} (ha : a ∈ l) (e : l.idxOf a = l.idxOf b) (hb : b ∈ l) : a = b := by
  have h1 := List.getElem_idxOf (List.idxOf_lt_length_of_mem ha)
  have h2 := List.getElem_idxOf (List.idxOf_lt_length_of_mem hb)
  rw [← h1, ← h2]
  simp only [e]

/-! ## Saving a copy -/

theorem visit_copy [DecidableEq B] {h : Heap A V} {h2 : Heap B V} {ψ : A → B} {R : A → Prop}
    (hcopy : ∀ a, R a → h2 (ψ a) = (h a).map (Cell.map ψ)) (hinj : ∀ a b, R a → R b → ψ a = ψ b → a = b)
    (hclosed : ∀ a c, R a → h a = some c → ∀ b ∈ c.refs, R b) :
    ∀ (n : Nat) (m : List (A × Cell A V)) (a : A), R a → (∀ e ∈ m, R e.1) →
      visit h2 n (m.map fun e => (ψ e.1, e.2.map ψ)) (ψ a) = (visit h n m a).map (List.map fun e => (ψ e.1, e.2.map ψ)) ∧
      ∀ m', visit h n m a = .ok m' → ∀ e ∈ m', R e.1 := by
  intro n
  induction n with
  | zero => intro m a _ _; exact ⟨rfl, fun m' h' => by cases h'⟩
  | succ n ih =>
    intro m a ha hm
    have hfold : ∀ (S : List A) (m : List (A × Cell A V)), (∀ b ∈ S, R b) → (∀ e ∈ m, R e.1) →
        (S.map ψ).foldlM (visit h2 n) (m.map fun e => (ψ e.1, e.2.map ψ)) =
          (S.foldlM (visit h n) m).map (List.map fun e => (ψ e.1, e.2.map ψ)) ∧
        ∀ m', S.foldlM (visit h n) m = .ok m' → ∀ e ∈ m', R e.1 := by
      intro S
      induction S with
      | nil => intro m _ hm; exact ⟨rfl, fun m' h' => by cases h'; exact hm⟩
      | cons s S ihS =>
        intro m hS hm
        obtain ⟨e1, q1⟩ := ih m s (hS s List.mem_cons_self) hm
        rw [List.map_cons, List.foldlM_cons, List.foldlM_cons, e1]
        cases hv : visit h n m s with
        | error e => exact ⟨rfl, fun m' h' => by cases h'⟩
        | ok m1 => exact ihS m1 (fun b hb => hS b (List.mem_cons_of_mem _ hb)) (q1 m1 hv)
    have hkey : ψ a ∈ (m.map fun e => (ψ e.1, e.2.map ψ)).map (·.1) ↔ a ∈ m.map (·.1) := by
      rw [List.map_map, List.mem_map, List.mem_map]
      constructor
      · rintro ⟨e, he, h1⟩
        exact ⟨e, he, hinj _ _ (hm e he) ha h1⟩
      · rintro ⟨e, he, h1⟩
        exact ⟨e, he, by rw [← h1]; rfl⟩
    unfold visit
    by_cases hin : a ∈ m.map (·.1)
    · rw [if_pos hin, if_pos (hkey.2 hin)]
      exact ⟨rfl, fun m' h' => by cases h'; exact hm⟩
    · rw [if_neg hin, if_neg (fun h' => hin (hkey.1 h')), hcopy a ha]
      cases hc : h a with
      | none => exact ⟨rfl, fun m' h' => by cases h'⟩
      | some c =>
        simp only [Option.map_some]
        rw [show (c.map ψ).portable = c.portable from rfl]
        by_cases hp : c.portable = false
        · rw [if_pos hp, if_pos hp]
          exact ⟨rfl, fun m' h' => by cases h'⟩
        · rw [if_neg hp, if_neg hp, map_refs]
          have := hfold c.refs (m ++ [(a, c)]) (fun b hb => hclosed a c ha hc b hb) (by
            intro e he
            rcases List.mem_append.1 he with he | he
            · exact hm e he
            · rw [List.mem_singleton.1 he]; exact ha)
          rw [List.map_append] at this
          exact this

theorem idxOf_map [DecidableEq B] {ψ : A → B} {l : List A} (hinj : ∀ a ∈ l, ∀ b ∈ l, ψ a = ψ b → a = b) {a : A}
    (ha : a ∈ l) : (l.map ψ).idxOf (ψ a) = l.idxOf a := by
  induction l with
  | nil => cases ha
  | cons b l ih =>
    rw [List.map_cons, List.idxOf_cons, List.idxOf_cons]
    by_cases hab : b = a
    · subst hab; simp
    · have hne : ψ b ≠ ψ a := fun h' => hab (hinj b List.mem_cons_self a ha h')
      have ha' : a ∈ l := (List.mem_cons.1 ha).resolve_left (fun h' => hab h'.symm)
      rw [show (ψ b == ψ a) = false from beq_eq_false_iff_ne.2 hne, show (b == a) = false from beq_eq_false_iff_ne.2 hab]
      simp only [cond_false, Nat.add_right_cancel_iff]
      exact ih (fun x hx y hy => hinj x (List.mem_cons_of_mem _ hx) y (List.mem_cons_of_mem _ hy)) ha'

theorem cell_map_congr {f g : A → B} {c : Cell A V} (hfg : ∀ b ∈ c.refs, f b = g b) : c.map f = c.map g := by
  unfold Cell.map
  simp only [Cell.mk.injEq, true_and]
  refine List.map_congr_left fun p hp => ?_
  obtain ⟨k, r⟩ := p
  cases r with
  | obj b => simp only [Ref.map]; rw [hfg b (mem_refs.2 ⟨k, hp⟩)]
  | glob n => rfl

end

/-! ## Recommenders -/

/-- Every recommender was fitted on a dataset that exists. -/
def FitOk (s : St) : Prop := ∀ (r : Nat) (x : ModelSt), s.models[r]? = some x → ∀ d, x.fit = some d → d < s.ds.length

theorem fitOk_step {s : St} (hs : FitOk s) (o : Op) : FitOk (s.step o) := by
  cases o with
  | newDs db m =>
    intro r x hx d hd
    have := hs r x hx d hd
    show d < (s.ds ++ [(⟨db, m⟩ : DsSt)]).length
    rw [List.length_append]
    omega
  | newModel cls lf lo =>
    intro r x hx d hd
    have hx' : (s.models ++ [(⟨cls, lf, lo, none, true, true, Knn.init⟩ : ModelSt)])[r]? = some x := hx
    rw [List.getElem?_append] at hx'
    by_cases hr : r < s.models.length
    · rw [if_pos hr] at hx'
      exact hs r x hx' d hd
    · rw [if_neg hr] at hx'
      have := List.mem_of_getElem? hx'
      rw [List.mem_singleton] at this
      subst this
      cases hd
  | fit r0 d0 o1 o2 =>
    unfold St.step
    dsimp only
    cases hy : s.ds[d0]? with
    | none => exact hs
    | some y =>
      cases hx0 : s.models[r0]? with
      | none => exact hs
      | some x0 =>
        intro r x hx d hd
        dsimp only at hx ⊢
        rw [List.length_set]
        rw [List.getElem?_set] at hx
        by_cases hr : r0 = r
        · rw [if_pos hr] at hx
          by_cases hl : r0 < s.models.length
          · rw [if_pos hl] at hx
            cases hx
            cases hd
            exact (List.getElem?_eq_some_iff.1 hy).1
          · rw [if_neg hl] at hx
            cases hx
        · rw [if_neg hr] at hx
          exact hs r x hx d hd

theorem fitOk_run (ops : List Op) : FitOk (St.run ops) := by
  unfold St.run
  have : ∀ (ops : List Op) (s : St), FitOk s → FitOk (ops.foldl St.step s) := by
    intro ops
    induction ops with
    | nil => intro s hs; exact hs
    | cons o ops ih => intro s hs; exact ih _ (fitOk_step hs o)
  exact this ops _ (fun r x hx => by simp at hx)

theorem isSome_models {s : St} {r : Nat} {x : ModelSt} (hx : s.models[r]? = some x) {f : ModelSt → Cell Addr Data} :
    (s.models[r]?.map f).isSome := by
  rw [hx]
  rfl

theorem closed_heap {s : St} (hs : FitOk s) : Closed s.heap := by
  intro a c f b ha hf
  cases a with
  | ds i =>
    simp only [St.heap] at ha
    cases hy : s.ds[i]? with
    | none => rw [hy] at ha; cases ha
    | some y =>
      rw [hy] at ha
      cases ha
      cases hdb : y.db with
      | false => simp [hdb] at hf
      | true =>
        simp [hdb] at hf
        obtain ⟨_, rfl⟩ := hf
        simp [St.heap, hy, hdb]
  | conn i =>
    simp only [St.heap] at ha
    cases hy : s.ds[i]? with
    | none => rw [hy] at ha; cases ha
    | some y =>
      rw [hy] at ha
      cases hdb : y.db with
      | false => simp [hdb] at ha
      | true =>
        simp [hdb] at ha
        subst ha
        simp at hf
  | model r =>
    simp only [St.heap] at ha
    cases hx : s.models[r]? with
    | none => rw [hx] at ha; cases ha
    | some x =>
      rw [hx] at ha
      cases ha
      have hfit := hs r x hx
      rcases x with ⟨cls, lf, lo, fit, oo, no, M⟩
      cases cls <;> cases lf <;> cases fit <;>
        simp [loggers, ownFields, fitFields] at hf hfit <;>
        (try casesm* _ ∨ _, _ ∧ _) <;> subst_vars <;>
        first
        | (simp [St.heap, hx]; done)
        | (simp [St.heap]; exact hfit)
  | sampler r =>
    simp only [St.heap] at ha
    cases hx : s.models[r]? with
    | none => rw [hx] at ha; cases ha
    | some x =>
      rw [hx] at ha
      cases ha
      have hfit := hs r x hx
      rcases x with ⟨cls, lf, lo, fit, oo, no, M⟩
      cases cls <;> cases fit <;> simp [samplerFields] at hf hfit <;>
        (try casesm* _ ∨ _, _ ∧ _) <;> subst_vars <;>
        first
        | (simp [St.heap, hx]; done)
        | (simp [St.heap]; exact hfit)
  | _ r =>
    simp only [St.heap] at ha
    cases hx : s.models[r]? with
    | none => rw [hx] at ha; cases ha
    | some x =>
      rw [hx] at ha
      cases ha
      simp at hf

theorem length_flatMap_const {α β : Type} (l : List α) (f : α → List β) (k : Nat) (hf : ∀ a, (f a).length = k) :
    (l.flatMap f).length = k * l.length := by
  induction l with
  | nil => rfl
  | cons a l ih => rw [List.flatMap_cons, List.length_append, ih, hf, List.length_cons, Nat.mul_add]; omega

/-- All objects. -/
def St.addrs (s : St) : List Addr :=
  ((List.range s.ds.length).flatMap fun i => [Addr.ds i, .conn i]) ++
    (List.range s.models.length).flatMap fun r => [Addr.model r, .loss r, .optimizer r, .tracker r, .sims r, .nbrs r, .net r,
      .sampler r, .nullGen r, .posGen r]

theorem atMost_heap (s : St) : AtMost s.heap s.size := by
  refine ⟨s.addrs, ?_, ?_⟩
  · unfold St.addrs St.size
    rw [List.length_append, length_flatMap_const _ _ 2 (fun _ => rfl), length_flatMap_const _ _ 10 (fun _ => rfl),
      List.length_range, List.length_range]
  · intro a ha
    unfold St.addrs
    rw [List.mem_append, List.mem_flatMap, List.mem_flatMap]
    have hds : ∀ (i : Nat) (f : DsSt → Option (Cell Addr Data)), (s.ds[i]?.bind f).isSome → i ∈ List.range s.ds.length := by
      intro i f hf
      rw [List.mem_range]
      by_contra hlt
      rw [List.getElem?_eq_none (by omega)] at hf
      cases hf
    have hmo : ∀ (r : Nat) (f : ModelSt → Cell Addr Data), (s.models[r]?.map f).isSome →
        r ∈ List.range s.models.length := by
      intro r f hf
      rw [List.mem_range]
      by_contra hlt
      rw [List.getElem?_eq_none (by omega)] at hf
      cases hf
    cases a with
    | ds i =>
      refine .inl ⟨i, ?_, by simp⟩
      simp only [St.heap, Option.map_eq_bind] at ha
      exact hds i _ ha
    | conn i =>
      refine .inl ⟨i, ?_, by simp⟩
      simp only [St.heap] at ha
      exact hds i _ ha
    | _ r =>
      refine .inr ⟨r, ?_, by simp⟩
      simp only [St.heap] at ha
      exact hmo r _ ha

/-- The objects that a recommender that can be saved reaches. -/
def Part (x : ModelSt) (r : Nat) : Addr → Prop
  | .ds i => x.fit = some i
  | .conn _ => False
  | .model r' => r' = r
  | .loss r' => r' = r ∧ ∀ cfg, x.cls ≠ .knn cfg
  | .optimizer r' => r' = r ∧ x.fit ≠ none
  | .tracker r' => r' = r
  | .sims r' => r' = r
  | .nbrs r' => r' = r
  | .net r' => r' = r ∧ x.fit ≠ none ∧ ∀ cfg, x.cls ≠ .knn cfg
  | .sampler r' => r' = r ∧ x.fit ≠ none
  | .nullGen _ => False
  | .posGen _ => False

theorem part_reach {s : St} {r : Nat} {x : ModelSt} (hx : s.models[r]? = some x) (hsv : Savable s x) {b : Addr}
    (hr : Reach s.heap (.model r) b) : Part x r b := by
  induction hr with
  | refl => rfl
  | @step b c y f _ hb hf ih =>
    cases b with
    | ds i =>
      have hi : x.fit = some i := ih
      simp only [St.heap] at hb
      cases hy : s.ds[i]? with
      | none => rw [hy] at hb; cases hb
      | some z =>
        rw [hy] at hb
        cases hb
        rcases x with ⟨cls, lf, lo, fit, oo, no, M⟩
        dsimp only at hi
        subst hi
        have hdb : z.db = false := by
          cases cls with
          | points => cases hsv
          | _ =>
            simp only [Savable, hy, Option.some.injEq] at hsv
            obtain ⟨⟨y', h1, h2⟩, _⟩ := hsv
            rw [h1]; exact h2
        simp [hdb] at hf
    | model r' =>
      have hi : r' = r := ih
      subst hi
      simp only [St.heap, hx, Option.map_some, Option.some.injEq] at hb
      subst hb
      rcases x with ⟨cls, lf, lo, fit, oo, no, M⟩
      cases cls <;> cases lf <;> cases fit <;> simp [loggers, ownFields, fitFields] at hf <;>
        (try casesm* _ ∨ _, _ ∧ _) <;> subst_vars <;>
        simp [Part]
    | sampler r' =>
      obtain ⟨hi, _⟩ : r' = r ∧ _ := ih
      subst hi
      simp only [St.heap, hx, Option.map_some, Option.some.injEq] at hb
      subst hb
      rcases x with ⟨cls, lf, lo, fit, oo, no, M⟩
      cases cls with
      | points => cases fit with
        | none => simp [samplerFields] at hf
        | some d => cases hsv
      | _ =>
        cases fit <;> simp [samplerFields] at hf <;> (try casesm* _ ∨ _, _ ∧ _) <;> subst_vars <;> simp [Part]
    | conn i => exact absurd ih id
    | nullGen i => exact absurd ih id
    | posGen i => exact absurd ih id
    | loss r' =>
      obtain ⟨hi, _⟩ : r' = r ∧ _ := ih
      subst hi
      simp only [St.heap, hx, Option.map_some, Option.some.injEq] at hb
      subst hb
      simp at hf
    | optimizer r' =>
      obtain ⟨hi, _⟩ : r' = r ∧ _ := ih
      subst hi
      simp only [St.heap, hx, Option.map_some, Option.some.injEq] at hb
      subst hb
      simp at hf
    | net r' =>
      obtain ⟨hi, _⟩ : r' = r ∧ _ := ih
      subst hi
      simp only [St.heap, hx, Option.map_some, Option.some.injEq] at hb
      subst hb
      simp at hf
    | _ r' =>
      have hi : r' = r := ih
      subst hi
      simp only [St.heap, hx, Option.map_some, Option.some.injEq] at hb
      subst hb
      simp at hf

theorem part_portable {s : St} {r : Nat} {x : ModelSt} (hx : s.models[r]? = some x) (hsv : Savable s x) {b : Addr}
    {c : Cell Addr Data} (hp : Part x r b) (hb : s.heap b = some c) : c.portable = true := by
  rcases x with ⟨cls, lf, lo, fit, oo, no, M⟩
  cases b with
  | ds i =>
    simp only [St.heap] at hb
    cases hy : s.ds[i]? with
    | none => rw [hy] at hb; cases hb
    | some z =>
      rw [hy] at hb
      cases hb
      rfl
  | conn i => exact absurd hp id
  | nullGen i => exact absurd hp id
  | posGen i => exact absurd hp id
  | loss r' =>
    obtain ⟨rfl, h1⟩ := hp
    simp only [St.heap, hx, Option.map_some, Option.some.injEq] at hb
    subst hb
    cases cls with
    | knn cfg => exact absurd rfl (h1 cfg)
    | points => cases fit with
      | none => exact hsv
      | some d => cases hsv
    | lists => cases fit with
      | none => exact hsv
      | some d => exact hsv.2.1
  | optimizer r' =>
    obtain ⟨rfl, h1⟩ := hp
    simp only [St.heap, hx, Option.map_some, Option.some.injEq] at hb
    subst hb
    cases fit with
    | none => exact absurd rfl h1
    | some d => cases cls with
      | knn cfg => exact hsv.2
      | points => cases hsv
      | lists => exact hsv.2.2.1
  | net r' =>
    obtain ⟨rfl, h1, h2⟩ := hp
    simp only [St.heap, hx, Option.map_some, Option.some.injEq] at hb
    subst hb
    cases fit with
    | none => exact absurd rfl h1
    | some d => cases cls with
      | knn cfg => exact absurd rfl (h2 cfg)
      | points => cases hsv
      | lists => exact hsv.2.2.2
  | sampler r' =>
    obtain ⟨rfl, _⟩ := hp
    simp only [St.heap, hx, Option.map_some, Option.some.injEq] at hb
    subst hb
    rfl
  | _ r' =>
    have hi : r' = r := hp
    subst hi
    simp only [St.heap, hx, Option.map_some, Option.some.injEq] at hb
    subst hb
    rfl

theorem stuck_of_not {s : St} (hs : FitOk s) {r : Nat} {x : ModelSt} (hx : s.models[r]? = some x) (hsv : ¬ Savable s x) :
    ∃ b c, Reach s.heap (.model r) b ∧ s.heap b = some c ∧ c.portable = false := by
  have hmod : s.heap (.model r) = some ⟨true, .model x.cls x.fit.isSome, loggers x ++ ownFields x r ++ fitFields x r⟩ := by
    simp only [St.heap, hx, Option.map_some]
  have hfit := hs r x hx
  have one : ∀ (f : String) (b : Addr) (c : Cell Addr Data), (f, Ref.obj b) ∈ loggers x ++ ownFields x r ++ fitFields x r →
      s.heap b = some c → c.portable = false →
      ∃ b c, Reach s.heap (.model r) b ∧ s.heap b = some c ∧ c.portable = false :=
    fun f b c hf hb hp => ⟨b, c, .step .refl hmod hf, hb, hp⟩
  have hdbs : ∀ d, x.fit = some d → ¬ (∃ y, s.ds[d]? = some y ∧ y.db = false) →
      ∃ b c, Reach s.heap (.model r) b ∧ s.heap b = some c ∧ c.portable = false := by
    intro d hd hno
    have hlt := hfit d hd
    cases hdb : (s.ds[d]).db with
    | false => exact absurd ⟨s.ds[d], List.getElem?_eq_getElem hlt, hdb⟩ hno
    | true =>
      refine ⟨.conn d, ⟨false, .other, []⟩, .step (b := .ds d) (f := "_conn")
        (x := ⟨true, .data s.ds[d].m, [("_conn", .obj (.conn d))]⟩)
        (.step (f := "interaction_dataset") .refl hmod (by simp [fitFields, hd])) ?_ (by simp), ?_, rfl⟩
      · simp [St.heap, hlt, hdb]
      · simp [St.heap, hlt, hdb]
  have hloss : (∀ cfg, x.cls ≠ .knn cfg) → x.lossOk = false →
      ∃ b c, Reach s.heap (.model r) b ∧ s.heap b = some c ∧ c.portable = false := by
    intro hk hl
    refine one "_loss" (.loss r) ⟨x.lossOk, .other, []⟩ ?_ (by simp only [St.heap, hx, Option.map_some]) hl
    rcases x with ⟨cls, lf, lo, fit, oo, no, M⟩
    cases cls with
    | knn cfg => exact absurd rfl (hk cfg)
    | _ => simp [ownFields]
  have hopt : x.fit ≠ none → x.optOk = false →
      ∃ b c, Reach s.heap (.model r) b ∧ s.heap b = some c ∧ c.portable = false := by
    intro hk hl
    refine one "optimizer" (.optimizer r) ⟨x.optOk, .other, []⟩ ?_ (by simp only [St.heap, hx, Option.map_some]) hl
    rcases x with ⟨cls, lf, lo, fit, oo, no, M⟩
    cases fit with
    | none => exact absurd rfl hk
    | some d => simp [fitFields]
  have hnet : (∀ cfg, x.cls ≠ .knn cfg) → x.fit ≠ none → x.netOk = false →
      ∃ b c, Reach s.heap (.model r) b ∧ s.heap b = some c ∧ c.portable = false := by
    intro hk hk' hl
    refine one "network" (.net r) ⟨x.netOk, .other, []⟩ ?_ (by simp only [St.heap, hx, Option.map_some]) hl
    rcases x with ⟨cls, lf, lo, fit, oo, no, M⟩
    cases fit with
    | none => exact absurd rfl hk'
    | some d => cases cls with
      | knn cfg => exact absurd rfl (hk cfg)
      | _ => simp [fitFields]
  have hgen : x.cls = .points → x.fit ≠ none →
      ∃ b c, Reach s.heap (.model r) b ∧ s.heap b = some c ∧ c.portable = false := by
    intro hk hk'
    refine ⟨.posGen r, ⟨false, .other, []⟩, .step (b := .sampler r) (f := "pos_pair_gen")
      (x := ⟨true, .other, samplerFields x r⟩) (.step (f := "_sampler") .refl hmod ?_) ?_ ?_, ?_, rfl⟩
    · cases hf : x.fit with
      | none => exact absurd hf hk'
      | some d => simp [fitFields, hf, hk]
    · simp only [St.heap, hx, Option.map_some]
    · cases hf : x.fit with
      | none => exact absurd hf hk'
      | some d => simp [samplerFields, hf, hk]
    · simp only [St.heap, hx, Option.map_some]
  rcases x with ⟨cls, lf, lo, fit, oo, no, M⟩
  dsimp only at *
  cases cls with
  | knn cfg =>
    cases fit with
    | none => exact absurd trivial hsv
    | some d =>
      by_cases h1 : ∃ y, s.ds[d]? = some y ∧ y.db = false
      · refine hopt (by simp) ?_
        cases oo with
        | false => rfl
        | true => exact absurd ⟨h1, rfl⟩ hsv
      · exact hdbs d rfl h1
  | points =>
    cases fit with
    | none =>
      refine hloss (fun cfg h' => by cases h') ?_
      cases lo with
      | false => rfl
      | true => exact absurd rfl hsv
    | some d => exact hgen rfl (by simp)
  | lists =>
    cases fit with
    | none =>
      refine hloss (fun cfg h' => by cases h') ?_
      cases lo with
      | false => rfl
      | true => exact absurd rfl hsv
    | some d =>
      by_cases h1 : ∃ y, s.ds[d]? = some y ∧ y.db = false
      · cases lo with
        | false => exact hloss (fun cfg h' => by cases h') rfl
        | true =>
          cases oo with
          | false => exact hopt (by simp) rfl
          | true =>
            cases no with
            | false => exact hnet (fun cfg h' => by cases h') (by simp) rfl
            | true => exact absurd ⟨h1, rfl, rfl, rfl⟩ hsv
      · exact hdbs d rfl h1

end DRec.Pick
