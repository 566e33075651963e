import Verif.Model.DbKnn
import Verif.Lemmas.DbEvalTask
import Verif.Props.KnnMem

/-! # Recommenders fitted on a database dataset -/

namespace DRec.Conc

open Spec

/-! ## Parts of programs -/

/-- A part of a task computes something, as long as `inv` holds: the task goes on with the result, or ends with the
exception. -/
def DeliversIn {α β : Type} (names : List String) (S : List Nat) (inv : List Nat → World → Prop)
    (P : (α → DbProg β) → DbProg β) (res : Except Err α) : Prop :=
  ∀ (O : List Nat) (w : World) (k : α → DbProg β) (r : Except Err β), Good names w → inv O w →
    (∀ e, res = .error e → r = .error e) →
    (∀ x w'', res = .ok x → Carries names S O w w'' → Gives names S (k x) O w'' r) → Gives names S (P k) O w r

/-- What tasks do keeps `inv`. -/
def Stable (names : List String) (S : List Nat) (inv : List Nat → World → Prop) : Prop :=
  ∀ O w w', inv O w → Carries names S O w w' → inv O w'

/-- The shared datasets are as in `w0`. -/
def sharedInv (w0 : World) (S : List Nat) : List Nat → World → Prop := fun _ w => ∀ i ∈ S, Keeps w0 w i

/-- The shared datasets are as in `w0`, the own dataset `j` shows `m`. -/
def ownInv (w0 : World) (S : List Nat) (j : Nat) (m : Mem) (T : Option (String → DType)) (B : Nat) :
    List Nat → World → Prop := fun O w => (∀ i ∈ S, Keeps w0 w i) ∧ j ∈ O ∧ ShowsMem w j m T B

theorem shared_stable {names : List String} (w0 : World) (S : List Nat) : Stable names S (sharedInv w0 S) :=
  fun _ _ _ h hc i hi => (h i hi).trans (hc.2 i (Or.inl hi))

theorem own_stable {names : List String} (w0 : World) (S : List Nat) (j : Nat) (m : Mem) (T : Option (String → DType))
    (B : Nat) : Stable names S (ownInv w0 S j m T B) :=
  fun O w w' h hc => ⟨shared_stable (names := names) w0 S O w w' h.1 hc, h.2.1, h.2.2.keep (hc.2 j (Or.inr h.2.1))⟩

section
variable {α β γ : Type} {names : List String} {S : List Nat} {inv : List Nat → World → Prop}

theorem DeliversIn.mono {inv' : List Nat → World → Prop} {P : (α → DbProg β) → DbProg β} {res : Except Err α}
    (h : DeliversIn names S inv P res) (hi : ∀ O w, inv' O w → inv O w) : DeliversIn names S inv' P res :=
  fun O w k r hg hv he hk => h O w k r hg (hi O w hv) he hk

theorem DeliversIn.toOwn {w0 : World} {j : Nat} {m : Mem} {T : Option (String → DType)} {B : Nat}
    {P : (α → DbProg β) → DbProg β} {res : Except Err α} (h : DeliversIn names S (sharedInv w0 S) P res) :
    DeliversIn names S (ownInv w0 S j m T B) P res := h.mono fun _ _ h => h.1

theorem DeliversIn.bind (hst : Stable names S inv) {P : (α → DbProg β) → DbProg β} {res : Except Err α}
    (hP : DeliversIn names S inv P res) {Q : α → (γ → DbProg β) → DbProg β} {res' : α → Except Err γ}
    (hQ : ∀ x, res = .ok x → DeliversIn names S inv (Q x) (res' x)) :
    DeliversIn names S inv (fun k => P fun x => Q x k) (res.bind res') := by
  intro O w k r hg hv he hk
  refine hP O w _ r hg hv ?_ ?_
  · intro e h
    exact he e (by rw [h]; rfl)
  · intro x w1 hx c1
    refine hQ x hx O w1 k r c1.1 (hst O w w1 hv c1) ?_ ?_
    · intro e h
      exact he e (by rw [hx]; exact h)
    · intro y w2 hy c2
      exact hk y w2 (by rw [hx]; exact hy) (c1.trans c2)

theorem deliversIn_ok (x : α) : DeliversIn names S inv (fun k : α → DbProg β => k x) (.ok x) :=
  fun _ w _ _ hg _ _ hk => hk x w rfl ⟨hg, fun _ _ => Keeps.refl _ _⟩

theorem deliversIn_error (e : Err) : DeliversIn names S inv (fun _ : α → DbProg β => .ret (.error e)) (.error e) :=
  fun _ _ _ _ _ _ he _ => (he e rfl).symm

theorem deliversIn_result (res : Except Err α) : DeliversIn names S inv (fun k : α → DbProg β => withResult res k) res := by
  cases res with
  | error e => exact deliversIn_error e
  | ok x => exact deliversIn_ok x

/-- Several items, one after the other. -/
theorem delivers_scores (hst : Stable names S inv)
    {score : Nat → (Option (ℚ × Nat) → DbProg β) → DbProg β} {res : Nat → Except Err (Option (ℚ × Nat))}
    (h : ∀ i, DeliversIn names S inv (score i) (res i)) : ∀ (is : List Nat) (acc : List (Option (ℚ × Nat))),
    DeliversIn names S inv (fun k => dbScores score k is acc) ((is.mapM res).map fun l => acc ++ l)
  | [], acc => by
    have := deliversIn_ok (names := names) (S := S) (inv := inv) (β := β) acc
    simpa [dbScores, pure, Except.pure, Except.map] using this
  | i :: is, acc => by
    have := DeliversIn.bind hst (h i) (Q := fun p k => dbScores score k is (acc ++ [p]))
      (res' := fun p => (is.mapM res).map fun l => (acc ++ [p]) ++ l) fun p _ => delivers_scores hst h is _
    have e : ((i :: is).mapM res).map (fun l => acc ++ l) =
        (res i).bind fun p => (is.mapM res).map fun l => (acc ++ [p]) ++ l := by
      rw [List.mapM_cons]
      cases res i with
      | error e => rfl
      | ok p =>
        cases is.mapM res with
        | error e => rfl
        | ok l => simp [bind, Except.bind, pure, Except.pure, Except.map]
    rw [e]
    exact this

end

/-! ## Reading -/

/-- Dataset `j` can be used and shows `m`. -/
def At (S : List Nat) (inv : List Nat → World → Prop) (j : Nat) (m : Mem) (T : Option (String → DType)) (B : Nat) : Prop :=
  ∀ O w, inv O w → ((j ∈ S ∨ j ∈ O) ∧ ShowsMem w j m T B) ∧ ∀ k ∈ S, (w.insts k).isSome

/-- The columns a recommender reads are there and have numbers. -/
structure Numbers (m : Mem) (T : Option (String → DType)) : Prop where
  full : FullCols m.cols
  cols : ∀ c ∈ ["uid", "iid", "interaction"], c ∈ m.cols
  cells : ∀ c ∈ ["uid", "iid", "interaction"], ∀ r ∈ m.rows, ∃ q, r.get c = .num q
  types : ∀ ty, T = some ty → ∀ c ∈ ["uid", "iid", "interaction"], ty c ≠ .obj

theorem Numbers.filter {m : Mem} {T : Option (String → DType)} (h : Numbers m T) (Q : Row → Bool) :
    Numbers { m with rows := m.rows.filter Q } T :=
  ⟨h.full, h.cols, fun c hc r hr => h.cells c hc r (List.mem_filter.1 hr).1, h.types⟩

theorem idQuery_written {c : String} (n : Nat) : idQuery c n = queryText [eqWritten c n] := by
  unfold idQuery
  rw [cellText_nat]
  simp [queryText, SCond.text, Op.text, eqWritten]

/-- `uid == u, iid == i` as written conditions. -/
def pairWritten (u i : Nat) : List (List Char × SCond × List Char) :=
  [([], ⟨"uid", .eq, .int u⟩, []), ([' '], ⟨"iid", .eq, .int i⟩, [])]

theorem pairQuery_written (u i : Nat) : pairQuery u i = queryText (pairWritten u i) := by
  unfold pairQuery
  rw [cellText_nat, cellText_nat]
  simp [queryText, SCond.text, Op.text, pairWritten]

theorem nameOk_id {c : String} (hc : c ∈ ["uid", "iid", "interaction"]) : NameOk c := by
  simp only [List.mem_cons, List.not_mem_nil, or_false] at hc
  rcases hc with rfl | rfl | rfl <;> decide

theorem numbers_pre {names : List String} {m : Mem} {T : Option (String → DType)} (h : Numbers m T)
    {ws : List (List Char × SCond × List Char)} (hne : ws ≠ [])
    (hws : ∀ c ∈ ws, Blank c.1 ∧ Blank c.2.2 ∧ (∃ n : Int, c.2.1.lit = .int n) ∧ c.2.1.col ∈ ["uid", "iid", "interaction"]) :
    SelectPre names ws (memPlain m) T := by
  apply selectPre_num hne
  intro c hc
  obtain ⟨h1, h2, ⟨n, h3⟩, h4⟩ := hws c hc
  refine ⟨h1, h2, nameOk_id h4, by rw [h3]; trivial, ⟨n, by rw [h3]; rfl⟩, h.cols _ h4, fun ty hty => h.types ty hty _ h4,
    h.cells _ h4⟩

theorem eqWritten_fits {c : String} (hc : c ∈ ["uid", "iid"]) (n : Nat) : ∀ x ∈ [eqWritten c n],
    Blank x.1 ∧ Blank x.2.2 ∧ (∃ k : Int, x.2.1.lit = .int k) ∧ x.2.1.col ∈ ["uid", "iid", "interaction"] := by
  intro x hx
  simp only [List.mem_singleton] at hx
  subst hx
  refine ⟨by simp [eqWritten, Blank], by simp [eqWritten, Blank], ⟨n, rfl⟩, ?_⟩
  simp only [eqWritten]
  simp only [List.mem_cons, List.not_mem_nil, or_false] at hc ⊢
  tauto

theorem pairWritten_fits (u i : Nat) : ∀ x ∈ pairWritten u i,
    Blank x.1 ∧ Blank x.2.2 ∧ (∃ k : Int, x.2.1.lit = .int k) ∧ x.2.1.col ∈ ["uid", "iid", "interaction"] := by
  intro x hx
  simp only [pairWritten, List.mem_cons, List.not_mem_nil, or_false] at hx
  rcases hx with rfl | rfl
  · exact ⟨by simp [Blank], by simp [Blank], ⟨u, rfl⟩, by simp⟩
  · exact ⟨by simp [Blank], by simp [Blank], ⟨i, rfl⟩, by simp⟩

section
variable {α β : Type} {names : List String} {S : List Nat} {inv : List Nat → World → Prop} {j : Nat} {m : Mem}
  {T : Option (String → DType)} {B : Nat}

theorem delivers_values (hn : NamesOk names) (ha : At S inv j m T B) (hf : FullCols m.cols) {cs : List String}
    (hc : cs ⊆ m.cols) : DeliversIn names S inv (fun k : ReadRes → DbProg β => .read j (.values (some cs)) k)
      (.ok (.recs (m.rows.map fun r => (r.toRec m.cols).filter fun q => q.1 ∈ cs))) := by
  intro O w k r _ hv _ hk
  obtain ⟨⟨h1, h2⟩, h3⟩ := ha O w hv
  exact gives_values hn h1 h2 hf hc h3 fun w'' hw => hk _ w'' rfl hw

theorem delivers_len (ha : At S inv j m T B) :
    DeliversIn names S inv (fun k : Nat → DbProg β => .len j k) (.ok m.rows.length) := by
  intro O w k r _ hv _ hk
  obtain ⟨⟨h1, h2⟩, _⟩ := ha O w hv
  exact gives_len h1 h2 fun w'' hw => hk _ w'' rfl hw

theorem delivers_one (hn : NamesOk names) (ha : At S inv j m T B) (h : Numbers m T)
    {ws : List (List Char × SCond × List Char)} (hne : ws ≠ [])
    (hws : ∀ c ∈ ws, Blank c.1 ∧ Blank c.2.2 ∧ (∃ n : Int, c.2.1.lit = .int n) ∧ c.2.1.col ∈ ["uid", "iid", "interaction"])
    {cs : Option (List String)} (hcs : cs.getD m.cols ⊆ m.cols) {Q : Row → Bool} (hQ : ∀ r ∈ m.rows, Sat ws r ↔ Q r = true)
    {q : List Char} (hq : q = queryText ws) :
    DeliversIn names S inv (fun k : ReadRes → DbProg β => .read j (.selectOne q cs) k)
      (.ok (.one ((m.rows.find? Q).map fun r => (r.toRec m.cols).filter fun q => q.1 ∈ cs.getD m.cols))) := by
  intro O w k r _ hv _ hk
  obtain ⟨⟨h1, h2⟩, h3⟩ := ha O w hv
  exact gives_one hn h1 h2 h.full (numbers_pre h hne hws) (fun c hc => h.cols _ (hws c hc).2.2.2) hcs hQ h3 hq
    fun w'' hw => hk _ w'' rfl hw

/-- Work on a selection of a dataset. -/
theorem delivers_within (hn : NamesOk names) {w0 : World} {ds : Nat} (hds : ds ∈ S) (hS0 : ∀ k ∈ S, (w0.insts k).isSome)
    (hs : ShowsMem w0 ds m T B) (h : Numbers m T) {c : String} (hc : c ∈ ["uid", "iid"]) (n : Nat)
    {P : Nat → (α → DbProg β) → DbProg β} {res : Except Err α}
    (hP : ∀ j, j ∉ S → DeliversIn names S (ownInv w0 S j { m with rows := rowsWith c n m.rows } T B) (P j) res) :
    DeliversIn names S (sharedInv w0 S) (fun k => .select ds (idQuery c n) fun d => P d fun x => .close d (k x)) res := by
  intro O w k r hg hv he hk
  have hs' := hs.keep (hv ds hds)
  have hS : ∀ k ∈ S, (w.insts k).isSome := fun k hk => (hv k hk).alive (hS0 k hk)
  refine gives_select hn (Or.inl hds) hs' h.full (numbers_pre h (by simp) (eqWritten_fits hc n)) ?_
    (Q := fun r => decide (r.get c = .num (n : ℚ))) (fun r _ => by have := sat_eq c n r; exact_mod_cast this) hS
    (idQuery_written n) ?_
  · intro x hx
    exact h.cols _ (eqWritten_fits hc n x hx).2.2.2
  intro w1 j c1 hj1 hj2 hsh
  refine hP j hj1 (j :: O) w1 _ r c1.1 ⟨shared_stable (names := names) w0 S O w w1 hv c1, by simp, hsh⟩ he ?_
  intro x w2 hx c2 u hu
  obtain ⟨d1, d2, d3⟩ := close_move (S := S) hu.good (by simp : j ∈ j :: O) hj1 hu.alive
  have hfil : (j :: O).filter (· ≠ j) = O := by
    rw [List.filter_cons_of_neg (by simp)]
    apply List.filter_eq_self.2
    intro a ha
    simp only [decide_eq_true_eq]
    rintro rfl
    exact hj2 ha
  refine ⟨d1, ?_⟩
  rw [hfil]
  apply hk x _ hx
  refine ((c1.trans c2.cons).trans hu.carries.cons).trans ⟨d2, fun k hk => d3 k ?_⟩
  rintro rfl
  exact hk.elim hj1 hj2

end

end DRec.Conc
