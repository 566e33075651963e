import Verif.Lemmas.DbVec
import Verif.Props.DbHistory

/-!
# C24: the dictionaries of interaction vectors of the database dataset

`C24_bounded` holds for every sequence of requests and operations.  `C24_right_partial` and `C24_frame_partial` hold
after every admissible history, for datasets with numeric ids and interactions.  Missing from the full claim:
datasets that come from other histories.  `C24_stale` shows why modifications have to be excluded,
`C24_memory_error` what happens when memory runs out.
-/

namespace DRec

open Spec

theorem vec_length (w : World) (cache : VecCache) (limit : Nat) (oom : Bool) (i : Nat) (s : Side) (k : Nat)
    (h : cache.length ≤ limit + 1) : (w.vec cache limit oom i s k).2.1.length ≤ limit + 1 := by
  have hc : (if limit < cache.length then [] else cache).length ≤ limit + 1 := by
    split
    · simp
    · exact h
  have hc' : (if limit < cache.length then [] else cache).length ≤ limit := by
    split
    · simp
    · omega
  unfold World.vec
  split
  · exact h
  · exact h
  · split
    · exact h
    · split
      · exact h
      · dsimp only
        split
        · exact hc
        · split
          · simp
          · simpa using hc'

/-- Whatever is requested and done, with whatever failures: a dictionary never has more than its limit plus one
entries. -/
theorem C24_bounded (limU limI i : Nat) (w : World) (evs : List VecEv) :
    (vecRun limU limI i ⟨w, [], []⟩ evs).users.length ≤ limU + 1 ∧
      (vecRun limU limI i ⟨w, [], []⟩ evs).items.length ≤ limI + 1 := by
  suffices h : ∀ s : VecState, s.users.length ≤ limU + 1 → s.items.length ≤ limI + 1 →
      (vecRun limU limI i s evs).users.length ≤ limU + 1 ∧ (vecRun limU limI i s evs).items.length ≤ limI + 1 from
    h ⟨w, [], []⟩ (by simp) (by simp)
  induction evs with
  | nil => intro s h1 h2; exact ⟨h1, h2⟩
  | cons e evs ih =>
    intro s h1 h2
    cases e with
    | user k oom => exact ih _ (vec_length _ _ _ _ _ _ _ h1) h2
    | item k oom => exact ih _ h1 (vec_length _ _ _ _ _ _ _ h2)
    | op o => exact ih _ h1 h2

/-- One request on a dataset whose dictionary is right. -/
theorem vec_good {names : List String} (hn : NamesOk names) {w : World} (h : Good names w) (ht : Typed w)
    {i : Nat} {p : Plain} (hp : plainOf w i = some p) {s : Side} (hs : SideOk s) (k : Nat)
    (hown : ∀ r ∈ p.recs, ∃ n : Nat, cellOf r s.own = .num (n : ℚ))
    (hint : ∀ r ∈ p.recs, ∃ q, cellOf r "interaction" = .num q) (cache : VecCache)
    (hc : ∀ e ∈ cache, IsVec p s e.1 e.2) (limit : Nat) (oom : Bool) :
    Good names (w.vec cache limit oom i s k).1 ∧ Typed (w.vec cache limit oom i s k).1 ∧
      plainOf (w.vec cache limit oom i s k).1 = plainOf w ∧
      (∀ e ∈ (w.vec cache limit oom i s k).2.1, IsVec p s e.1 e.2) ∧
      ∀ v, (w.vec cache limit oom i s k).2.2 = .ok v → IsVec p s k v := by
  have hc' : ∀ e ∈ (if limit < cache.length then [] else cache), IsVec p s e.1 e.2 := by
    split
    · simp
    · exact hc
  unfold World.vec
  split
  · exact ⟨h, ht, rfl, hc, fun v hv => by cases hv⟩
  · exact ⟨h, ht, rfl, hc, fun v hv => by cases hv⟩
  · rename_i v0 hraw
    split
    · exact ⟨h, ht, rfl, hc, fun v hv => by cases hv⟩
    · split
      · rename_i v hl
        refine ⟨h, ht, rfl, hc, fun v' hv => ?_⟩
        cases hv
        have : (k, v) ∈ cache := by
          obtain ⟨l1, l2, e, _⟩ := List.lookup_eq_some_iff.1 hl
          rw [e]; simp
        exact hc _ this
      · dsimp only
        have hids : p.hasIds = true := by
          obtain ⟨x, _, _, hx, _, _, hpe⟩ := plain_inv h hp
          rw [hpe]
          unfold World.toRaw at hraw
          simp only [hx] at hraw
          by_cases hh : x.hasIds = true
          · exact hh
          · rw [if_neg hh] at hraw; cases hraw
        obtain ⟨g1, g2, g3, g4⟩ := vecCompute_good hn h ht hp hids hs k hown hint
        split
        · rename_i w' e he
          rw [he] at g1 g2 g3
          exact ⟨g1, g2, g3, hc', fun v hv => by cases hv⟩
        · rename_i w' v he
          rw [he] at g1 g2 g3 g4
          split
          · exact ⟨g1, g2, g3, by simp, fun v hv => by cases hv⟩
          · refine ⟨g1, g2, g3, ?_, ?_⟩
            · intro e hm
              rcases List.mem_cons.1 hm with rfl | hm
              · exact g4 v rfl
              · exact hc' e hm
            · intro v' hv
              cases hv
              exact g4 v rfl

/-- The state of a dataset that has not been modified. -/
structure VecInv (names : List String) (i : Nat) (p : Plain) (s : VecState) : Prop where
  good : Good names s.w
  typed : Typed s.w
  plain : plainOf s.w i = some p
  users : ∀ e ∈ s.users, IsVec p Side.user e.1 e.2
  items : ∀ e ∈ s.items, IsVec p Side.item e.1 e.2

theorem VecInv.step {names : List String} (hn : NamesOk names) {i : Nat} {p : Plain} {s : VecState}
    (h : VecInv names i p s) (hu : ∀ r ∈ p.recs, ∃ n : Nat, cellOf r "uid" = .num (n : ℚ))
    (hi : ∀ r ∈ p.recs, ∃ n : Nat, cellOf r "iid" = .num (n : ℚ))
    (hint : ∀ r ∈ p.recs, ∃ q, cellOf r "interaction" = .num q) (limU limI : Nat) (e : VecEv)
    (ho : ∀ o, e = .op o → Admissible names s.w o ∧ plainOf (runOp s.w o).1 i = plainOf s.w i) :
    VecInv names i p (vecStep limU limI i s e).1 := by
  obtain ⟨h1, h2, h3, h4, h5⟩ := h
  cases e with
  | user k oom =>
    obtain ⟨g1, g2, g3, g4, _⟩ := vec_good hn h1 h2 h3 (Or.inl rfl) k hu hint s.users h4 limU oom
    exact ⟨g1, g2, by rw [vecStep]; dsimp only; rw [g3]; exact h3, g4, h5⟩
  | item k oom =>
    obtain ⟨g1, g2, g3, g4, _⟩ := vec_good hn h1 h2 h3 (Or.inr rfl) k hi hint s.items h5 limI oom
    exact ⟨g1, g2, by rw [vecStep]; dsimp only; rw [g3]; exact h3, h4, g4⟩
  | op o =>
    obtain ⟨a, b⟩ := ho o rfl
    exact ⟨(step_good hn h1 a).1, typed_runOp h2 o, b.trans h3, h4, h5⟩

theorem VecInv.run {names : List String} (hn : NamesOk names) {i : Nat} {p : Plain} {s : VecState}
    (h : VecInv names i p s) (hu : ∀ r ∈ p.recs, ∃ n : Nat, cellOf r "uid" = .num (n : ℚ))
    (hi : ∀ r ∈ p.recs, ∃ n : Nat, cellOf r "iid" = .num (n : ℚ))
    (hint : ∀ r ∈ p.recs, ∃ q, cellOf r "interaction" = .num q) (limU limI : Nat) :
    ∀ (a b : List VecEv), Undisturbed names limU limI i s (a ++ b) →
      VecInv names i p (vecRun limU limI i s a) ∧ Undisturbed names limU limI i (vecRun limU limI i s a) b := by
  intro a
  induction a generalizing s with
  | nil => intro b hb; exact ⟨h, hb⟩
  | cons e a ih =>
    intro b hb
    exact ih (h.step hn hu hi hint limU limI e hb.1) b hb.2

/-- After any admissible history: among requests and operations that do not change what the dataset shows, every
vector returned is the one computed from the records. -/
theorem C24_right_partial (names cols : List String) (types : String → DType) (rows : List Row) (ops : List DbOp)
    (hn : tableCols ⊆ names ∧ "uid" ∈ names ∧ "iid" ∈ names) (hcols : cols ⊆ names) (hrid : "rid" ∈ cols)
    (hsort : rows.Pairwise fun a b => a.rid < b.rid)
    (ha : AdmissibleAll names (World.ofCsv cols types rows) ops) (i : Nat) (p : Plain)
    (hp : plainOf (runOps (World.ofCsv cols types rows) ops) i = some p)
    (hu : ∀ r ∈ p.recs, ∃ n : Nat, cellOf r "uid" = .num (n : ℚ))
    (hi : ∀ r ∈ p.recs, ∃ n : Nat, cellOf r "iid" = .num (n : ℚ))
    (hint : ∀ r ∈ p.recs, ∃ q, cellOf r "interaction" = .num q) (limU limI : Nat) (evs : List VecEv)
    (hun : Undisturbed names limU limI i ⟨runOps (World.ofCsv cols types rows) ops, [], []⟩ evs) :
    ∀ a e b, evs = a ++ e :: b →
      let s := vecRun limU limI i ⟨runOps (World.ofCsv cols types rows) ops, [], []⟩ a
      ∀ v, (vecStep limU limI i s e).2 = some (.ok v) →
        (∀ k oom, e = .user k oom → IsVec p Side.user k v) ∧ ∀ k oom, e = .item k oom → IsVec p Side.item k v := by
  rintro a e b rfl s v hv
  obtain ⟨g1, _⟩ := ofCsv_good hn types rows hcols hrid hsort
  obtain ⟨h1, _⟩ := history_good hn g1 ops [] (by simpa using ha)
  have h0 : VecInv names i p ⟨runOps (World.ofCsv cols types rows) ops, [], []⟩ :=
    ⟨h1, typed_runOps (typed_ofCsv _ _ _) ops, hp, by simp, by simp⟩
  obtain ⟨⟨q1, q2, q3, q4, q5⟩, _⟩ := h0.run hn hu hi hint limU limI a (e :: b) hun
  constructor
  · rintro k oom rfl
    simp only [vecStep, Option.some.injEq] at hv
    exact (vec_good hn q1 q2 q3 (Or.inl rfl) k hu hint _ q4 limU oom).2.2.2.2 v hv
  · rintro k oom rfl
    simp only [vecStep, Option.some.injEq] at hv
    exact (vec_good hn q1 q2 q3 (Or.inr rfl) k hi hint _ q5 limI oom).2.2.2.2 v hv

/-- A request changes no dataset: neither this one nor any other on the file, and the copy it works with is gone. -/
theorem C24_frame_partial (names cols : List String) (types : String → DType) (rows : List Row) (ops : List DbOp)
    (hn : tableCols ⊆ names ∧ "uid" ∈ names ∧ "iid" ∈ names) (hcols : cols ⊆ names) (hrid : "rid" ∈ cols)
    (hsort : rows.Pairwise fun a b => a.rid < b.rid)
    (ha : AdmissibleAll names (World.ofCsv cols types rows) ops) (i : Nat) (p : Plain)
    (hp : plainOf (runOps (World.ofCsv cols types rows) ops) i = some p)
    (hu : ∀ r ∈ p.recs, ∃ n : Nat, cellOf r "uid" = .num (n : ℚ))
    (hi : ∀ r ∈ p.recs, ∃ n : Nat, cellOf r "iid" = .num (n : ℚ))
    (hint : ∀ r ∈ p.recs, ∃ q, cellOf r "interaction" = .num q) (limU limI : Nat) (evs : List VecEv)
    (hreq : ∀ e ∈ evs, ∀ o, e ≠ .op o) :
    plainOf (vecRun limU limI i ⟨runOps (World.ofCsv cols types rows) ops, [], []⟩ evs).w =
      plainOf (runOps (World.ofCsv cols types rows) ops) := by
  obtain ⟨g1, _⟩ := ofCsv_good hn types rows hcols hrid hsort
  obtain ⟨h1, _⟩ := history_good hn g1 ops [] (by simpa using ha)
  have h0 : VecInv names i p ⟨runOps (World.ofCsv cols types rows) ops, [], []⟩ :=
    ⟨h1, typed_runOps (typed_ofCsv _ _ _) ops, hp, by simp, by simp⟩
  suffices h : ∀ s, VecInv names i p s → plainOf (vecRun limU limI i s evs).w = plainOf s.w from h _ h0
  induction evs with
  | nil => intro s _; rfl
  | cons e evs ih =>
    intro s hs
    have hs' := hs.step hn hu hi hint limU limI e (fun o he => absurd he (hreq e (by simp) o))
    have hstep : plainOf (vecStep limU limI i s e).1.w = plainOf s.w := by
      obtain ⟨q1, q2, q3, q4, q5⟩ := hs
      cases e with
      | user k oom => exact (vec_good hn q1 q2 q3 (Or.inl rfl) k hu hint _ q4 limU oom).2.2.1
      | item k oom => exact (vec_good hn q1 q2 q3 (Or.inr rfl) k hi hint _ q5 limI oom).2.2.1
      | op o => exact absurd rfl (hreq _ (by simp) o)
    exact (ih (fun e he => hreq e (by simp [he])) _ hs').trans hstep

/-- Interactions stored as texts of numbers count like the numbers: the vector made from such records is the one
made from the records with the numbers. -/
theorem C24_texts (other : String) (m : Val) (l l' : List Rec)
    (h : List.Forall₂ (fun r r' => cellOf r' other = cellOf r other ∧
      (cellOf r' "interaction" = cellOf r "interaction" ∨
        ∃ lit : SLit, lit.Writable ∧ lit.isStr = false ∧ cellOf r "interaction" = lit.value ∧
          cellOf r' "interaction" = .str (String.ofList lit.text))) l l') :
    toVec other m (.ok (.recs l')) = toVec other m (.ok (.recs l)) := by
  have key : l'.mapM (vecEntryOf other) = l.mapM (vecEntryOf other) := by
    induction h with
    | nil => rfl
    | cons h _ ih =>
      rw [List.mapM_cons, List.mapM_cons, ih]
      congr 1
      obtain ⟨h1, h2⟩ := h
      unfold cellOf at h1 h2
      unfold vecEntryOf
      rw [h1]
      have h3 : ∀ {a b : Val}, (a = b ∨ ∃ lit : SLit, lit.Writable ∧ lit.isStr = false ∧ b = lit.value ∧
          a = .str (String.ofList lit.text)) → a.pyFloat? = b.pyFloat? := by
        rintro a b (rfl | ⟨lit, hw, hn, rfl, rfl⟩)
        · rfl
        · cases lit with
          | str s => cases hn
          | int n =>
            simp only [Val.pyFloat?, SLit.value, String.toList_ofList]
            rw [pyFloat_text _ hw n rfl]
          | dec a b c =>
            simp only [Val.pyFloat?, SLit.value, String.toList_ofList]
            rw [pyFloat_text _ hw _ rfl]
      rw [h3 h2]
  unfold toVec
  simp only [key]

/-- The texts `2.5` and `-3`. -/
example : toVec "iid" (.num 1) (.ok (.recs [[("iid", .num 0), ("interaction", .str "2.5")],
      [("iid", .num 1), ("interaction", .str "-3")]])) = .ok [5 / 2, -3] ∧
    (SLit.dec false 2 [5]).text = "2.5".toList ∧ (SLit.int (-3)).text = "-3".toList := by
  refine ⟨by decide +kernel, by decide, by decide⟩

/-! ## Concrete cases -/

/-- The records shown after assigning ids. -/
def exPlain : Plain := ⟨exDbCols ++ ["uid", "iid"], [
  [("user", .num 1), ("item", .num 10), ("interaction", .num 5), ("rid", .num 0), ("uid", .num 0), ("iid", .num 0)],
  [("user", .num 1), ("item", .num 20), ("interaction", .num 3), ("rid", .num 1), ("uid", .num 0), ("iid", .num 1)],
  [("user", .num 2), ("item", .num 10), ("interaction", .num 4), ("rid", .num 2), ("uid", .num 1), ("iid", .num 0)]],
  true⟩

/-- The hypotheses hold after assigning ids; five requests with limit 1 empty the dictionary on the way, the
vectors are right, and the hidden reduction does not matter. -/
example : plainOf (runOps exWorld [.assign 0]) 0 = some exPlain ∧
    (∀ r ∈ exPlain.recs, ∃ n : Nat, cellOf r "uid" = .num (n : ℚ)) ∧
    (∀ r ∈ exPlain.recs, ∃ n : Nat, cellOf r "iid" = .num (n : ℚ)) ∧
    (∀ r ∈ exPlain.recs, ∃ q, cellOf r "interaction" = .num q) := by
  refine ⟨by decide +kernel, ?_, ?_, ?_⟩
  · intro r hr
    simp only [exPlain, List.mem_cons, List.not_mem_nil, or_false] at hr
    rcases hr with rfl | rfl | rfl
    · exact ⟨0, by decide +kernel⟩
    · exact ⟨0, by decide +kernel⟩
    · exact ⟨1, by decide +kernel⟩
  · intro r hr
    simp only [exPlain, List.mem_cons, List.not_mem_nil, or_false] at hr
    rcases hr with rfl | rfl | rfl
    · exact ⟨0, by decide +kernel⟩
    · exact ⟨1, by decide +kernel⟩
    · exact ⟨0, by decide +kernel⟩
  · intro r hr
    simp only [exPlain, List.mem_cons, List.not_mem_nil, or_false] at hr
    rcases hr with rfl | rfl | rfl
    · exact ⟨5, by decide +kernel⟩
    · exact ⟨3, by decide +kernel⟩
    · exact ⟨4, by decide +kernel⟩

/-- Answers as values. -/
def exAnswer (s : VecState) (e : VecEv) : Option (List ℚ) := (vecStep 0 0 0 s e).2.bind Except.toOption

example :
    let s0 : VecState := ⟨runOps exWorld [.assign 0], [], []⟩
    let evs : List VecEv := [.user 0 false, .user 1 false, .item 0 false, .user 0 false, .user 1 false]
    exAnswer s0 (.user 0 false) = some [5, 3] ∧
      exAnswer (vecRun 0 0 0 s0 evs) (.user 1 false) = some [4, 0] ∧
      exAnswer (vecRun 0 0 0 s0 evs) (.item 0 false) = some [5, 4] ∧
      (vecRun 0 0 0 s0 evs).users.length = 1 ∧ Undisturbed exDbNames 0 0 0 s0 evs := by
  refine ⟨by decide +kernel, by decide +kernel, by decide +kernel, by decide +kernel, ?_⟩
  simp [Undisturbed]

/-! ## Beyond the claim -/

/-- After a change of the records (`apply`, or dropping records in place) the old vectors are still returned. -/
theorem C24_stale :
    let s : VecState := ⟨runOps exWorld [.assign 0], [], []⟩
    let f : Val → Option Lit := fun v => match v with | .num q => some (.int (2 * q.num)) | _ => none
    exAnswer (vecRun 0 0 0 s [.user 0 false, .op (.apply 0 "interaction" f)]) (.user 0 false) = some [5, 3] ∧
      exAnswer (vecRun 0 0 0 s [.op (.apply 0 "interaction" f)]) (.user 0 false) = some [10, 6] ∧
      exAnswer (vecRun 0 0 0 s [.user 0 false, .op (.drop 0 [1] false false)]) (.user 0 false) = some [5, 3] ∧
      exAnswer (vecRun 0 0 0 s [.op (.drop 0 [1] false false)]) (.user 0 false) = some [5] := by
  refine ⟨by decide +kernel, by decide +kernel, by decide +kernel, by decide +kernel⟩

/-- Running out of memory empties the dictionary and raises `KeyError`. -/
theorem C24_memory_error :
    let s : VecState := ⟨runOps exWorld [.assign 0], [], []⟩
    (vecStep 0 0 0 s (.user 0 true)).2 = some (.error .keyError) ∧ (vecStep 0 0 0 s (.user 0 true)).1.users = [] := by
  refine ⟨rfl, rfl⟩

end DRec
