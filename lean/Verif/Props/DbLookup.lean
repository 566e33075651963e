import Verif.Lemmas.DbCons
import Verif.Props.DbHistory

/-!
# C23: id lookups in the database dataset and hidden reductions

`C23_lookup_partial`: after any admissible history the lookups of users, items and internal ids that appear in
the records of the dataset return what the records say, so a reduction cannot be seen
(`C23_stable_partial`).  Missing from the full claim: users and items that are in the table but no longer in the
records.  For them it is false: `C23_reduction_visible`.
-/

namespace DRec

open Spec

/-- After any admissible history on data without internal ids: for every record of a dataset with internal ids,
`user_to_uid` of its user gives its internal id, and `uid_to_user` of its internal id gives its user; the same
for items. -/
theorem C23_lookup_partial (names cols : List String) (types : String → DType) (rows : List Row) (ops : List DbOp)
    (hn : tableCols ⊆ names ∧ "uid" ∈ names ∧ "iid" ∈ names) (hcols : cols ⊆ names) (hrid : "rid" ∈ cols)
    (hsort : rows.Pairwise fun a b => a.rid < b.rid)
    (hnull : ∀ r ∈ rows, r.get "uid" = .null ∧ r.get "iid" = .null)
    (ha : AdmissibleAll names (World.ofCsv cols types rows) ops) (i : Nat) (p : Plain) (x : Inst)
    (ty : String → DType)
    (hp : plainOf (runOps (World.ofCsv cols types rows) ops) i = some p) (hids : p.hasIds = true)
    (hx : (runOps (World.ofCsv cols types rows) ops).insts i = some x) (hty : x.types = some ty)
    (raw idc : String) (hri : (raw = "user" ∧ idc = "uid") ∨ (raw = "item" ∧ idc = "iid"))
    (hraw : raw ∈ p.cols) (hidc : idc ∈ p.cols) (r : Rec) (hr : r ∈ p.recs) :
    let w := runOps (World.ofCsv cols types rows) ops
    (∀ a, IsArg (ty raw) a (cellOf r raw) → w.toId i raw idc a = .ok (some (cellOf r idc))) ∧
    ∀ n : Nat, cellOf r idc = .num n → w.toRaw i raw idc n = .ok (some (cellOf r raw)) := by
  intro w
  obtain ⟨g1, _⟩ := ofCsv_good hn types rows hcols hrid hsort
  obtain ⟨h1, _⟩ := history_good hn g1 ops [] (by simpa using ha)
  have hc0 : AllCons (World.ofCsv cols types rows) := by
    intro n t ht
    simp only [World.ofCsv] at ht
    split at ht
    · cases ht
      constructor
      · intro a ha b hb
        simp only [(hnull a ha).1, (hnull b hb).1]
        simp
      · intro a ha b hb
        simp only [(hnull a ha).2, (hnull b hb).2]
        simp
    · cases ht
  have hcons : AllCons w := cons_runOps hn g1 hc0 ha
  obtain ⟨x', t, rs, hx', ht, hs, hpe⟩ := plain_inv h1 hp
  rw [hx] at hx'; cases hx'
  rw [hpe] at hr hids hraw hidc
  simp only at hr hids hraw hidc
  obtain ⟨r0, hr0, rfl⟩ := List.mem_map.1 hr
  have hmem : r0 ∈ t.rows := hs.sub.subset hr0
  rw [cellOf_toRec _ _ _ hraw, cellOf_toRec _ _ _ hidc]
  have hC : Cons raw idc t.rows := by
    rcases hri with ⟨rfl, rfl⟩ | ⟨rfl, rfl⟩
    · exact (hcons _ _ ht).1
    · exact (hcons _ _ ht).2
  have eqTrue : ∀ a b : Val, cmpSql .eq a b = true → a = b ∧ a ≠ .null := by
    intro a b h
    cases a <;> cases b <;> simp_all [cmpSql, Op.onRat, Op.onStr]
  have eqSelf : ∀ a : Val, a ≠ .null → cmpSql .eq a a = true := by
    intro a h
    cases a <;> simp_all [cmpSql, Op.onRat, Op.onStr]
  have hh : x.hasIds = true := hids
  constructor
  · intro a hA
    have harg : x.idArg raw a = .ok (r0.get raw) ∧ r0.get raw ≠ .null := by
      unfold Inst.idArg
      simp only [hty]
      rcases hA with ⟨n, hd, rfl, hv⟩ | ⟨s, hd, rfl, hv⟩
      · rw [hd, hv]; exact ⟨rfl, by simp⟩
      · rw [hd, hv]; exact ⟨rfl, by simp⟩
    simp only [World.toId, w, hx, hh, if_true, harg.1, ht]
    cases hf : t.rows.find? fun r => cmpSql .eq (r.get raw) (r0.get raw) with
    | none =>
      rw [List.find?_eq_none] at hf
      exact absurd (eqSelf _ harg.2) (hf r0 hmem)
    | some r1 =>
      have hm1 := List.mem_of_find?_eq_some hf
      have he1 := List.find?_some hf
      simp only [Option.map_some]
      rw [(hC r1 hm1 r0 hmem).1 (eqTrue _ _ he1).1]
  · intro n hv
    simp only [World.toRaw, w, hx, hh, if_true, ht]
    cases hf : t.rows.find? fun r => cmpSql .eq (r.get idc) (.num n) with
    | none =>
      rw [List.find?_eq_none] at hf
      have := hf r0 hmem
      rw [hv] at this
      exact absurd (eqSelf _ (by simp)) this
    | some r1 =>
      have hm1 := List.mem_of_find?_eq_some hf
      have he1 := List.find?_some hf
      simp only [Option.map_some]
      obtain ⟨e, hne⟩ := eqTrue _ _ he1
      rw [(hC r1 hm1 r0 hmem).2 hne (by rw [e, hv])]

/-- Whatever admissible operations happen in between (reads with hidden reductions, operations on other
datasets): as long as a dataset shows the same, the lookups of what it shows give the same. -/
theorem C23_stable_partial (names cols : List String) (types : String → DType) (rows : List Row)
    (ops more : List DbOp)
    (hn : tableCols ⊆ names ∧ "uid" ∈ names ∧ "iid" ∈ names) (hcols : cols ⊆ names) (hrid : "rid" ∈ cols)
    (hsort : rows.Pairwise fun a b => a.rid < b.rid)
    (hnull : ∀ r ∈ rows, r.get "uid" = .null ∧ r.get "iid" = .null)
    (ha : AdmissibleAll names (World.ofCsv cols types rows) (ops ++ more)) (i : Nat) (p : Plain)
    (hp : plainOf (runOps (World.ofCsv cols types rows) ops) i = some p)
    (hp' : plainOf (runOps (World.ofCsv cols types rows) (ops ++ more)) i = some p) (hids : p.hasIds = true)
    (raw idc : String) (hri : (raw = "user" ∧ idc = "uid") ∨ (raw = "item" ∧ idc = "iid"))
    (hraw : raw ∈ p.cols) (hidc : idc ∈ p.cols) (r : Rec) (hr : r ∈ p.recs) (n : Nat)
    (hv : cellOf r idc = .num n) :
    (runOps (World.ofCsv cols types rows) (ops ++ more)).toRaw i raw idc n =
      (runOps (World.ofCsv cols types rows) ops).toRaw i raw idc n := by
  have split : ∀ (a b : List DbOp) w, AdmissibleAll names w (a ++ b) → AdmissibleAll names w a := by
    intro a b
    induction a with
    | nil => intro w _; trivial
    | cons o a ih => intro w h; exact ⟨h.1, ih _ h.2⟩
  obtain ⟨g1, _⟩ := ofCsv_good hn types rows hcols hrid hsort
  obtain ⟨h1, _⟩ := history_good hn g1 ops more ha
  obtain ⟨h2, _⟩ := history_good hn g1 (ops ++ more) [] (by simpa using ha)
  obtain ⟨x, _, _, hx, _, hs, _⟩ := plain_inv h1 hp
  obtain ⟨y, _, _, hy, _, hs', _⟩ := plain_inv h2 hp'
  obtain ⟨ty, hty⟩ := Option.isSome_iff_exists.1 hs.types
  obtain ⟨ty', hty'⟩ := Option.isSome_iff_exists.1 hs'.types
  rw [(C23_lookup_partial names cols types rows ops hn hcols hrid hsort hnull (split _ _ _ ha) i p x ty hp hids hx hty
      raw idc hri hraw hidc r hr).2 n hv,
    (C23_lookup_partial names cols types rows (ops ++ more) hn hcols hrid hsort hnull ha i p y ty' hp' hids hy hty'
      raw idc hri hraw hidc r hr).2 n hv]

/-- A dataset without internal ids, in any state: every lookup raises. -/
theorem C23_needs_ids (w : World) (i : Nat) (p : Plain) (hp : plainOf w i = some p) (hids : p.hasIds = false)
    (raw idc : String) (a : Lit) (n : Nat) :
    w.toId i raw idc a = .error .noIds ∧ w.toRaw i raw idc n = .error .noIds := by
  unfold plainOf at hp
  split at hp
  · next x _ hx _ =>
    cases hp
    simp only at hids
    unfold World.toId World.toRaw
    simp only [hx, hids, Bool.false_eq_true, if_false, and_self]
  · cases hp

example : (plainOf exWorld 0).map (·.hasIds) = some false := by decide +kernel

/-- On a column of fractions a text that is no number is not found; it does not raise. -/
theorem C23_text (w : World) (i : Nat) (x : Inst) (ty : String → DType) (t : Table) (hx : w.insts i = some x)
    (hids : x.hasIds = true) (hty : x.types = some ty) (ht : w.tables x.table = some t) (raw idc : String)
    (hf : ty raw = .float) (hnum : ∀ r ∈ t.rows, ∃ q, r.get raw = .num q) (s : String)
    (hs : pyFloat s.toList = none) : w.toId i raw idc (.str s) = .ok none := by
  have ha : x.idArg raw (.str s) = .ok (.str s) := by
    simp [Inst.idArg, hty, hf, normId, Lit.pyStr, hs]
  unfold World.toId
  simp only [hx, hids, if_true, ha, ht]
  congr 1
  rw [Option.map_eq_none_iff, List.find?_eq_none]
  intro r hr
  obtain ⟨q, hq⟩ := hnum r hr
  rw [hq]
  simp [cmpSql]

/-- A number text is found (`1.0`), another text is not. -/
example :
    let w := (World.ofCsv exDbCols (fun c => if c = "user" then .float else .int)
      [⟨0, fun c => if c = "user" then .num 1 else if c = "item" then .num 10 else if c = "interaction" then .num 5
        else .null⟩])
    let w' := runOps w [.assign 0]
    (w'.insts 0).map (fun x => (x.hasIds, x.types.map (· "user"))) = some (true, some .float) ∧
      (w'.toId 0 "user" "uid" (.str "1.0")) = .ok (some (.num 0)) ∧ (w'.toId 0 "user" "uid" (.str "x")) = .ok none ∧
      pyFloat "x".toList = none := by
  refine ⟨by decide +kernel, by decide +kernel, by decide +kernel, by decide +kernel⟩

/-! ## Concrete cases -/

/-- The hypotheses hold after the first eight operations of the example (with a copy, a selection and a hidden
reduction), for the second record. -/
example : (∀ r ∈ [exDbRow 0 1 10 5, exDbRow 1 1 20 3, exDbRow 2 2 10 4], r.get "uid" = .null ∧ r.get "iid" = .null) ∧
    (plainOf (runOps exWorld (exOps.take 8)) 0).map (·.hasIds) = some true ∧
    (plainOf (runOps exWorld (exOps.take 8)) 0).map (fun p => p.recs[1]?.map fun r => (cellOf r "user", cellOf r "uid")) =
      some (some (.num 2, .num 1)) ∧
    ((runOps exWorld (exOps.take 8)).insts 0).map (fun x => x.types.map fun ty => ty "user") = some (some .int) ∧
    ((runOps exWorld (exOps.take 8)).toId 0 "user" "uid" (.int 2)).toOption = some (some (.num 1)) ∧
    ((runOps exWorld (exOps.take 8)).toRaw 0 "user" "uid" 1).toOption = some (some (.num 2)) := by
  refine ⟨by decide, by decide +kernel, by decide +kernel, by decide +kernel, by decide +kernel, by decide +kernel⟩

example : IsArg .int (.int 2) (.num 2) := Or.inl ⟨2, rfl, rfl, rfl⟩

/-! ## Where the full claim fails -/

/-- User 1 has been dropped.  The lookup finds it until the fourth read, which reduces the table. -/
theorem C23_reduction_visible :
    let w := runOps exWorld [.assign 0, .drop 0 [0, 1] false false]
    let r : DbOp := .read 0 (.values none)
    (w.toId 0 "user" "uid" (.int 1)).toOption = some (some (.num 0)) ∧
      ((runOps w [r, r, r]).toId 0 "user" "uid" (.int 1)).toOption = some (some (.num 0)) ∧
      ((runOps w [r, r, r, r]).toId 0 "user" "uid" (.int 1)).toOption = some none ∧
      ((runOps w [r, r, r]).toRaw 0 "user" "uid" 0).toOption = some (some (.num 1)) ∧
      ((runOps w [r, r, r, r]).toRaw 0 "user" "uid" 0).toOption = some none ∧
      plainOf (runOps w [r, r, r, r]) 0 = plainOf w 0 := by
  refine ⟨by decide +kernel, by decide +kernel, by decide +kernel, by decide +kernel, by decide +kernel,
    by decide +kernel⟩

end DRec
