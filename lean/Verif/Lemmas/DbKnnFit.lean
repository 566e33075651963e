import Verif.Lemmas.DbKnnRank

/-! # Recommenders on a database dataset: raw ids and fitting -/

namespace DRec.Conc

open Spec

/-! ## Raw ids -/

/-- The cell that holds an assigned id. -/
def codeVal (n : Nat) : Val := .num (n : ℚ)

theorem idCell_code (n : Nat) : idCell (codeVal n) = n := idCell_nat n

theorem cmpSql_eq_iff (a : Val) {v : Val} (hv : v ≠ .null) : cmpSql .eq a v = true ↔ a = v := by
  cases a <;> cases v <;> simp [cmpSql, Op.onRat, Op.onStr] at hv ⊢

theorem normId_ne_null {d : DType} {a : Lit} {v : Val} (h : normId d a = .ok v) : v ≠ .null := by
  unfold normId at h
  split at h
  · cases hn : a.toInt with
    | error e => rw [hn] at h; cases h
    | ok n => rw [hn] at h; cases h; simp
  · cases h; simp

theorem find_cells (l : List Row) (a b : String) (p : Val → Bool) :
    (l.find? fun r => p (r.get a)).map (·.get b) =
      ((l.map fun r => (r.get a, r.get b)).find? fun q => p q.1).map (·.2) := by
  rw [List.find?_map, Option.map_map]
  rfl

theorem find_code {m : Mem} {raw idc : String} {map : List Val} (h : IdsFor m raw idc map)
    (hall : ∀ v ∈ map, ∃ r ∈ m.rows, r.get raw = v) {v : Val} (hv : v ≠ .null) :
    (m.rows.find? fun r => cmpSql .eq (r.get raw) v).map (·.get idc) =
      (lookupCode map v).map codeVal := by
  unfold lookupCode
  cases hf : m.rows.find? fun r => cmpSql .eq (r.get raw) v with
  | none =>
    rw [if_neg]
    · rfl
    · intro hm
      obtain ⟨r, hr, e⟩ := hall v hm
      have := List.find?_eq_none.1 hf r hr
      exact this ((cmpSql_eq_iff _ hv).2 e)
  | some r =>
    have hr := List.mem_of_find?_eq_some hf
    have h2 : cmpSql .eq (r.get raw) v = true := by simpa using List.find?_some hf
    have e : r.get raw = v := (cmpSql_eq_iff _ hv).1 h2
    obtain ⟨c1, c2⟩ := h.code r hr
    rw [e] at c1 c2
    rw [if_pos c1]
    simp [c2, codeVal]

theorem find_raw {m : Mem} {raw idc : String} {map : List Val} (h : IdsFor m raw idc map)
    (hall : ∀ v ∈ map, ∃ r ∈ m.rows, r.get raw = v) (n : Nat) :
    (m.rows.find? fun r => cmpSql .eq (r.get idc) (.num (n : ℚ))).map (·.get raw) = map[n]? := by
  cases hf : m.rows.find? fun r => cmpSql .eq (r.get idc) (.num (n : ℚ)) with
  | none =>
    symm
    simp only [Option.map_none]
    rw [List.getElem?_eq_none_iff]
    by_contra hlt
    have hlt : n < map.length := by omega
    obtain ⟨r, hr, e⟩ := hall _ (List.getElem_mem hlt)
    have := List.find?_eq_none.1 hf r hr
    apply this
    rw [cmpSql_eq_iff _ (by simp), (h.code r hr).2, e, h.nodup.idxOf_getElem]
  | some r =>
    have hr := List.mem_of_find?_eq_some hf
    have h2 : cmpSql .eq (r.get idc) (.num (n : ℚ)) = true := by simpa using List.find?_some hf
    have e : r.get idc = .num (n : ℚ) := (cmpSql_eq_iff _ (by simp)).1 h2
    obtain ⟨c1, c2⟩ := h.code r hr
    rw [c2] at e
    simp only [Val.num.injEq, Nat.cast_inj] at e
    have hlt : map.idxOf (r.get raw) < map.length := List.idxOf_lt_length_of_mem c1
    simp only [Option.map_some]
    rw [← e, List.getElem?_eq_getElem hlt, List.getElem_idxOf]

/-- The table of a fitted dataset has the cells of its records. -/
theorem fitted_table {names : List String} {w : World} (hg : Good names w) {i : Nat} {m : Mem}
    {T : Option (String → DType)} {B : Nat} (hf : FittedOn w i m T B) :
    ∃ x t, w.insts i = some x ∧ w.tables x.table = some t ∧ x.hasIds = true ∧ x.types = T ∧
      ∀ a ∈ m.cols, ∀ b ∈ m.cols, (t.rows.map fun r => (r.get a, r.get b)) = m.rows.map fun r => (r.get a, r.get b) := by
  obtain ⟨x, t, rows, hx, ht, hsh, hpe⟩ := plain_inv hg hf.shows.plain
  obtain ⟨x', hx', _, hst⟩ := hf.table
  rw [hx] at hx'; cases hx'
  obtain ⟨y, hy, hT, _⟩ := hf.shows.inst
  rw [hx] at hy; cases hy
  have hcols : m.cols = x.columns := congrArg Plain.cols hpe
  have hrecs : m.rows.map (Row.toRec m.cols) = rows.map (Row.toRec x.columns) := congrArg Plain.recs hpe
  have hids : m.hasIds = x.hasIds := congrArg Plain.hasIds hpe
  have hrows : rows = t.rows := by
    obtain ⟨sc, h1, _⟩ := hsh.ev
    rw [hst] at h1
    simp only [evalSrc, Except.ok.injEq, Prod.mk.injEq] at h1
    exact h1.2.symm
  refine ⟨x, t, hx, ht, by rw [← hids]; exact hf.fresh.ids.has, hT, ?_⟩
  intro a ha b hb
  rw [← hcols, hrows] at hrecs
  have := congrArg (List.map fun r => (cellOf r a, cellOf r b)) hrecs
  rw [List.map_map, List.map_map] at this
  have e : ∀ l : List Row, l.map ((fun r => (cellOf r a, cellOf r b)) ∘ Row.toRec m.cols) =
      l.map fun r => (r.get a, r.get b) := by
    intro l
    apply List.map_congr_left
    intro r _
    simp only [Function.comp_apply, cellOf_toRec _ _ _ ha, cellOf_toRec _ _ _ hb]
  rw [e, e] at this
  exact this.symm

theorem toId_fitted {names : List String} {w : World} (hg : Good names w) {i : Nat} {m : Mem}
    {T : Option (String → DType)} {B : Nat} (hf : FittedOn w i m T B) {raw idc : String} {map : List Val}
    (h : IdsFor m raw idc map) (hall : ∀ v ∈ map, ∃ r ∈ m.rows, r.get raw = v)
    (hty : ∀ ty, T = some ty → ty raw = m.dtype raw ∧ ty raw ≠ .float) (a : Lit) :
    w.toId i raw idc a = (normId (m.dtype raw) a).map fun v => (lookupCode map v).map codeVal := by
  obtain ⟨x, t, hx, ht, hids, hT, hcells⟩ := fitted_table hg hf
  obtain ⟨ty, hT', _⟩ := hf.types
  obtain ⟨t1, t2⟩ := hty ty hT'
  have harg : x.idArg raw a = normId (m.dtype raw) a := by
    unfold Inst.idArg
    rw [hT, hT']
    simp only
    rw [← t1]
    split
    · rename_i h1 _
      exact absurd h1 t2
    · rfl
  unfold World.toId
  simp only [hx, hids, if_true, harg, ht]
  cases hv : normId (m.dtype raw) a with
  | error e => rfl
  | ok v =>
    simp only [Except.map]
    rw [find_cells t.rows raw idc fun u => cmpSql .eq u v, hcells raw h.hasRaw idc h.hasCol,
      ← find_cells m.rows raw idc fun u => cmpSql .eq u v, find_code h hall (normId_ne_null hv)]

theorem toRaw_fitted {names : List String} {w : World} (hg : Good names w) {i : Nat} {m : Mem}
    {T : Option (String → DType)} {B : Nat} (hf : FittedOn w i m T B) {raw idc : String} {map : List Val}
    (h : IdsFor m raw idc map) (hall : ∀ v ∈ map, ∃ r ∈ m.rows, r.get raw = v) (n : Nat) :
    w.toRaw i raw idc n = .ok map[n]? := by
  obtain ⟨x, t, hx, ht, hids, hT, hcells⟩ := fitted_table hg hf
  unfold World.toRaw
  simp only [hx, hids, if_true, ht]
  rw [find_cells t.rows idc raw fun u => cmpSql .eq u (.num n), hcells idc h.hasCol raw h.hasRaw,
    ← find_cells m.rows idc raw fun u => cmpSql .eq u (.num n), find_raw h hall n]

section
variable {β : Type} {names : List String} {S : List Nat} {w0 : World} {ds : Nat} {m : Mem} {T : Option (String → DType)}
  {B : Nat}

/-- A user id looked up. -/
theorem delivers_toUid (hds : ds ∈ S) (hf : FittedOn w0 ds m T B) (a : Lit) :
    DeliversIn names S (sharedInv w0 S) (fun k : Option Val → DbProg β => .toId ds "user" "uid" a k)
      ((m.userToUid a).map fun o => o.map codeVal) := by
  intro O w k r _ hv he hk w' hw
  have hf' := (hf.keep (hv ds hds)).keep (hw.shared ds hds)
  have e : w'.toId ds "user" "uid" a = (m.userToUid a).map fun o => o.map codeVal := by
    rw [toId_fitted hw.good hf' hf.fresh.ids.user hf.fresh.users (by
      intro ty hT
      obtain ⟨ty', hT', t1, _, t2, _⟩ := hf.types
      rw [hT] at hT'; cases hT'
      exact ⟨t1, t2⟩)]
    unfold Mem.userToUid
    rw [if_pos hf.fresh.ids.has, if_pos hf.fresh.ids.user.hasRaw]
    cases normId (m.dtype "user") a <;> rfl
  rw [← e] at he hk
  cases hr : w'.toId ds "user" "uid" a with
  | error er => exact Or.inr ⟨er, rfl, he er hr⟩
  | ok v => exact Or.inl ⟨v, rfl, hk v w' hr hw.carries⟩

/-- An item id looked up. -/
theorem delivers_toIid (hds : ds ∈ S) (hf : FittedOn w0 ds m T B) (a : Lit) :
    DeliversIn names S (sharedInv w0 S) (fun k : Option Val → DbProg β => .toId ds "item" "iid" a k)
      ((m.itemToIid a).map fun o => o.map codeVal) := by
  intro O w k r _ hv he hk w' hw
  have hf' := (hf.keep (hv ds hds)).keep (hw.shared ds hds)
  have e : w'.toId ds "item" "iid" a = (m.itemToIid a).map fun o => o.map codeVal := by
    rw [toId_fitted hw.good hf' hf.fresh.ids.item hf.fresh.items (by
      intro ty hT
      obtain ⟨ty', hT', _, t1, _, t2⟩ := hf.types
      rw [hT] at hT'; cases hT'
      exact ⟨t1, t2⟩)]
    unfold Mem.itemToIid
    rw [if_pos hf.fresh.ids.has, if_pos hf.fresh.ids.item.hasRaw]
    cases normId (m.dtype "item") a <;> rfl
  rw [← e] at he hk
  cases hr : w'.toId ds "item" "iid" a with
  | error er => exact Or.inr ⟨er, rfl, he er hr⟩
  | ok v => exact Or.inl ⟨v, rfl, hk v w' hr hw.carries⟩

theorem delivers_toItem (hds : ds ∈ S) (hf : FittedOn w0 ds m T B) (n : Nat) :
    DeliversIn names S (sharedInv w0 S) (fun k : Option Val → DbProg β => .toRaw ds "item" "iid" n k) (m.iidToItem n) := by
  intro O w k r _ hv he hk w' hw
  have hf' := (hf.keep (hv ds hds)).keep (hw.shared ds hds)
  have e : w'.toRaw ds "item" "iid" n = m.iidToItem n := by
    rw [toRaw_fitted hw.good hf' hf.fresh.ids.item hf.fresh.items]
    unfold Mem.iidToItem
    rw [if_pos hf.fresh.ids.has]
  rw [← e] at he hk
  cases hr : w'.toRaw ds "item" "iid" n with
  | error er => exact Or.inr ⟨er, rfl, he er hr⟩
  | ok v => exact Or.inl ⟨v, rfl, hk v w' hr hw.carries⟩

/-- What `rank` and `recommend` make of a user id. -/
def userOf (m : Mem) (user : Lit) : Except Err Nat :=
  match m.userToUid user with
  | .error e => .error e
  | .ok none => .error .notFound
  | .ok (some uid) => .ok uid

theorem delivers_user (hds : ds ∈ S) (hf : FittedOn w0 ds m T B) (user : Lit) :
    DeliversIn names S (sharedInv w0 S) (fun k : Nat → DbProg β => dbUser ds user k) (userOf m user) := by
  have h1 := DeliversIn.bind (shared_stable w0 S) (delivers_toUid (β := β) (names := names) hds hf user)
    (Q := fun v (k : Nat → DbProg β) => match v with
      | none => .ret (.error .notFound)
      | some _ => .toId ds "user" "uid" user fun v =>
        match v with
        | none => .ret (.error .crash)
        | some v => k (idCell v))
    (res' := fun v => match v with | none => .error .notFound | some v => .ok (idCell v)) (by
      intro v hv
      cases v with
      | none => exact deliversIn_error _
      | some v =>
        have := DeliversIn.bind (shared_stable w0 S) (delivers_toUid (β := β) (names := names) hds hf user)
          (Q := fun v (k : Nat → DbProg β) => match v with
            | none => .ret (.error .crash)
            | some v => k (idCell v)) (res' := fun _ => .ok (idCell v)) (by
            intro v' hv'
            rw [hv] at hv'; cases hv'
            exact deliversIn_ok _)
        rw [hv, except_bind_ok] at this
        exact this)
  have e : ((m.userToUid user).map fun o => o.map codeVal).bind
      (fun v => match v with | none => .error .notFound | some v => .ok (idCell v)) = userOf m user := by
    unfold userOf
    cases m.userToUid user with
    | error e => rfl
    | ok o =>
      cases o with
      | none => rfl
      | some n => simp [Except.map, Except.bind, idCell_code]
  rw [e] at h1
  exact h1

theorem delivers_known (hds : ds ∈ S) (hf : FittedOn w0 ds m T B) (skip : Bool) :
    ∀ (xs : List Lit) (acc : List Nat), DeliversIn names S (sharedInv w0 S)
      (fun k : List Nat → DbProg β => dbKnown ds skip k xs acc) ((knownIids m skip xs).map fun l => acc ++ l)
  | [], acc => by
    have := deliversIn_ok (names := names) (S := S) (inv := sharedInv w0 S) (β := β) acc
    simpa [dbKnown, knownIids, Except.map] using this
  | x :: xs, acc => by
    have h1 := DeliversIn.bind (shared_stable w0 S) (delivers_toIid (β := β) (names := names) hds hf x)
      (Q := fun v (k : List Nat → DbProg β) => match v with
        | none => if skip then dbKnown ds skip k xs acc else .ret (.error .notFound)
        | some v => dbKnown ds skip k xs (acc ++ [idCell v]))
      (res' := fun v => match v with
        | none => if skip then (knownIids m skip xs).map fun l => acc ++ l else .error .notFound
        | some v => (knownIids m skip xs).map fun l => (acc ++ [idCell v]) ++ l) (by
        intro v _
        cases v with
        | none =>
          cases skip with
          | true => exact delivers_known hds hf true xs acc
          | false => exact deliversIn_error _
        | some v => exact delivers_known hds hf skip xs _)
    have e : ((m.itemToIid x).map fun o => o.map codeVal).bind (fun v => match v with
        | none => if skip then (knownIids m skip xs).map fun l => acc ++ l else .error .notFound
        | some v => (knownIids m skip xs).map fun l => (acc ++ [idCell v]) ++ l) =
        (knownIids m skip (x :: xs)).map fun l => acc ++ l := by
      rw [knownIids]
      cases m.itemToIid x with
      | error e => rfl
      | ok o =>
        cases o with
        | none => cases skip <;> rfl
        | some n =>
          simp only [Except.map, Except.bind, Option.map_some, idCell_code]
          cases knownIids m skip xs <;> simp
    rw [e] at h1
    exact h1

theorem toRaw_cons (m : Mem) (p : ℚ × Nat) (ps : List (ℚ × Nat)) :
    toRaw m (p :: ps) = (m.iidToItem p.2).bind fun v => (toRaw m ps).map fun l => (p.1, v) :: l := by
  unfold toRaw
  rw [List.mapM_cons]
  cases m.iidToItem p.2 with
  | error e => rfl
  | ok v => rfl

theorem delivers_raw (hds : ds ∈ S) (hf : FittedOn w0 ds m T B) :
    ∀ (ps : List (ℚ × Nat)) (acc : List (ℚ × Option Val)), DeliversIn names S (sharedInv w0 S)
      (fun k : List (ℚ × Option Val) → DbProg β => dbToRaw ds k ps acc) ((toRaw m ps).map fun l => acc ++ l)
  | [], acc => by
    have := deliversIn_ok (names := names) (S := S) (inv := sharedInv w0 S) (β := β) acc
    simpa [dbToRaw, toRaw, Except.map, pure, Except.pure] using this
  | p :: ps, acc => by
    have h1 := DeliversIn.bind (shared_stable w0 S) (delivers_toItem (β := β) (names := names) hds hf p.2)
      (Q := fun v (k : List (ℚ × Option Val) → DbProg β) => dbToRaw ds k ps (acc ++ [(p.1, v)]))
      (res' := fun v => (toRaw m ps).map fun l => (acc ++ [(p.1, v)]) ++ l) fun v _ => delivers_raw hds hf ps _
    have e : (m.iidToItem p.2).bind (fun v => (toRaw m ps).map fun l => (acc ++ [(p.1, v)]) ++ l) =
        (toRaw m (p :: ps)).map fun l => acc ++ l := by
      rw [toRaw_cons]
      cases m.iidToItem p.2 with
      | error e => rfl
      | ok v => cases toRaw m ps <;> simp [Except.map, Except.bind]
    rw [e] at h1
    exact h1

/-- A `_rank` method on the database computes what a `_rank` method in memory computes. -/
def RankAlike (names : List String) (S : List Nat) (w0 : World) (rk : DbRankFn β) (rk' : RankFn) : Prop :=
  ∀ uid iids n novelty, DeliversIn names S (sharedInv w0 S) (rk uid iids n novelty) (rk' uid iids n novelty)

theorem delivers_rankRaw (hds : ds ∈ S) (hf : FittedOn w0 ds m T B) {rk : DbRankFn β} {rk' : RankFn}
    (hrk : RankAlike names S w0 rk rk') (user : Lit) (items : List Lit) (novelty skip : Bool) (n : Option Nat) :
    DeliversIn names S (sharedInv w0 S) (fun k => dbRankRaw ds rk user items novelty skip n k)
      (rank m rk' user items novelty skip n) := by
  have h1 := DeliversIn.bind (shared_stable w0 S) (delivers_user (β := β) (names := names) hds hf user)
    (Q := fun uid k => dbKnown ds skip (fun iids =>
      if iids.length < n.getD iids.length then .ret (.error .assertion)
      else rk uid iids (n.getD iids.length) novelty fun l => dbToRaw ds k l []) items [])
    (res' := fun uid => (knownIids m skip items).bind fun iids =>
      if iids.length < n.getD iids.length then .error .assertion
      else (rk' uid iids (n.getD iids.length) novelty).bind fun l => toRaw m l) (by
      intro uid _
      have h2 := DeliversIn.bind (shared_stable w0 S) (delivers_known (β := β) (names := names) hds hf skip items [])
        (Q := fun iids k => if iids.length < n.getD iids.length then .ret (.error .assertion)
          else rk uid iids (n.getD iids.length) novelty fun l => dbToRaw ds k l [])
        (res' := fun iids => if iids.length < n.getD iids.length then .error .assertion
          else (rk' uid iids (n.getD iids.length) novelty).bind fun l => toRaw m l) (by
          intro iids _
          split
          · exact deliversIn_error _
          · refine DeliversIn.bind (shared_stable w0 S) (hrk uid iids (n.getD iids.length) novelty)
              (Q := fun l k => dbToRaw ds k l []) (res' := fun l => toRaw m l) ?_
            intro l _
            have := delivers_raw (β := β) (names := names) hds hf l []
            have e : ((toRaw m l).map fun x => [] ++ x) = toRaw m l := by cases toRaw m l <;> rfl
            rw [e] at this
            exact this)
      have e : ((knownIids m skip items).map fun l => [] ++ l) = knownIids m skip items := by
        cases knownIids m skip items <;> rfl
      rw [e] at h2
      exact h2)
  have e : ((userOf m user).bind fun uid => (knownIids m skip items).bind fun iids =>
      if iids.length < n.getD iids.length then .error .assertion
      else (rk' uid iids (n.getD iids.length) novelty).bind fun l => toRaw m l) = rank m rk' user items novelty skip n := by
    unfold rank userOf
    cases m.userToUid user with
    | error e => rfl
    | ok o =>
      cases o with
      | none => rfl
      | some uid =>
        simp only [except_bind_ok]
        cases knownIids m skip items with
        | error e => rfl
        | ok iids =>
          simp only [except_bind_ok]
          split
          · rfl
          · cases rk' uid iids (n.getD iids.length) novelty <;> rfl
  rw [e] at h1
  exact h1

theorem recommend_bind (m : Mem) (rk' : RankFn) (user : Lit) (n : Option Nat) (novelty : Bool) (threshold : Option ℚ) :
    ((userOf m user).bind fun uid =>
      (rk' uid (List.range (nItemsOf m)) (n.getD (nItemsOf m)) novelty).bind fun l =>
        toRaw m (match threshold with | none => l | some t => l.filter fun p => t ≤ p.1)) =
      recommend m rk' user n novelty threshold := by
  unfold recommend userOf recommendIids
  cases m.userToUid user with
  | error e => rfl
  | ok o =>
    cases o with
    | none => rfl
    | some uid =>
      simp only [except_bind_ok]
      cases rk' uid (List.range (nItemsOf m)) (n.getD (nItemsOf m)) novelty <;> cases threshold <;> rfl

theorem delivers_recommendRaw (hds : ds ∈ S) (hf : FittedOn w0 ds m T B) {rk : DbRankFn β} {rk' : RankFn}
    (hrk : RankAlike names S w0 rk rk') (user : Lit) (n : Option Nat) (novelty : Bool) (threshold : Option ℚ) :
    DeliversIn names S (sharedInv w0 S) (fun k => dbRecommendRaw ds (nItemsOf m) rk user n novelty threshold k)
      (recommend m rk' user n novelty threshold) := by
  have h1 := DeliversIn.bind (shared_stable w0 S) (delivers_user (β := β) (names := names) hds hf user)
    (Q := fun uid k => rk uid (List.range (nItemsOf m)) (n.getD (nItemsOf m)) novelty fun l =>
      dbToRaw ds k (match threshold with | none => l | some t => l.filter fun p => t ≤ p.1) [])
    (res' := fun uid => (rk' uid (List.range (nItemsOf m)) (n.getD (nItemsOf m)) novelty).bind fun l =>
      toRaw m (match threshold with | none => l | some t => l.filter fun p => t ≤ p.1)) (by
      intro uid _
      refine DeliversIn.bind (shared_stable w0 S) (hrk uid (List.range (nItemsOf m)) (n.getD (nItemsOf m)) novelty)
        (Q := fun l k => dbToRaw ds k (match threshold with | none => l | some t => l.filter fun p => t ≤ p.1) [])
        (res' := fun l => toRaw m (match threshold with | none => l | some t => l.filter fun p => t ≤ p.1)) ?_
      intro l _
      have := delivers_raw (β := β) (names := names) hds hf
        (match threshold with | none => l | some t => l.filter fun p => t ≤ p.1) []
      have e : ∀ l, ((toRaw m l).map fun x => [] ++ x) = toRaw m l := fun l => by cases toRaw m l <;> rfl
      rw [e] at this
      exact this)
  rw [recommend_bind m rk' user n novelty threshold] at h1
  exact h1

/-! ## Fitting -/

theorem ids_length {m : Mem} (h : Fresh m) (K : KKind) :
    (m.rows.map fun r => [r.get (ownCol K)]).dedup.length = (ownIds K (ratingsOf m)).length := by
  have e : (m.rows.map fun r => [r.get (ownCol K)]) = ((ratingsOf m).map K.own).map fun n : Nat => [Val.num (n : ℚ)] := by
    rw [ratingsOf_eq, List.map_map, List.map_map]
    apply List.map_congr_left
    intro r hr
    obtain ⟨h1, h2, _⟩ := fresh_cells h hr
    cases K with
    | user =>
      have := (idCell_iff h1 (k := idCell (r.get "uid"))).2 rfl
      simp only [Function.comp_apply, KKind.own, ratingOf, ownCol]
      rw [← this]
    | item =>
      have := (idCell_iff h2 (k := idCell (r.get "iid"))).2 rfl
      simp only [Function.comp_apply, KKind.own, ratingOf, ownCol]
      rw [← this]
  rw [e, List.dedup_map_of_injective (by
    intro a b hab
    simpa using hab), List.length_map]
  rfl

theorem nItems_length {m : Mem} (h : Fresh m) : nItemsOf m = (ownIds .item (ratingsOf m)).length := by
  rw [← ids_length h .item]
  unfold nItemsOf countDistinct
  rw [dedupGo_length]
  rfl

theorem setNbrs_eq {m : Mem} (cfg : KnnCfg) {vs : List Val}
    (hvs : ∀ v, v ∈ vs ↔ ∃ r ∈ m.rows, r.get (ownCol cfg.kind) = v) (sims : Nat × Nat → Option ℚ)
    (old : Nat → Option (List (ℚ × Nat))) :
    setNbrs cfg (vs.map idCell) (ownIds cfg.kind (ratingsOf m)).length sims old =
      computeNbrs cfg (ratingsOf m) sims old := by
  funext a
  rw [computeNbrs_eq]
  unfold setNbrs
  rw [foldl_nbrs (neighboursOf cfg (ownIds cfg.kind (ratingsOf m)).length sims)]
  have e : a ∈ vs.map idCell ↔ a ∈ ownIds cfg.kind (ratingsOf m) := by
    rw [ownIds, List.mem_dedup, ratingsOf_eq, List.map_map, List.mem_map, List.mem_map]
    constructor
    · rintro ⟨v, hv, rfl⟩
      obtain ⟨r, hr, rfl⟩ := (hvs v).1 hv
      exact ⟨r, hr, by cases cfg.kind <;> rfl⟩
    · rintro ⟨r, hr, rfl⟩
      exact ⟨_, (hvs _).2 ⟨r, hr, rfl⟩, by cases cfg.kind <;> rfl⟩
  by_cases ha : a ∈ ownIds cfg.kind (ratingsOf m)
  · rw [if_pos (e.2 ha), if_pos ha]
  · rw [if_neg fun h => ha (e.1 h), if_neg ha]

theorem recs_ratings {m : Mem} (h : ∀ c ∈ ["uid", "iid", "interaction"], c ∈ m.cols) :
    ((m.rows.map fun r => (r.toRec m.cols).filter fun q => q.1 ∈ m.cols).map recRating) = ratingsOf m := by
  rw [List.map_map, ratingsOf_eq]
  apply List.map_congr_left
  intro r _
  have e : ∀ c ∈ ["uid", "iid", "interaction"],
      (((r.toRec m.cols).filter fun q => q.1 ∈ m.cols).lookup c).getD .null = r.get c :=
    fun c hc => lookup_pick (h c hc) (h c hc) r
  simp only [Function.comp_apply, recRating, ratingOf]
  rw [e "uid" (by simp), e "iid" (by simp), e "interaction" (by simp)]

/-- Reading something that the program only logs. -/
theorem delivers_logged (hn : NamesOk names) (ha : At S (sharedInv w0 S) ds m T B) {op : ReadOp}
    (hop : Works (memPlain m) (.read ds op)) :
    DeliversIn names S (sharedInv w0 S) (fun k : Unit → DbProg β => .read ds op fun _ => k ()) (.ok ()) := by
  intro O w k r _ hv _ hk
  obtain ⟨⟨h1, h2⟩, h3⟩ := ha O w hv
  exact gives_read hn h1 h2 hop h3 fun w'' _ hw _ => hk () w'' rfl hw

theorem delivers_count (hn : NamesOk names) (hds : ds ∈ S) (hS0 : ∀ k ∈ S, (w0.insts k).isSome)
    (hf : FittedOn w0 ds m T B) (K : KKind) :
    DeliversIn names S (sharedInv w0 S) (fun k : ReadRes → DbProg β => .read ds (.countUnique (some [ownCol K])) k)
      (.ok (.count (ownIds K (ratingsOf m)).length)) := by
  intro O w k r _ hv _ hk
  obtain ⟨⟨h1, h2⟩, h3⟩ := at_shared hds hS0 hf.shows O w hv
  have hc : ownCol K ∈ m.cols := hf.nums.cols _ (by cases K <;> simp [ownCol])
  refine gives_read hn h1 h2 (op := .countUnique (some [ownCol K])) ⟨hf.nums.full, by simpa [memPlain] using hc, by simp⟩ h3 ?_
  intro w'' res hw hres
  cases res with
  | count n =>
    simp only [ReadSpec, memPlain, Option.getD_some, List.map_cons, List.map_nil, List.map_map] at hres
    apply hk _ w'' _ hw
    rw [hres, ← ids_length hf.fresh K]
    congr 4
    apply List.map_congr_left
    intro r _
    simp only [Function.comp_apply, cellOf_toRec _ _ _ hc]
  | _ => exact hres.elim

theorem delivers_records (hn : NamesOk names) (hds : ds ∈ S) (hS0 : ∀ k ∈ S, (w0.insts k).isSome)
    (hf : FittedOn w0 ds m T B) :
    DeliversIn names S (sharedInv w0 S) (fun k : ReadRes → DbProg β => .read ds (.values none) k)
      (.ok (.recs (m.rows.map fun r => (r.toRec m.cols).filter fun q => q.1 ∈ m.cols))) := by
  intro O w k r _ hv _ hk
  obtain ⟨⟨h1, h2⟩, h3⟩ := at_shared hds hS0 hf.shows O w hv
  refine gives_read hn h1 h2 (op := .values none) ⟨hf.nums.full, fun _ h => h⟩ h3 ?_
  intro w'' res hw hres
  cases res with
  | recs l =>
    simp only [ReadSpec, memPlain, Option.getD_none, List.map_map] at hres
    apply hk _ w'' _ hw
    rw [hres]
    rfl
  | _ => exact hres.elim

theorem delivers_unique (hn : NamesOk names) (hds : ds ∈ S) (hS0 : ∀ k ∈ S, (w0.insts k).isSome)
    (hf : FittedOn w0 ds m T B) {c : String} (hc : c ∈ ["uid", "iid"]) {vs : List Val} (hvs : uniqueVals m c = .ok vs) :
    DeliversIn names S (sharedInv w0 S) (fun k : List Val → DbProg β => readUnique ds c k) (.ok vs) := by
  intro O w k r _ hv _ hk
  obtain ⟨⟨h1, h2⟩, h3⟩ := at_shared hds hS0 hf.shows O w hv
  refine gives_unique hn h1 hf.ok h2 hf.nums.full ?_ ?_ h3 hvs ?_ fun w'' hw => hk _ w'' rfl hw
  · apply hf.nums.cols
    simp only [List.mem_cons, List.not_mem_nil, or_false] at hc ⊢
    tauto
  · rintro rfl
    simp at hc
  · intro w' x hw hx hu
    obtain ⟨y, hy, hq, _⟩ := ((hf.keep (hv ds hds)).keep hw).table
    rw [hx] at hy; cases hy
    have := hu.1
    omega

/-- Fitting a nearest neighbour recommender computes the model that is fitted in memory. -/
theorem delivers_fit (hn : NamesOk names) (hds : ds ∈ S) (hS0 : ∀ k ∈ S, (w0.insts k).isSome)
    (hf : FittedOn w0 ds m T B) (cfg : KnnCfg) (M : Knn) :
    DeliversIn names S (sharedInv w0 S) (fun k : Knn × Nat → DbProg β => dbFit cfg ds M k)
      (.ok (fitKnn cfg (ratingsOf m) M, nItemsOf m)) := by
  have st := shared_stable (names := names) w0 S
  have ha := at_shared hds hS0 hf.shows
  have hxc : "interaction" ∈ m.cols := hf.nums.cols _ (by simp)
  have hoc : ownCol cfg.kind ∈ m.cols := hf.nums.cols _ (by cases cfg.kind <;> simp [ownCol])
  obtain ⟨vs, hvs, _, hmem⟩ := uniqueVals_user (ds := m) (c := ownCol cfg.kind) hoc (by cases cfg.kind <;> simp [ownCol])
  refine DeliversIn.bind st (delivers_logged (β := β) hn ha (op := .min "interaction") ⟨hf.nums.full, hxc⟩)
    (Q := fun _ k => .read ds (.max "interaction") fun _ => .read ds (.countUnique (some ["uid"])) fun nUsers => .read ds (.countUnique (some ["iid"])) fun nItems => .len ds fun _ =>
      .read ds (.values none) fun res => readUnique ds (ownCol cfg.kind) fun ids =>
      k (⟨computeSims cfg ((recsOf res).map recRating) M.sims, setNbrs cfg (ids.map idCell)
        (match cfg.kind with | .user => countOf nUsers | .item => countOf nItems)
        (computeSims cfg ((recsOf res).map recRating) M.sims) M.nbrs⟩, countOf nItems))
    (res' := fun _ => .ok (fitKnn cfg (ratingsOf m) M, nItemsOf m)) fun _ _ => ?_
  refine DeliversIn.bind st (delivers_logged (β := β) hn ha (op := .max "interaction") ⟨hf.nums.full, hxc⟩)
    (Q := fun _ k => .read ds (.countUnique (some ["uid"])) fun nUsers => .read ds (.countUnique (some ["iid"])) fun nItems => .len ds fun _ =>
      .read ds (.values none) fun res => readUnique ds (ownCol cfg.kind) fun ids =>
      k (⟨computeSims cfg ((recsOf res).map recRating) M.sims, setNbrs cfg (ids.map idCell)
        (match cfg.kind with | .user => countOf nUsers | .item => countOf nItems)
        (computeSims cfg ((recsOf res).map recRating) M.sims) M.nbrs⟩, countOf nItems))
    (res' := fun _ => .ok (fitKnn cfg (ratingsOf m) M, nItemsOf m)) fun _ _ => ?_
  refine DeliversIn.bind st (delivers_count (β := β) hn hds hS0 hf .user)
    (Q := fun nUsers k => .read ds (.countUnique (some ["iid"])) fun nItems => .len ds fun _ =>
      .read ds (.values none) fun res => readUnique ds (ownCol cfg.kind) fun ids =>
      k (⟨computeSims cfg ((recsOf res).map recRating) M.sims, setNbrs cfg (ids.map idCell)
        (match cfg.kind with | .user => countOf nUsers | .item => countOf nItems)
        (computeSims cfg ((recsOf res).map recRating) M.sims) M.nbrs⟩, countOf nItems))
    (res' := fun _ => .ok (fitKnn cfg (ratingsOf m) M, nItemsOf m)) ?_
  intro nUsers hU
  cases hU
  refine DeliversIn.bind st (delivers_count (β := β) hn hds hS0 hf .item)
    (Q := fun nItems k => .len ds fun _ =>
      .read ds (.values none) fun res => readUnique ds (ownCol cfg.kind) fun ids =>
      k (⟨computeSims cfg ((recsOf res).map recRating) M.sims, setNbrs cfg (ids.map idCell)
        (match cfg.kind with | .user => (ownIds .user (ratingsOf m)).length | .item => countOf nItems)
        (computeSims cfg ((recsOf res).map recRating) M.sims) M.nbrs⟩, countOf nItems))
    (res' := fun _ => .ok (fitKnn cfg (ratingsOf m) M, nItemsOf m)) ?_
  intro nItems hI
  cases hI
  refine DeliversIn.bind st (delivers_len (β := β) ha)
    (Q := fun _ k => .read ds (.values none) fun res => readUnique ds (ownCol cfg.kind) fun ids =>
      k (⟨computeSims cfg ((recsOf res).map recRating) M.sims, setNbrs cfg (ids.map idCell)
        (match cfg.kind with
          | .user => (ownIds .user (ratingsOf m)).length
          | .item => (ownIds .item (ratingsOf m)).length)
        (computeSims cfg ((recsOf res).map recRating) M.sims) M.nbrs⟩, (ownIds .item (ratingsOf m)).length))
    (res' := fun _ => .ok (fitKnn cfg (ratingsOf m) M, nItemsOf m)) ?_
  intro _ _
  refine DeliversIn.bind st (delivers_records (β := β) hn hds hS0 hf)
    (Q := fun res k => readUnique ds (ownCol cfg.kind) fun ids =>
      k (⟨computeSims cfg ((recsOf res).map recRating) M.sims, setNbrs cfg (ids.map idCell)
        (match cfg.kind with
          | .user => (ownIds .user (ratingsOf m)).length
          | .item => (ownIds .item (ratingsOf m)).length)
        (computeSims cfg ((recsOf res).map recRating) M.sims) M.nbrs⟩, (ownIds .item (ratingsOf m)).length))
    (res' := fun _ => .ok (fitKnn cfg (ratingsOf m) M, nItemsOf m)) ?_
  intro res hres
  cases hres
  have hr : (recsOf (.recs (m.rows.map fun r => (r.toRec m.cols).filter fun q => q.1 ∈ m.cols))).map recRating =
      ratingsOf m := recs_ratings hf.nums.cols
  simp only [hr]
  refine DeliversIn.bind st (delivers_unique (β := β) hn hds hS0 hf (c := ownCol cfg.kind)
      (by cases cfg.kind <;> simp [ownCol]) hvs)
    (Q := fun ids k => k (⟨computeSims cfg (ratingsOf m) M.sims, setNbrs cfg (ids.map idCell)
        (match cfg.kind with
          | .user => (ownIds .user (ratingsOf m)).length
          | .item => (ownIds .item (ratingsOf m)).length)
        (computeSims cfg (ratingsOf m) M.sims) M.nbrs⟩, (ownIds .item (ratingsOf m)).length))
    (res' := fun _ => .ok (fitKnn cfg (ratingsOf m) M, nItemsOf m)) ?_
  intro ids hids
  cases hids
  have hk : (match cfg.kind with
      | .user => (ownIds .user (ratingsOf m)).length
      | .item => (ownIds .item (ratingsOf m)).length) = (ownIds cfg.kind (ratingsOf m)).length := by
    cases cfg.kind <;> rfl
  rw [hk, setNbrs_eq cfg hmem, nItems_length hf.fresh]
  exact deliversIn_ok _

/-! ## Predicting -/

/-- `predict` without `skip_errors`. -/
def predicted (m : Mem) (f : PredictFn ℚ) (user item : Lit) : Except Err ℚ :=
  match predict m true f user item false with
  | .error e => .error e
  | .ok none => .error .crash
  | .ok (some x) => .ok x

theorem predict_predicted (m : Mem) (f : PredictFn ℚ) (user item : Lit) :
    predict m true f user item false = (predicted m f user item).map some := by
  unfold predicted predict
  simp only [Bool.true_eq_false, if_false, Bool.false_eq_true]
  cases assertKnown (m.userToUid user) with
  | error e => rfl
  | ok _ =>
    cases assertKnown (m.itemToIid item) with
    | error e => rfl
    | ok _ => cases tryPredict m f user item <;> rfl

theorem delivers_predictRaw (hds : ds ∈ S) (hf : FittedOn w0 ds m T B)
    {f : Option Nat → Option Nat → (Option ℚ → DbProg β) → DbProg β} {f' : PredictFn ℚ}
    (h : ∀ u i, DeliversIn names S (sharedInv w0 S) (f u i) (f' u i)) (user item : Lit) :
    DeliversIn names S (sharedInv w0 S) (fun k => dbPredictRaw ds f user item k) (predicted m f' user item) := by
  have st := shared_stable (names := names) w0 S
  have hu := delivers_toUid (β := β) (names := names) hds hf user
  have hi := delivers_toIid (β := β) (names := names) hds hf item
  cases eu : m.userToUid user with
  | error e =>
    rw [eu] at hu
    have : predicted m f' user item = .error e := by simp [predicted, predict, assertKnown, eu]
    rw [this]
    exact DeliversIn.bind st hu (Q := fun v k => _) (res' := fun _ => .error e) fun v hv => by cases hv
  | ok u =>
    rw [eu] at hu
    cases u with
    | none =>
      have : predicted m f' user item = .error .notFound := by simp [predicted, predict, assertKnown, eu]
      rw [this]
      refine DeliversIn.bind st hu (Q := fun v k => if v = none then .ret (.error .notFound)
        else .toId ds "item" "iid" item fun v =>
          if v = none then .ret (.error .notFound)
          else .toId ds "user" "uid" user fun u => .toId ds "item" "iid" item fun i =>
            f (u.map idCell) (i.map idCell) fun p =>
              match p with
              | none => .ret (.error .crash)
              | some x => k x) (res' := fun _ => .error .notFound) fun v hv => ?_
      cases hv
      exact deliversIn_error _
    | some u =>
      refine DeliversIn.bind st hu (Q := fun v k => if v = none then .ret (.error .notFound)
        else .toId ds "item" "iid" item fun v =>
          if v = none then .ret (.error .notFound)
          else .toId ds "user" "uid" user fun u => .toId ds "item" "iid" item fun i =>
            f (u.map idCell) (i.map idCell) fun p =>
              match p with
              | none => .ret (.error .crash)
              | some x => k x) (res' := fun _ => predicted m f' user item) fun v hv => ?_
      cases hv
      cases ei : m.itemToIid item with
      | error e =>
        rw [ei] at hi
        have : predicted m f' user item = .error e := by simp [predicted, predict, assertKnown, eu, ei]
        rw [this]
        exact DeliversIn.bind st hi (Q := fun v k => _) (res' := fun _ => .error e) fun v hv => by cases hv
      | ok i =>
        rw [ei] at hi
        cases i with
        | none =>
          have : predicted m f' user item = .error .notFound := by simp [predicted, predict, assertKnown, eu, ei]
          rw [this]
          refine DeliversIn.bind st hi (Q := fun v k => if v = none then .ret (.error .notFound)
            else .toId ds "user" "uid" user fun u => .toId ds "item" "iid" item fun i =>
              f (u.map idCell) (i.map idCell) fun p =>
                match p with
                | none => .ret (.error .crash)
                | some x => k x) (res' := fun _ => .error .notFound) fun v hv => ?_
          cases hv
          exact deliversIn_error _
        | some i =>
          refine DeliversIn.bind st hi (Q := fun v k => if v = none then .ret (.error .notFound)
            else .toId ds "user" "uid" user fun u => .toId ds "item" "iid" item fun i =>
              f (u.map idCell) (i.map idCell) fun p =>
                match p with
                | none => .ret (.error .crash)
                | some x => k x) (res' := fun _ => predicted m f' user item) fun v hv => ?_
          cases hv
          refine DeliversIn.bind st hu (Q := fun u k => .toId ds "item" "iid" item fun i =>
              f (u.map idCell) (i.map idCell) fun p =>
                match p with
                | none => .ret (.error .crash)
                | some x => k x) (res' := fun _ => predicted m f' user item) fun v hv => ?_
          cases hv
          refine DeliversIn.bind st hi (Q := fun i' k =>
              f (some (idCell (codeVal u))) (i'.map idCell) fun p =>
                match p with
                | none => .ret (.error .crash)
                | some x => k x) (res' := fun _ => predicted m f' user item) fun v hv => ?_
          cases hv
          have e : predicted m f' user item = (f' (some u) (some i)).bind fun o =>
              match o with | none => .error .crash | some x => .ok x := by
            simp only [predicted, predict, assertKnown, eu, ei, tryPredict, Bool.true_eq_false, if_false, Bool.false_eq_true]
            cases f' (some u) (some i) with
            | error e => rfl
            | ok o => cases o <;> rfl
          rw [e]
          simp only [Option.map_some, idCell_code]
          refine DeliversIn.bind st (h (some u) (some i)) (Q := fun p k =>
              match p with
              | none => .ret (.error .crash)
              | some x => k x) fun p _ => ?_
          cases p with
          | none => exact deliversIn_error _
          | some x => exact deliversIn_ok _

end

end DRec.Conc
