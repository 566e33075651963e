import Verif.Spec.MemOom
import Verif.Props.Vectors

/-! # C117: interaction vectors when the matrix does not fit into memory -/

namespace DRec

open Spec

/-- The dataset after a change of all interactions; caches as they were. -/
def changedBy (ds : Mem) (g : ℚ → ℚ) : Mem :=
  { ds with
    rows := ds.rows.map fun r => r.set "interaction" (.num (g (numCell (r.get "interaction"))))
    dtype := fun d => if d = "interaction" then newDType (ds.dtype "interaction")
      ((ds.rows.map fun r => r.set "interaction" (.num (g (numCell (r.get "interaction"))))).map (·.get "interaction"))
      else ds.dtype d }

theorem changed_get (r : Row) (v : Val) (c : String) (hc : c ≠ "interaction") : (r.set "interaction" v).get c = r.get c := by
  rw [Row.get_set _ _ _ _ (by decide), if_neg hc]

theorem changed_fresh {ds : Mem} (h : Fresh ds) (g : ℚ → ℚ) : Fresh (changedBy ds g) := by
  refine ⟨⟨h.ids.has, ⟨h.ids.user.nodup, h.ids.user.hasRaw, h.ids.user.hasCol, ?_⟩,
    ⟨h.ids.item.nodup, h.ids.item.hasRaw, h.ids.item.hasCol, ?_⟩⟩, ?_, ?_, h.hasInter, ?_⟩
  · intro r hr
    obtain ⟨r0, h0, rfl⟩ := List.mem_map.1 hr
    rw [changed_get _ _ _ (by decide), changed_get _ _ _ (by decide)]
    exact h.ids.user.code r0 h0
  · intro r hr
    obtain ⟨r0, h0, rfl⟩ := List.mem_map.1 hr
    rw [changed_get _ _ _ (by decide), changed_get _ _ _ (by decide)]
    exact h.ids.item.code r0 h0
  · intro v hv
    obtain ⟨r, hr, he⟩ := h.users v hv
    exact ⟨_, List.mem_map_of_mem hr, by rw [changed_get _ _ _ (by decide)]; exact he⟩
  · intro v hv
    obtain ⟨r, hr, he⟩ := h.items v hv
    exact ⟨_, List.mem_map_of_mem hr, by rw [changed_get _ _ _ (by decide)]; exact he⟩
  · intro r hr
    obtain ⟨r0, h0, rfl⟩ := List.mem_map.1 hr
    exact ⟨_, by rw [Row.get_set _ _ _ _ (by decide), if_pos rfl]⟩

theorem apply_change {ds : Mem} (h : Fresh ds) (f : Val → Option Val) (g : ℚ → ℚ) (hf : ∀ q, f (.num q) = some (.num (g q)))
    (hne : ds.rows ≠ []) : ds.apply "interaction" f = (if ds.cache.isSome then
      { changedBy ds g with cache := some (fullMat (changedBy ds g)), cacheT := some (fullMat (changedBy ds g)) }
      else changedBy ds g, none) := by
  have hf' : ∀ r ∈ ds.rows, f (r.get "interaction") = some (.num (g (numCell (r.get "interaction")))) := by
    intro r hr
    obtain ⟨q, hq⟩ := h.numeric r hr
    rw [hq, hf]; rfl
  have hm : ds.rows.mapM (fun r => (f (r.get "interaction")).map fun v => r.set "interaction" v) =
      some (ds.rows.map fun r => r.set "interaction" (.num (g (numCell (r.get "interaction"))))) := by
    apply mapM_option_some
    intro r hr
    rw [hf' r hr]; rfl
  have hb := buildMatrix_ok _ (changed_fresh h g)
  unfold Mem.apply
  rw [if_pos h.hasInter, if_neg (by decide)]
  cases hrows : ds.rows with
  | nil => exact absurd hrows hne
  | cons r0 rest =>
    have h0 := hf' r0 (by simp [hrows])
    rw [hrows] at hm
    simp only [h0, hm]
    have e : ({ ds with
        rows := (r0 :: rest).map fun r => r.set "interaction" (.num (g (numCell (r.get "interaction"))))
        dtype := fun d => if d = "interaction" then newDType (ds.dtype "interaction")
          (((r0 :: rest).map fun r => r.set "interaction" (.num (g (numCell (r.get "interaction"))))).map
            (·.get "interaction")) else ds.dtype d } : Mem) = changedBy ds g := by
      simp only [changedBy, hrows]
    rw [e, hb]
    cases ds.cache.isSome <;> simp [changedBy, hrows]

/-- What stays the same whether or not memory runs out. -/
def SameRecords (a b : Mem) : Prop :=
  a.cols = b.cols ∧ a.rows = b.rows ∧ a.hasIds = b.hasIds ∧ a.userMap = b.userMap ∧ a.itemMap = b.itemMap

theorem SameRecords.fresh {a b : Mem} (h : SameRecords b a) (hf : Fresh a) : Fresh b :=
  fresh_congr hf h.1 h.2.1 h.2.2.1 h.2.2.2.1 h.2.2.2.2

/-- Caches that can occur. -/
def CacheM (ds : Mem) : Prop :=
  (ds.cache = none) ∨ (ds.cache = some (fullMat ds) ∧ ds.cacheT = some (fullMat ds)) ∨ ds.cache = some zeroMat

theorem fullMat_congr {a b : Mem} (h : SameRecords b a) : fullMat b = fullMat a := by
  obtain ⟨_, h2, _, h4, h5⟩ := h
  simp only [fullMat, h4, h5]
  congr 3
  funext u
  simp only [userTriples, h2, h5]

theorem userVecM_ok {ds : Mem} (h : Fresh ds) (hc : CacheM ds) (oom : Bool) (u : Nat) :
    (u < ds.userMap.length → (ds.userVecM oom u).2 = .ok (vecSpec ds (.user u))) ∧ CacheM (ds.userVecM oom u).1 ∧
      SameRecords (ds.userVecM oom u).1 ds := by
  by_cases hlt : u < ds.userMap.length
  · have h1 : ds.uidToUser u = .ok (some ds.userMap[u]) := by simp [Mem.uidToUser, h.ids.has, hlt]
    unfold Mem.userVecM
    simp only [h1]
    split
    · exact ⟨fun _ => userVecSlow_ok ds h u, .inr (.inr rfl), rfl, rfl, rfl, rfl, rfl⟩
    · rcases hc with hc | ⟨hc, hc'⟩ | hc
      · obtain ⟨g1, g2, g3⟩ := serve_ok ds h (.inl hc) (.user u) hlt (.inr ⟨u, rfl⟩)
        exact ⟨fun _ => g1, g2.imp id (.imp id And.right), g3⟩
      · obtain ⟨g1, g2, g3⟩ := serve_ok ds h (.inr (.inl ⟨hc, hc'⟩)) (.user u) hlt (.inr ⟨u, rfl⟩)
        exact ⟨fun _ => g1, g2.imp id (.imp id And.right), g3⟩
      · simp only [Mem.userVec, h1, hc, zeroMat, le_refl, if_true]
        exact ⟨fun _ => userVecSlow_ok ds h u, .inr (.inr rfl), rfl, rfl, rfl, rfl, rfl⟩
  · have h1 : ds.uidToUser u = .ok none := by simp [Mem.uidToUser, h.ids.has]; omega
    unfold Mem.userVecM Mem.userVec
    simp only [h1]
    exact ⟨fun h => absurd h hlt, hc, rfl, rfl, rfl, rfl, rfl⟩

theorem itemVecM_ok {ds : Mem} (h : Fresh ds) (hc : CacheM ds) (oom : Bool) (i : Nat) :
    CacheM (ds.itemVecM oom i).1 ∧ SameRecords (ds.itemVecM oom i).1 ds := by
  by_cases hlt : i < ds.itemMap.length
  · have h1 : ds.iidToItem i = .ok (some ds.itemMap[i]) := by simp [Mem.iidToItem, h.ids.has, hlt]
    unfold Mem.itemVecM
    simp only [h1]
    split
    · exact ⟨.inr (.inr rfl), rfl, rfl, rfl, rfl, rfl⟩
    · unfold Mem.itemVec
      simp only [h1]
      rcases hc with hc | ⟨hc, hc'⟩ | hc
      · simp only [hc, buildMatrix_ok ds h]
        exact ⟨.inr (.inl ⟨rfl, rfl⟩), rfl, rfl, rfl, rfl, rfl⟩
      · simp only [hc, hc']
        split
        · exact ⟨.inr (.inr rfl), rfl, rfl, rfl, rfl, rfl⟩
        · exact ⟨.inr (.inl ⟨hc, hc'⟩), rfl, rfl, rfl, rfl, rfl⟩
      · simp only [hc, zeroMat, le_refl, if_true]
        exact ⟨.inr (.inr rfl), rfl, rfl, rfl, rfl, rfl⟩
  · have h1 : ds.iidToItem i = .ok none := by simp [Mem.iidToItem, h.ids.has]; omega
    unfold Mem.itemVecM Mem.itemVec
    simp only [h1]
    exact ⟨hc, rfl, rfl, rfl, rfl, rfl⟩

theorem userVecM_false (ds : Mem) (u : Nat) : ds.userVecM false u = ds.userVec u := by
  unfold Mem.userVecM
  split
  · rw [if_neg (by simp)]
  · rfl

theorem itemVecM_false (ds : Mem) (i : Nat) : ds.itemVecM false i = ds.itemVec i := by
  unfold Mem.itemVecM
  split
  · rw [if_neg (by simp)]
  · rfl

/-- `apply` has its effect on the records whether or not memory runs out. -/
theorem applyM_ok {ds : Mem} (h : Fresh ds) (oom : Bool) (f : Val → Option Val) (g : ℚ → ℚ)
    (hf : ∀ q, f (.num q) = some (.num (g q))) (hc : CacheM ds) :
    CacheM (ds.applyM oom "interaction" f).1 ∧ SameRecords (ds.applyM oom "interaction" f).1 (changedBy ds g) := by
  by_cases hne : ds.rows = []
  · have hch : SameRecords ds (changedBy ds g) := by simp [SameRecords, changedBy, hne]
    have hap : ∀ d : Mem, d.cols = ds.cols → d.rows = [] → d.apply "interaction" f = (d, some .applyFailed) := by
      intro d h1 h2
      unfold Mem.apply
      rw [h1, if_pos h.hasInter, if_neg (by decide), h2]
    unfold Mem.applyM
    split
    · rw [hap { ds with cache := none } rfl hne]
      exact ⟨hc, hch⟩
    · rw [hap ds rfl hne]
      exact ⟨hc, hch⟩
  · unfold Mem.applyM
    split
    · have hfr : Fresh { ds with cache := none } := fresh_congr h rfl rfl rfl rfl rfl
      rw [apply_change hfr f g hf hne]
      exact ⟨.inl rfl, rfl, rfl, rfl, rfl, rfl⟩
    · rw [apply_change h f g hf hne]
      cases hcs : ds.cache.isSome with
      | true => exact ⟨.inr (.inl ⟨rfl, rfl⟩), rfl, rfl, rfl, rfl, rfl⟩
      | false =>
        refine ⟨.inl ?_, rfl, rfl, rfl, rfl, rfl⟩
        cases hx : ds.cache with
        | none => simpa [changedBy] using hx
        | some m => rw [hx] at hcs; cases hcs

theorem changed_congr {a b : Mem} (h : SameRecords b a) (g : ℚ → ℚ) : SameRecords (changedBy b g) (changedBy a g) := by
  obtain ⟨h1, h2, h3, h4, h5⟩ := h
  simp [SameRecords, changedBy, h1, h2, h3, h4, h5]

theorem SameRecords.trans {a b c : Mem} (h : SameRecords a b) (k : SameRecords b c) : SameRecords a c :=
  ⟨h.1.trans k.1, h.2.1.trans k.2.1, h.2.2.1.trans k.2.2.1, h.2.2.2.1.trans k.2.2.2.1, h.2.2.2.2.trans k.2.2.2.2⟩

theorem SameRecords.symm {a b : Mem} (h : SameRecords a b) : SameRecords b a :=
  ⟨h.1.symm, h.2.1.symm, h.2.2.1.symm, h.2.2.2.1.symm, h.2.2.2.2.symm⟩

theorem step_ok (op : VecOp) (hop : op.Numeric) {a b : Mem} (h : Fresh a) (hs : SameRecords b a) (ha : CacheM a)
    (hb : CacheM b) (x y : Bool) : Fresh (op.run x a) ∧ CacheM (op.run x a) ∧ CacheM (op.run y b) ∧
      SameRecords (op.run y b) (op.run x a) := by
  have hfb := hs.fresh h
  cases op with
  | vec q =>
    cases q with
    | user u =>
      obtain ⟨_, c1, s1⟩ := userVecM_ok h ha x u
      obtain ⟨_, c2, s2⟩ := userVecM_ok hfb hb y u
      exact ⟨s1.fresh h, c1, c2, (s2.trans hs).trans s1.symm⟩
    | item i =>
      obtain ⟨c1, s1⟩ := itemVecM_ok h ha x i
      obtain ⟨c2, s2⟩ := itemVecM_ok hfb hb y i
      exact ⟨s1.fresh h, c1, c2, (s2.trans hs).trans s1.symm⟩
  | change f =>
    choose g hg using hop
    obtain ⟨c1, s1⟩ := applyM_ok h x f g hg ha
    obtain ⟨c2, s2⟩ := applyM_ok hfb y f g hg hb
    exact ⟨s1.fresh (changed_fresh h g), c1, c2, (s2.trans (changed_congr hs g)).trans s1.symm⟩

theorem run_fresh {ds : Mem} (h : Fresh ds) (hc : CacheM ds) (ops : List (Bool × VecOp)) (hops : ∀ p ∈ ops, p.2.Numeric) :
    Fresh (runVecOps ds ops) ∧ CacheM (runVecOps ds ops) := by
  induction ops generalizing ds with
  | nil => exact ⟨h, hc⟩
  | cons p ps ih =>
    obtain ⟨h1, h2, _⟩ := step_ok p.2 (hops p (by simp)) h ⟨rfl, rfl, rfl, rfl, rfl⟩ hc hc p.1 p.1
    exact ih h1 h2 fun q hq => hops q (by simp [hq])

/-- **C117**, user vectors: after every history of requests and changes of the interactions, whenever memory runs out,
the vector of a user has the interactions of the records. -/
theorem C117_user (ds : Mem) (h : Fresh ds) (hc : ds.cache = none) (ops : List (Bool × VecOp))
    (hops : ∀ p ∈ ops, p.2.Numeric) (oom : Bool) (u : Nat) (hu : u < (runVecOps ds ops).userMap.length) :
    ((runVecOps ds ops).userVecM oom u).2 = .ok (vecSpec (runVecOps ds ops) (.user u)) := by
  obtain ⟨h1, h2⟩ := run_fresh h (.inl hc) ops hops
  exact (userVecM_ok h1 h2 oom u).1 hu

/-- **C117**, records: running out of memory changes nothing about the records, columns and ids, even where `apply`
raises because of it. -/
theorem C117_records (ds : Mem) (h : Fresh ds) (hc : ds.cache = none) (ops : List VecOp)
    (hops : ∀ p ∈ ops, p.Numeric) (xs ys : List Bool) (hx : xs.length = ops.length) (hy : ys.length = ops.length) :
    (runVecOps ds (xs.zip ops)).rows = (runVecOps ds (ys.zip ops)).rows ∧
    (runVecOps ds (xs.zip ops)).cols = (runVecOps ds (ys.zip ops)).cols ∧
    (runVecOps ds (xs.zip ops)).userMap = (runVecOps ds (ys.zip ops)).userMap ∧
    (runVecOps ds (xs.zip ops)).itemMap = (runVecOps ds (ys.zip ops)).itemMap := by
  have gen : ∀ (ops : List VecOp), (∀ p ∈ ops, p.Numeric) → ∀ (xs ys : List Bool) (a b : Mem), Fresh a →
      SameRecords b a → CacheM a → CacheM b → xs.length = ops.length → ys.length = ops.length →
      SameRecords (runVecOps b (ys.zip ops)) (runVecOps a (xs.zip ops)) := by
    intro ops
    induction ops with
    | nil => intro _ xs ys a b _ hs _ _ _ _; simpa [runVecOps] using hs
    | cons o ops ih =>
      intro ho xs ys a b hf hs ha hb hx hy
      match xs, ys, hx, hy with
      | x :: xs, y :: ys, hx, hy =>
        obtain ⟨g1, g2, g3, g4⟩ := step_ok o (ho o (by simp)) hf hs ha hb x y
        exact ih (fun p hp => ho p (by simp [hp])) xs ys _ _ g1 g4 g2 g3 (by simpa using hx) (by simpa using hy)
  obtain ⟨h1, h2, _, h4, h5⟩ := gen ops hops ys xs ds ds h ⟨rfl, rfl, rfl, rfl, rfl⟩ (.inl hc) (.inl hc) hy hx
  exact ⟨h2, h1, h4, h5⟩

/-- Caches as long as memory suffices. -/
def CacheNone (ds : Mem) : Prop :=
  (ds.cache = none) ∨ (ds.cache = some (fullMat ds) ∧ ds.cacheT = some (fullMat ds))

/-- **C117**, item vectors (partial: the full claim is that they are right as well when memory runs out, which fails, see
`C117_item_fallback`): as long as memory suffices and there are at least two users, the vector of an item has the
interactions of the records. -/
theorem C117_item_partial (ds : Mem) (h : Fresh ds) (hc : ds.cache = none) (hu : 2 ≤ ds.userMap.length)
    (ops : List VecOp) (hops : ∀ p ∈ ops, p.Numeric) (i : Nat)
    (hi : i < (runVecOps ds (ops.map (false, ·))).itemMap.length) :
    ((runVecOps ds (ops.map (false, ·))).itemVecM false i).2 =
      .ok (vecSpec (runVecOps ds (ops.map (false, ·))) (.item i)) := by
  have gen : ∀ (ops : List VecOp), (∀ p ∈ ops, p.Numeric) → ∀ a : Mem, Fresh a → CacheNone a → 2 ≤ a.userMap.length →
      Fresh (runVecOps a (ops.map (false, ·))) ∧ CacheNone (runVecOps a (ops.map (false, ·))) ∧
        2 ≤ (runVecOps a (ops.map (false, ·))).userMap.length := by
    intro ops
    induction ops with
    | nil => intro _ a h1 h2 h3; exact ⟨h1, h2, h3⟩
    | cons o ops ih =>
      intro ho a h1 h2 h3
      have hM : CacheM a := h2.imp id .inl
      obtain ⟨g1, _, _, _⟩ := step_ok o (ho o (by simp)) h1 ⟨rfl, rfl, rfl, rfl, rfl⟩ hM hM false false
      have hs : CacheNone (o.run false a) ∧ 2 ≤ (o.run false a).userMap.length := by
        have hserve : ∀ q : VecReq, q.Known a → CacheNone (serve a q).1 ∧ (serve a q).1.userMap = a.userMap := by
          intro q hq
          obtain ⟨_, c, _, _, _, e, _⟩ := serve_ok a h1 (h2.imp id .inl) q hq (.inl h3)
          refine ⟨?_, e⟩
          rcases c with c | c | ⟨c, _⟩
          · exact .inl c
          · exact .inr c
          · rw [e] at c; omega
        cases o with
        | vec q =>
          cases q with
          | user u =>
            simp only [VecOp.run, userVecM_false]
            by_cases hk : u < a.userMap.length
            · obtain ⟨k1, k2⟩ := hserve (.user u) hk
              exact ⟨k1, by rw [show (a.userVec u).1 = (serve a (.user u)).1 from rfl, k2]; exact h3⟩
            · have e : a.uidToUser u = .ok none := by simp [Mem.uidToUser, h1.ids.has]; omega
              simp only [Mem.userVec, e]
              exact ⟨h2, h3⟩
          | item i =>
            simp only [VecOp.run, itemVecM_false]
            by_cases hk : i < a.itemMap.length
            · obtain ⟨k1, k2⟩ := hserve (.item i) hk
              exact ⟨k1, by rw [show (a.itemVec i).1 = (serve a (.item i)).1 from rfl, k2]; exact h3⟩
            · have e : a.iidToItem i = .ok none := by simp [Mem.iidToItem, h1.ids.has]; omega
              simp only [Mem.itemVec, e]
              exact ⟨h2, h3⟩
        | change f =>
          obtain ⟨g, hg⟩ := Classical.axiomOfChoice (ho (.change f) (by simp))
          have hne : a.rows ≠ [] := by
            intro e
            have : a.userMap ≠ [] := by intro e; rw [e] at h3; simp at h3
            obtain ⟨v, l, hv⟩ := List.exists_cons_of_ne_nil this
            obtain ⟨r, hr, _⟩ := h1.users v (by simp [hv])
            rw [e] at hr; cases hr
          simp only [VecOp.run, Mem.applyM, Bool.false_eq_true, false_and, if_false]
          rw [apply_change h1 f g hg hne]
          cases hcs : a.cache.isSome with
          | true => exact ⟨.inr ⟨rfl, rfl⟩, h3⟩
          | false =>
            refine ⟨.inl ?_, h3⟩
            cases hx : a.cache with
            | none => simpa [changedBy] using hx
            | some m => rw [hx] at hcs; cases hcs
      exact ih (fun p hp => ho p (by simp [hp])) _ g1 hs.1 hs.2
  obtain ⟨g1, g2, g3⟩ := gen ops hops ds h (.inl hc) hu
  generalize runVecOps ds (ops.map (false, ·)) = d at *
  have := (serve_ok d g1 (g2.imp id .inl) (.item i) hi (.inl g3)).1
  rw [itemVecM_false]
  exact this

/-- **C117**, what the code does for items once memory ran out: the answer has a single entry, at the position of the
item instead of those of the users, with all interactions of the item added up; when there are not more users than the
internal id of the item, the request raises. -/
theorem C117_item_fallback (ds : Mem) (h : Fresh ds) (i : Nat) (hi : i < ds.itemMap.length)
    (hc : ds.cache = some zeroMat ∨ ds.cache = none) :
    (ds.itemVecM true i).2 = (if i < ds.userMap.length then
        .ok ((List.range ds.userMap.length).map fun u => if u = i then itemTotal ds.rows i else 0)
      else .error .outOfRange) ∧ (ds.itemVecM true i).1.cache = some zeroMat := by
  have hslow : ds.itemVecSlow i = if i < ds.userMap.length then
      .ok ((List.range ds.userMap.length).map fun u => if u = i then itemTotal ds.rows i else 0)
      else .error .outOfRange := by
    have hcode : ∀ r ∈ rowsWith "iid" i ds.rows, codeNat ds.itemMap "item" r = i := by
      intro r hr
      obtain ⟨h1, h2⟩ := List.mem_filter.1 hr
      exact (iid_eq_iff ds h r h1 i).1 (by simpa using h2)
    have h1 : (rowsWith "iid" i ds.rows).mapM (rowEntry "iid") =
        .ok ((rowsWith "iid" i ds.rows).map fun r => (i, numCell (r.get "interaction"))) := by
      apply mapM_except_ok
      intro r hr
      rw [rowEntry_ok ds h r (mem_rowsWith hr), hcode r hr]
    unfold Mem.itemVecSlow
    rw [h1, countDistinct_eq ds "user" "uid" _ h.ids.user h.users]
    simp only [bind, Except.bind, mkMat, List.map_map]
    by_cases hlt : i < ds.userMap.length
    · rw [if_pos, if_pos hlt]
      · simp only [Mat.row, Except.ok.injEq]
        apply List.map_congr_left
        intro u _
        simp only [Mat.entry, List.filter_map, List.map_map, itemTotal]
        by_cases hui : u = i
        · subst hui
          simp [Function.comp_def, rowsWith]
        · have : ¬ i = u := fun e => hui e.symm
          simp [Function.comp_def, hui, this]
      · simp [List.all_eq_true, hlt]
    · rw [if_neg, if_neg hlt]
      intro hall
      obtain ⟨r, hr, he⟩ := h.items ds.itemMap[i] (List.getElem_mem hi)
      have hr' : r ∈ rowsWith "iid" i ds.rows := by
        refine List.mem_filter.2 ⟨hr, ?_⟩
        simp [(h.ids.item.code r hr).2, he, h.ids.item.nodup.idxOf_getElem]
      have := List.all_eq_true.1 hall _ (List.mem_map_of_mem hr')
      simp [hlt] at this
  have h1 : ds.iidToItem i = .ok (some ds.itemMap[i]) := by simp [Mem.iidToItem, h.ids.has, hi]
  unfold Mem.itemVecM
  simp only [h1]
  rcases hc with hc | hc
  · simp only [hc, reduceCtorEq, and_false, if_false, Mem.itemVec, h1, zeroMat, le_refl, if_true]
    exact ⟨hslow, trivial⟩
  · simp only [hc, and_self, if_true]
    exact ⟨hslow, trivial⟩

/-- Two users and three items. -/
def exOom : Mem := (mkMem .obj [(.str "u", .str "a", 3), (.str "v", .str "a", 4), (.str "u", .str "b", 5),
  (.str "v", .str "c", 1)]).assignIds.1

theorem exOom_fresh : Fresh exOom :=
  C15_fresh_after_assign _ (by decide) (by decide) (by decide) (by
    intro r hr
    simp only [mkMem, List.zipIdx_cons, List.zipIdx_nil, List.map_cons, List.map_nil, List.mem_cons, List.not_mem_nil,
      or_false] at hr
    rcases hr with rfl | rfl | rfl | rfl
    · exact ⟨3, by decide⟩
    · exact ⟨4, by decide⟩
    · exact ⟨5, by decide⟩
    · exact ⟨1, by decide⟩)

/-- **C117 fails** for items: once memory ran out item 0 has no interaction of the second user and a wrong one of the
first, and item 2 raises. -/
theorem C117_item_fails : vecSpec exOom (.item 0) = [3, 4] ∧ (exOom.itemVecM true 0).2 = .ok [7, 0] ∧
    vecSpec exOom (.item 2) = [0, 1] ∧ (exOom.itemVecM true 2).2 = .error .outOfRange ∧
    ((exOom.userVecM true 0).1.itemVecM false 1).2 = .ok [0, 5] ∧ vecSpec exOom (.item 1) = [5, 0] := by
  decide +kernel

/-- **C117 fails** for `apply`: it raises when the matrix that was there before cannot be built again, but the
interactions are changed. -/
theorem C117_apply_fails (ds : Mem) (h : Fresh ds) (hne : ds.rows ≠ []) (hc : ds.cache.isSome = true)
    (f : Val → Option Val) (g : ℚ → ℚ) (hf : ∀ q, f (.num q) = some (.num (g q))) :
    (ds.applyM true "interaction" f).2 = some .applyFailed ∧
    (ds.applyM true "interaction" f).1.rows.map (fun r => numCell (r.get "interaction")) =
      ds.rows.map fun r => g (numCell (r.get "interaction")) := by
  have hfr : Fresh { ds with cache := none } := fresh_congr h rfl rfl rfl rfl rfl
  unfold Mem.applyM
  rw [if_pos ⟨rfl, rfl, hc⟩, apply_change hfr f g hf hne]
  refine ⟨rfl, ?_⟩
  simp only [Option.isSome_none, Bool.false_eq_true, if_false, changedBy, List.map_map]
  apply List.map_congr_left
  intro r _
  simp [Row.get_set _ _ _ _ (show "interaction" ≠ "rid" by decide), numCell]

/-- The hypotheses hold for this dataset and a history with a change of the interactions. -/
example : exOom.cache = none ∧ 2 ≤ exOom.userMap.length ∧ exOom.rows ≠ [] ∧
    (∀ p ∈ [(true, VecOp.vec (.user 0)), (false, .vec (.item 1)), (true, .change fun v => some (.num (numCell v + 1)))],
      p.2.Numeric) ∧
    ((runVecOps exOom [(false, .vec (.user 0)), (true, .change fun v => some (.num (numCell v + 1)))]).userVecM true 0).2 =
      .ok [4, 6, 0] := by
  refine ⟨rfl, by decide +kernel, by decide +kernel, ?_, by decide +kernel⟩
  intro p hp
  simp only [List.mem_cons, List.not_mem_nil, or_false] at hp
  rcases hp with rfl | rfl | rfl
  · trivial
  · trivial
  · exact fun q => ⟨q + 1, rfl⟩

end DRec
