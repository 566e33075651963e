import Verif.Spec.DbGen
import Verif.Lemmas.DbGen
import Verif.Props.Generators

/-! # PointSampler over a database dataset: steps -/

namespace DRec.Conc

open Spec

/-- The dataset sampled from, in memory: ids and interactions are numbers and ids are natural numbers. -/
structure Sampleable (m : Mem) (T : Option (String → DType)) : Prop where
  nums : Numbers m T
  ids : ∀ r ∈ m.rows, IsId "uid" r ∧ IsId "iid" r
  has : m.hasIds = true
  ne : m.rows ≠ []

/-- Rows kept in memory. -/
def withRows (m : Mem) (rows : List Row) : Mem := { m with rows := rows }

/-- State of the generator of existing pairs. -/
def ExOk (w : World) (m : Mem) (T : Option (String → DType)) (B : Nat) (t : Option ℚ) : Option DbRecGen → Prop
  | none => negRows m.rows t = []
  | some g => ShowsMem w g.inst (withRows m (negRows m.rows t)) T B ∧ Started g (negRows m.rows t)

/-- State of a sampler. -/
structure SamplerInv (names : List String) (w : World) (S : DbSampler) (i : Nat) (m : Mem) (T : Option (String → DType))
    (B : Nat) (t : Option PyNum) : Prop where
  good : Good names w
  ds : ShowsMem w i m T B
  inst : S.neg.inst = i
  thr : S.neg.threshold = t.map PyNum.text
  pos : ShowsMem w S.pos.inst (withRows m (thresholdRows (t.map PyNum.value) m.rows)) T B
  posState : S.pos.state = .fresh ∨ Started S.pos (thresholdRows (t.map PyNum.value) m.rows) ∨
    (S.pos.state = .dead ∧ thresholdRows (t.map PyNum.value) m.rows = [])
  negState : S.neg.state = .fresh ∨ ∃ mu mi ex, S.neg.state = .running mu mi ex ∧ maxId "uid" m.rows = some mu ∧
    maxId "iid" m.rows = some mi ∧ ExOk w m T B (t.map PyNum.value) ex

theorem ExOk.keep {w w' : World} {m : Mem} {T : Option (String → DType)} {B : Nat} {t : Option ℚ} {ex : Option DbRecGen}
    (h : ExOk w m T B t ex) (hk : ∀ g ∈ ex, Keeps w w' g.inst) : ExOk w' m T B t ex := by
  cases ex with
  | none => exact h
  | some g => exact ⟨h.1.keep (hk g rfl), h.2⟩

/-- Nothing the sampler uses has changed. -/
theorem SamplerInv.keep {names : List String} {w w' : World} {S : DbSampler} {i : Nat} {m : Mem}
    {T : Option (String → DType)} {B : Nat} {t : Option PyNum} (h : SamplerInv names w S i m T B t) (hg : Good names w')
    (hk : ∀ k ∈ samplerHolds S, Keeps w w' k) : SamplerInv names w' S i m T B t := by
  refine ⟨hg, h.ds.keep (hk i (by simp [samplerHolds, h.inst])), h.inst, h.thr,
    h.pos.keep (hk _ (by simp [samplerHolds])), h.posState, ?_⟩
  rcases h.negState with h1 | ⟨mu, mi, ex, h1, h2, h3, h4⟩
  · exact Or.inl h1
  · refine Or.inr ⟨mu, mi, ex, h1, h2, h3, h4.keep ?_⟩
    intro g hg'
    cases ex with
    | none => cases hg'
    | some g0 =>
      cases hg'
      exact hk _ (by simp [samplerHolds, h1])

theorem SamplerInv.alive {names : List String} {w : World} {S : DbSampler} {i : Nat} {m : Mem}
    {T : Option (String → DType)} {B : Nat} {t : Option PyNum} (h : SamplerInv names w S i m T B t) {k : Nat}
    (hk : k ∈ samplerHolds S) : (w.insts k).isSome := by
  have live : ∀ {j : Nat} {m' : Mem}, ShowsMem w j m' T B → (w.insts j).isSome := by
    intro j m' hs
    obtain ⟨x, hx, _⟩ := hs.inst
    rw [hx]; rfl
  unfold samplerHolds at hk
  rcases List.mem_cons.1 hk with rfl | hk
  · rw [h.inst]; exact live h.ds
  rcases List.mem_cons.1 hk with rfl | hk
  · exact live h.pos
  rcases h.negState with h1 | ⟨mu, mi, ex, h1, _, _, h4⟩
  · rw [h1] at hk; simp at hk
  · rw [h1] at hk
    cases ex with
    | none => simp at hk
    | some g =>
      simp only [List.mem_singleton] at hk
      subst hk
      exact live h4.1

theorem Sampleable.sub {m : Mem} {T : Option (String → DType)} (h : Sampleable m T) {rows : List Row} (hr : rows ⊆ m.rows) :
    Numbers (withRows m rows) T :=
  ⟨h.nums.full, h.nums.cols, fun c hc r hr' => h.nums.cells c hc r (hr hr'), h.nums.types⟩

theorem thresholdRows_sub (t : Option ℚ) (rows : List Row) : thresholdRows t rows ⊆ rows := by
  cases t with
  | none => exact fun _ h => h
  | some t => exact fun _ h => (List.mem_filter.1 h).1

theorem negRows_sub (t : Option ℚ) (rows : List Row) : negRows rows t ⊆ rows := by
  cases t with
  | none => intro r h; simp [negRows] at h
  | some t => exact fun _ h => (List.mem_filter.1 h).1

theorem nextPositiveDb_eq (rows : List Row) (t : Option ℚ) (draws : List Nat) :
    nextPositiveDb rows t draws = match maxId "uid" (thresholdRows t rows) with
      | none => none
      | some M => nextRecord M (thresholdRows t rows) draws := by
  cases t <;> rfl

/-- The written condition of a threshold. -/
def thrWritten (op : Op) (l : SLit) : List (List Char × SCond × List Char) := [([], ⟨"interaction", op, l⟩, [])]

theorem thr_pre {names : List String} {m : Mem} {T : Option (String → DType)} (h : Numbers m T) (op : Op) {l : SLit}
    (hw : l.Writable) {q : ℚ} (hl : l.value = .num q) : SelectPre names (thrWritten op l) (memPlain m) T := by
  apply selectPre_num (by simp [thrWritten])
  intro c hc
  simp only [thrWritten, List.mem_singleton] at hc
  subst hc
  have hname : NameOk "interaction" := by decide
  exact ⟨by simp [Blank], by simp [Blank], hname, hw, ⟨q, hl⟩, h.cols _ (by simp),
    fun ty hty => h.types ty hty _ (by simp), h.cells _ (by simp)⟩

/-- What a sampled pair shows. -/
def negTriple {σ : Type} : Option ((Nat × Nat) × σ) → NextOut Triple
  | none => .more
  | some (p, _) => .got ⟨.num (p.1 : ℚ), .num (p.2 : ℚ), .num 0, true⟩

/-- What a sampled record shows. -/
def posTriple {σ : Type} : Option (Row × σ) → NextOut Triple
  | none => .more
  | some (r, _) => .got ⟨r.get "uid", r.get "iid", r.get "interaction", false⟩

/-- What the generator of records gives a sampler. -/
def posStep : Option (Row × List Nat) → NextOut (Triple × List Nat)
  | none => .more
  | some (r, rest) => .got (⟨r.get "uid", r.get "iid", r.get "interaction", false⟩, rest)

section
variable {names : List String} {w : World} {S : DbSampler} {i : Nat} {m : Mem} {T : Option (String → DType)} {B : Nat}
  {t : Option PyNum}

/-! ## Positive samples -/

theorem samplePositive_out {w w' : World} {S : DbSampler} {g : DbRecGen} {m : Mem} {T : Option (String → DType)}
    (hm : Numbers m T) {ps : List Nat} {o : Option (Row × List Nat)}
    (h : w.recNext S.pos ps = (w', g, recOut m.cols o)) :
    w.samplePositive S ps = (w', { S with pos := g }, posStep o) := by
  unfold World.samplePositive
  rw [h]
  cases o with
  | none => rfl
  | some p =>
    obtain ⟨r, rest⟩ := p
    simp only [recOut, posStep, lookup_toRec (hm.cols "uid" (by simp)), lookup_toRec (hm.cols "iid" (by simp)),
      lookup_toRec (hm.cols "interaction" (by simp))]

theorem positive_step (hn : NamesOk names) (h : SamplerInv names w S i m T B t) (hm : Sampleable m T)
    (hp : thresholdRows (t.map PyNum.value) m.rows ≠ []) {x : ℚ} (hx : ¬ x > 1) (ps ns es : List Nat) :
    SamplerInv names (w.sampleOne S x ps ns es).1 (w.sampleOne S x ps ns es).2.1 i m T B t ∧
    (∀ k, (w.insts k).isSome → Keeps w (w.sampleOne S x ps ns es).1 k) ∧
    (w.sampleOne S x ps ns es).2.2 = posTriple (nextPositiveDb m.rows (t.map PyNum.value) ps) := by
  have hsub := thresholdRows_sub (t.map PyNum.value) m.rows
  have hnum := hm.sub hsub
  unfold World.sampleOne
  rw [if_neg hx]
  rw [nextPositiveDb_eq]
  rcases h.posState with h1 | ⟨M, h1, h2⟩ | ⟨_, h2⟩
  · obtain ⟨M, w', a1, a2, a3, a4⟩ := recNext_fresh hn h.good h.pos hnum hp (fun r hr => (hm.ids r (hsub hr)).1) ps
    have hg : S.pos = ⟨S.pos.inst, .fresh⟩ := by
      obtain ⟨⟨j, st⟩, ng⟩ := S
      simp only at h1
      subst h1; rfl
    rw [← hg] at a2
    have e := samplePositive_out hnum a2
    simp only [withRows] at a1 e
    simp only [e, a1]
    refine ⟨⟨a3, h.ds.keep (a4 i (h.alive (by simp [samplerHolds, h.inst]))), h.inst, h.thr,
      h.pos.keep (a4 _ (h.alive (by simp [samplerHolds]))), Or.inr (Or.inl ⟨M, a1, rfl⟩), ?_⟩, a4, ?_⟩
    · exact (h.keep a3 fun k hk => a4 k (h.alive hk)).negState
    · cases nextRecord M (thresholdRows (t.map PyNum.value) m.rows) ps <;> rfl
  · have a2 := recNext_running h.good h.pos hnum h2 ps
    have e := samplePositive_out hnum a2
    simp only [withRows] at e
    simp only [e, h1]
    refine ⟨h, fun k _ => Keeps.refl w k, ?_⟩
    cases nextRecord M (thresholdRows (t.map PyNum.value) m.rows) ps <;> rfl
  · exact absurd h2 hp

/-! ## Negative samples -/

theorem pairLoop_rows (hg : Good names w) (hs : ShowsMem w i m T B) (hm : Sampleable m T) {mu mi : Nat}
    {ex : Option DbRecGen} {t : Option ℚ} (h1 : maxId "uid" m.rows = some mu) (h2 : maxId "iid" m.rows = some mi)
    (hex : ExOk w m T B t ex) (draws eds : List Nat) :
    w.pairLoop i mu mi ex draws eds = pairOut (nextNullDb m.rows t draws eds) := by
  unfold nextNullDb
  simp only [h1, h2]
  cases ex with
  | none =>
    have he : negRows m.rows t = [] := hex
    have : maxId "uid" (negRows m.rows t) = none := by rw [he]; rfl
    simp only [this]
    unfold World.pairLoop
    simp only [nullLoop_rows hg hs hm.nums]
    cases nextNullMem m.rows mu mi draws <;> rfl
  | some g =>
    obtain ⟨e1, nu, e2, e3⟩ := hex
    simp only [e2]
    unfold World.pairLoop
    simp only [showsMem_len hg e1]
    exact mixedLoop_rows (m' := withRows m (negRows m.rows t)) hg hs hm.nums mu mi e1 (hm.sub (negRows_sub t m.rows)) e3
      (fun r hr => hm.ids r (negRows_sub t m.rows hr)) draws eds

theorem sat_below {l : SLit} {q : ℚ} (hl : l.value = .num q) {r : Row} {v : ℚ} (hv : r.get "interaction" = .num v) :
    Sat (thrWritten .lt l) r ↔ (match r.get "interaction" with | .num a => decide (a < q) | _ => false) = true := by
  simp [Sat, thrWritten, Holds, hl, hv, Less]

theorem sat_reach {l : SLit} {q : ℚ} (hl : l.value = .num q) {r : Row} {v : ℚ} (hv : r.get "interaction" = .num v) :
    Sat (thrWritten .ge l) r ↔ (match r.get "interaction" with | .num a => decide (q ≤ a) | _ => false) = true := by
  simp [Sat, thrWritten, Holds, hl, hv, Less, SameKind]

/-- Starting the generator of existing pairs. -/
theorem existing_rows (hn : NamesOk names) (hg : Good names w) (hs : ShowsMem w i m T B) (hm : Sampleable m T)
    (ht : ∀ x ∈ t, PrintedNum x) (eds : List Nat) :
    ∃ w', Good names w' ∧ (∀ k, (w.insts k).isSome → Keeps w w' k) ∧
      (w.existingGen i (t.map PyNum.text) eds = (w', .more) ∨
        ∃ ex eds', w.existingGen i (t.map PyNum.text) eds = (w', .got (ex, eds')) ∧ ExOk w' m T B (t.map PyNum.value) ex) := by
  cases t with
  | none => exact ⟨w, hg, fun k _ => Keeps.refl w k, Or.inr ⟨none, eds, rfl, rfl⟩⟩
  | some t =>
    obtain ⟨l, l1, l2, l3, l4⟩ := pyNum_lit t (ht t rfl)
    obtain ⟨w1, j, c1, c2, c3, c4, c5⟩ := copyWhere_rows hn hg hs hm.nums.full (thr_pre hm.nums .lt l3 l2)
      (fun c hc => by
        simp only [thrWritten, List.mem_singleton] at hc
        subst hc
        exact hm.nums.cols _ (by simp))
      (Q := fun r => match r.get "interaction" with | .num a => decide (a < t.value) | _ => false)
      (fun r hr => by
        obtain ⟨v, hv⟩ := hm.nums.cells "interaction" (by simp) r hr
        exact sat_below l2 hv)
      (q := "interaction < ".toList ++ t.text) (by
        simp only [thrWritten, queryText, SCond.text, l1, List.nil_append, List.append_nil]
        rfl)
    have hrows : (m.rows.filter fun r => match r.get "interaction" with | .num a => decide (a < t.value) | _ => false) =
        negRows m.rows (some t.value) := rfl
    rw [hrows] at c5
    have hsub := negRows_sub (some t.value) m.rows
    have hjal : (w1.insts j).isSome := by
      obtain ⟨y, hy, _⟩ := c5.inst
      rw [hy]; rfl
    by_cases he : negRows m.rows (some t.value) = []
    · refine ⟨w1, c3, c4, Or.inr ⟨none, eds, ?_, he⟩⟩
      simp only [World.existingGen, Option.map_some, c1, recNext_empty c3 c5 he eds]
    · obtain ⟨M, w2, d1, d2, d3, d4⟩ := recNext_fresh hn c3 c5 (hm.sub hsub) he (fun r hr => (hm.ids r (hsub hr)).1) eds
      simp only at d1 d2
      have hkeep : ∀ k, (w.insts k).isSome → Keeps w w2 k := fun k hk =>
        (c4 k hk).trans (d4 k ((c4 k hk).alive hk))
      refine ⟨w2, d3, hkeep, ?_⟩
      cases hnr : nextRecord M (negRows m.rows (some t.value)) eds with
      | none =>
        left
        simp only [World.existingGen, Option.map_some, c1, d2, hnr, recOut]
      | some p =>
        obtain ⟨r, eds'⟩ := p
        right
        refine ⟨some ⟨j, .running M⟩, eds', ?_, c5.keep (d4 j hjal), M, d1, rfl⟩
        simp only [World.existingGen, Option.map_some, c1, d2, hnr, recOut]

/-- The records for the discarded first draw can be chosen. -/
theorem existing_starts (hn : NamesOk names) (hg : Good names w) (hs : ShowsMem w i m T B) (hm : Sampleable m T)
    (ht : ∀ x ∈ t, PrintedNum x) (eds' : List Nat) :
    ∃ eds w' ex, w.existingGen i (t.map PyNum.text) eds = (w', .got (ex, eds')) := by
  cases t with
  | none => exact ⟨eds', w, none, rfl⟩
  | some t =>
    obtain ⟨l, l1, l2, l3, l4⟩ := pyNum_lit t (ht t rfl)
    obtain ⟨w1, j, c1, c2, c3, c4, c5⟩ := copyWhere_rows hn hg hs hm.nums.full (thr_pre hm.nums .lt l3 l2)
      (fun c hc => by
        simp only [thrWritten, List.mem_singleton] at hc
        subst hc
        exact hm.nums.cols _ (by simp))
      (Q := fun r => match r.get "interaction" with | .num a => decide (a < t.value) | _ => false)
      (fun r hr => by
        obtain ⟨v, hv⟩ := hm.nums.cells "interaction" (by simp) r hr
        exact sat_below l2 hv)
      (q := "interaction < ".toList ++ t.text) (by
        simp only [thrWritten, queryText, SCond.text, l1, List.nil_append, List.append_nil]
        rfl)
    have hrows : (m.rows.filter fun r => match r.get "interaction" with | .num a => decide (a < t.value) | _ => false) =
        negRows m.rows (some t.value) := rfl
    rw [hrows] at c5
    have hsub := negRows_sub (some t.value) m.rows
    by_cases he : negRows m.rows (some t.value) = []
    · refine ⟨eds', w1, none, ?_⟩
      simp only [World.existingGen, Option.map_some, c1, recNext_empty c3 c5 he eds']
    · obtain ⟨M, h1, h2, h3⟩ := maxId_ok "uid" _ he (fun r hr => (hm.ids r (hsub hr)).1)
      obtain ⟨r, hr, hrM⟩ := h2
      obtain ⟨e, hne⟩ := nextRecord_reach hr hrM (le_refl M) eds'
      obtain ⟨M', w2, d1, d2, d3, d4⟩ := recNext_fresh hn c3 c5 (hm.sub hsub) he (fun r hr => (hm.ids r (hsub hr)).1)
        (M :: e :: eds')
      simp only at d1 d2
      rw [h1] at d1; cases d1
      refine ⟨M :: e :: eds', w2, some ⟨j, .running M⟩, ?_⟩
      simp only [World.existingGen, Option.map_some, c1, d2, hne, recOut]

/-- Everything before the loop of the pair generator. -/
theorem nullStart_rows (hn : NamesOk names) (hg : Good names w) (hs : ShowsMem w i m T B) (hm : Sampleable m T)
    (ht : ∀ x ∈ t, PrintedNum x) (eds : List Nat) :
    ∃ w', Good names w' ∧ (∀ k, (w.insts k).isSome → Keeps w w' k) ∧
      (w.nullStart i (t.map PyNum.text) eds = (w', .more) ∨
        ∃ mu mi ex eds', w.nullStart i (t.map PyNum.text) eds = (w', .got ((mu, mi, ex), eds')) ∧
          maxId "uid" m.rows = some mu ∧ maxId "iid" m.rows = some mi ∧ ExOk w' m T B (t.map PyNum.value) ex ∧
          (∀ v ex0 eds0, w.existingGen i (t.map PyNum.text) eds = (v, .got (ex0, eds0)) → eds' = eds0)) := by
  obtain ⟨x, hx, _⟩ := hs.inst
  have hids : x.hasIds = true := by
    obtain ⟨p, hp, _, hh⟩ := plain_some hg hx
    rw [hs.plain] at hp; cases hp
    rw [← hh]; exact hm.has
  have hlen : x.nRows ≠ 0 := by
    have := showsMem_len hg hs
    simp only [World.len, hx, Option.map_some, Option.some.injEq] at this
    rw [this]
    simpa using hm.ne
  have hal : (w.insts i).isSome := by rw [hx]; rfl
  obtain ⟨w1, a1, a2, a3⟩ := existing_rows hn hg hs hm ht eds
  rcases a3 with a3 | ⟨ex, eds', a3, a4⟩
  · refine ⟨w1, a1, a2, Or.inl ?_⟩
    simp only [World.nullStart, hx, hids, if_true, if_neg hlen, a3]
  · have hs1 := hs.keep (a2 i hal)
    have hal1 := (a2 i hal).alive hal
    obtain ⟨mu, w2, b1, b2, b3, b4⟩ := maxOf_rows hn a1 hs1 hm.nums.full (hm.nums.cols "uid" (by simp)) hm.ne
      (fun r hr => (hm.ids r hr).1)
    have hs2 := hs1.keep (b4 i hal1)
    have hal2 := (b4 i hal1).alive hal1
    obtain ⟨mi, w3, d1, d2, d3, d4⟩ := maxOf_rows hn b3 hs2 hm.nums.full (hm.nums.cols "iid" (by simp)) hm.ne
      (fun r hr => (hm.ids r hr).2)
    have hk13 : ∀ k, (w1.insts k).isSome → Keeps w1 w3 k := fun k hk => (b4 k hk).trans (d4 k ((b4 k hk).alive hk))
    refine ⟨w3, d3, fun k hk => (a2 k hk).trans (hk13 k ((a2 k hk).alive hk)), Or.inr
      ⟨mu, mi, ex, eds', ?_, b1, d1, ?_, ?_⟩⟩
    · simp only [World.nullStart, hx, hids, if_true, if_neg hlen, a3, b2, d2]
    · apply a4.keep
      intro g hg'
      cases ex with
      | none => cases hg'
      | some g0 =>
        cases hg'
        apply hk13
        obtain ⟨y, hy, _⟩ := a4.1.inst
        rw [hy]; rfl
    · intro v ex0 eds0 e
      rw [a3] at e
      simp only [Prod.mk.injEq, NextOut.got.injEq] at e
      exact e.2.2

theorem sampleNegative_out {w w' : World} {S : DbSampler} {g : DbNullGen} {ns es : List Nat}
    {o : Option ((Nat × Nat) × List Nat × List Nat)} (h : w.nullNext S.neg ns es = (w', g, pairOut o)) {x : ℚ} (hx : x > 1)
    (ps : List Nat) : w.sampleOne S x ps ns es = (w', { S with neg := g }, negTriple o) := by
  unfold World.sampleOne World.sampleNegative
  rw [if_pos hx]
  simp only [h]
  cases o with
  | none => rfl
  | some p => obtain ⟨⟨u, i⟩, a, b⟩ := p; rfl

theorem negative_step (hn : NamesOk names) (h : SamplerInv names w S i m T B t) (hm : Sampleable m T)
    (ht : ∀ x ∈ t, PrintedNum x) {x : ℚ} (hx : x > 1) (ps ns es : List Nat) :
    SamplerInv names (w.sampleOne S x ps ns es).1 (w.sampleOne S x ps ns es).2.1 i m T B t ∧
    (∀ k, (w.insts k).isSome → Keeps w (w.sampleOne S x ps ns es).1 k) ∧
    ((w.sampleOne S x ps ns es).2.2 = .more ∨
      ∃ es', (w.sampleOne S x ps ns es).2.2 = negTriple (nextNullDb m.rows (t.map PyNum.value) ns es')) := by
  rcases h.negState with h1 | ⟨mu, mi, ex, h1, h2, h3, h4⟩
  · obtain ⟨w', a1, a2, a3⟩ := nullStart_rows hn h.good h.ds hm ht es
    have hinv := h.keep a1 fun k hk => a2 k (h.alive hk)
    rcases a3 with a3 | ⟨mu, mi, ex, eds', a3, a4, a5, a6, _⟩
    · have e : w.nullNext S.neg ns es = (w', S.neg, pairOut none) := by
        unfold World.nullNext
        rw [h1]
        simp only
        rw [h.inst, h.thr, a3]
        rfl
      rw [sampleNegative_out e hx ps]
      exact ⟨hinv, a2, Or.inl rfl⟩
    · have e : w.nullNext S.neg ns es = (w', { S.neg with state := .running mu mi ex },
          pairOut (nextNullDb m.rows (t.map PyNum.value) ns eds')) := by
        unfold World.nullNext
        rw [h1]
        simp only
        rw [h.inst, h.thr, a3]
        simp only
        rw [pairLoop_rows a1 hinv.ds hm a4 a5 a6]
        cases nextNullDb m.rows (t.map PyNum.value) ns eds' <;> rfl
      rw [sampleNegative_out e hx ps]
      exact ⟨⟨a1, hinv.ds, h.inst, h.thr, hinv.pos, h.posState, Or.inr ⟨mu, mi, ex, rfl, a4, a5, a6⟩⟩, a2,
        Or.inr ⟨eds', rfl⟩⟩
  · have e : w.nullNext S.neg ns es = (w, S.neg, pairOut (nextNullDb m.rows (t.map PyNum.value) ns es)) := by
      unfold World.nullNext
      rw [h1]
      simp only
      rw [h.inst, pairLoop_rows h.good h.ds hm h2 h3 h4]
      obtain ⟨ps, ⟨j, th, st⟩⟩ := S
      simp only at h1
      have hi := h.inst
      simp only at hi
      subst h1 hi
      cases nextNullDb m.rows (t.map PyNum.value) ns es <;> rfl
    rw [sampleNegative_out e hx ps]
    exact ⟨h, fun k _ => Keeps.refl w k, Or.inr ⟨es, rfl⟩⟩

/-- Every outcome of the pair generator can be had. -/
theorem negative_any (hn : NamesOk names) (h : SamplerInv names w S i m T B t) (hm : Sampleable m T)
    (ht : ∀ x ∈ t, PrintedNum x) {x : ℚ} (hx : x > 1) (ps ns es' : List Nat) :
    ∃ es, (w.sampleOne S x ps ns es).2.2 = negTriple (nextNullDb m.rows (t.map PyNum.value) ns es') := by
  rcases h.negState with h1 | ⟨mu, mi, ex, h1, h2, h3, h4⟩
  · obtain ⟨es, v, ex0, he⟩ := existing_starts hn h.good h.ds hm ht es'
    obtain ⟨w', a1, a2, a3⟩ := nullStart_rows hn h.good h.ds hm ht es
    have hinv := h.keep a1 fun k hk => a2 k (h.alive hk)
    refine ⟨es, ?_⟩
    rcases a3 with a3 | ⟨mu, mi, ex, eds', a3, a4, a5, a6, a7⟩
    · exfalso
      obtain ⟨y, hy, _⟩ := h.ds.inst
      simp only [World.nullStart, hy, he] at a3
      obtain ⟨p, hp, _, hh⟩ := plain_some h.good hy
      rw [h.ds.plain] at hp; cases hp
      have hids : y.hasIds = true := by rw [← hh]; exact hm.has
      have hlen : y.nRows ≠ 0 := by
        have := showsMem_len h.good h.ds
        simp only [World.len, hy, Option.map_some, Option.some.injEq] at this
        rw [this]
        simpa using hm.ne
      rw [hids, if_pos rfl, if_neg hlen] at a3
      split at a3
      · simp at a3
      · split at a3 <;> simp at a3
    · have := a7 v ex0 es' he
      subst this
      have e : w.nullNext S.neg ns es = (w', { S.neg with state := .running mu mi ex },
          pairOut (nextNullDb m.rows (t.map PyNum.value) ns eds')) := by
        unfold World.nullNext
        rw [h1]
        simp only
        rw [h.inst, h.thr, a3]
        simp only
        rw [pairLoop_rows a1 hinv.ds hm a4 a5 a6]
        cases nextNullDb m.rows (t.map PyNum.value) ns eds' <;> rfl
      rw [sampleNegative_out e hx ps]
  · refine ⟨es', ?_⟩
    have e : w.nullNext S.neg ns es' = (w, S.neg, pairOut (nextNullDb m.rows (t.map PyNum.value) ns es')) := by
      unfold World.nullNext
      rw [h1]
      simp only
      rw [h.inst, pairLoop_rows h.good h.ds hm h2 h3 h4]
      obtain ⟨ps, ⟨j, th, st⟩⟩ := S
      simp only at h1
      have hi := h.inst
      simp only at hi
      subst h1 hi
      cases nextNullDb m.rows (t.map PyNum.value) ns es' <;> rfl
    rw [sampleNegative_out e hx ps]

/-- Making a sampler. -/
theorem pointSampler_starts (hn : NamesOk names) (hg : Good names w) (hs : ShowsMem w i m T B) (hm : Sampleable m T)
    (ht : ∀ x ∈ t, PrintedNum x) :
    ∃ w' S, w.pointSampler i t = (w', .ok S) ∧ SamplerInv names w' S i m T B t ∧
      (∀ k, (w.insts k).isSome → Keeps w w' k) ∧ S.pos.state = .fresh := by
  obtain ⟨x, hx, _⟩ := hs.inst
  have hids : x.hasIds = true := by
    obtain ⟨p, hp, _, hh⟩ := plain_some hg hx
    rw [hs.plain] at hp; cases hp
    rw [← hh]; exact hm.has
  cases t with
  | none =>
    refine ⟨w, ⟨⟨i, .fresh⟩, ⟨i, none, .fresh⟩⟩, ?_, ⟨hg, hs, rfl, rfl, hs, Or.inl rfl, Or.inl rfl⟩,
      fun k _ => Keeps.refl w k, rfl⟩
    simp only [World.pointSampler, World.randomGen, positiveQuery, Option.map_none, hx, hids, if_true]
  | some t =>
    obtain ⟨l, l1, l2, l3, l4⟩ := pyNum_lit t (ht t rfl)
    obtain ⟨w1, j, c1, c2, c3, c4, c5⟩ := copyWhere_rows hn hg hs hm.nums.full (thr_pre hm.nums .ge l3 l2)
      (fun c hc => by
        simp only [thrWritten, List.mem_singleton] at hc
        subst hc
        exact hm.nums.cols _ (by simp))
      (Q := fun r => match r.get "interaction" with | .num a => decide (t.value ≤ a) | _ => false)
      (fun r hr => by
        obtain ⟨v, hv⟩ := hm.nums.cells "interaction" (by simp) r hr
        exact sat_reach l2 hv)
      (q := "interaction >= ".toList ++ t.text) (by
        simp only [thrWritten, queryText, SCond.text, l1, List.nil_append, List.append_nil]
        rfl)
    refine ⟨w1, ⟨⟨j, .fresh⟩, ⟨i, some t.text, .fresh⟩⟩, ?_, ⟨c3, hs.keep (c4 i (by rw [hx]; rfl)), rfl, rfl, c5,
      Or.inl rfl, Or.inl rfl⟩, c4, rfl⟩
    simp only [World.pointSampler, World.randomGen, positiveQuery, Option.map_some, hx, hids, if_true, c1]

end

end DRec.Conc
