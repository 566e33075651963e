import Verif.Lemmas.DbSampler
import Verif.Props.DbKnn

/-!
# C125: sampling from a database dataset

`PointSampler` over a database dataset, with the copies it makes, its queries as texts, and any other use of the database
in between.  `C125_samples_partial` is the claim for samplers whose datasets are not changed in place.  Missing from the
full claim: datasets that are changed while a sampler has them.  For them it is false (`C125_fails_changed`).  With several
records per pair negative samples can be positive pairs already by C68.
-/

namespace DRec.Conc

open Spec

theorem samplable_mem {w : World} {i : Nat} {x : Inst} {m : Mem} (h : Samplable w i x m) : Sampleable m x.types := by
  refine ⟨⟨h.same.full, ?_, ?_, h.types⟩, idsOk_isId h.fresh.ids, h.fresh.ids.has, h.ne⟩
  · intro c hc
    simp only [List.mem_cons, List.not_mem_nil, or_false] at hc
    rcases hc with rfl | rfl | rfl
    · exact h.fresh.ids.user.hasCol
    · exact h.fresh.ids.item.hasCol
    · exact h.fresh.hasInter
  · intro c hc r hr
    simp only [List.mem_cons, List.not_mem_nil, or_false] at hc
    rcases hc with rfl | rfl | rfl
    · exact ⟨_, (h.fresh.ids.user.code r hr).2⟩
    · exact ⟨_, (h.fresh.ids.item.code r hr).2⟩
    · exact h.fresh.numeric r hr

theorem samplable_inv {names : List String} {w : World} (hw : Reached names w) {i : Nat} {x : Inst} {m : Mem}
    (h : Samplable w i x m) {t : Option PyNum} (ht : ∀ y ∈ t, PrintedNum y) :
    ∃ w0 S, w.pointSampler i t = (w0, .ok S) ∧ SamplerInv names w0 S i m x.types x.nBefore t ∧
      (∀ k, (w.insts k).isSome → Keeps w w0 k) ∧ S.pos.state = .fresh := by
  obtain ⟨hn, hg⟩ := reached_good hw
  exact pointSampler_starts hn hg ⟨h.same.shows, x, h.same.object, rfl, le_refl _⟩ (samplable_mem h) ht

theorem mem_thresholdRows {m : Mem} (hf : Fresh m) (t : Option ℚ) (r : Row) :
    r ∈ thresholdRows t m.rows ↔ r ∈ m.rows ∧ Reaches t r := by
  cases t with
  | none => simp [thresholdRows, Reaches]
  | some q =>
    simp only [thresholdRows, List.mem_filter]
    constructor
    · rintro ⟨h1, h2⟩
      obtain ⟨v, hv⟩ := hf.numeric r h1
      refine ⟨h1, ?_⟩
      rw [hv] at h2
      simpa [Reaches, hv, numCell] using h2
    · rintro ⟨h1, h2⟩
      obtain ⟨v, hv⟩ := hf.numeric r h1
      refine ⟨h1, ?_⟩
      rw [hv]
      simpa [Reaches, hv, numCell] using h2

theorem thresholdRows_ne {m : Mem} (hf : Fresh m) {t : Option ℚ} {r : Row} (hr : r ∈ m.rows) (hre : Reaches t r) :
    thresholdRows t m.rows ≠ [] :=
  List.ne_nil_of_mem ((mem_thresholdRows hf t r).2 ⟨hr, hre⟩)

section
variable {names : List String} {i : Nat} {m : Mem} {T : Option (String → DType)} {B : Nat} {t : Option PyNum}

/-- Samples and operations keep the state of the sampler. -/
theorem run_inv (hn : NamesOk names) (hm : Sampleable m T) (hp : thresholdRows (t.map PyNum.value) m.rows ≠ [])
    (ht : ∀ x ∈ t, PrintedNum x) (evs : List SampleEv) : ∀ (w : World) (S : DbSampler), SamplerInv names w S i m T B t →
      SampleOk names w S evs →
      SamplerInv names (sampleRun w S evs).1 (sampleRun w S evs).2.1 i m T B t ∧
      ∀ o ∈ (sampleRun w S evs).2.2, o = .more ∨ (∃ ps, o = posTriple (nextPositiveDb m.rows (t.map PyNum.value) ps)) ∨
        ∃ ns es, o = negTriple (nextNullDb m.rows (t.map PyNum.value) ns es) := by
  induction evs with
  | nil => exact fun w S h _ => ⟨h, by simp [sampleRun]⟩
  | cons ev evs ih =>
    intro w S h hok
    cases ev with
    | op o =>
      obtain ⟨⟨ha, hk⟩, hok⟩ := hok
      exact ih _ _ (h.keep (step_good hn h.good ha).1 fun k hk' =>
        runOp_keeps hn h.good ha (fun e => hk (e ▸ hk')) (h.alive hk')) hok
    | sample x ps ns es =>
      have hstep : SamplerInv names (w.sampleOne S x ps ns es).1 (w.sampleOne S x ps ns es).2.1 i m T B t ∧
          ((w.sampleOne S x ps ns es).2.2 = .more ∨
            (∃ ps', (w.sampleOne S x ps ns es).2.2 = posTriple (nextPositiveDb m.rows (t.map PyNum.value) ps')) ∨
            ∃ ns' es', (w.sampleOne S x ps ns es).2.2 = negTriple (nextNullDb m.rows (t.map PyNum.value) ns' es')) := by
        by_cases hx : x > 1
        · obtain ⟨a, _, b⟩ := negative_step hn h hm ht hx ps ns es
          refine ⟨a, ?_⟩
          rcases b with b | ⟨es', b⟩
          · exact Or.inl b
          · exact Or.inr (Or.inr ⟨ns, es', b⟩)
        · obtain ⟨a, _, b⟩ := positive_step hn h hm hp hx ps ns es
          exact ⟨a, Or.inr (Or.inl ⟨ps, b⟩)⟩
      obtain ⟨a, b⟩ := ih _ _ hstep.1 hok
      refine ⟨a, ?_⟩
      intro o ho
      rcases List.mem_cons.1 ho with rfl | ho
      · exact hstep.2
      · exact b o ho

end

/-- A sampler can be made for every dataset, and making it changes nothing the program can see. -/
theorem C125_starts (names : List String) (w : World) (hw : Reached names w) (i : Nat) (x : Inst) (m : Mem)
    (h : Samplable w i x m) (t : Option PyNum) (ht : ∀ y ∈ t, PrintedNum y) :
    ∃ w0 S, w.pointSampler i t = (w0, .ok S) ∧ ∀ k p, plainOf w k = some p → plainOf w0 k = some p := by
  obtain ⟨w0, S, h1, _, h3, _⟩ := samplable_inv hw h ht
  refine ⟨w0, S, h1, fun k p hk => ?_⟩
  have hal : (w.insts k).isSome := by
    cases hk' : w.insts k with
    | none => simp [plainOf, hk'] at hk
    | some y => rfl
  rw [(h3 k hal).1, hk]

/-- **C125** (partial: the datasets of the sampler are not changed in place; full claim: whatever the program does.  It
fails by `C125_fails_changed`).  Whatever else happens to the database between the samples, every sample is a record of
the dataset reaching the threshold, or a pair of known ids without such a record. -/
theorem C125_samples_partial (names : List String) (w : World) (hw : Reached names w) (i : Nat) (x : Inst) (m : Mem)
    (h : Samplable w i x m) (h1 : OnePerPair m.rows) (t : Option PyNum) (ht : ∀ y ∈ t, PrintedNum y)
    (hp : ∃ r ∈ m.rows, Reaches (t.map PyNum.value) r) (w0 : World) (S : DbSampler)
    (hS : w.pointSampler i t = (w0, .ok S)) (evs : List SampleEv) (hok : SampleOk names w0 S evs) :
    ∀ o ∈ (sampleRun w0 S evs).2.2, o = .more ∨ ∃ tr, o = .got tr ∧ TripleOk m (t.map PyNum.value) tr := by
  obtain ⟨hn, hg⟩ := reached_good hw
  obtain ⟨w0', S', e, hinv, _⟩ := samplable_inv hw h ht
  rw [hS] at e; cases e
  obtain ⟨r0, hr0, hre0⟩ := hp
  obtain ⟨_, hall⟩ := run_inv hn (samplable_mem h) (thresholdRows_ne h.fresh hr0 hre0) ht evs w0 S hinv hok
  intro o ho
  rcases hall o ho with rfl | ⟨ps, rfl⟩ | ⟨ns, es, rfl⟩
  · exact Or.inl rfl
  · cases hnp : nextPositiveDb m.rows (t.map PyNum.value) ps with
    | none => exact Or.inl rfl
    | some p =>
      obtain ⟨r, rest⟩ := p
      refine Or.inr ⟨_, rfl, Or.inl ⟨rfl, r, ?_, rfl, rfl, rfl⟩⟩
      rw [nextPositiveDb_eq] at hnp
      split at hnp
      · cases hnp
      · exact (mem_thresholdRows h.fresh _ r).1 (nextRecord_mem hnp)
  · cases hnn : nextNullDb m.rows (t.map PyNum.value) ns es with
    | none => exact Or.inl rfl
    | some p =>
      obtain ⟨⟨u, j⟩, rest⟩ := p
      exact Or.inr ⟨_, rfl, Or.inr ⟨rfl, rfl, u, j, rfl, rfl,
        (C68_database_pairs m h.fresh h.ne h1 _ u j).1 ⟨ns, es, rest, hnn⟩⟩⟩

/-- At any time every record reaching the threshold can be the next positive sample, and every pair of known ids without
such a record the next negative one. -/
theorem C125_reaches (names : List String) (w : World) (hw : Reached names w) (i : Nat) (x : Inst) (m : Mem)
    (h : Samplable w i x m) (h1 : OnePerPair m.rows) (t : Option PyNum) (ht : ∀ y ∈ t, PrintedNum y)
    (hp : ∃ r ∈ m.rows, Reaches (t.map PyNum.value) r) (w0 : World) (S : DbSampler)
    (hS : w.pointSampler i t = (w0, .ok S)) (evs : List SampleEv) (hok : SampleOk names w0 S evs) (w1 : World)
    (S1 : DbSampler) (outs : List (NextOut Triple)) (hrun : sampleRun w0 S evs = (w1, S1, outs)) :
    (∀ r ∈ m.rows, Reaches (t.map PyNum.value) r → ∀ v ≤ (1 : ℚ), ∃ ps, ∀ ns es,
      (w1.sampleOne S1 v ps ns es).2.2 = .got ⟨r.get "uid", r.get "iid", r.get "interaction", false⟩) ∧
    ∀ u j, NegativePair m (t.map PyNum.value) u j → ∀ v > (1 : ℚ), ∃ ns es, ∀ ps,
      (w1.sampleOne S1 v ps ns es).2.2 = .got ⟨.num (u : ℚ), .num (j : ℚ), .num 0, true⟩ := by
  obtain ⟨hn, hg⟩ := reached_good hw
  obtain ⟨w0', S', e, hinv, _⟩ := samplable_inv hw h ht
  rw [hS] at e; cases e
  obtain ⟨r0, hr0, hre0⟩ := hp
  have hm := samplable_mem h
  have hne := thresholdRows_ne h.fresh hr0 hre0
  obtain ⟨hinv1, _⟩ := run_inv hn hm hne ht evs w0 S hinv hok
  rw [hrun] at hinv1
  constructor
  · intro r hr hre v hv
    have hin := (mem_thresholdRows h.fresh (t.map PyNum.value) r).2 ⟨hr, hre⟩
    obtain ⟨M, k1, _, k3⟩ := maxId_ok "uid" _ hne
      (fun r hr => (hm.ids r (thresholdRows_sub (t.map PyNum.value) m.rows hr)).1)
    obtain ⟨k, hk⟩ := (hm.ids r hr).1
    obtain ⟨e, he⟩ := nextRecord_reach hin hk (k3 r hin k hk) []
    refine ⟨[k, e], fun ns es => ?_⟩
    rw [(positive_step hn hinv1 hm hne (not_lt.2 hv) [k, e] ns es).2.2, nextPositiveDb_eq, k1]
    simp only [he]
    rfl
  · intro u j hneg v hv
    obtain ⟨ns, es', rest, he⟩ := (C68_database_pairs m h.fresh h.ne h1 _ u j).2 hneg
    obtain ⟨es, hes⟩ := negative_any hn hinv1 hm ht hv [] ns es'
    refine ⟨ns, es, fun ps => ?_⟩
    have hsame : (w1.sampleOne S1 v ps ns es).2.2 = (w1.sampleOne S1 v [] ns es).2.2 := by
      unfold World.sampleOne
      rw [if_pos hv, if_pos hv]
    rw [hsame, hes, he]
    rfl

/-- A sample changes nothing the program can see. -/
theorem C125_leaves_data (names : List String) (w : World) (hw : Reached names w) (i : Nat) (x : Inst) (m : Mem)
    (h : Samplable w i x m) (t : Option PyNum) (ht : ∀ y ∈ t, PrintedNum y)
    (hp : ∃ r ∈ m.rows, Reaches (t.map PyNum.value) r) (w0 : World) (S : DbSampler)
    (hS : w.pointSampler i t = (w0, .ok S)) (evs : List SampleEv) (hok : SampleOk names w0 S evs) (w1 : World)
    (S1 : DbSampler) (outs : List (NextOut Triple)) (hrun : sampleRun w0 S evs = (w1, S1, outs)) (v : ℚ)
    (ps ns es : List Nat) :
    ∀ k p, plainOf w1 k = some p → plainOf (w1.sampleOne S1 v ps ns es).1 k = some p := by
  obtain ⟨hn, hg⟩ := reached_good hw
  obtain ⟨w0', S', e, hinv, _⟩ := samplable_inv hw h ht
  rw [hS] at e; cases e
  obtain ⟨r0, hr0, hre0⟩ := hp
  have hm := samplable_mem h
  have hne := thresholdRows_ne h.fresh hr0 hre0
  obtain ⟨hinv1, _⟩ := run_inv hn hm hne ht evs w0 S hinv hok
  rw [hrun] at hinv1
  intro k p hk
  have hal : (w1.insts k).isSome := by
    cases hk' : w1.insts k with
    | none => simp [plainOf, hk'] at hk
    | some y => rfl
  have hkeep : Keeps w1 (w1.sampleOne S1 v ps ns es).1 k := by
    by_cases hv : v > 1
    · exact (negative_step hn hinv1 hm ht hv ps ns es).2.1 k hal
    · exact (positive_step hn hinv1 hm hne hv ps ns es).2.1 k hal
  rw [hkeep.1, hk]

/-! ## No record reaches the threshold -/

section
variable {names : List String} {i : Nat} {m : Mem} {T : Option (String → DType)} {B : Nat} {t : Option PyNum}

theorem positive_none {w : World} {S : DbSampler} (h : SamplerInv names w S i m T B t)
    (hp : thresholdRows (t.map PyNum.value) m.rows = []) {x : ℚ} (hx : ¬ x > 1) (ps ns es : List Nat) :
    w.sampleOne S x ps ns es = (w, { S with pos := ⟨S.pos.inst, .dead⟩ },
      if S.pos.state = .fresh then .raised .empty else .got ⟨.null, .null, .null, false⟩) := by
  obtain ⟨⟨j, st⟩, ng⟩ := S
  unfold World.sampleOne
  rw [if_neg hx]
  rcases h.posState with h1 | ⟨M, h1, _⟩ | ⟨h1, _⟩
  · simp only at h1
    subst h1
    unfold World.samplePositive
    simp only [recNext_empty h.good h.pos hp ps, if_true]
  · rw [hp] at h1; cases h1
  · simp only at h1
    subst h1
    simp [World.samplePositive, World.recNext]

theorem run_none (hn : NamesOk names) (hm : Sampleable m T) (hp : thresholdRows (t.map PyNum.value) m.rows = [])
    (ht : ∀ x ∈ t, PrintedNum x) (evs : List SampleEv) : ∀ (w : World) (S : DbSampler), SamplerInv names w S i m T B t →
      SampleOk names w S evs →
      SamplerInv names (sampleRun w S evs).1 (sampleRun w S evs).2.1 i m T B t ∧
      ((sampleRun w S evs).2.1.pos.state = .fresh ↔ S.pos.state = .fresh ∧ ∀ ev ∈ evs, ev.positive = false) := by
  induction evs with
  | nil => exact fun w S h _ => ⟨h, by simp [sampleRun]⟩
  | cons ev evs ih =>
    intro w S h hok
    cases ev with
    | op o =>
      obtain ⟨⟨ha, hk⟩, hok⟩ := hok
      obtain ⟨a, b⟩ := ih _ _ (h.keep (step_good hn h.good ha).1 fun k hk' =>
        runOp_keeps hn h.good ha (fun e => hk (e ▸ hk')) (h.alive hk')) hok
      refine ⟨a, ?_⟩
      simp only [sampleRun, b, List.forall_mem_cons, SampleEv.positive, true_and]
    | sample x ps ns es =>
      by_cases hx : x > 1
      · obtain ⟨a, _, _⟩ := negative_step hn h hm ht hx ps ns es
        obtain ⟨c, d⟩ := ih _ _ a hok
        refine ⟨c, ?_⟩
        have hpos : (w.sampleOne S x ps ns es).2.1.pos = S.pos := by
          unfold World.sampleOne World.sampleNegative
          rw [if_pos hx]
        simp only [sampleRun, d, hpos, List.forall_mem_cons, SampleEv.positive, decide_eq_false_iff_not, not_le.2 hx,
          not_false_eq_true, true_and]
      · have e := positive_none h hp hx ps ns es
        have hinv : SamplerInv names (w.sampleOne S x ps ns es).1 (w.sampleOne S x ps ns es).2.1 i m T B t := by
          rw [e]
          refine ⟨h.good, h.ds, h.inst, h.thr, h.pos, Or.inr (Or.inr ⟨rfl, hp⟩), h.negState⟩
        obtain ⟨c, d⟩ := ih _ _ hinv hok
        refine ⟨c, ?_⟩
        have hx' : x ≤ 1 := not_lt.1 hx
        simp only [sampleRun, d, List.forall_mem_cons, SampleEv.positive, decide_eq_false_iff_not]
        rw [e]
        simp [hx']

end

/-- When no record reaches the threshold the sampler is made all the same; its first positive sample raises, and each
later one is a triple of nulls that looks like a record. -/
theorem C125_no_positive (names : List String) (w : World) (hw : Reached names w) (i : Nat) (x : Inst) (m : Mem)
    (h : Samplable w i x m) (t : Option PyNum) (ht : ∀ y ∈ t, PrintedNum y)
    (hp : ∀ r ∈ m.rows, ¬ Reaches (t.map PyNum.value) r) (w0 : World) (S : DbSampler)
    (hS : w.pointSampler i t = (w0, .ok S)) (evs : List SampleEv) (hok : SampleOk names w0 S evs) (w1 : World)
    (S1 : DbSampler) (outs : List (NextOut Triple)) (hrun : sampleRun w0 S evs = (w1, S1, outs)) (v : ℚ) (hv : v ≤ 1)
    (ps ns es : List Nat) :
    (w1.sampleOne S1 v ps ns es).2.2 =
      if ∀ ev ∈ evs, ev.positive = false then .raised .empty else .got ⟨.null, .null, .null, false⟩ := by
  obtain ⟨hn, hg⟩ := reached_good hw
  obtain ⟨w0', S', e, hinv, _, hfresh⟩ := samplable_inv hw h ht
  rw [hS] at e; cases e
  have hm := samplable_mem h
  have hnil : thresholdRows (t.map PyNum.value) m.rows = [] := by
    rw [List.eq_nil_iff_forall_not_mem]
    intro r hr
    obtain ⟨h1, h2⟩ := (mem_thresholdRows h.fresh _ r).1 hr
    exact hp r h1 h2
  obtain ⟨a, b⟩ := run_none hn hm hnil ht evs w0 S hinv hok
  rw [hrun] at a b
  rw [positive_none a hnil (not_lt.2 hv) ps ns es]
  simp only [b, hfresh, true_and]

/-! ## A concrete dataset -/

/-- The three records of `exWorld`, with internal ids. -/
def exSampled : World := (exWorld.assign 0).1

/-- The same in memory. -/
def exSampledMem : Mem := exBothMem.assignIds.1

theorem exSampled_ok : Reached exDbNames exSampled ∧ (∃ x, Samplable exSampled 0 x exSampledMem) ∧
    OnePerPair exSampledMem.rows := by
  obtain ⟨x, hx⟩ := exWorld_trainable
  have hw : Reached exDbNames exWorld := ⟨exDbCols, _, _, [], by decide, by decide, by decide, by decide, trivial, rfl⟩
  obtain ⟨w1, y, h1, h2, h3⟩ := C116_ready exDbNames exWorld hw 0 x exBothMem hx
  have e : exSampled = w1 := by unfold exSampled; rw [h1]
  rw [e]
  refine ⟨h2, ⟨y, h3.same, h3.fresh, by decide, ?_⟩, onePerPair_of_nodup (by decide +kernel)⟩
  obtain ⟨ty, t1, t2, t3⟩ := h3.typed
  obtain ⟨_, _, _, _, a5⟩ := h3.types ty t1
  intro ty' hty' c hc
  rw [t1] at hty'; cases hty'
  simp only [List.mem_cons, List.not_mem_nil, or_false] at hc
  rcases hc with rfl | rfl | rfl
  · rw [t2]; decide
  · rw [t3]; decide
  · exact a5

/-- The sampler of the records with 4 or more. -/
def exSampler : World × Except Err DbSampler := exSampled.pointSampler 0 (some (.int 4))

/-- The sampler when it is made. -/
def exSamplerObj : DbSampler := ⟨⟨1, .fresh⟩, ⟨0, some "4".toList, .fresh⟩⟩

theorem exSampler_eq : exSampled.pointSampler 0 (some (.int 4)) = (exSampler.1, .ok exSamplerObj) := by
  have h : exSampler.2.toOption = some exSamplerObj := by decide +kernel
  change exSampler = _
  cases he : exSampler with
  | mk a b =>
    rw [he] at h
    cases b with
    | error e => cases h
    | ok S =>
      simp only [Except.toOption, Option.some.injEq] at h
      rw [h]

theorem exSampler_four : (∀ y ∈ some (PyNum.int 4), PrintedNum y) ∧
    ∃ r ∈ exSampledMem.rows, Reaches ((some (PyNum.int 4)).map PyNum.value) r := by
  refine ⟨by rintro y ⟨⟩; trivial, ?_⟩
  decide +kernel

/-- Remove the records with 4 or more. -/
def exCutOp : DbOp := .drop 0 [0, 2] false false

/-- **C125 fails** when the dataset is changed while it is sampled: after the records with 4 or more have been removed
from it the sampler still gives them as positive samples. -/
theorem C125_fails_changed : ∃ (names : List String) (w : World) (x : Inst) (m : Mem) (t : PyNum) (w0 : World) (S : DbSampler)
    (op : DbOp) (p : Plain) (tr : Triple), Reached names w ∧ Samplable w 0 x m ∧ OnePerPair m.rows ∧ PrintedNum t ∧
    (∃ r ∈ m.rows, Reaches (some t.value) r) ∧ w.pointSampler 0 (some t) = (w0, .ok S) ∧ Admissible names w0 op ∧
    plainOf (runOp w0 op).1 0 = some p ∧ p.recs ≠ [] ∧
    (sampleRun w0 S [.op op, .sample 1 [0, 0] [] []]).2.2 = [.got tr] ∧ tr.negative = false ∧
    ∀ r ∈ p.recs, (cellOf r "uid", cellOf r "iid") ≠ (tr.uid, tr.iid) := by
  obtain ⟨h1, ⟨x, h2⟩, h3⟩ := exSampled_ok
  refine ⟨exDbNames, exSampled, x, exSampledMem, .int 4, exSampler.1, exSamplerObj, exCutOp,
    ⟨["user", "item", "interaction", "rid", "uid", "iid"], [[("user", .num 1), ("item", .num 20), ("interaction", .num 3),
      ("rid", .num 1), ("uid", .num 0), ("iid", .num 1)]], true⟩, ⟨.num 0, .num 0, .num 5, false⟩, h1, h2, h3,
    trivial, exSampler_four.2, exSampler_eq, trivial, by decide +kernel, by decide, by decide +kernel, rfl, by decide⟩

/-- **C125**: a generator that raised is finished, whatever happens to the datasets: no further negative pair comes (the call
raises), and no further record. -/
theorem C125_after_raise (w : World) (g : DbRecGen) (n : DbNullGen) (ds es : List Nat) (e : Err) :
    ((w.nullNext n ds es).2.2 = .raised e → ∀ (w' : World) (g' : DbRecGen) (ds' es' : List Nat),
      (w'.sampleNegative ⟨g', (w.nullNext n ds es).2.1⟩ ds' es').2.2 = .raised .badValue) ∧
    ((w.recNext g ds).2.2 = .raised e → ∀ (w' : World) (n' : DbNullGen) (ds' : List Nat),
      (w'.samplePositive ⟨(w.recNext g ds).2.1, n'⟩ ds').2.2 = .got (⟨.null, .null, .null, false⟩, ds')) := by
  constructor
  · intro h w' g' ds' es'
    have hd : (w.nullNext n ds es).2.1.state = .dead := by
      revert h
      unfold World.nullNext
      split
      · intro h; cases h
      · intro h
        change World.pairLoop .. = _ at h
        dsimp only
        rw [h]; rfl
      · split
        · intro h
          dsimp only at h ⊢
          rw [h]; rfl
        · intro _; rfl
        · intro h; cases h
    unfold World.sampleNegative
    dsimp only
    rw [World.nullNext, hd]
  · intro h w' n' ds'
    have hd : (w.recNext g ds).2.1.state = .dead := by
      revert h
      unfold World.recNext
      split
      · intro h; cases h
      · intro h
        dsimp only at h ⊢
        rw [h]; rfl
      · split
        · intro _; rfl
        · intro _; rfl
        · split
          · split
            · intro h
              dsimp only at h ⊢
              rw [h]; rfl
            · intro _; rfl
          · intro _; rfl
          · intro _; rfl
    unfold World.samplePositive
    dsimp only
    rw [World.recNext, hd]

/-- Both generators of a sampler raise when the dataset is closed while it is sampled. -/
example : (((exSampler.1.close 0).1.close 1).1.recNext exSamplerObj.pos [0, 0]).2.2 = .raised .crash ∧
    ((exSampler.1.close 0).1.nullNext ⟨0, none, .running 1 1 none⟩ [0, 0] []).2.2 = .raised .crash := by
  decide +kernel

/-- A program: samples, copies of the dataset, one of them closed again, reads. -/
def exSampleEvs : List SampleEv :=
  [.sample 1 [0, 0] [] [], .op (.copy 0), .sample 2 [] [0, 0, 5, 1, 1] [0, 0, 0, 0, 0], .op (.drop 0 [0] false true),
    .op (.close 2), .op (.read 0 (.values none)), .sample 2 [] [1, 1] [0, 0], .sample 1 [1, 0] [] []]

/-- **C125**: the hypotheses hold for the program, and its samples are the record of user 0 and item 0 (5 points), twice
the pair of user 0 and item 1, whose record has 3 points, and the record of user 1 and item 0. -/
example : ∃ x, Reached exDbNames exSampled ∧ Samplable exSampled 0 x exSampledMem ∧ OnePerPair exSampledMem.rows ∧
    (∀ y ∈ some (PyNum.int 4), PrintedNum y) ∧
    (∃ r ∈ exSampledMem.rows, Reaches ((some (PyNum.int 4)).map PyNum.value) r) ∧
    exSampled.pointSampler 0 (some (.int 4)) = (exSampler.1, .ok exSamplerObj) ∧
    SampleOk exDbNames exSampler.1 exSamplerObj exSampleEvs ∧
    (sampleRun exSampler.1 exSamplerObj exSampleEvs).2.2 = [.got ⟨.num 0, .num 0, .num 5, false⟩,
      .got ⟨.num 0, .num 1, .num 0, true⟩, .got ⟨.num 0, .num 1, .num 0, true⟩, .got ⟨.num 1, .num 0, .num 4, false⟩] := by
  obtain ⟨h1, ⟨x, h2⟩, h3⟩ := exSampled_ok
  refine ⟨x, h1, h2, h3, exSampler_four.1, exSampler_four.2, exSampler_eq, ?_, by decide +kernel⟩
  refine ⟨⟨trivial, fun _ => rfl⟩, ⟨trivial, fun _ => rfl⟩, ⟨trivial, fun h => absurd h ?_⟩, ⟨trivial, fun _ => rfl⟩, trivial⟩
  decide +kernel

/-- Negative pairs are there to be reached, with and without a record. -/
example : NegativePair exSampledMem (some 4) 0 1 ∧ NegativePair exSampledMem (some 4) 1 1 ∧
    (∃ r ∈ exSampledMem.rows, OfPair r 0 1) ∧ ¬ ∃ r ∈ exSampledMem.rows, OfPair r 1 1 := by
  unfold NegativePair PositivePair OfPair
  decide +kernel

/-- No record reaches 9: the first positive sample raises, the second one is a triple of nulls. -/
example : (∀ r ∈ exSampledMem.rows, ¬ Reaches ((some (PyNum.int 9)).map PyNum.value) r) ∧
    ((exSampled.pointSampler 0 (some (.int 9))).2.toOption.map fun S =>
      (sampleRun (exSampled.pointSampler 0 (some (.int 9))).1 S [.sample 1 [0, 0] [] [], .op (.copy 0),
        .sample 1 [0, 0] [] []]).2.2) = some [.raised .empty, .got ⟨.null, .null, .null, false⟩] :=
  ⟨by decide +kernel, by decide +kernel⟩

end DRec.Conc
