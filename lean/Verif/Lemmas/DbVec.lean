import Verif.Lemmas.DbTyped
import Verif.Lemmas.DbRead
import Verif.Lemmas.Matrix
import Verif.Spec.DbVec

/-! # Interaction vectors of the database dataset -/

namespace DRec

open Spec

/-- The query written as a condition. -/
def idCond (own : String) (k : Nat) : List (List Char × SCond × List Char) := [([], ⟨own, .eq, .int k⟩, [])]

theorem idQuery_text (own : String) (k : Nat) : idQuery own k = queryText (idCond own k) := by
  simp only [idQuery, queryText, idCond, SCond.text, SLit.text, Op.text, natText, List.nil_append, List.append_nil]
  have h : ¬ ((k : Int) < 0) := by omega
  rw [if_neg h]
  simp

theorem satRec_id (own : String) (k : Nat) (r : Rec) : SatRec (idCond own k) r ↔ cellOf r own = .num (k : ℚ) := by
  simp [SatRec, idCond, Holds, SLit.value]

theorem toNat?_some {v : Val} {n : Nat} (h : v.toNat? = some n) : v = .num (n : ℚ) := by
  cases v with
  | null => cases h
  | str s => cases h
  | num q =>
    simp only [Val.toNat?] at h
    split at h
    · rename_i hq
      simp only [Option.some.injEq] at h
      congr 1
      have h1 : (q.num : ℚ) = q := Rat.coe_int_num_of_den_eq_one hq.1
      rw [← h1, ← h]
      have : ((q.num.toNat : Int) : ℚ) = (q.num : ℚ) := by rw [Int.toNat_of_nonneg hq.2]
      exact_mod_cast this.symm
    · cases h

theorem lookup_filter (cs : List String) (r : Rec) {c : String} (hc : c ∈ cs) :
    (r.filter fun q => decide (q.1 ∈ cs)).lookup c = r.lookup c := by
  induction r with
  | nil => rfl
  | cons q r ih =>
    obtain ⟨a, v⟩ := q
    by_cases ha : a ∈ cs
    · rw [List.filter_cons_of_pos (by simpa using ha)]
      simp only [List.lookup_cons, ih]
    · rw [List.filter_cons_of_neg (by simpa using ha), ih]
      have : (c == a) = false := by
        rw [beq_eq_false_iff_ne]; rintro rfl; exact ha hc
      simp only [List.lookup_cons, this]

theorem vecEntryOf_ok {other : String} {r : Rec} {e : Nat × ℚ} (h : vecEntryOf other r = .ok e)
    (hi : ∃ q, cellOf r "interaction" = .num q) :
    cellOf r other = .num (e.1 : ℚ) ∧ e.2 = numCell (cellOf r "interaction") := by
  unfold vecEntryOf at h
  split at h
  · rename_i j x hj hx
    cases h
    refine ⟨toNat?_some hj, ?_⟩
    obtain ⟨q, hq⟩ := hi
    have hx' : (cellOf r "interaction").pyFloat? = some x := hx
    rw [hq] at hx' ⊢
    simp only [Val.pyFloat?, Option.some.injEq] at hx'
    exact hx'.symm
  · cases h

theorem entries_total {other : String} : ∀ {l : List Rec} {es : List (Nat × ℚ)},
    l.mapM (vecEntryOf other) = .ok es → (∀ r ∈ l, ∃ q, cellOf r "interaction" = .num q) → ∀ j : Nat,
    ((es.filter fun e => decide (e.1 = j)).map (·.2)).sum =
      ((l.filter fun r => decide (cellOf r other = .num (j : ℚ))).map fun r => numCell (cellOf r "interaction")).sum := by
  intro l
  induction l with
  | nil => intro es h _ j; cases h; rfl
  | cons r l ih =>
    intro es h hi j
    rw [List.mapM_cons] at h
    cases hr : vecEntryOf other r with
    | error e => rw [hr] at h; cases h
    | ok e =>
      cases hl : l.mapM (vecEntryOf other) with
      | error e' => rw [hr, hl] at h; cases h
      | ok es' =>
        rw [hr, hl] at h
        cases h
        obtain ⟨h1, h2⟩ := vecEntryOf_ok hr (hi r (by simp))
        have := ih hl (fun r hr => hi r (by simp [hr])) j
        by_cases hj : e.1 = j
        · rw [List.filter_cons_of_pos (by simpa using hj), List.filter_cons_of_pos (by rw [h1, hj]; simp)]
          simp only [List.map_cons, List.sum_cons, this, h2]
        · rw [List.filter_cons_of_neg (by simpa using hj), List.filter_cons_of_neg, this]
          rw [h1]
          simp only [decide_eq_true_eq, Val.num.injEq]
          exact fun h => hj (by exact_mod_cast h)

theorem toVec_ok {other : String} {m : Val} {l : List Rec} {v : List ℚ}
    (h : toVec other m (.ok (.recs l)) = .ok v) (hi : ∀ r ∈ l, ∃ q, cellOf r "interaction" = .num q) :
    ∃ n : Nat, m = .num (n : ℚ) ∧ v = (List.range (n + 1)).map fun j : Nat =>
      ((l.filter fun r => decide (cellOf r other = .num (j : ℚ))).map fun r => numCell (cellOf r "interaction")).sum := by
  unfold toVec at h
  simp only at h
  split at h
  · rename_i n es hn hes
    refine ⟨n, toNat?_some hn, ?_⟩
    unfold mkMat at h
    split at h
    · simp only [Except.map, Except.ok.injEq] at h
      rw [← h]
      unfold Mat.row
      apply List.map_congr_left
      intro j _
      rw [← entries_total hes hi j]
      unfold Mat.entry
      simp only [List.filter_map, List.map_map]
      congr 1
      simp [Function.comp_def]
    · cases h
  · cases h
  · cases h

theorem cellOf_filter (cs : List String) (r : Rec) {c : String} (hc : c ∈ cs) :
    cellOf (r.filter fun q => decide (q.1 ∈ cs)) c = cellOf r c := by
  unfold cellOf; rw [lookup_filter cs r hc]

/-- The two functions. -/
def SideOk (s : Side) : Prop := s = Side.user ∨ s = Side.item

theorem typed_types {w : World} (h : Typed w) {i : Nat} {x : Inst} (hx : w.insts i = some x) (hids : x.hasIds = true)
    {s : Side} (hs : SideOk s) {ty : String → DType} (hty : x.types = some ty) : ty s.own = .int := by
  obtain ⟨h1, h2⟩ := h i x hx hids ty hty
  rcases hs with rfl | rfl
  · exact h1
  · exact h2

theorem vecCompute_good {names : List String} (hn : NamesOk names) {w : World} (h : Good names w) (ht : Typed w)
    {i : Nat} {p : Plain} (hp : plainOf w i = some p) (hids : p.hasIds = true) {s : Side} (hs : SideOk s) (k : Nat)
    (hown : ∀ r ∈ p.recs, ∃ n : Nat, cellOf r s.own = .num (n : ℚ))
    (hint : ∀ r ∈ p.recs, ∃ q, cellOf r "interaction" = .num q) :
    Good names (w.vecCompute i s k).1 ∧ Typed (w.vecCompute i s k).1 ∧
      plainOf (w.vecCompute i s k).1 = plainOf w ∧
      ∀ v, (w.vecCompute i s k).2 = .ok v → IsVec p s k v := by
  have hkeep : ∀ {w : World} {i : Nat} {op : ReadOp} (h : Good names w),
      Good names (w.read i op).1 ∧ plainOf (w.read i op).1 = plainOf w := by
    intro w i op h
    obtain ⟨a, b⟩ := step_good hn h (op := .read i op) trivial
    refine ⟨a, ?_⟩
    simp only [runOp, StepSpec] at b
    split at b
    · rename_i k hk
      obtain ⟨hk, p, hp, hP⟩ := b
      simp only [DbOp.makesNew, DbOp.inst] at hk hp
      rw [hP]
      simp only [DbOp.effect]
      cases hk
      exact setAt_self _ _ _ hp
    · rcases b with b | ⟨_, p, hp, hP⟩
      · exact b
      · rw [hP]; exact setAt_self _ _ _ hp
  obtain ⟨x, t, rows, hx, htab, hsh, hpe⟩ := plain_inv h hp
  obtain ⟨g1, g2⟩ := hkeep (i := i) (op := .max s.other) h
  have t1 : Typed (w.read i (.max s.other)).1 := typed_read ht i _
  unfold World.vecCompute
  cases hr : (w.read i (.max s.other)).2 with
  | error e =>
    have er : w.read i (.max s.other) = ((w.read i (.max s.other)).1, .error e) := by rw [← hr]
    rw [er]
    exact ⟨g1, t1, g2, fun v hv => by cases hv⟩
  | ok res =>
    have er : w.read i (.max s.other) = ((w.read i (.max s.other)).1, .ok res) := by rw [← hr]
    rw [er]
    have hspec := read_good hn h hx hp hr
    cases res with
    | recs l => exact ⟨g1, t1, g2, fun v hv => by cases hv⟩
    | one l => exact ⟨g1, t1, g2, fun v hv => by cases hv⟩
    | count l => exact ⟨g1, t1, g2, fun v hv => by cases hv⟩
    | val m =>
      simp only [ReadSpec] at hspec
      simp only
      generalize (w.read i (.max s.other)).1 = w1 at g1 g2 t1
      rw [idQuery_text]
      have hp1 : plainOf w1 i = some p := by rw [g2]; exact hp
      have hadm : Admissible names w1 (.select i (idCond s.own k) true) := by
        intro p' x' hp' hx'
        rw [hp1] at hp'; cases hp'
        obtain ⟨p'', hp'', _, hids'⟩ := plain_some g1 hx'
        rw [hp1] at hp''; cases hp''
        refine ⟨?_, ?_⟩
        · rcases hs with rfl | rfl
          · exact ⟨by simp [idCond], by
              intro w hw; simp only [idCond, List.mem_singleton] at hw; subst hw
              exact ⟨by simp [Blank], by simp [Blank], by simp only [Side.user, NameOk]; decide, trivial⟩⟩
          · exact ⟨by simp [idCond], by
              intro w hw; simp only [idCond, List.mem_singleton] at hw; subst hw
              exact ⟨by simp [Blank], by simp [Blank], by simp only [Side.item, NameOk]; decide, trivial⟩⟩
        · intro c hc
          simp only [idCond, List.mem_singleton] at hc
          subst hc
          refine ⟨trivial, ?_, ?_⟩
          · intro ty hty
            have := typed_types t1 hx' (by rw [← hids']; exact hids) hs hty
            simp only [FitsType, this, SLit.isStr]
          · intro r hr
            obtain ⟨n, hn⟩ := hown r hr
            rw [hn]
            exact ⟨trivial, by simp⟩
      obtain ⟨k1, k2⟩ := step_good hn g1 hadm
      have t2 : Typed (runOp w1 (.select i (idCond s.own k) true)).1 := typed_runOp t1 _
      simp only [runOp] at k1 k2 t2
      cases hsel : (w1.select i (queryText (idCond s.own k)) true).2 with
      | error e =>
        have es : w1.select i (queryText (idCond s.own k)) true =
          ((w1.select i (queryText (idCond s.own k)) true).1, .error e) := by rw [← hsel]
        rw [es]
        simp only [StepSpec, hsel] at k2
        refine ⟨k1, t2, ?_, fun v hv => by cases hv⟩
        rcases k2 with k2 | ⟨hf, _⟩
        · rw [k2, g2]
        · simp [DbOp.makesNew] at hf
      | ok j =>
        have es : w1.select i (queryText (idCond s.own k)) true =
          ((w1.select i (queryText (idCond s.own k)) true).1, .ok j) := by rw [← hsel]
        rw [es]
        simp only [StepSpec, hsel, DbOp.makesNew, if_true, DbOp.inst] at k2
        obtain ⟨⟨hjn, hji⟩, p', hp', hP⟩ := k2
        rw [hp1] at hp'; cases hp'
        simp only
        generalize (w1.select i (queryText (idCond s.own k)) true).1 = w2 at k1 t2 hP
        have hpj : plainOf w2 j = some (p.select (idCond s.own k)) := by
          rw [hP]; simp [setAt, DbOp.effect]
        obtain ⟨g3, g4⟩ := hkeep (i := j) (op := .values (some [s.other, "interaction"])) k1
        have t3 : Typed (w2.read j (.values (some [s.other, "interaction"]))).1 := typed_read t2 _ _
        obtain ⟨c1, c2⟩ := step_good hn g3 (op := .close j) trivial
        have t4 := typed_close t3 j
        have hclose : plainOf ((w2.read j (.values (some [s.other, "interaction"]))).1.close j).1 = plainOf w := by
          have hP' : plainOf w2 = setAt (plainOf w) j (some (p.select (idCond s.own k))) := by
            rw [hP, g2]; rfl
          have hj0 : plainOf w j = none := by rw [← g2]; exact hjn
          have hback : setAt (plainOf w2) j none = plainOf w := by
            rw [hP', setAt_setAt]
            exact setAt_self _ _ _ hj0
          simp only [runOp, outcome] at c2 c1
          simp only [StepSpec] at c2
          split at c2
          · obtain ⟨hk, p'', _, e⟩ := c2
            simp only [DbOp.makesNew, DbOp.inst] at hk
            rw [e, g4]
            simp only [Bool.false_eq_true, if_false] at hk
            subst hk
            exact hback
          · rename_i e he
            -- closing always succeeds on an open object
            obtain ⟨kk, hkk⟩ := works_good hn g3 (op := .close j) (p := p.select (idCond s.own k))
              (by simp only [DbOp.inst]; rw [g4]; exact hpj) trivial trivial
            simp only [runOp, outcome] at hkk
            rw [he] at hkk
            cases hkk
        refine ⟨c1, t4, hclose, ?_⟩
        intro v hv
        cases hval : (w2.read j (.values (some [s.other, "interaction"]))).2 with
        | error e => rw [hval] at hv; cases hv
        | ok res =>
          rw [hval] at hv
          obtain ⟨y, _, _, hy, _, _, _⟩ := plain_inv k1 hpj
          have hsp := read_good hn k1 hy hpj hval
          cases res with
          | one l => cases hv
          | count l => cases hv
          | val l => cases hv
          | recs l =>
            simp only [ReadSpec, Option.getD_some] at hsp
            have hmem : "interaction" ∈ [s.other, "interaction"] := by simp
            obtain ⟨n, hm, hv'⟩ := toVec_ok hv (by
              intro r hr
              rw [hsp] at hr
              obtain ⟨r0, hr0, rfl⟩ := List.mem_map.1 hr
              rw [cellOf_filter _ _ hmem]
              exact hint r0 (List.mem_filter.1 hr0).1)
            refine ⟨n, by rw [← hm]; exact hspec, ?_⟩
            rw [hv']
            apply List.map_congr_left
            intro a _
            rw [hsp]
            unfold entryTotal Plain.select
            simp only [List.filter_map, List.map_map, List.filter_filter]
            have hmem' : s.other ∈ [s.other, "interaction"] := by simp
            congr 1
            rw [show ((fun r => numCell (cellOf r "interaction")) ∘ fun r : Rec =>
                r.filter fun q => decide (q.1 ∈ [s.other, "interaction"])) =
              fun r => numCell (cellOf r "interaction") from by
                funext r; simp only [Function.comp, cellOf_filter _ _ hmem]]
            congr 1
            apply List.filter_congr
            intro r _
            simp only [Function.comp, cellOf_filter _ _ hmem', satRec_id]
            by_cases h1 : cellOf r s.own = .num (k : ℚ) <;> by_cases h2 : cellOf r s.other = .num (a : ℚ) <;>
              simp [h1, h2]

end DRec
