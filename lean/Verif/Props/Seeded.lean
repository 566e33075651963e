import Verif.Model.Seeded
import Verif.Props.Generators
import Mathlib.Algebra.Order.Field.Basic
import Mathlib.Tactic.Linarith
import Mathlib.Tactic.NormNum
import Mathlib.Tactic.Positivity

/-!
# C101: PointSampler with a seed
-/

namespace DRec

open Spec

theorem randBelow_lt {n : Nat} {ws : List Nat} {u : Nat} {rest : List Nat}
    (h : randBelow n ws = some (u, rest)) : u < n := by
  induction ws with
  | nil => cases h
  | cons w ws ih =>
    unfold randBelow at h
    split at h
    · simp only [Option.some.injEq, Prod.mk.injEq] at h
      omega
    · exact ih h

theorem recordFrom_mem {m : Nat} {rows : List Row} {t : Nat} {ws : List Nat} {r : Row} {rest : List Nat}
    (h : recordFrom m rows t ws = some (r, rest)) : r ∈ rows := by
  induction t generalizing ws with
  | zero => cases h
  | succ t ih =>
    unfold recordFrom at h
    split at h
    · cases h
    · simp only at h
      split at h
      · exact ih h
      · split at h
        · cases h
        · simp only [Option.map_eq_some_iff] at h
          obtain ⟨r', hr', h⟩ := h
          simp only [Prod.mk.injEq] at h
          rw [← h.1]
          exact List.mem_of_mem_filter (List.mem_of_getElem? hr')

theorem pairFrom_sound {rows : List Row} {mu mi t : Nat} {ws : List Nat} {u i : Nat} {rest : List Nat}
    (h : pairFrom rows mu mi t ws = some ((u, i), rest)) :
    pairFound rows u i = false ∧ u ≤ mu ∧ i ≤ mi := by
  induction t generalizing ws with
  | zero => cases h
  | succ t ih =>
    unfold pairFrom at h
    split at h
    · cases h
    · rename_i u' ws' hu
      split at h
      · cases h
      · rename_i i' rest' hi
        split at h
        · exact ih h
        · rename_i hf
          simp only [Option.some.injEq, Prod.mk.injEq] at h
          obtain ⟨⟨rfl, rfl⟩, _⟩ := h
          exact ⟨by simpa using hf, by have := randBelow_lt hu; omega, by have := randBelow_lt hi; omega⟩

/-- The sampler of a dataset with internal ids and records. -/
theorem pointSampler_eq {ds : Mem} (h : Fresh ds) (hne : ds.rows ≠ []) :
    ds.pointSampler none = .ok (⟨ds.userMap.length - 1, ds.rows⟩,
      ⟨ds.rows, ds.userMap.length - 1, ds.itemMap.length - 1⟩) := by
  unfold Mem.pointSampler
  simp only [Option.map_none, positiveQuery]
  rw [nullGen_eq h hne]
  simp [Mem.randomGen, h.ids.has, Mem.len, hne, Mem.queryRows, (fresh_maxUid h hne).1]

/-- **C101.** Whatever the seed, the sampler starts, and every sample consists of records of the dataset with their
own values and of pairs without record with value 0. -/
theorem C101_seeded_valid (ds : Mem) (h : Fresh ds) (hne : ds.rows ≠ []) (nr : ℚ) (n : Nat) (words : List Nat) :
    ∃ o, ds.seededSample nr n words = .ok o ∧ ∀ l, o = some l → l.length = n ∧ ∀ x ∈ l, TripleOk ds none x := by
  unfold Mem.seededSample
  rw [pointSampler_eq h hne]
  refine ⟨_, rfl, fun l hl => ?_⟩
  refine pointSample_all (P := fun r => r ∈ ds.rows ∧ Reaches none r) (N := NegativePair ds none) ?_ ?_ n _ _ _ l hl
  · intro s r s' e
    exact ⟨recordFrom_mem e, by simp [Reaches]⟩
  · intro s u i s' e
    obtain ⟨h1, h2, h3⟩ := pairFrom_sound e
    have hu := (fresh_maxUid h hne).2
    have hi := (fresh_maxIid h hne).2
    simp only at h2 h3
    refine ⟨by omega, by omega, ?_⟩
    rintro ⟨r, hr, hp, _⟩
    rw [(pairFound_iff ds.rows u i).2 ⟨r, hr, hp⟩] at h1
    cases h1

/-- **C101** (partial: without a seed).  Full property: every sequence of records and of pairs without record can be
the outcome of `sample`, whether or not a seed is given; with one, the records that can come first are restricted
(`C101_seeded_first_user`).  Proved when the three random sources are independent: for every positive `neg_ratio`
and every such sequence there are outcomes of `uniform`, within its range, and draws that lead to it. -/
theorem C101_any_sequence_partial (ds : Mem) (h : Fresh ds) (hne : ds.rows ≠ []) (nr : ℚ) (hnr : 0 < nr)
    (l : List Triple) (hl : ∀ x ∈ l, TripleOk ds none x) :
    ∃ pos neg choices ps ns, ds.pointSampler none = .ok (pos, neg) ∧
      (∀ x ∈ choices, 0 ≤ x ∧ x ≤ nr + 1) ∧
      pointSample pos.next neg.next l.length choices ps ns = some l := by
  suffices hs : ∃ (choices : List ℚ) (ps ns : List Nat), (∀ x ∈ choices, 0 ≤ x ∧ x ≤ nr + 1) ∧
      pointSample (nextRecord (ds.userMap.length - 1) ds.rows)
        (nextNullMem ds.rows (ds.userMap.length - 1) (ds.itemMap.length - 1)) l.length choices ps ns = some l by
    obtain ⟨choices, ps, ns, h1, h2⟩ := hs
    exact ⟨_, _, choices, ps, ns, pointSampler_eq h hne, h1, h2⟩
  have hu := (fresh_maxUid h hne).2
  have hi := (fresh_maxIid h hne).2
  induction l with
  | nil => exact ⟨[], [], [], by simp, rfl⟩
  | cons x l ih =>
    obtain ⟨choices, ps, ns, h1, h2⟩ := ih fun y hy => hl y (List.mem_cons_of_mem _ hy)
    rcases hl x List.mem_cons_self with ⟨hneg, r, ⟨hr, _⟩, e1, e2, e3⟩ | ⟨hneg, hv, u, i, e1, e2, hp⟩
    · obtain ⟨hmem, hcode⟩ := h.ids.user.code r hr
      have hlt := List.idxOf_lt_length_iff.2 hmem
      obtain ⟨e, he⟩ := nextRecord_reach (m := ds.userMap.length - 1) hr hcode (by omega) ps
      refine ⟨0 :: choices, ds.userMap.idxOf (r.get "user") :: e :: ps, ns, ?_, ?_⟩
      · intro y hy
        rcases List.mem_cons.1 hy with rfl | hy
        · exact ⟨le_refl _, by linarith⟩
        · exact h1 y hy
      · simp only [List.length_cons, pointSample]
        rw [if_neg (by norm_num), he]
        simp only [h2, Option.map_some, Option.some.injEq, List.cons.injEq, and_true]
        obtain ⟨a, b, c, d⟩ := x
        simp only at hneg e1 e2 e3
        rw [hneg, e1, e2, e3]
    · obtain ⟨hul, hil, hnp⟩ := hp
      have hf : pairFound ds.rows u i = false := by
        rw [← Bool.not_eq_true, pairFound_iff]
        rintro ⟨r, hr, ho⟩
        exact hnp ⟨r, hr, ho, by simp [Reaches]⟩
      refine ⟨(nr + 1) :: choices, ps, u :: i :: ns, ?_, ?_⟩
      · intro y hy
        rcases List.mem_cons.1 hy with rfl | hy
        · exact ⟨by linarith, le_refl _⟩
        · exact h1 y hy
      · simp only [List.length_cons, pointSample]
        rw [if_pos (by linarith), nextNullMem_reach (by omega) (by omega) hf]
        simp only [h2, Option.map_some, Option.some.injEq, List.cons.injEq, and_true]
        obtain ⟨a, b, c, d⟩ := x
        simp only at hneg e1 e2 hv
        rw [hneg, e1, e2, hv]

/-- A first word that makes `uniform` small is small itself. -/
theorem small_word {nr : ℚ} {a b k : Nat} (hk : k ≤ 27)
    (h : (nr + 1) * (((a / 2 ^ 5 * 2 ^ 26 + b / 2 ^ 6 : ℕ) : ℚ) / 2 ^ 53) ≤ 1) (hnr : 0 < nr) :
    ((a / 2 ^ (32 - k) : ℕ) : ℚ) * (nr + 1) ≤ 2 ^ k := by
  have e : a / 2 ^ (32 - k) = a / 2 ^ 5 / 2 ^ (27 - k) := by
    rw [Nat.div_div_eq_div_mul, ← Nat.pow_add]
    congr 2
    omega
  have h1 : (a / 2 ^ 5 / 2 ^ (27 - k)) * 2 ^ (27 - k) ≤ a / 2 ^ 5 := Nat.div_mul_le_self _ _
  rw [e]
  generalize a / 2 ^ 5 / 2 ^ (27 - k) = u at h1
  generalize a / 2 ^ 5 = v at h h1
  generalize b / 2 ^ 6 = c at h
  have hp : (2 : ℚ) ^ (27 - k) * 2 ^ k = 2 ^ 27 := by rw [← pow_add]; congr 1; omega
  have h1' : (u : ℚ) * 2 ^ (27 - k) ≤ v := by exact_mod_cast h1
  push_cast at h
  have hc : (0 : ℚ) ≤ c := Nat.cast_nonneg c
  have h2 : (nr + 1) * ((v : ℚ) * 2 ^ 26 + c) ≤ 2 ^ 53 := by
    rw [← mul_div_assoc, div_le_one (by norm_num)] at h
    exact h
  have h3 : (nr + 1) * (v : ℚ) ≤ 2 ^ 27 := by nlinarith
  have h4 : (u : ℚ) * (nr + 1) * 2 ^ (27 - k) ≤ 2 ^ k * 2 ^ (27 - k) := by
    calc (u : ℚ) * (nr + 1) * 2 ^ (27 - k) = (nr + 1) * (u * 2 ^ (27 - k)) := by ring
      _ ≤ (nr + 1) * v := mul_le_mul_of_nonneg_left h1' (by linarith)
      _ ≤ 2 ^ 27 := h3
      _ = 2 ^ k * 2 ^ (27 - k) := by rw [← hp]; ring
  exact le_of_mul_le_mul_right h4 (by positivity)

/-- **C101.** With any seed, when the first sample is a record, its user is one of the first
`2 · users / (neg_ratio + 1)`: the word that decides that a record is wanted is the word that chooses the user. -/
theorem C101_seeded_first_user (ds : Mem) (h : Fresh ds) (hne : ds.rows ≠ []) (nr : ℚ) (hnr : 1 < nr)
    (hsize : ds.userMap.length < 2 ^ 27) (n : Nat) (words : List Nat) (x : Triple) (l : List Triple)
    (hs : ds.seededSample nr n words = .ok (some (x :: l))) (hx : x.negative = false) :
    ∃ u : ℕ, x.uid = .num (u : ℚ) ∧ (u : ℚ) * (nr + 1) ≤ 2 * (ds.userMap.length : ℚ) := by
  unfold Mem.seededSample at hs
  rw [pointSampler_eq h hne] at hs
  simp only [Except.ok.injEq] at hs
  have hu := (fresh_maxUid h hne).2
  cases n with
  | zero => simp [pointSample] at hs
  | succ n =>
    match words with
    | [] => simp [uniforms, pointSample] at hs
    | [_] => simp [uniforms, pointSample] at hs
    | a :: b :: ws =>
      simp only [uniforms, pointSample] at hs
      split at hs
      · split at hs
        · cases hs
        · simp only [Option.map_eq_some_iff, List.cons.injEq] at hs
          obtain ⟨_, _, rfl, _⟩ := hs
          cases hx
      · rename_i hle
        split at hs
        · cases hs
        · rename_i r ps' hr
          simp only [Option.map_eq_some_iff, List.cons.injEq] at hs
          obtain ⟨_, _, rfl, _⟩ := hs
          simp only
          set N := ds.userMap.length with hN
          have hN1 : N - 1 + 1 = N := by omega
          have hk : bitLength N ≤ 27 := (Nat.log2_lt (by omega)).2 hsize
          have hsmall := small_word hk (not_lt.1 hle) (by linarith)
          have h2N : 2 ^ bitLength N ≤ 2 * N := by
            have := Nat.log2_self_le (n := N) (by omega)
            unfold bitLength
            rw [pow_succ']
            omega
          have h2N' : (2 : ℚ) ^ bitLength N ≤ 2 * N := by exact_mod_cast h2N
          have hbound := hsmall.trans h2N'
          have hlt : a / 2 ^ (32 - bitLength N) < N := by
            have hpos : (0 : ℚ) < N := by exact_mod_cast hu
            have : ((a / 2 ^ (32 - bitLength N) : ℕ) : ℚ) < N := by
              by_contra hc
              push Not at hc
              nlinarith
            exact_mod_cast this
          unfold RecGen.nextSeeded at hr
          simp only [List.length_cons] at hr
          rw [recordFrom] at hr
          simp only [hN1, randBelow, if_pos hlt] at hr
          have hseg : rowsWith "uid" (a / 2 ^ (32 - bitLength N)) ds.rows ≠ [] := by
            obtain ⟨r', hr', he⟩ := h.users _ (List.getElem_mem hlt)
            have hc := (h.ids.user.code r' hr').2
            rw [he, h.ids.user.nodup.idxOf_getElem] at hc
            exact List.ne_nil_of_mem (List.mem_filter.2 ⟨hr', by simpa using hc⟩)
          rw [if_neg (by simpa using hseg)] at hr
          split at hr
          · cases hr
          · rename_i e rest _
            simp only [Option.map_eq_some_iff] at hr
            obtain ⟨r', hr', hr⟩ := hr
            simp only [Prod.mk.injEq] at hr
            rw [← hr.1]
            have := (List.mem_filter.1 (List.mem_of_getElem? hr')).2
            exact ⟨_, by simpa using this, hbound⟩

theorem randBelow_shorter {n : Nat} {ws : List Nat} {u : Nat} {rest : List Nat}
    (h : randBelow n ws = some (u, rest)) : rest.length < ws.length := by
  induction ws with
  | nil => cases h
  | cons w ws ih =>
    unfold randBelow at h
    split at h
    · simp only [Option.some.injEq, Prod.mk.injEq] at h
      simp [← h.2]
    · have := ih h
      simp only [List.length_cons]
      omega

theorem recordFrom_enough {m : Nat} {rows : List Row} {t : Nat} {ws : List Nat} (ht : ws.length ≤ t) :
    recordFrom m rows t ws = recordFrom m rows ws.length ws := by
  induction t using Nat.strong_induction_on generalizing ws with
  | _ t ih =>
    cases ws with
    | nil =>
      cases t with
      | zero => rfl
      | succ t => simp [recordFrom, randBelow]
    | cons w ws =>
      cases t with
      | zero => simp at ht
      | succ t =>
        simp only [List.length_cons] at ht ⊢
        rw [recordFrom, recordFrom]
        cases h : randBelow (m + 1) (w :: ws) with
        | none => rfl
        | some p =>
          have hs := randBelow_shorter h
          simp only [List.length_cons] at hs
          simp only
          split
          · rw [ih t (by omega) (by omega)]
            by_cases he : ws.length = t
            · rw [he, ih t (by omega) (by omega)]
            · rw [ih ws.length (by omega) (by omega)]
          · rfl

theorem pairFrom_enough {rows : List Row} {mu mi t : Nat} {ws : List Nat} (ht : ws.length ≤ t) :
    pairFrom rows mu mi t ws = pairFrom rows mu mi ws.length ws := by
  induction t using Nat.strong_induction_on generalizing ws with
  | _ t ih =>
    cases ws with
    | nil =>
      cases t with
      | zero => rfl
      | succ t => simp [pairFrom, randBelow]
    | cons w ws =>
      cases t with
      | zero => simp at ht
      | succ t =>
        simp only [List.length_cons] at ht ⊢
        rw [pairFrom, pairFrom]
        cases h : randBelow (mu + 1) (w :: ws) with
        | none => rfl
        | some p =>
          have hs := randBelow_shorter h
          simp only [List.length_cons] at hs
          simp only
          cases h2 : randBelow (mi + 1) p.2 with
          | none => rfl
          | some q =>
            have hs2 := randBelow_shorter h2
            simp only
            split
            · rw [ih t (by omega) (by omega)]
              by_cases he : ws.length = t
              · rw [he, ih t (by omega) (by omega)]
              · rw [ih ws.length (by omega) (by omega)]
            · rfl

/-- The number a word stands for when one below `n` is wanted: its leading bits. -/
def wordBits (n w : Nat) : Nat := w / 2 ^ (32 - (n.log2 + 1))

/-- **C101.** The positive generator, word by word: a word whose leading bits are the uid of a user with records and
one whose leading bits are the position of a record among these give that record; words that stand for no uid, for a
user without records or for no position are skipped. -/
theorem C101_seeded_record (g : RecGen) (a b : Nat) (ws : List Nat) :
    let mine := g.rows.filter fun r => r.get "uid" = .num (wordBits (g.maxUid + 1) a : ℚ)
    (wordBits (g.maxUid + 1) a ≤ g.maxUid →
      (∀ r, mine[wordBits mine.length b]? = some r → g.nextSeeded (a :: b :: ws) = some (r, ws)) ∧
      (mine ≠ [] → mine.length ≤ wordBits mine.length b → g.nextSeeded (a :: b :: ws) = g.nextSeeded (a :: ws)) ∧
      (mine = [] → g.nextSeeded (a :: ws) = g.nextSeeded ws)) ∧
    (g.maxUid < wordBits (g.maxUid + 1) a → g.nextSeeded (a :: ws) = g.nextSeeded ws) := by
  intro mine
  have hm : rowsWith "uid" (wordBits (g.maxUid + 1) a) g.rows = mine := rfl
  have hfirst : ∀ l : List Nat, wordBits (g.maxUid + 1) a ≤ g.maxUid →
      randBelow (g.maxUid + 1) (a :: l) = some (wordBits (g.maxUid + 1) a, l) := by
    intro l h
    have h' : a / 2 ^ (32 - bitLength (g.maxUid + 1)) < g.maxUid + 1 := Nat.lt_succ_of_le h
    rw [randBelow, if_pos h']
    rfl
  refine ⟨fun h => ⟨?_, ?_, ?_⟩, ?_⟩
  · intro r hr
    have hlt : wordBits mine.length b < mine.length := (List.getElem?_eq_some_iff.1 hr).1
    have hlt' : b / 2 ^ (32 - bitLength mine.length) < mine.length := hlt
    unfold RecGen.nextSeeded
    rw [List.length_cons, recordFrom, hfirst _ h]
    simp only [hm]
    rw [if_neg (by omega), randBelow, if_pos hlt']
    have hr' : mine[b / 2 ^ (32 - bitLength mine.length)]? = some r := hr
    simp [hr']
  · intro hne hge
    have hge' : ¬ b / 2 ^ (32 - bitLength mine.length) < mine.length := not_lt.2 hge
    have hl : mine.length ≠ 0 := by simpa using hne
    unfold RecGen.nextSeeded
    have hskip : randBelow mine.length (b :: ws) = randBelow mine.length ws := by rw [randBelow, if_neg hge']
    rw [← recordFrom_enough (ws := a :: ws) (t := (b :: ws).length + 1) (by simp), List.length_cons, recordFrom, recordFrom,
      hfirst _ h, hfirst _ h]
    simp only [hm, hskip, hl, if_false]
  · intro he
    unfold RecGen.nextSeeded
    rw [List.length_cons, recordFrom, hfirst _ h]
    simp only [hm, he]
    simp
  · intro h
    have h' : ¬ a / 2 ^ (32 - bitLength (g.maxUid + 1)) < g.maxUid + 1 := not_lt.2 h
    unfold RecGen.nextSeeded
    rw [← recordFrom_enough (ws := ws) (t := ws.length + 1) (by omega), List.length_cons, recordFrom, recordFrom, randBelow,
      if_neg h']

/-- **C101.** The pair generator, word by word: two words whose leading bits are a uid and an iid without record give
that pair; with a record, both are skipped; words that stand for no uid or for no iid are skipped. -/
theorem C101_seeded_pair (g : NullGen) (a b : Nat) (ws : List Nat) :
    let u := wordBits (g.maxUid + 1) a
    let i := wordBits (g.maxIid + 1) b
    let known := ∃ r ∈ g.rows, r.get "uid" = .num (u : ℚ) ∧ r.get "iid" = .num (i : ℚ)
    (u ≤ g.maxUid → i ≤ g.maxIid → ¬ known → g.nextSeeded (a :: b :: ws) = some ((u, i), ws)) ∧
    (u ≤ g.maxUid → i ≤ g.maxIid → known → g.nextSeeded (a :: b :: ws) = g.nextSeeded ws) ∧
    (u ≤ g.maxUid → g.maxIid < i → g.nextSeeded (a :: b :: ws) = g.nextSeeded (a :: ws)) ∧
    (g.maxUid < u → g.nextSeeded (a :: ws) = g.nextSeeded ws) := by
  intro u i known
  have hfirst : ∀ l : List Nat, u ≤ g.maxUid → randBelow (g.maxUid + 1) (a :: l) = some (u, l) := by
    intro l h
    have h' : a / 2 ^ (32 - bitLength (g.maxUid + 1)) < g.maxUid + 1 := Nat.lt_succ_of_le h
    rw [randBelow, if_pos h']
    rfl
  have hsecond : i ≤ g.maxIid → randBelow (g.maxIid + 1) (b :: ws) = some (i, ws) := by
    intro h
    have h' : b / 2 ^ (32 - bitLength (g.maxIid + 1)) < g.maxIid + 1 := Nat.lt_succ_of_le h
    rw [randBelow, if_pos h']
    rfl
  refine ⟨fun hu hi hk => ?_, fun hu hi hk => ?_, fun hu hi => ?_, fun hu => ?_⟩
  · have : pairFound g.rows u i = false := by
      rw [← Bool.not_eq_true, pairFound_iff]
      rintro ⟨r, hr, h⟩
      exact hk ⟨r, hr, h⟩
    unfold NullGen.nextSeeded
    rw [List.length_cons, pairFrom, hfirst _ hu]
    simp only [hsecond hi, this]
    simp
  · have : pairFound g.rows u i = true := by
      rw [pairFound_iff]
      obtain ⟨r, hr, h⟩ := hk
      exact ⟨r, hr, h⟩
    unfold NullGen.nextSeeded
    rw [List.length_cons, pairFrom, hfirst _ hu]
    simp only [hsecond hi, this, if_true]
    exact pairFrom_enough (by simp)
  · have h' : ¬ b / 2 ^ (32 - bitLength (g.maxIid + 1)) < g.maxIid + 1 := not_lt.2 hi
    have hskip : randBelow (g.maxIid + 1) (b :: ws) = randBelow (g.maxIid + 1) ws := by
      rw [randBelow, if_neg h']
    unfold NullGen.nextSeeded
    rw [← pairFrom_enough (ws := a :: ws) (t := (b :: ws).length + 1) (by simp), List.length_cons, pairFrom, pairFrom,
      hfirst _ hu, hfirst _ hu]
    simp only [hskip]
  · have h' : ¬ a / 2 ^ (32 - bitLength (g.maxUid + 1)) < g.maxUid + 1 := not_lt.2 hu
    unfold NullGen.nextSeeded
    rw [← pairFrom_enough (ws := ws) (t := ws.length + 1) (by omega), List.length_cons, pairFrom, pairFrom, randBelow,
      if_neg h']

/-- Four users with one record each, two items. -/
def exFour : Mem := (mkMem .obj [(.str "u", .str "a", 5), (.str "v", .str "b", 4),
  (.str "w", .str "a", 3), (.str "x", .str "b", 1)]).assignIds.1

theorem exFour_fresh : Fresh exFour :=
  C15_fresh_after_assign _ (by decide) (by decide) (by decide) (by
    intro r hr
    simp only [mkMem, List.zipIdx_cons, List.zipIdx_nil, List.map_cons, List.map_nil,
      List.mem_cons, List.not_mem_nil, or_false] at hr
    rcases hr with rfl | rfl | rfl | rfl
    · exact ⟨5, by decide⟩
    · exact ⟨4, by decide⟩
    · exact ⟨3, by decide⟩
    · exact ⟨1, by decide⟩)

/-- **The full claim is false**: with `neg_ratio = 5` and any seed the record of the last of four users is never the
first sample, though it is a record of the dataset. -/
theorem C101_fails_seeded : ∃ x : Triple, TripleOk exFour none x ∧
    ∀ n words l, exFour.seededSample 5 n words ≠ .ok (some (x :: l)) := by
  have hlen : exFour.userMap.length = 4 := by decide +kernel
  have hne : exFour.rows ≠ [] := by
    intro e
    have h1 : exFour.rows.length = 4 := by decide +kernel
    rw [e] at h1
    cases h1
  refine ⟨⟨.num 3, .num 1, .num 1, false⟩, ?_, ?_⟩
  · have h3 : 3 < exFour.rows.length := by decide +kernel
    refine Or.inl ⟨rfl, exFour.rows[3], ⟨List.getElem_mem h3, by simp [Reaches]⟩, ?_, ?_, ?_⟩
    all_goals
      clear hlen hne
      revert h3
      decide +kernel
  · intro n words l hs
    obtain ⟨u, hu, hb⟩ := C101_seeded_first_user exFour exFour_fresh hne 5 (by norm_num) (by omega) n words _ l hs rfl
    simp only [Val.num.injEq] at hu
    rw [← hu, hlen] at hb
    norm_num at hb

theorem exFour_ne : exFour.rows ≠ [] := by
  intro e
  have h1 : exFour.rows.length = 4 := by decide +kernel
  rw [e] at h1
  cases h1

theorem exFour_sample : exFour.seededSample 5 2 [2 ^ 29, 0, 2 ^ 32 - 1, 7, 0, 0] =
    .ok (some [⟨.num 1, .num 1, .num 4, false⟩, ⟨.num 1, .num 0, .num 0, true⟩]) := by decide +kernel

/-- Words for the second user's record, a word that is skipped, and a pair without record. -/
example :
    let g : RecGen := ⟨3, exFour.rows⟩
    let p : NullGen := ⟨exFour.rows, 3, 1⟩
    wordBits 4 (2 ^ 29) = 1 ∧ wordBits 1 0 = 0 ∧ 3 < wordBits 4 (2 ^ 32 - 1) ∧
      (g.nextSeeded [2 ^ 29, 0, 7]).map (fun x => (x.1.get "user", x.2)) = some (.str "v", [7]) ∧
      (g.nextSeeded [2 ^ 32 - 1, 2 ^ 29, 0, 7]).map (fun x => (x.1.get "user", x.2)) = some (.str "v", [7]) ∧
      p.nextSeeded [2 ^ 29, 0, 7] = some ((1, 0), [7]) ∧
      p.nextSeeded [2 ^ 29, 2 ^ 30, 2 ^ 29, 0, 7] = some ((1, 0), [7]) := by decide +kernel

/-- The hypotheses hold for the four users: there are words for which both a record and a pair without record come
up. -/
example : exFour.rows ≠ [] ∧ Fresh exFour ∧ exFour.userMap.length < 2 ^ 27 ∧
    ∀ x ∈ [Triple.mk (.num 1) (.num 1) (.num 4) false, ⟨.num 1, .num 0, .num 0, true⟩], TripleOk exFour none x := by
  obtain ⟨o, h1, h2⟩ := C101_seeded_valid exFour exFour_fresh exFour_ne 5 2 [2 ^ 29, 0, 2 ^ 32 - 1, 7, 0, 0]
  rw [exFour_sample, Except.ok.injEq] at h1
  exact ⟨exFour_ne, exFour_fresh, by decide +kernel, (h2 _ h1.symm).2⟩

end DRec
