import Verif.Props.NanRank
import Mathlib.Data.Prod.Lex
import Mathlib.Order.Lattice

/-!
# The heap of `heapq.nlargest` when all scores are numbers
-/

namespace DRec.NanRank

open DRec.Div

/-- Candidates in their order. -/
abbrev CKey := ℚ ×ₗ Nat

/-- Entries in their order. -/
abbrev EKey := CKey ×ₗ Int

def ckey (c : Cand) : CKey := toLex (c.1.getD 0, c.2)

def ekey (e : Entry) : EKey := toLex (ckey e.1, e.2)

theorem ltCand_iff {a b : Cand} (ha : a.1.isSome) (hb : b.1.isSome) : ltCand a b = true ↔ ckey a < ckey b := by
  obtain ⟨x, i⟩ := a
  obtain ⟨y, j⟩ := b
  cases x with
  | none => cases ha
  | some x =>
    cases y with
    | none => cases hb
    | some y =>
      rw [ckey, ckey, Prod.Lex.toLex_lt_toLex]
      by_cases h : x = y
      · simp [ltCand, sameFloat, h]
      · simp [ltCand, sameFloat, above, h]

theorem ckey_inj {a b : Cand} (ha : a.1.isSome) (hb : b.1.isSome) : ckey a = ckey b ↔ sameFloat a.1 b.1 = true ∧ a.2 = b.2 := by
  obtain ⟨x, i⟩ := a
  obtain ⟨y, j⟩ := b
  cases x with
  | none => cases ha
  | some x =>
    cases y with
    | none => cases hb
    | some y => simp [ckey, sameFloat]

theorem ltEntry_iff {a b : Entry} (ha : a.1.1.isSome) (hb : b.1.1.isSome) : ltEntry a b = true ↔ ekey a < ekey b := by
  rw [ekey, ekey, Prod.Lex.toLex_lt_toLex]
  by_cases h : ckey a.1 = ckey b.1
  · have h' := (ckey_inj ha hb).1 h
    simp [ltEntry, h', h]
  · have h' : ¬ (sameFloat a.1.1 b.1.1 && decide (a.1.2 = b.1.2)) = true := by
      simpa using fun h1 h2 => h ((ckey_inj ha hb).2 ⟨h1, h2⟩)
    rw [ltEntry, if_neg h', ltCand_iff ha hb]
    simp [h]

/-- The key at a place of the heap. -/
def at_ (h : Array Entry) (i : Nat) : EKey := ekey (h.getD i ((none, 0), 0))

theorem swp_size (h : Array Entry) (i j : Nat) : (swp h i j).size = h.size := by
  unfold swp
  split <;> simp

theorem at_swp (h : Array Entry) {i j : Nat} (hi : i < h.size) (hj : j < h.size) (k : Nat) :
    at_ (swp h i j) k = if k = i then at_ h j else if k = j then at_ h i else at_ h k := by
  unfold at_
  rw [swp, dif_pos ⟨hi, hj⟩]
  simp only [Array.getD_eq_getD_getElem?, Array.getElem?_swap]
  by_cases h1 : k = j
  · subst h1
    by_cases h2 : k = i
    · subst h2; simp [hi]
    · simp [h2, hi]
  · by_cases h2 : k = i
    · subst h2
      simp [Ne.symm h1, hj]
    · simp [h1, h2, Ne.symm h1, Ne.symm h2]

/-- All scores in the heap are numbers. -/
def Num (h : Array Entry) : Prop := ∀ e ∈ h.toList, e.1.1.isSome

theorem num_swp {h : Array Entry} (hn : Num h) (i j : Nat) : Num (swp h i j) := fun e he => hn e ((swp_perm h i j).subset he)

theorem lt_at {h : Array Entry} (hn : Num h) {i j : Nat} {x y : Entry} (hi : h[i]? = some x) (hj : h[j]? = some y) :
    ltEntry x y = true ↔ at_ h i < at_ h j := by
  have hx : x.1.1.isSome := hn x (by rw [Array.mem_toList_iff]; exact Array.mem_of_getElem? hi)
  have hy : y.1.1.isSome := hn y (by rw [Array.mem_toList_iff]; exact Array.mem_of_getElem? hj)
  rw [ltEntry_iff hx hy]
  simp [at_, Array.getD_eq_getD_getElem?, hi, hj]

/-- `c` is a child of `i`. -/
def Child (i c : Nat) : Prop := c = 2 * i + 1 ∨ c = 2 * i + 2

/-- From `s` on, parents are not larger than their children. -/
def HeapFrom (h : Array Entry) (s : Nat) : Prop := ∀ i c : Nat, s ≤ i → Child i c → c < h.size → at_ h i ≤ at_ h c

/-- The same, but for the element at `pos`. -/
structure Hole (h : Array Entry) (s pos : Nat) : Prop where
  edge : ∀ i c : Nat, s ≤ i → Child i c → c < h.size → i ≠ pos → c ≠ pos → at_ h i ≤ at_ h c
  skip : ∀ i c : Nat, s ≤ i → Child i pos → Child pos c → c < h.size → at_ h i ≤ at_ h c

/-- `pos` is `s` or below it. -/
inductive Below (s : Nat) : Nat → Prop
  | refl : Below s s
  | child {i c : Nat} : Below s i → Child i c → Below s c

theorem Below.le {s p : Nat} (h : Below s p) : s ≤ p := by
  induction h with
  | refl => exact Nat.le_refl _
  | child _ hc ih => unfold Child at hc; omega

theorem Below.parent {s p : Nat} (h : Below s p) (hp : s < p) : Below s ((p - 1) / 2) ∧ Child ((p - 1) / 2) p := by
  cases h with
  | refl => omega
  | @child i _ hi hc =>
    have : (p - 1) / 2 = i := by unfold Child at hc; omega
    rw [this]
    exact ⟨hi, hc⟩

theorem hole_down {h : Array Entry} {s pos c : Nat} (H : Hole h s pos) (hs : s ≤ pos) (hc : Child pos c) (hz : c < h.size)
    (hmin : ∀ k : Nat, Child pos k → k < h.size → at_ h c ≤ at_ h k) : Hole (swp h pos c) s c := by
  have hp : pos < h.size := by unfold Child at hc; omega
  have hne : pos ≠ c := by unfold Child at hc; omega
  constructor
  · intro i k hi hk hkz h1 h2
    rw [swp_size] at hkz
    rw [at_swp h hp hz, at_swp h hp hz, if_neg h1, if_neg h2]
    by_cases e : i = pos
    · subst e
      have : k ≠ i := by unfold Child at hk; omega
      rw [if_pos rfl, if_neg this]
      exact hmin k hk hkz
    · rw [if_neg e]
      by_cases e2 : k = pos
      · subst e2
        rw [if_pos rfl]
        exact H.skip i c hi hk hc hz
      · rw [if_neg e2]
        exact H.edge i k hi hk hkz e e2
  · intro i k hi hk hk2 hkz
    rw [swp_size] at hkz
    have e : i = pos := by unfold Child at hk hc; omega
    subst e
    have e1 : k ≠ i := by unfold Child at hk hk2; omega
    have e2 : k ≠ c := by unfold Child at hk2; omega
    rw [at_swp h hp hz, at_swp h hp hz, if_pos rfl, if_neg e1, if_neg e2]
    exact H.edge c k (by unfold Child at hk; omega) hk2 hkz (Ne.symm hne) e1

theorem sink_hole (f : Nat) : ∀ (h : Array Entry) (s pos : Nat), Num h → Hole h s pos → Below s pos → h.size ≤ pos + f →
    Hole (sink f h pos).1 s (sink f h pos).2 ∧ Below s (sink f h pos).2 ∧ (sink f h pos).1.size = h.size ∧ h.size ≤ 2 * (sink f h pos).2 + 1 ∧
    ((sink f h pos).2 < h.size ∨ (sink f h pos).2 = pos) := by
  induction f with
  | zero => exact fun h s pos hn H hb hf => ⟨H, hb, rfl, by simp only [sink]; omega, Or.inr rfl⟩
  | succ f ih =>
    intro h s pos hn H hb hf
    have step : ∀ c : Nat, Child pos c → c < h.size → (∀ k : Nat, Child pos k → k < h.size → at_ h c ≤ at_ h k) →
        Hole (sink f (swp h pos c) c).1 s (sink f (swp h pos c) c).2 ∧ Below s (sink f (swp h pos c) c).2 ∧
        (sink f (swp h pos c) c).1.size = h.size ∧ h.size ≤ 2 * (sink f (swp h pos c) c).2 + 1 ∧
        ((sink f (swp h pos c) c).2 < h.size ∨ (sink f (swp h pos c) c).2 = pos) := by
      intro c hc hz hmin
      obtain ⟨a1, a2, a3, a4, a5⟩ := ih (swp h pos c) s c (num_swp hn _ _) (hole_down H hb.le hc hz hmin) (hb.child hc)
        (by rw [swp_size]; unfold Child at hc; omega)
      rw [swp_size] at a3 a4 a5
      exact ⟨a1, a2, a3, a4, Or.inl (by rcases a5 with a5 | a5 <;> omega)⟩
    unfold sink
    split
    · next x y hx hy =>
      have zx : 2 * pos + 1 < h.size := (Array.getElem?_eq_some_iff.1 hx).1
      have zy : 2 * pos + 2 < h.size := (Array.getElem?_eq_some_iff.1 hy).1
      have hl := lt_at hn hx hy
      by_cases hlt : ltEntry x y = true
      · simp only [hlt, if_true]
        refine step _ (Or.inl rfl) zx fun k hk _ => ?_
        rcases hk with rfl | rfl
        · exact le_rfl
        · exact (hl.1 hlt).le
      · simp only [hlt]
        refine step _ (Or.inr rfl) zy fun k hk _ => ?_
        rcases hk with rfl | rfl
        · exact not_lt.1 fun hh => hlt (hl.2 hh)
        · exact le_rfl
    · next x hx hy =>
      have zx : 2 * pos + 1 < h.size := (Array.getElem?_eq_some_iff.1 hx).1
      have zy : h.size ≤ 2 * pos + 2 := Array.getElem?_eq_none_iff.1 hy
      refine step _ (Or.inl rfl) zx fun k hk hkz => ?_
      rcases hk with rfl | rfl
      · exact le_rfl
      · omega
    · next hx =>
      have zx : h.size ≤ 2 * pos + 1 := Array.getElem?_eq_none_iff.1 hx
      exact ⟨H, hb, rfl, zx, Or.inr rfl⟩

theorem siftdown_heap (f : Nat) : ∀ (h : Array Entry) (s pos : Nat), Num h → Hole h s pos → Below s pos → pos < h.size → pos ≤ f →
    (∀ c : Nat, Child pos c → c < h.size → at_ h pos ≤ at_ h c) → HeapFrom (siftdown f h s pos) s := by
  have top : ∀ (h : Array Entry) (s pos : Nat), Hole h s pos → (∀ c : Nat, Child pos c → c < h.size → at_ h pos ≤ at_ h c) →
      (∀ i : Nat, s ≤ i → Child i pos → at_ h i ≤ at_ h pos) → HeapFrom h s := by
    intro h s pos H hc hp i c hi hic hcz
    by_cases e : i = pos
    · subst e; exact hc c hic hcz
    · by_cases e2 : c = pos
      · subst e2; exact hp i hi hic
      · exact H.edge i c hi hic hcz e e2
  have atstart : ∀ (h : Array Entry) (s pos : Nat), Below s pos → ¬ s < pos → ∀ i : Nat, s ≤ i → Child i pos → at_ h i ≤ at_ h pos := by
    intro h s pos hb hlt i hi hc
    have := hb.le
    unfold Child at hc
    omega
  induction f with
  | zero =>
    intro h s pos hn H hb hz hf hc
    exact top h s pos H hc (atstart h s pos hb (by omega))
  | succ f ih =>
    intro h s pos hn H hb hz hf hc
    unfold siftdown
    split
    · next hsp =>
      obtain ⟨hbp, hcp⟩ := hb.parent hsp
      generalize (pos - 1) / 2 = p at hbp hcp
      have hpp : p < pos := by unfold Child at hcp; omega
      have hzp : p < h.size := by omega
      rw [Array.getElem?_eq_getElem hz, Array.getElem?_eq_getElem hzp]
      have hl := lt_at hn (Array.getElem?_eq_getElem hz) (Array.getElem?_eq_getElem hzp)
      dsimp only
      split
      · next hlt =>
        have hlt' := hl.1 hlt
        have sib : ∀ c : Nat, Child p c → c < h.size → c ≠ pos → at_ h p ≤ at_ h c := fun c h1 h2 h3 =>
          H.edge p c hbp.le h1 h2 (by omega) h3
        refine ih _ s p (num_swp hn _ _) ⟨?_, ?_⟩ hbp (by rw [swp_size]; exact hzp) (by omega) ?_
        · intro i c hi hic hcz h1 h2
          rw [swp_size] at hcz
          rw [at_swp h hz hzp, at_swp h hz hzp, if_neg h1, if_neg h2]
          by_cases e : i = pos
          · subst e
            have : c ≠ i := by unfold Child at hic; omega
            rw [if_pos rfl, if_neg this]
            exact H.skip p c hbp.le hcp hic hcz
          · rw [if_neg e]
            by_cases e2 : c = pos
            · exfalso; unfold Child at hic hcp; omega
            · rw [if_neg e2]
              exact H.edge i c hi hic hcz e e2
        · intro i c hi hip hpc hcz
          rw [swp_size] at hcz
          have e1 : i ≠ pos := by unfold Child at hip; omega
          have e2 : i ≠ p := by unfold Child at hip; omega
          have e3 : c ≠ p := by unfold Child at hpc; omega
          have hup : at_ h i ≤ at_ h p := H.edge i p hi hip hzp e1 (by omega)
          rw [at_swp h hz hzp, at_swp h hz hzp, if_neg e1, if_neg e2]
          by_cases e : c = pos
          · rw [if_pos e]; exact hup
          · rw [if_neg e, if_neg e3]
            exact hup.trans (sib c hpc hcz e)
        · intro c hpc hcz
          rw [swp_size] at hcz
          have e3 : c ≠ p := by unfold Child at hpc; omega
          rw [at_swp h hz hzp, at_swp h hz hzp, if_neg (by omega), if_pos rfl]
          by_cases e : c = pos
          · rw [if_pos e]; exact hlt'.le
          · rw [if_neg e, if_neg e3]
            exact hlt'.le.trans (sib c hpc hcz e)
      · next hlt =>
        refine top h s pos H hc fun i hi hip => ?_
        have : i = p := by unfold Child at hip hcp; omega
        subst this
        exact not_lt.1 fun hh => hlt (hl.2 hh)
    · next hsp => exact top h s pos H hc (atstart h s pos hb hsp)

theorem siftup_heap {h : Array Entry} {s : Nat} (hn : Num h) (hz : s < h.size)
    (H : ∀ i c : Nat, s < i → Child i c → c < h.size → at_ h i ≤ at_ h c) : HeapFrom (siftup h s) s := by
  have h0 : Hole h s s := ⟨fun i c hi hc hcz h1 h2 => H i c (by omega) hc hcz, fun i c hi hc => by unfold Child at hc; omega⟩
  obtain ⟨a1, a2, a3, a4, a5⟩ := sink_hole h.size h s s hn h0 .refl (by omega)
  have hlt : (sink h.size h s).2 < h.size := by rcases a5 with a5 | a5 <;> omega
  refine siftdown_heap _ _ _ _ (fun e he => hn e ((sink_perm _ _ _).subset he)) a1 a2 (by omega) (by omega) fun c hc hcz => ?_
  unfold Child at hc
  omega

theorem siftup_size (h : Array Entry) (s : Nat) : (siftup h s).size = h.size := by
  have := (siftup_perm h s).length_eq
  simpa using this

theorem heapify_heap {h : Array Entry} (hn : Num h) : HeapFrom (heapify h) 0 := by
  have key : ∀ (m : Nat) (g : Array Entry), Num g → m ≤ g.size → (∀ i c : Nat, m ≤ i → Child i c → c < g.size → at_ g i ≤ at_ g c) →
      HeapFrom ((List.range m).reverse.foldl siftup g) 0 := by
    intro m
    induction m with
    | zero => exact fun g _ _ hg => hg
    | succ m ih =>
      intro g hg hm H
      rw [List.range_succ, List.reverse_append]
      refine ih (siftup g m) (fun e he => hg e ((siftup_perm _ _).subset he)) (by rw [siftup_size]; omega) ?_
      exact siftup_heap hg (by omega) fun i c hi => H i c hi
  refine key _ h hn (Nat.div_le_self _ _) fun i c hi hc hcz => ?_
  unfold Child at hc
  omega

theorem heap_min {h : Array Entry} (H : HeapFrom h 0) : ∀ i : Nat, i < h.size → at_ h 0 ≤ at_ h i := by
  intro i
  induction i using Nat.strong_induction_on with
  | _ i ih =>
    intro hi
    rcases Nat.eq_zero_or_pos i with rfl | h0
    · exact le_rfl
    · have hc : Child ((i - 1) / 2) i := by unfold Child; omega
      exact (ih _ (by omega) (by omega)).trans (H _ i (Nat.zero_le _) hc hi)

theorem ckey_le_of_ekey {a b : Entry} (h : ekey a ≤ ekey b) : ckey a.1 ≤ ckey b.1 := by
  rw [ekey, ekey, Prod.Lex.toLex_le_toLex] at h
  rcases h with h | h
  · exact h.le
  · exact h.1.le

theorem top_min {h : Array Entry} (H : HeapFrom h 0) {t : Entry} (ht : h[0]? = some t) : ∀ e ∈ h.toList, ckey t.1 ≤ ckey e.1 := by
  intro e he
  obtain ⟨i, hi, rfl⟩ := List.getElem_of_mem he
  have hi' : i < h.size := by simpa using hi
  have := heap_min H i hi'
  refine ckey_le_of_ekey ?_
  simpa [at_, Array.getD_eq_getD_getElem?, ht, hi'] using this

/-- What the loop keeps: the candidates are those of the heap and others that are not larger. -/
theorem more_best (cs : List Cand) : ∀ (h : Array Entry) (order : Int) (done out : List Cand), Num h → HeapFrom h 0 → 0 < h.size →
    (∀ c ∈ cs, c.1.isSome) → (h.toList.map (·.1) ++ out).Perm done → (∀ o ∈ out, ∀ e ∈ h.toList, ckey o ≤ ckey e.1) →
    Num (more cs h order) ∧ ∃ out', ((more cs h order).toList.map (·.1) ++ out').Perm (done ++ cs) ∧
      ∀ o ∈ out', ∀ e ∈ (more cs h order).toList, ckey o ≤ ckey e.1 := by
  induction cs with
  | nil => exact fun h o done out hn H hz hcs hp hle => ⟨hn, out, by simpa [more] using hp, hle⟩
  | cons c cs ih =>
    intro h o done out hn H hz hcs hp hle
    have hc : c.1.isSome := hcs c List.mem_cons_self
    have ht : h[0]? = some h[0] := Array.getElem?_eq_getElem hz
    have htm : h[0] ∈ h.toList := by rw [Array.mem_toList_iff]; exact Array.getElem_mem hz
    have hmin := top_min H ht
    have happ : done ++ c :: cs = (done ++ [c]) ++ cs := by simp
    unfold more
    rw [ht, happ]
    dsimp only
    split
    · next hlt =>
      have hlt' := (ltCand_iff (hn _ htm) hc).1 hlt
      obtain ⟨x, xs, hl⟩ : ∃ x xs, h.toList = x :: xs := by
        cases hl : h.toList with
        | nil => rw [hl] at htm; cases htm
        | cons x xs => exact ⟨x, xs, rfl⟩
      have hx : h[0] = x := by
        have : h.toList[0]? = some x := by rw [hl]; rfl
        rw [Array.getElem?_toList, ht] at this
        exact Option.some.inj this
      rw [hx] at hlt' hmin
      have hset : (h.setIfInBounds 0 (c, o)).toList = (c, o) :: xs := by rw [Array.toList_setIfInBounds, hl]; rfl
      have hperm : (heapreplace h (c, o)).toList.Perm ((c, o) :: xs) := hset ▸ siftup_perm _ 0
      have hnum : Num (h.setIfInBounds 0 (c, o)) := by
        intro e he
        rw [hset] at he
        rcases List.mem_cons.1 he with rfl | he
        · exact hc
        · exact hn e (by rw [hl]; exact List.mem_cons_of_mem _ he)
      have hheap : HeapFrom (heapreplace h (c, o)) 0 := by
        refine siftup_heap hnum (by simpa using hz) fun i k hi hk hkz => ?_
        have e1 : i ≠ 0 := by omega
        have e2 : k ≠ 0 := by unfold Child at hk; omega
        have := H i k (Nat.zero_le _) hk (by simpa using hkz)
        simpa [at_, Array.getD_eq_getD_getElem?, Array.getElem?_setIfInBounds, Ne.symm e1, Ne.symm e2] using this
      refine ih (heapreplace h (c, o)) (o - 1) (done ++ [c]) (x.1 :: out) (fun e he => hnum e ((siftup_perm _ 0).subset he)) hheap
        (by rw [heapreplace, siftup_size]; simpa using hz) (fun d hd => hcs d (List.mem_cons_of_mem _ hd)) ?_ ?_
      · have h1 : ((heapreplace h (c, o)).toList.map (·.1) ++ x.1 :: out).Perm ((c :: xs.map (·.1)) ++ x.1 :: out) :=
          (hperm.map (·.1)).append_right _
        refine h1.trans ?_
        rw [hl] at hp
        have h2 : ((c :: xs.map (·.1)) ++ x.1 :: out).Perm (c :: (x.1 :: xs.map (·.1) ++ out)) := by
          simp
        exact h2.trans ((hp.cons c).trans (List.perm_append_singleton c done).symm)
      · intro d hd e he
        have hdx : ckey d ≤ ckey x.1 := by
          rcases List.mem_cons.1 hd with rfl | hd
          · exact le_rfl
          · exact hle d hd x (by rw [hl]; exact List.mem_cons_self)
        refine hdx.trans ?_
        rcases List.mem_cons.1 (hperm.subset he) with rfl | he
        · exact hlt'.le
        · exact hmin e (by rw [hl]; exact List.mem_cons_of_mem _ he)
    · next hlt =>
      have hcx : ckey c ≤ ckey h[0].1 := not_lt.1 fun hh => hlt ((ltCand_iff (hn _ htm) hc).2 hh)
      refine ih h o (done ++ [c]) (out ++ [c]) hn H hz (fun d hd => hcs d (List.mem_cons_of_mem _ hd)) ?_ ?_
      · rw [← List.append_assoc]
        exact hp.append_right _
      · intro d hd e he
        rcases List.mem_append.1 hd with hd | hd
        · exact hle d hd e he
        · rw [List.mem_singleton.1 hd]
          exact hcx.trans (hmin e he)

theorem heapOf_best (n : Nat) (hn : 0 < n) (l : List Cand) (hl : ∀ c ∈ l, c.1.isSome) :
    Num (heapOf n l) ∧ ∃ out, ((heapOf n l).toList.map (·.1) ++ out).Perm l ∧ ∀ o ∈ out, ∀ e ∈ (heapOf n l).toList, ckey o ≤ ckey e.1 := by
  have hp := heapify_perm ((l.take n).zipIdx.map fun p => (p.1, -(p.2 : Int))).toArray
  have hm : (((l.take n).zipIdx.map fun p => ((p.1, -(p.2 : Int)) : Entry)).map (·.1)) = l.take n := by
    rw [List.map_map]
    exact List.zipIdx_map_fst 0 _
  have hnum : Num ((l.take n).zipIdx.map fun p => ((p.1, -(p.2 : Int)) : Entry)).toArray := by
    intro e he
    have : e.1 ∈ l.take n := by
      rw [← hm]
      exact List.mem_map_of_mem he
    exact hl _ (List.mem_of_mem_take this)
  cases l with
  | nil => exact ⟨fun e he => by simp [heapOf, more, heapify] at he, [], by simp [heapOf, more, heapify], by simp⟩
  | cons c l =>
    have hz : 0 < (heapify (((c :: l).take n).zipIdx.map fun p => ((p.1, -(p.2 : Int)) : Entry)).toArray).size := by
      have := hp.length_eq
      simp only [Array.length_toList, List.length_map, List.length_zipIdx, List.length_take, List.length_cons] at this
      rw [this]
      omega
    obtain ⟨a1, out, a2, a3⟩ := more_best ((c :: l).drop n) _ (-(n : Int)) ((c :: l).take n) [] (fun e he => hnum e (hp.subset he)) (heapify_heap hnum) hz
      (fun d hd => hl d (List.mem_of_mem_drop hd)) (by
        have := hp.map (·.1)
        rw [hm] at this
        simpa using this) (by simp)
    rw [List.take_append_drop] at a2
    exact ⟨a1, out, a2, a3⟩

theorem best_ckey (cs : List Cand) : ∀ b : Cand, b.1.isSome → (∀ c ∈ cs, c.1.isSome) → ∀ c ∈ b :: cs, ckey c ≤ ckey (best b cs) := by
  induction cs with
  | nil => intro b _ _ c hc; rw [List.mem_singleton.1 hc]; exact le_rfl
  | cons d cs ih =>
    intro b hb hcs c hc
    have hd := hcs d List.mem_cons_self
    have hcs' : ∀ c ∈ cs, c.1.isSome := fun c h => hcs c (List.mem_cons_of_mem _ h)
    unfold best
    split
    · next hlt =>
      rcases List.mem_cons.1 hc with rfl | hc
      · exact ((ltCand_iff hb hd).1 hlt).le.trans (ih d hd hcs' d List.mem_cons_self)
      · exact ih d hd hcs' c hc
    · next hlt =>
      have : ckey d ≤ ckey b := not_lt.1 fun hh => hlt ((ltCand_iff hb hd).2 hh)
      rcases List.mem_cons.1 hc with rfl | hc
      · exact ih c hb hcs' c List.mem_cons_self
      · rcases List.mem_cons.1 hc with rfl | hc
        · exact this.trans (ih b hb hcs' b List.mem_cons_self)
        · exact ih b hb hcs' c (List.mem_cons_of_mem _ hc)

end DRec.NanRank
