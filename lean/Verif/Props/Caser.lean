import Verif.Model.Nets
import Verif.Props.ListSampler
import Verif.Props.Vectors
import Verif.Lemmas.Recommender

/-!
# C84, C86, C88: Caser
-/

namespace DRec

open Spec

/-! ## C84 -/

theorem mapM_some_iff {α β : Type} (f : α → Option β) (g : α → β) (P : α → Prop)
    (h1 : ∀ a, P a → f a = some (g a)) (h2 : ∀ a, ¬ P a → f a = none) (l : List α) :
    (l.mapM f = some (l.map g) ∧ ∀ a ∈ l, P a) ∨ (l.mapM f = none ∧ ∃ a ∈ l, ¬ P a) := by
  induction l with
  | nil => exact Or.inl ⟨rfl, by simp⟩
  | cons a l ih =>
    by_cases ha : P a
    · rcases ih with ⟨e, hl⟩ | ⟨e, b, hb, hn⟩
      · left
        refine ⟨by rw [List.mapM_cons, h1 a ha, e]; rfl, ?_⟩
        intro x hx
        rcases List.mem_cons.1 hx with rfl | hx
        · exact ha
        · exact hl x hx
      · right
        exact ⟨by rw [List.mapM_cons, h1 a ha, e]; rfl, b, by simp [hb], hn⟩
    · right
      exact ⟨by rw [List.mapM_cons, h2 a ha]; rfl, a, by simp, ha⟩

theorem horizontal_eq (c : Caser) (hn : 1 ≤ c.nh) (b len i : Nat) :
    (i < len ∧ len - i ≤ c.nh → c.horizontal [b, len, c.d] i = some [b, c.nh]) ∧
    (¬ (i < len ∧ len - i ≤ c.nh) → c.horizontal [b, len, c.d] i = none) := by
  have hk : c.nh ≠ 0 := by omega
  have e : len - (i + 1) + 1 + c.nh - 1 = len - (i + 1) + c.nh := by omega
  constructor
  · rintro ⟨h1, h2⟩
    have hd : (len - (i + 1) + c.nh) / c.nh = 1 := by
      rw [Nat.div_eq_iff (by omega)]; omega
    simp [Caser.horizontal, conv1d, maxPool, squeeze1, hk, e, hd, show i + 1 ≤ len by omega]
  · intro h
    by_cases h1 : i + 1 ≤ len
    · have hd : (len - (i + 1) + c.nh) / c.nh ≠ 1 := by
        rw [Ne, Nat.div_eq_iff (by omega)]; omega
      simp [Caser.horizontal, conv1d, maxPool, squeeze1, hk, e, hd, h1]
    · simp [Caser.horizontal, conv1d, h1]

theorem concat_replicate (b m n k : Nat) :
    (List.replicate k [b, n]).foldlM concat1 [b, m] = some [b, m + k * n] := by
  induction k generalizing m with
  | zero => simp
  | succ k ih =>
    rw [List.replicate_succ, List.foldlM_cons]
    simp only [concat1, if_true, Option.bind_eq_bind, Option.bind_some, ih]
    congr 3
    ring

theorem features_eq (c : Caser) (hL : 1 ≤ c.L) (hn : 1 ≤ c.nh) (batch len : Nat) :
    c.features batch len = if c.L ≤ len ∧ len ≤ c.nh then some [batch, (len - c.L + 1) * c.nv + c.L * c.nh] else none := by
  unfold Caser.features
  by_cases h1 : c.L ≤ len
  · have hconv : conv1d c.nv c.L [batch, len, c.d] = some [batch, len - c.L + 1, c.nv] := by
      simp [conv1d, hL, h1]
    rw [hconv]
    simp only [Option.bind_some, reshape2]
    rcases mapM_some_iff (c.horizontal [batch, len, c.d]) (fun _ => [batch, c.nh])
        (fun i => i < len ∧ len - i ≤ c.nh) (fun i => (horizontal_eq c hn batch len i).1)
        (fun i => (horizontal_eq c hn batch len i).2) (List.range c.L) with ⟨e, hl⟩ | ⟨e, i, hi, hi'⟩
    · have h2 : len ≤ c.nh := (hl 0 (by simp; omega)).2
      rw [if_pos ⟨h1, h2⟩, e, List.map_const', List.length_range]
      obtain ⟨k, hk⟩ : ∃ k, c.L = k + 1 := ⟨c.L - 1, by omega⟩
      rw [hk, List.replicate_succ]
      simp only [Option.bind_some, concatAll, concat_replicate, concat1, if_true]
      congr 3
      ring
    · rw [e, if_neg]
      · rfl
      · rintro ⟨_, h2⟩
        exact hi' ⟨by have := List.mem_range.1 hi; omega, by omega⟩
  · rw [if_neg (fun h => h1 h.1)]
    have hconv : conv1d c.nv c.L [batch, len, c.d] = none := by simp [conv1d, h1]
    rw [hconv]
    rfl

theorem forward_eq (c : Caser) (hL : 1 ≤ c.L) (hn : 1 ≤ c.nh) (batch len targets : Nat) :
    c.forward batch len targets = if c.L ≤ len ∧ len ≤ c.nh then some [batch, targets] else none := by
  unfold Caser.forward
  rw [features_eq c hL hn]
  split
  · simp only [Option.bind_some, concat1, if_true, dense, scoreTargets]
    rw [if_pos ⟨trivial, by omega⟩]
  · rfl

/-- The records of a user. -/
def Spec.uidRecords (ds : Mem) (uid : Nat) : List Row := ds.rows.filter fun r => r.get "uid" = .num (uid : ℚ)

theorem sortRows_perm (c : Option String) (l : List Row) : (sortRows c l).Perm l := by
  cases c with
  | none => exact List.Perm.refl _
  | some c => exact List.perm_insertionSort _ _

theorem sortRows_sorted (c : Option String) (l : List Row) : SortedBy c (sortRows c l) := by
  cases c with
  | none => simp [SortedBy]
  | some c =>
    intro col hcol
    simp only [Option.mem_def, Option.some.injEq] at hcol
    subst hcol
    have : Std.Total fun a b : Row => sortKey c a ≤ sortKey c b := ⟨fun _ _ => le_total _ _⟩
    have : IsTrans Row fun a b => sortKey c a ≤ sortKey c b := ⟨fun _ _ _ => le_trans⟩
    refine (List.pairwise_insertionSort (fun a b : Row => sortKey c a ≤ sortKey c b) _).imp ?_
    intro a b h
    rwa [← sortKey_eq, ← sortKey_eq]

theorem sequence_eq (c : Caser) (ds : Mem) (h : IdsOk ds) (sortCol : Option String) (uid : Nat) :
    c.sequence ds sortCol uid = .ok (lastOf c.L
      ((sortRows (sortCol.filter (· ∈ ds.cols)) (uidRecords ds uid)).map (·.get "iid"))) := by
  unfold Caser.sequence
  rw [uidRows_ok h.user.hasCol]
  rfl

theorem lastOf_length {α : Type} (L : Nat) (hL : 1 ≤ L) (l : List α) : (lastOf L l).length = min L l.length := by
  simp only [lastOf, if_neg (show L ≠ 0 by omega), List.length_drop]
  omega

/-- **C84** (partial: the user has at least `L` records and `L` is at most `n_h`; the full property is for every known
user and every configuration and fails, see `C84_short_history`, `C84_few_filters` and `C84_no_sort_column`).  Ranking
gives one score per item. -/
theorem C84_rank_partial (c : Caser) (hL : 1 ≤ c.L) (hn : c.L ≤ c.nh) (ds : Mem) (h : IdsOk ds)
    (sortCol : Option String) (uid : Nat) (hu : c.L ≤ (uidRecords ds uid).length) :
    c.rankShape ds sortCol uid = .ok (some [1, countDistinct "iid" ds.rows]) := by
  unfold Caser.rankShape
  rw [sequence_eq c ds h]
  simp only [Except.map, Except.ok.injEq]
  rw [lastOf_length c.L hL, List.length_map, (sortRows_perm _ _).length_eq, min_eq_left hu,
    forward_eq c hL (by omega), if_pos ⟨Nat.le_refl _, hn⟩]
  rfl

/-- **C84**, the dense layer: it gets `n_v + L * n_h` numbers for every sequence, in training as in ranking, so that the
weights made by the first call fit all later ones.  (The size passed as `input_shape`, `d * n_v + n_h`, is another one;
keras only uses it in a `Sequential` model.) -/
theorem C84_width (c : Caser) (hL : 1 ≤ c.L) (hn : c.L ≤ c.nh) (ds : Mem) (h : IdsOk ds) (sortCol : Option String)
    (uid : Nat) (hu : c.L ≤ (uidRecords ds uid).length) (batch : Nat) :
    c.features batch c.L = some [batch, c.nv + c.L * c.nh] ∧
    ∃ l, c.sequence ds sortCol uid = .ok l ∧ c.features 1 l.length = some [1, c.nv + c.L * c.nh] := by
  have hf : ∀ b, c.features b c.L = some [b, c.nv + c.L * c.nh] := by
    intro b
    rw [features_eq c hL (by omega), if_pos ⟨Nat.le_refl _, hn⟩]
    simp
  refine ⟨hf batch, _, sequence_eq c ds h sortCol uid, ?_⟩
  rw [lastOf_length c.L hL, List.length_map, (sortRows_perm _ _).length_eq, min_eq_left hu]
  exact hf 1

/-- **C84** (partial, as above).  In training, whatever is drawn, the network gives one prediction per sample and
label: `T` targets and `T * neg_ratio` negatives. -/
theorem C84_training_partial (c : Caser) (hL : 1 ≤ c.L) (hn : c.L ≤ c.nh) (ds : Mem) (hnum : NumericRows ds.rows)
    (negRatio : Nat) (t : ℚ) (sortCol : Option String) (S : LSampler) (hS : c.sampler ds negRatio t sortCol = .ok S)
    (n : Nat) (draws : List LDraw) (l : List Sampled) (hl : S.sample n draws = .ok (some l)) :
    (∀ s ∈ l, s.positives.length = c.L ∧ s.targets.length + s.negatives.length = c.T + c.T * negRatio) ∧
      c.forward l.length c.L (c.T + c.T * negRatio) = some [n, c.T + c.T * negRatio] := by
  unfold Caser.sampler at hS
  split_ifs at hS with a1 a2 a3 a4
  simp only [Except.ok.injEq] at hS
  subst hS
  obtain ⟨l1, l2⟩ := C69_negative_ids _ hnum n draws l hl
  refine ⟨?_, ?_⟩
  · intro s hs
    obtain ⟨k1, k2, _⟩ := C70_fixed_length _ hnum c.T rfl (by omega) rfl n draws l hl s hs
    obtain ⟨_, _, _, k3⟩ := l2 s hs
    simp only at k1 k3
    refine ⟨k1, ?_⟩
    rw [k3, k2, mul_comm]
  · rw [forward_eq c hL (by omega), if_pos ⟨Nat.le_refl _, hn⟩, l1]

/-- **C84 fails** for every user with fewer than `L` records, with every configuration: ranking raises. -/
theorem C84_short_history (c : Caser) (hn : 1 ≤ c.nh) (ds : Mem) (h : IdsOk ds) (sortCol : Option String) (uid : Nat)
    (hu : (uidRecords ds uid).length < c.L) : c.rankShape ds sortCol uid = .ok none := by
  unfold Caser.rankShape
  rw [sequence_eq c ds h]
  simp only [Except.map, Except.ok.injEq]
  rw [lastOf_length c.L (by omega), List.length_map, (sortRows_perm _ _).length_eq, min_eq_right (by omega),
    forward_eq c (by omega) hn, if_neg (by omega)]

/-- **C84 fails** for every configuration with `L` above `n_h`: neither training nor ranking can be computed, for any
sequences. -/
theorem C84_few_filters (c : Caser) (hn : 1 ≤ c.nh) (hL : c.nh < c.L) (batch len targets : Nat) :
    c.forward batch len targets = none := by
  rw [forward_eq c (by omega) hn, if_neg (by omega)]

/-- **C84 fails** for every dataset without the sort column, by default `timestamp`: training cannot start.  Ranking
would have ignored the column. -/
theorem C84_no_sort_column (c : Caser) (ds : Mem) (negRatio : Nat) (t : ℚ) (s : String) (hs : s ∉ ds.cols) :
    c.sampler ds negRatio t (some s) = .error .assertion := by
  unfold Caser.sampler
  rw [if_pos (show ∃ x ∈ some s, x ∉ ds.cols from ⟨s, rfl, hs⟩)]
  split_ifs <;> rfl

/-! ## C86 -/

theorem groupPositives_uid {rows : List Row} {t : Option ℚ} {v : Val} {r : Row} :
    r ∈ groupPositives rows ["uid"] t [v] ↔ r ∈ rows ∧ r.get "uid" = v ∧ Reaches t r := by
  simp [groupPositives]

/-- **C86.** For every dataset with numeric interactions, every configuration that can be built and every random
outcome, a training example of Caser belongs to one user: its items are `L` consecutive liked items of the user in
sort order, followed directly by the `T` target items, and every item to score has its label: 1 for the
items of the targets, 0 for items of the dataset of which the user has no record that reaches the threshold. -/
theorem C86_examples (c : Caser) (hL : 1 ≤ c.L) (ds : Mem) (hnum : NumericRows ds.rows)
    (negRatio : Nat) (t : ℚ) (sortCol : Option String) (S : LSampler) (hS : c.sampler ds negRatio t sortCol = .ok S)
    (n : Nat) (draws : List LDraw) (l : List Sampled) (hl : S.sample n draws = .ok (some l)) :
    l.length = n ∧ ∀ s ∈ l, ∃ e, c.example negRatio s = .ok e ∧
      (∃ b a : List Row, b.length = c.L ∧ a.length = c.T ∧ e.before = b.map (·.get "iid") ∧
        e.after.take c.T = a.map (·.get "iid") ∧
        Consecutive sortCol b a (groupPositives ds.rows ["uid"] (some t) [e.uid])) ∧
      e.after.length = e.labels.length ∧
      ∀ (j : ℕ) (v : Val) (y : ℚ), e.after[j]? = some v → e.labels[j]? = some y →
        (y = 1 ∧ j < c.T ∧ ∃ r ∈ ds.rows, r.get "uid" = e.uid ∧ r.get "iid" = v ∧ Reaches (some t) r) ∨
        (y = 0 ∧ c.T ≤ j ∧ (∃ r ∈ ds.rows, r.get "iid" = v) ∧
          ∀ r ∈ ds.rows, r.get "uid" = e.uid → Reaches (some t) r → r.get "iid" ≠ v) := by
  unfold Caser.sampler at hS
  split_ifs at hS with a1 a2 a3 a4
  simp only [Except.ok.injEq] at hS
  subst hS
  obtain ⟨l1, l2⟩ := C69_negative_ids _ hnum n draws l hl
  refine ⟨l1, fun s hs => ?_⟩
  obtain ⟨k1, k2, k3⟩ := C70_fixed_length _ hnum c.T rfl (by omega) rfl n draws l hl s hs
  obtain ⟨⟨r0, hr0, hg⟩, _, n3, n4⟩ := l2 s hs
  simp only [List.map_cons, List.map_nil] at k1 k3 hg n3 n4
  obtain ⟨r, rs, hp⟩ : ∃ r rs, s.positives = r :: rs := by
    cases hp : s.positives with
    | nil => rw [hp] at k1; simp at k1; omega
    | cons r rs => exact ⟨r, rs, rfl⟩
  obtain ⟨pre, post, hperm, hsort⟩ := k3
  have hmem : ∀ x, x ∈ s.positives ∨ x ∈ s.targets → x ∈ groupPositives ds.rows ["uid"] (some t) s.group := by
    intro x hx
    rw [← hperm.mem_iff]
    simp only [List.mem_append]
    tauto
  have hgu : s.group = [r.get "uid"] := by
    have := hmem r (Or.inl (by simp [hp]))
    rw [← hg, groupPositives_uid] at this
    rw [← hg, this.2.1]
  rw [hgu] at hmem n3
  refine ⟨⟨r.get "uid", s.positives.map (·.get "iid"), s.targets.map (·.get "iid") ++ s.negatives,
    List.replicate c.T 1 ++ List.replicate (c.T * negRatio) 0⟩, by simp only [Caser.example, hp], ?_, ?_, ?_⟩
  · refine ⟨s.positives, s.targets, k1, k2, rfl, ?_, pre, post, hgu ▸ hperm, hsort⟩
    simp only
    rw [List.take_left' (by simp [k2])]
  · simp only [List.length_append, List.length_map, List.length_replicate, k2, n4]
    rw [mul_comm]
  · intro j v y h1 h2
    simp only at h1 h2 ⊢
    by_cases hj : j < c.T
    · left
      rw [List.getElem?_append_left (by simpa using hj), List.getElem?_replicate, if_pos hj] at h2
      rw [List.getElem?_append_left (by simpa [k2] using hj)] at h1
      obtain ⟨x, hx, rfl⟩ := List.mem_map.1 (List.mem_of_getElem? h1)
      obtain ⟨g1, g2, g3⟩ := groupPositives_uid.1 (hmem x (Or.inr hx))
      exact ⟨by simpa using h2.symm, hj, x, g1, g2, rfl, g3⟩
    · right
      rw [List.getElem?_append_right (by simpa using Nat.le_of_not_lt hj)] at h2
      rw [List.getElem?_append_right (by simpa [k2] using Nat.le_of_not_lt hj)] at h1
      obtain ⟨m1, m2⟩ := n3 v (List.mem_of_getElem? h1)
      have hy := List.eq_of_mem_replicate (List.mem_of_getElem? h2)
      exact ⟨hy, Nat.le_of_not_lt hj, m1, fun r' hr' hu hre => m2 r' hr' (by rw [hu]) hre⟩

/-! ## C88 -/

/-- **C88** (partial: all records of the user reach the threshold; the full property is for every user and fails, see
`C88_disliked_item`).  The items from which recommendations are computed are what the network was trained on: the last
`L` liked items of the user in sort order. -/
theorem C88_recent_partial (c : Caser) (hL : 1 ≤ c.L) (ds : Mem) (h : IdsOk ds) (t : ℚ) (sortCol : Option String)
    (hs : ∀ s ∈ sortCol, s ∈ ds.cols) (uid : Nat) (hall : ∀ r ∈ uidRecords ds uid, Reaches (some t) r)
    (hlen : c.L ≤ (uidRecords ds uid).length) :
    ∃ b : List Row, b.length = c.L ∧ c.sequence ds sortCol uid = .ok (b.map (·.get "iid")) ∧
      ∃ pre, (pre ++ b).Perm (groupPositives ds.rows ["uid"] (some t) [.num (uid : ℚ)]) ∧
        SortedBy sortCol (pre ++ b) := by
  have hf : sortCol.filter (· ∈ ds.cols) = sortCol := by
    cases sortCol with
    | none => rfl
    | some s => simp [Option.filter, hs s rfl]
  have hg : groupPositives ds.rows ["uid"] (some t) [.num (uid : ℚ)] = uidRecords ds uid := by
    unfold groupPositives uidRecords
    apply List.filter_congr
    intro r hr
    by_cases hu : r.get "uid" = .num (uid : ℚ)
    · have := hall r (by simp [uidRecords, hr, hu])
      simp [hu, this]
    · simp [hu]
  rw [sequence_eq c ds h, hf, hg]
  have hp := sortRows_perm sortCol (uidRecords ds uid)
  have hso := sortRows_sorted sortCol (uidRecords ds uid)
  revert hp hso
  generalize sortRows sortCol (uidRecords ds uid) = m
  intro hp hso
  refine ⟨m.drop (m.length - c.L), ?_, ?_, m.take (m.length - c.L), ?_, ?_⟩
  · rw [List.length_drop, hp.length_eq]; omega
  · simp only [lastOf, if_neg (show c.L ≠ 0 by omega), List.length_map, List.map_drop]
  · rw [List.take_append_drop]; exact hp
  · rw [List.take_append_drop]; exact hso

/-- **C88** for all users: the last records in sort order, whether they reach the threshold or not. -/
theorem C88_last_records (c : Caser) (hL : 1 ≤ c.L) (ds : Mem) (h : IdsOk ds) (sortCol : Option String)
    (hs : ∀ s ∈ sortCol, s ∈ ds.cols) (uid : Nat) :
    ∃ b pre : List Row, b.length = min c.L (uidRecords ds uid).length ∧
      c.sequence ds sortCol uid = .ok (b.map (·.get "iid")) ∧
      (pre ++ b).Perm (uidRecords ds uid) ∧ SortedBy sortCol (pre ++ b) := by
  have hf : sortCol.filter (· ∈ ds.cols) = sortCol := by
    cases sortCol with
    | none => rfl
    | some s => simp [Option.filter, hs s rfl]
  rw [sequence_eq c ds h, hf]
  have hp := sortRows_perm sortCol (uidRecords ds uid)
  have hso := sortRows_sorted sortCol (uidRecords ds uid)
  revert hp hso
  generalize sortRows sortCol (uidRecords ds uid) = m
  intro hp hso
  refine ⟨m.drop (m.length - c.L), m.take (m.length - c.L), ?_, ?_, ?_, ?_⟩
  · rw [List.length_drop, ← hp.length_eq]; omega
  · simp only [lastOf, if_neg (show c.L ≠ 0 by omega), List.length_map, List.map_drop]
  · rw [List.take_append_drop]; exact hp
  · rw [List.take_append_drop]; exact hso

/-! ### Examples and witnesses -/

/-- Dataset with timestamps: user 0 has four records, user 1 two. -/
def exCaser : Mem :=
  { cols := ["user", "item", "interaction", "timestamp", "rid"]
    dtype := fun c => if c = "interaction" ∨ c = "timestamp" then .float else .obj
    rows := ([("u", "a", 5, 3), ("u", "b", 4, 1), ("v", "c", 3, 5), ("u", "c", 1, 4), ("u", "d", 2, 2), ("v", "e", 5, 6)] :
      List (String × String × ℕ × ℕ)).zipIdx.map fun p =>
        mkRow p.2 [("user", .str p.1.1), ("item", .str p.1.2.1), ("interaction", .num p.1.2.2.1),
          ("timestamp", .num p.1.2.2.2)]
    hasIds := false, userMap := [], itemMap := [], cache := none, cacheT := none : Mem }.assignIds.1

theorem exCaser_ids : IdsOk exCaser := assignIds_idsOk _ (by decide) (by decide)

theorem exCaser_numeric : NumericRows exCaser.rows := by
  have h : ∀ r ∈ exCaser.rows, r.get "interaction" = .num (numCell (r.get "interaction")) := by decide +kernel
  exact fun r hr => ⟨_, h r hr⟩

/-- Two items before, one target. -/
def exCaserConf : Caser := ⟨2, 1, 5, 4, 16⟩

/-- **C88 fails**: with threshold 2 the last two liked items of user 0 are those of times 2 and 3, but the network is
given the one of time 4, which was rated 1. -/
theorem C88_disliked_item : IdsOk exCaser ∧
    exCaserConf.sequence exCaser (some "timestamp") 0 = .ok [.num 0, .num 2] ∧
    (∃ r ∈ exCaser.rows, OfPair r 0 2) ∧ ¬ PositivePair exCaser.rows (some 2) 0 2 := by
  refine ⟨exCaser_ids, by decide +kernel, by unfold OfPair; decide +kernel, ?_⟩
  have h : ∀ r ∈ exCaser.rows, r.get "uid" = .num ((0 : ℕ) : ℚ) ∧ r.get "iid" = .num ((2 : ℕ) : ℚ) →
      ¬ (2 : ℚ) ≤ numCell (r.get "interaction") := by decide +kernel
  rintro ⟨r, hr, ho, hre⟩
  exact h r hr ho (hre 2 rfl)

/-- **C84**: user 0 can be ranked, and user 1 too, but not with `L = 3`. -/
example : 1 ≤ exCaserConf.L ∧ exCaserConf.L ≤ exCaserConf.nh ∧ IdsOk exCaser ∧
    exCaserConf.L ≤ (uidRecords exCaser 0).length ∧ (uidRecords exCaser 1).length < 3 ∧
    exCaserConf.rankShape exCaser (some "timestamp") 0 = .ok (some [1, 5]) :=
  ⟨by decide, by decide, exCaser_ids, by decide +kernel, by decide +kernel, by decide +kernel⟩

/-- **C84** with the default `L = 5` and four filters. -/
example : (⟨5, 3, 50, 4, 4⟩ : Caser).nh < (⟨5, 3, 50, 4, 4⟩ : Caser).L := by decide

/-- **C84**, dataset without timestamps. -/
example : "timestamp" ∉ exIds.cols ∧ IdsOk exIds := ⟨by decide, exIds_fresh.ids⟩

/-- **C86**: a sample of the example data: items of times 1 and 2 (4 and 2 points), target of time 3, and one
negative. -/
example : 1 ≤ exCaserConf.L ∧ NumericRows exCaser.rows ∧
    ((exCaserConf.sampler exCaser 1 2 (some "timestamp")).toOption.bind fun S =>
      shown (S.sample 1 [⟨0, 0, fun _ => 0⟩])) = some [([.num 1, .num 3], [.num 0], [.num 2])] :=
  ⟨by decide, exCaser_numeric, by decide +kernel⟩

/-- **C88**: user 1 likes everything. -/
example : IdsOk exCaser ∧ "timestamp" ∈ exCaser.cols ∧ (∀ r ∈ uidRecords exCaser 1, Reaches (some 2) r) ∧
    exCaserConf.L ≤ (uidRecords exCaser 1).length ∧
    exCaserConf.sequence exCaser (some "timestamp") 1 = .ok [.num 2, .num 4] :=
  ⟨exCaser_ids, by decide, by decide +kernel, by decide +kernel, by decide +kernel⟩

end DRec
