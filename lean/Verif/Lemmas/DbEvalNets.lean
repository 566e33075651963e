import Verif.Spec.DbEvalNets
import Verif.Lemmas.DbCache
import Verif.Lemmas.DbEvalTask

/-! # Lemmas about evaluations with the dictionaries of vectors -/

namespace DRec.Conc

open Spec

/-! ## Tasks with a function in place of the recommender -/

/-- The same task with a function in place of the recommender. -/
def HProg.erase {α : Type} (ans : Request → Except Err Reply) : HProg α → DbProg α
  | .ret r => .ret r
  | .select i q k => .select i q fun j => (k j).erase ans
  | .unique i c k => .unique i c fun j => (k j).erase ans
  | .read i op k => .read i op fun r => (k r).erase ans
  | .len i k => .len i fun n => (k n).erase ans
  | .close i k => .close i (k.erase ans)
  | .call q _ k => withResult (ans q) fun x => (k x).erase ans

/-- All calls still to be made start at the beginning. -/
def HProg.Asks {α : Type} (serve : Request → CProg Reply) : HProg α → Prop
  | .ret _ => True
  | .select _ _ k => ∀ j, (k j).Asks serve
  | .unique _ _ k => ∀ j, (k j).Asks serve
  | .read _ _ k => ∀ r, (k r).Asks serve
  | .len _ k => ∀ n, (k n).Asks serve
  | .close _ k => k.Asks serve
  | .call q c k => c = serve q ∧ ∀ x, (k x).Asks serve

section
variable {α : Type} (ans : Request → Except Err Reply) (serve : Request → CProg Reply)

theorem erase_closing (p : HProg α) (l : List Nat) : (hClosing p l).erase ans = closing (p.erase ans) l := by
  induction l with
  | nil => rfl
  | cons i is ih => simp only [hClosing, closing, HProg.erase, ih]

theorem asks_closing {p : HProg α} (h : p.Asks serve) (l : List Nat) : (hClosing p l).Asks serve := by
  induction l with
  | nil => exact h
  | cons i is ih => exact ih

theorem erase_relevancies (uds : Nat) (k : List (Val × ℚ) → HProg α) (vs : List Val) : ∀ acc,
    (hRelevancies uds k vs acc).erase ans = readRelevancies uds (fun l => (k l).erase ans) vs acc := by
  induction vs with
  | nil => exact fun _ => rfl
  | cons v vs ih => intro acc; simp only [hRelevancies, readRelevancies, HProg.erase, ih]

theorem asks_relevancies (uds : Nat) {k : List (Val × ℚ) → HProg α} (h : ∀ l, (k l).Asks serve) (vs : List Val) : ∀ acc,
    (hRelevancies uds k vs acc).Asks serve := by
  induction vs with
  | nil => exact fun acc => h acc
  | cons v vs ih => exact fun acc res => ih _

theorem erase_items (ds : Nat) (k : List Val → HProg α) :
    (hItems ds k).erase ans = readItems ds fun l => (k l).erase ans := rfl

theorem asks_items (ds : Nat) {k : List Val → HProg α} (h : ∀ l, (k l).Asks serve) : (hItems ds k).Asks serve :=
  fun _ _ => h _

theorem erase_positives (uds pos : Nat) (nPos : Option Nat) (rng : Nat → Nat) (k : List Row → HProg (Outcome α)) :
    (hPositives uds pos nPos rng k).erase ans = readPositives uds pos nPos rng fun l => (k l).erase ans := by
  cases nPos with
  | none => rfl
  | some n =>
    simp only [hPositives, readPositives, HProg.erase]
    congr 1
    funext l
    split <;> rfl

theorem asks_positives (uds pos : Nat) (nPos : Option Nat) (rng : Nat → Nat) {k : List Row → HProg (Outcome α)}
    (h : ∀ l, (k l).Asks serve) : (hPositives uds pos nPos rng k).Asks serve := by
  cases nPos with
  | none => exact fun _ => h _
  | some n =>
    intro l
    beta_reduce
    split
    · exact trivial
    · exact fun _ => h _

end

section
variable {m : Mem} {f : PredictFn ℚ} {rk : RankFn} {serve : Request → CProg Reply}

theorem erase_rank (a : EvalArgs) (user : Val) (uds : Nat) (own : List Nat) (sampled : List Row) (neg : List Val)
    (rng : EvalRng) : (hRank serve a user uds own sampled neg rng).erase (memServeBy m f rk) =
      dbRank (rankedModel m rk).asDb a user uds own sampled neg rng := by
  unfold hRank dbRank
  simp only
  split
  · rw [erase_closing]; rfl
  · simp only [hAskRank, HProg.erase, memServeBy, EvalModel.asDb, rankedModel]
    cases rank m rk (idLit user) (List.map idLit (pySample _ _ rng.shuffle)) a.novelty true none with
    | error e => rfl
    | ok l =>
      simp only [Except.map, withResult, rankingOf, erase_relevancies]
      congr 1
      funext rels
      rw [erase_closing]; rfl

theorem asks_rank (a : EvalArgs) (user : Val) (uds : Nat) (own : List Nat) (sampled : List Row) (neg : List Val)
    (rng : EvalRng) : (hRank serve a user uds own sampled neg rng).Asks serve := by
  unfold hRank
  simp only
  split
  · exact asks_closing serve (p := .ret _) trivial own
  · exact ⟨rfl, fun x => asks_relevancies serve uds (fun l => asks_closing serve (p := .ret _) trivial own) _ _⟩

theorem erase_generate (a : EvalArgs) (user : Val) (uds : Nat) (own : List Nat) (sampled : List Row) (first : List Val)
    (wanted : Nat) (black : List Val) (rng : EvalRng) :
    (hGenerate serve (nItemsOf m) a user uds own sampled first wanted black rng).erase (memServeBy m f rk) =
      dbGenerate (rankedModel m rk).asDb a user uds own sampled first wanted black rng := by
  have e : (rankedModel m rk).asDb.nItems = nItemsOf m := rfl
  unfold hGenerate dbGenerate
  rw [e]
  split
  · rw [erase_closing]; rfl
  · cases genLoop (nItemsOf m) black wanted first rng.items with
    | none => rfl
    | some l => exact erase_rank a user uds own sampled l rng

theorem asks_generate (nItems : Nat) (a : EvalArgs) (user : Val) (uds : Nat) (own : List Nat) (sampled : List Row)
    (first : List Val) (wanted : Nat) (black : List Val) (rng : EvalRng) :
    (hGenerate serve nItems a user uds own sampled first wanted black rng).Asks serve := by
  unfold hGenerate
  split
  · exact asks_closing serve (p := .ret _) trivial own
  · cases genLoop nItems black wanted first rng.items with
    | none => exact trivial
    | some l => exact asks_rank a user uds own sampled l rng

theorem erase_ranking (test train : Nat) (thr : List Char) (a : EvalArgs) (user : Val) (rng : EvalRng) :
    (hRankingUser serve (nItemsOf m) test train thr a user rng).erase (memServeBy m f rk) =
      dbRankingUser (rankedModel m rk).asDb test train thr a user rng := by
  unfold hRankingUser dbRankingUser
  simp only [HProg.erase, erase_positives]
  congr 1; funext uds
  congr 1; funext pos
  congr 1; funext sampled
  congr 1; funext neg
  congr 1; funext res
  cases a.nNeg with
  | none => exact erase_rank a user uds _ sampled _ rng
  | some n =>
    simp only
    split
    · split
      · rw [erase_items]
        congr 1; funext items
        exact erase_generate ..
      · simp only [HProg.erase, erase_items]
        congr 1; funext tpos
        congr 1; funext titems
        congr 1; funext items
        exact erase_generate ..
    · exact erase_rank a user uds _ sampled _ rng

theorem asks_ranking (nItems test train : Nat) (thr : List Char) (a : EvalArgs) (user : Val) (rng : EvalRng) :
    (hRankingUser serve nItems test train thr a user rng).Asks serve := by
  unfold hRankingUser
  intro uds pos
  refine asks_positives serve uds pos _ _ fun sampled => ?_
  intro neg res
  beta_reduce
  cases a.nNeg with
  | none => exact asks_rank ..
  | some n =>
    simp only
    split
    · split
      · exact asks_items serve _ fun items => asks_generate ..
      · exact fun tpos => asks_items serve _ fun titems => asks_items serve _ fun items => asks_generate ..
    · exact asks_rank ..

theorem erase_recommendation (test : Nat) (thr : List Char) (a : EvalArgs) (n : Option Nat) (low : Option ℚ) (user : Val)
    (rng : EvalRng) : (hRecommendationUser serve test thr a n low user rng).erase (memServeBy m f rk) =
      dbRecommendationUser (rankedModel m rk).asDb test thr a n low user rng := by
  unfold hRecommendationUser dbRecommendationUser
  simp only [HProg.erase, erase_positives]
  congr 1; funext uds
  congr 1; funext pos
  congr 1; funext sampled
  split
  · rw [erase_closing]; rfl
  · cases n with
    | none => rfl
    | some n =>
      simp only [hAskRecommend, HProg.erase, memServeBy, EvalModel.asDb, rankedModel]
      cases recommend m rk (idLit user) (some n) a.novelty low with
      | error e => rfl
      | ok l =>
        simp only [Except.map, withResult, rankingOf, erase_relevancies]
        congr 1

theorem asks_recommendation (test : Nat) (thr : List Char) (a : EvalArgs) (n : Option Nat) (low : Option ℚ) (user : Val)
    (rng : EvalRng) : (hRecommendationUser serve test thr a n low user rng).Asks serve := by
  unfold hRecommendationUser
  intro uds pos
  refine asks_positives serve uds pos _ _ fun sampled => ?_
  split
  · exact trivial
  · cases n with
    | none => exact trivial
    | some n => exact ⟨rfl, fun x => asks_relevancies serve uds (fun l => asks_closing serve (p := .ret _) trivial _) _ _⟩

end

/-! ## Steps -/

section
variable {α : Type} {names : List String} {S : List Nat} {m : Mem} {lim : KKind → Nat} {calm : Prop}
  {ans : Request → Except Err Reply} {serve : Request → CProg Reply}

/-- The task ends with `r` (or, in runs that are not calm, with `KeyError`), whatever other tasks do in between. -/
inductive HGives (names : List String) (S : List Nat) (m : Mem) (lim : KKind → Nat) (calm : Prop)
    (ans : Request → Except Err Reply) (serve : Request → CProg Reply) :
    HProg α → List Nat → World → VecStore → Except Err α → Prop
  | own {h : HProg α} {O : List Nat} {w : World} {D : VecStore} {r : Except Err α} (ha : h.Asks serve)
      (hg : Gives names S (h.erase ans) O w r) : HGives names S m lim calm ans serve h O w D r
  | asked {q : Request} {c : CProg Reply} {k : Reply → HProg α} {O1 O2 : List Nat} {w : World} {D : VecStore}
      {r : Except Err α} (ha : ∀ x, (k x).Asks serve) (hd : ∀ i ∈ O1, i ∉ O2)
      (hg : Gives names S (withResult (ans q) fun x => (k x).erase ans) O1 w r)
      (hc : CGives names S m lim calm c O2 w D fun o => o = ans q ∨ (¬ calm ∧ o = .error .keyError)) :
      HGives names S m lim calm ans serve (.call q c k) (O1 ++ O2) w D r
  | lost {O : List Nat} {w : World} {D : VecStore} {r : Except Err α} (hc : ¬ calm) :
      HGives names S m lim calm ans serve (.ret (.error .keyError)) O w D r

theorem Quiet.sub {O P : List Nat} {w w' : World} (h : Quiet names S O w w') (hs : ∀ k ∈ P, k ∈ O) :
    Quiet names S P w w' := ⟨h.good, h.shared, fun k hk => h.own k (hs k hk), fun k hk => h.alive k (hs k hk)⟩

theorem HGives.mono {h : HProg α} {O : List Nat} {w w' : World} {D D' : VecStore} {r : Except Err α}
    (hh : HGives names S m lim calm ans serve h O w D r) (hq : Quiet names S O w w') (hr : Rely m calm D D') :
    HGives names S m lim calm ans serve h O w' D' r := by
  cases hh with
  | own ha hg => exact .own ha (hg.mono hq)
  | asked ha hd hg hc =>
    exact .asked ha hd (hg.mono (hq.sub fun k hk => List.mem_append_left _ hk))
      (hc.mono (hq.sub fun k hk => List.mem_append_right _ hk) hr)
  | lost hc => exact .lost hc

/-- Steps that are not part of a call. -/
theorem HProg.step_erase {h : HProg α} (hn : ∀ q c k, h ≠ .call q c k) (ha : h.Asks serve) (w : World) (D : VecStore) :
    (h.step lim w D).1 = ((h.erase ans).step w).1 ∧ (h.step lim w D).2.1 = D ∧
    (h.step lim w D).2.2.erase ans = ((h.erase ans).step w).2 ∧ (h.step lim w D).2.2.Asks serve := by
  cases h with
  | ret r => exact ⟨rfl, rfl, rfl, trivial⟩
  | select i q k =>
    simp only [HProg.step, HProg.erase, DbProg.step]
    rcases w.select i q true with ⟨w', _ | j⟩
    · exact ⟨rfl, rfl, rfl, trivial⟩
    · exact ⟨rfl, rfl, rfl, ha j⟩
  | unique i c k =>
    simp only [HProg.step, HProg.erase, DbProg.step]
    rcases w.unique i (some [c]) true with ⟨w', _ | j⟩
    · exact ⟨rfl, rfl, rfl, trivial⟩
    · exact ⟨rfl, rfl, rfl, ha j⟩
  | read i op k =>
    simp only [HProg.step, HProg.erase, DbProg.step]
    rcases w.read i op with ⟨w', _ | j⟩
    · exact ⟨rfl, rfl, rfl, trivial⟩
    · exact ⟨rfl, rfl, rfl, ha j⟩
  | len i k =>
    simp only [HProg.step, HProg.erase, DbProg.step]
    rcases w.len i with _ | n
    · exact ⟨rfl, rfl, rfl, trivial⟩
    · exact ⟨rfl, rfl, rfl, ha n⟩
  | close i k => exact ⟨rfl, rfl, rfl, ha⟩
  | call q c k => exact absurd rfl (hn q c k)

/-- The recommender answers every request from here on. -/
def Serves (names : List String) (S : List Nat) (m : Mem) (lim : KKind → Nat) (calm : Prop)
    (ans : Request → Except Err Reply) (serve : Request → CProg Reply) (w0 : World) : Prop :=
  ∀ (q : Request) (w : World) (D : VecStore), Still names S w0 w → StoreOk m D →
    CGives names S m lim calm (serve q) [] w D fun o => o = ans q ∨ (¬ calm ∧ o = .error .keyError)

theorem Serves.still {w w' : World} (h : Serves names S m lim calm ans serve w) (hs : Still names S w w') :
    Serves names S m lim calm ans serve w' := fun q v D hv hD => h q v D (hs.trans hv) hD

theorem HProg.step_call {q : Request} {c : CProg Reply} {k : Reply → HProg α} (hc : ∀ r, c ≠ .ret r) (w : World)
    (D : VecStore) : (HProg.call q c k).step lim w D =
      ((c.step lim w D).1, (c.step lim w D).2.1, .call q (c.step lim w D).2.2 k) := by
  cases c with
  | ret r => exact absurd rfl (hc r)
  | _ => rfl

theorem HProg.step_gives {w : World} (hs : Serves names S m lim calm ans serve w) {h : HProg α} {O : List Nat} {D : VecStore}
    {r : Except Err α} (hg : Good names w) (hD : StoreOk m D) (hh : HGives names S m lim calm ans serve h O w D r)
    (hal : ∀ k ∈ O, (w.insts k).isSome) (hap : ∀ k ∈ O, k ∉ S) :
    ∃ O', Move names S O w (h.step lim w D).1 O' ∧ Rely m calm D (h.step lim w D).2.1 ∧
      HGives names S m lim calm ans serve (h.step lim w D).2.2 O' (h.step lim w D).1 (h.step lim w D).2.1 r := by
  have asked : ∀ {q : Request} {c : CProg Reply} {k : Reply → HProg α} {O1 O2 : List Nat} (_ : ∀ x, (k x).Asks serve)
      (_ : ∀ i ∈ O1, i ∉ O2) (_ : Gives names S (withResult (ans q) fun x => (k x).erase ans) O1 w r)
      (_ : CGives names S m lim calm c O2 w D fun o => o = ans q ∨ (¬ calm ∧ o = .error .keyError))
      (_ : ∀ k ∈ O1 ++ O2, (w.insts k).isSome) (_ : ∀ k ∈ O1 ++ O2, k ∉ S),
      ∃ O', Move names S (O1 ++ O2) w ((HProg.call q c k).step lim w D).1 O' ∧
        Rely m calm D ((HProg.call q c k).step lim w D).2.1 ∧
        HGives names S m lim calm ans serve ((HProg.call q c k).step lim w D).2.2 O' ((HProg.call q c k).step lim w D).1
          ((HProg.call q c k).step lim w D).2.1 r := by
    intro q c k O1 O2 ha hd hgv hc hal hap
    have hm : Move names S (O1 ++ O2) w w O1 := ⟨hg, fun k _ => Keeps.refl w k, fun _ _ _ _ => ⟨rfl, rfl⟩,
      fun k hk => Or.inl (List.mem_append_left _ hk), fun k hk => hal k (List.mem_append_left _ hk)⟩
    by_cases hret : ∃ x, c = .ret x
    · obtain ⟨x, rfl⟩ := hret
      have hx : x = ans q ∨ (¬ calm ∧ x = .error .keyError) := hc
      refine ⟨O1, ?_⟩
      cases x with
      | ok x =>
        refine ⟨hm, Rely.refl hD, .own (ha x) ?_⟩
        rcases hx with hx | ⟨_, hx⟩
        · rw [← hx] at hgv; exact hgv
        · cases hx
      | error e =>
        refine ⟨hm, Rely.refl hD, ?_⟩
        rcases hx with hx | ⟨hn, hx⟩
        · rw [← hx] at hgv
          exact .own trivial hgv
        · cases hx
          exact .lost hn
    · have hne : ∀ x, c ≠ .ret x := fun x e => hret ⟨x, e⟩
      obtain ⟨O2', h1, h2, h3⟩ := CProg.step_gives hg hD hc fun i hi => hal i (List.mem_append_right _ hi)
      rw [HProg.step_call hne]
      have hq : Quiet names S O1 w (c.step lim w D).1 := h1.quiet
        (fun i hi => ⟨hap i (List.mem_append_left _ hi), hd i hi⟩) fun i hi => hal i (List.mem_append_left _ hi)
      refine ⟨O1 ++ O2', ⟨h1.good, h1.shared, fun i hi hn ha => h1.others i hi (fun h => hn (List.mem_append_right _ h)) ha,
        ?_, ?_⟩, h2, .asked ha ?_ (hgv.mono hq) h3⟩
      · intro i hi
        rcases List.mem_append.1 hi with h | h
        · exact Or.inl (List.mem_append_left _ h)
        · exact (h1.own i h).imp (List.mem_append_right _) id
      · intro i hi
        rcases List.mem_append.1 hi with h | h
        · exact hq.alive i h
        · exact h1.alive i h
      · intro i hi h
        rcases h1.own i h with h' | h'
        · exact hd i hi h'
        · have := hal i (List.mem_append_left _ hi)
          rw [h'] at this; cases this
  cases hh with
  | own ha hgv =>
    by_cases hcall : ∃ q c k, h = .call q c k
    · obtain ⟨q, c, k, rfl⟩ := hcall
      obtain ⟨rfl, ha⟩ := ha
      have := asked (O1 := O) (O2 := []) ha (by simp) hgv (hs q w D (Still.refl hg) hD) (by simpa using hal)
        (by simpa using hap)
      rwa [List.append_nil] at this
    · obtain ⟨e1, e2, e3, e4⟩ := HProg.step_erase (lim := lim) (ans := ans) (fun q c k e => hcall ⟨q, c, k, e⟩) ha w D
      obtain ⟨O', h1, h2⟩ := DbProg.step_gives hg hgv hal
      refine ⟨O', by rw [e1]; exact h1, by rw [e2]; exact Rely.refl hD, .own e4 ?_⟩
      rw [e1, e3]; exact h2
  | asked ha hd hgv hc => exact asked ha hd hgv hc hal hap
  | lost hc =>
    exact ⟨[], ⟨hg, fun k _ => Keeps.refl w k, fun _ _ _ _ => ⟨rfl, rfl⟩, by simp, by simp⟩, Rely.refl hD, .lost hc⟩

/-! ## Pools -/

/-- What holds between the steps of the pool. -/
structure HPoolOk (names : List String) (S : List Nat) (m : Mem) (lim : KKind → Nat) (calm : Prop)
    (ans : Request → Except Err Reply) (serve : Request → CProg Reply) (w : World) (D : VecStore)
    (ps : List (HProg α)) (rs : Nat → Except Err α) (Os : Nat → List Nat) : Prop where
  good : Good names w
  serves : Serves names S m lim calm ans serve w
  store : StoreOk m D
  shared : ∀ k ∈ S, (w.insts k).isSome
  alive : ∀ t, ∀ k ∈ Os t, (w.insts k).isSome
  apart : ∀ t, ∀ k ∈ Os t, k ∉ S
  disjoint : ∀ t t', t ≠ t' → ∀ k ∈ Os t, k ∉ Os t'
  gives : ∀ (t : Nat) (p : HProg α), ps[t]? = some p → HGives names S m lim calm ans serve p (Os t) w D (rs t)

theorem HPoolOk.step {w : World} {D : VecStore} {ps : List (HProg α)} {rs : Nat → Except Err α} {Os : Nat → List Nat}
    (h : HPoolOk names S m lim calm ans serve w D ps rs Os) {t : Nat} {p : HProg α} (hp : ps[t]? = some p) :
    ∃ Os', HPoolOk names S m lim calm ans serve (p.step lim w D).1 (p.step lim w D).2.1 (ps.set t (p.step lim w D).2.2) rs
      Os' := by
  obtain ⟨O', hm, hr, hgv'⟩ := HProg.step_gives h.serves h.good h.store (h.gives t p hp) (h.alive t) (h.apart t)
  have hother : ∀ t', t' ≠ t → Quiet names S (Os t') w (p.step lim w D).1 := fun t' ht =>
    hm.quiet (fun k hk => ⟨h.apart t' k hk, h.disjoint t' t ht k hk⟩) (h.alive t')
  have hnew : ∀ k ∈ O', k ∉ S ∧ ∀ t', t' ≠ t → k ∉ Os t' := by
    intro k hk
    rcases hm.own k hk with h1 | h1
    · exact ⟨h.apart t k h1, fun t' ht => h.disjoint t t' (Ne.symm ht) k h1⟩
    · constructor
      · intro h2
        have := h.shared k h2
        rw [h1] at this; cases this
      · intro t' _ h2
        have := h.alive t' k h2
        rw [h1] at this; cases this
  refine ⟨fun t' => if t' = t then O' else Os t', ?_⟩
  refine ⟨hm.good, h.serves.still ⟨hm.good, hm.shared⟩, hr.1, fun k hk => (hm.shared k hk).alive (h.shared k hk), ?_, ?_, ?_,
    ?_⟩
  · intro t' k hk
    by_cases e : t' = t
    · simp only [e, if_true] at hk
      exact hm.alive k hk
    · simp only [e, if_false] at hk
      exact (hother t' e).alive k hk
  · intro t' k hk
    by_cases e : t' = t
    · simp only [e, if_true] at hk
      exact (hnew k hk).1
    · simp only [e, if_false] at hk
      exact h.apart t' k hk
  · intro t1 t2 hne k hk
    by_cases e1 : t1 = t
    · have e2 : t2 ≠ t := fun e2 => hne (e1.trans e2.symm)
      simp only [e1, if_true] at hk
      simp only [e2, if_false]
      exact (hnew k hk).2 t2 e2
    · simp only [e1, if_false] at hk
      by_cases e2 : t2 = t
      · simp only [e2, if_true]
        intro h2
        exact (hnew k h2).2 t1 e1 hk
      · simp only [e2, if_false]
        exact h.disjoint t1 t2 hne k hk
  · intro t' p' hp'
    by_cases e : t' = t
    · subst e
      have hlt : t' < ps.length := (List.getElem?_eq_some_iff.1 hp).1
      rw [List.getElem?_set_self hlt] at hp'
      cases hp'
      simpa using hgv'
    · rw [List.getElem?_set_ne (Ne.symm e)] at hp'
      simpa [e] using (h.gives t' p' hp').mono (hother t' e) hr

theorem HPoolOk.run {w w' : World} {D D' : VecStore} {ps ps' : List (HProg α)} {rs : Nat → Except Err α}
    (hrun : HRuns lim w D ps w' D' ps') : ∀ {Os : Nat → List Nat}, HPoolOk names S m lim calm ans serve w D ps rs Os →
      ∃ Os', HPoolOk names S m lim calm ans serve w' D' ps' rs Os' := by
  induction hrun with
  | refl => exact fun h => ⟨_, h⟩
  | step hp _ ih =>
    intro Os h
    obtain ⟨Os', h'⟩ := h.step hp
    exact ih h'

theorem hruns_length {w w' : World} {D D' : VecStore} {ps ps' : List (HProg α)} (h : HRuns lim w D ps w' D' ps') :
    ps'.length = ps.length := by
  induction h with
  | refl => rfl
  | step _ _ ih => simpa using ih

theorem hgives_ret {x r : Except Err α} {O : List Nat} {w : World} {D : VecStore}
    (h : HGives names S m lim calm ans serve (.ret x) O w D r) : x = r ∨ (¬ calm ∧ x = .error .keyError) := by
  cases h with
  | own _ hg => exact Or.inl hg
  | lost hc => exact Or.inr ⟨hc, rfl⟩

/-- Whatever the interleaving, every task gives the expected result, or `KeyError` if the run is not calm. -/
theorem hpool_map {ι : Type} {jobs : List ι} {task : ι → HProg α} {res : ι → Except Err α} {w w' : World} {D D' : VecStore}
    {outs : List (Except Err α)} (hg : Good names w) (hD : StoreOk m D) (hS : ∀ k ∈ S, (w.insts k).isSome)
    (hs : Serves names S m lim calm ans serve w) (ha : ∀ j ∈ jobs, (task j).Asks serve)
    (h : ∀ j ∈ jobs, Gives names S ((task j).erase ans) [] w (res j))
    (hrun : HRuns lim w D (jobs.map task) w' D' (outs.map .ret)) :
    RightOrMissing outs (jobs.map res) ∧ StoreOk m D' ∧ (calm → outs = jobs.map res) := by
  have h0 : HPoolOk names S m lim calm ans serve w D (jobs.map task) (fun t => ((jobs.map res)[t]?).getD (.error .crash))
      fun _ => [] := by
    refine ⟨hg, hs, hD, hS, by simp, by simp, by simp, ?_⟩
    intro t p hp
    rw [List.getElem?_map] at hp
    obtain ⟨j, hj, rfl⟩ := Option.map_eq_some_iff.1 hp
    simp only [List.getElem?_map, hj, Option.map_some, Option.getD_some]
    exact .own (ha j (List.mem_of_getElem? hj)) (h j (List.mem_of_getElem? hj))
  obtain ⟨Os, hf⟩ := h0.run hrun
  have hlen : outs.length = (jobs.map res).length := by simpa using hruns_length hrun
  have key : ∀ (t : Nat) o r, outs[t]? = some o → (jobs.map res)[t]? = some r → o = r ∨ (¬ calm ∧ o = .error .keyError) := by
    intro t o r ho hr
    have := hgives_ret (hf.gives t (.ret o) (by rw [List.getElem?_map, ho]; rfl))
    rwa [hr] at this
  refine ⟨⟨hlen, fun t o r ho hr => (key t o r ho hr).imp_right (·.2)⟩, hf.store, fun hc => ?_⟩
  apply List.ext_getElem hlen
  intro t h1 h2
  rcases key t _ _ (List.getElem?_eq_getElem h1) (List.getElem?_eq_getElem h2) with h | ⟨h, _⟩
  · exact h
  · exact absurd hc h

/-! ## Complete runs -/

theorem hruns_finish (p : HProg α) : ∀ (w : World) (D : VecStore) (ps : List (HProg α)) (t : Nat), ps[t]? = some p →
    ∃ w' D' r, HRuns lim w D ps w' D' (ps.set t (.ret r)) := by
  have go : ∀ (q : HProg α), (∀ (w : World) (D : VecStore) (ps : List (HProg α)) (t : Nat), ps[t]? = some q →
      ∃ w' D' r, HRuns lim w D ps w' D' (ps.set t (.ret r))) →
      ∀ (w w1 : World) (D D1 : VecStore) (ps : List (HProg α)) (t : Nat) (p : HProg α), ps[t]? = some p →
      p.step lim w D = (w1, D1, q) → ∃ w' D' r, HRuns lim w D ps w' D' (ps.set t (.ret r)) := by
    intro q hq w w1 D D1 ps t p hp he
    have hlt : t < ps.length := (List.getElem?_eq_some_iff.1 hp).1
    obtain ⟨w', D', r, hr⟩ := hq w1 D1 (ps.set t q) t (by rw [List.getElem?_set_self hlt])
    refine ⟨w', D', r, .step hp ?_⟩
    rw [he]
    simpa using hr
  have hret : ∀ (x : Except Err α) (w : World) (D : VecStore) (ps : List (HProg α)) (t : Nat), ps[t]? = some (.ret x) →
      ∃ w' D' r, HRuns lim w D ps w' D' (ps.set t (.ret r)) := by
    intro x w D ps t hp
    refine ⟨w, D, x, ?_⟩
    have : ps.set t (.ret x) = ps := by
      obtain ⟨hlt, he⟩ := List.getElem?_eq_some_iff.1 hp
      rw [← he]
      exact List.set_getElem_self hlt
    rw [this]
    exact .refl _ _ _
  induction p with
  | ret x => exact hret x
  | select i q k ih =>
    intro w D ps t hp
    rcases he : w.select i q true with ⟨w1, e | j⟩
    · exact go _ (hret (.error e)) w w1 D D ps t _ hp (by simp only [HProg.step, he])
    · exact go _ (ih j) w w1 D D ps t _ hp (by simp only [HProg.step, he])
  | unique i c k ih =>
    intro w D ps t hp
    rcases he : w.unique i (some [c]) true with ⟨w1, e | j⟩
    · exact go _ (hret (.error e)) w w1 D D ps t _ hp (by simp only [HProg.step, he])
    · exact go _ (ih j) w w1 D D ps t _ hp (by simp only [HProg.step, he])
  | read i op k ih =>
    intro w D ps t hp
    rcases he : w.read i op with ⟨w1, e | j⟩
    · exact go _ (hret (.error e)) w w1 D D ps t _ hp (by simp only [HProg.step, he])
    · exact go _ (ih j) w w1 D D ps t _ hp (by simp only [HProg.step, he])
  | len i k ih =>
    intro w D ps t hp
    rcases he : w.len i with _ | n
    · exact go _ (hret (.error .crash)) w w D D ps t _ hp (by simp only [HProg.step, he])
    · exact go _ (ih n) w w D D ps t _ hp (by simp only [HProg.step, he])
  | close i k ih => exact fun w D ps t hp => go _ ih w (w.close i).1 D D ps t _ hp rfl
  | call q c k ih =>
    have lift : ∀ {w w' : World} {D D' : VecStore} {cs cs' : List (CProg Reply)}, CRuns lim w D cs w' D' cs' →
        ∀ (c : CProg Reply), cs = [c] → ∀ (ps : List (HProg α)) (t : Nat), ps[t]? = some (.call q c k) →
        ∀ x, cs' = [.ret x] → HRuns lim w D ps w' D' (ps.set t (.call q (.ret x) k)) := by
      intro w w' D D' cs cs' hrun
      induction hrun with
      | refl w D cs =>
        rintro c rfl ps t hp x hx
        cases hx
        have : ps.set t (.call q (.ret x) k) = ps := by
          obtain ⟨hlt, he⟩ := List.getElem?_eq_some_iff.1 hp
          rw [← he]
          exact List.set_getElem_self hlt
        rw [this]
        exact .refl _ _ _
      | @step w D cs t' c' w' D' cs' hc hrest ihr =>
        rintro c rfl ps t hp x hx
        have ht0 : t' = 0 := by
          have := (List.getElem?_eq_some_iff.1 hc).1
          simpa using this
        subst ht0
        have : c = c' := by simpa using hc
        subst this
        have hlt : t < ps.length := (List.getElem?_eq_some_iff.1 hp).1
        by_cases hr : ∃ y, c = .ret y
        · obtain ⟨y, rfl⟩ := hr
          exact ihr (.ret y) rfl ps t hp x hx
        · refine .step hp ?_
          rw [HProg.step_call (fun y e => hr ⟨y, e⟩)]
          have := ihr (c.step lim w D).2.2 rfl (ps.set t (.call q (c.step lim w D).2.2 k)) t
            (by rw [List.getElem?_set_self hlt]) x hx
          simpa using this
    have trans : ∀ {a b c : World} {A B C : VecStore} {ps qs rs : List (HProg α)}, HRuns lim a A ps b B qs →
        HRuns lim b B qs c C rs → HRuns lim a A ps c C rs := by
      intro a b c A B C ps qs rs h1 h2
      induction h1 with
      | refl => exact h2
      | step hp _ ih => exact .step hp (ih h2)
    intro w D ps t hp
    have hlt : t < ps.length := (List.getElem?_eq_some_iff.1 hp).1
    obtain ⟨w1, D1, x, h1⟩ := cruns_finish (lim := lim) c w D [c] 0 rfl
    have h2 := lift h1 c rfl ps t hp x rfl
    have hg : (ps.set t (.call q (.ret x) k))[t]? = some (.call q (.ret x) k) := by rw [List.getElem?_set_self hlt]
    have h3 : ∃ w' D' r, HRuns lim w1 D1 (ps.set t (.call q (.ret x) k)) w' D'
        ((ps.set t (.call q (.ret x) k)).set t (.ret r)) := by
      cases x with
      | ok x => exact go _ (ih x) w1 w1 D1 D1 _ t _ hg rfl
      | error e => exact go _ (hret (.error e)) w1 w1 D1 D1 _ t _ hg rfl
    obtain ⟨w', D', r, h4⟩ := h3
    refine ⟨w', D', r, trans h2 ?_⟩
    simpa using h4

theorem hruns_exists (lim : KKind → Nat) (w : World) (D : VecStore) (ps : List (HProg α)) :
    ∃ (w' : World) (D' : VecStore) (outs : List (Except Err α)), HRuns lim w D ps w' D' (outs.map .ret) := by
  have trans : ∀ {a b c : World} {A B C : VecStore} {ps qs rs : List (HProg α)}, HRuns lim a A ps b B qs →
      HRuns lim b B qs c C rs → HRuns lim a A ps c C rs := by
    intro a b c A B C ps qs rs h1 h2
    induction h1 with
    | refl => exact h2
    | step hp _ ih => exact .step hp (ih h2)
  have key : ∀ k, k ≤ ps.length → ∃ (w' : World) (D' : VecStore) (outs : List (Except Err α)), outs.length = k ∧
      HRuns lim w D ps w' D' (outs.map .ret ++ ps.drop k) := by
    intro k
    induction k with
    | zero => exact fun _ => ⟨w, D, [], rfl, by simpa using HRuns.refl w D ps⟩
    | succ k ih =>
      intro hk
      obtain ⟨w1, D1, outs, hl, hrun⟩ := ih (by omega)
      have hd : ps.drop k = ps[k] :: ps.drop (k + 1) := List.drop_eq_getElem_cons (by omega)
      have hp : (outs.map HProg.ret ++ ps.drop k)[k]? = some ps[k] := by
        rw [List.getElem?_append_right (by simp [hl]), hd]
        simp [hl]
      obtain ⟨w', D', r, h2⟩ := hruns_finish (lim := lim) ps[k] w1 D1 _ k hp
      refine ⟨w', D', outs ++ [r], by simp [hl], ?_⟩
      have e : (outs.map HProg.ret ++ ps.drop k).set k (.ret r) = (outs ++ [r]).map HProg.ret ++ ps.drop (k + 1) := by
        rw [hd, List.set_append_right _ _ (by simp [hl])]
        simp only [List.length_map, hl, Nat.sub_self, List.set_cons_zero, List.map_append, List.map_cons, List.map_nil,
          List.append_assoc, List.singleton_append]
      rw [e] at h2
      exact trans hrun h2
  obtain ⟨w', D', outs, _, h⟩ := key ps.length le_rfl
  exact ⟨w', D', outs, by simpa using h⟩

end

end DRec.Conc
