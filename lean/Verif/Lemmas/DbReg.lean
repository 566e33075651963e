import Verif.Model.Db

/-! # The registries of the database dataset -/

namespace DRec

/-- Registries and objects agree. -/
structure Reg (w : World) : Prop where
  own : ∀ i x, w.insts i = some x → ∃ us, w.users x.table = some us ∧ i ∈ us
  back : ∀ n us, w.users n = some us → us.Nodup ∧ ∀ j ∈ us, ∃ y, w.insts j = some y ∧ y.table = n
  tab : ∀ i x, w.insts i = some x → ∃ t, w.tables x.table = some t
  freshT : ∀ n, w.nextT ≤ n → w.users n = none
  freshI : ∀ i, w.nextI ≤ i → w.insts i = none
  liveNodup : (w.live.getD []).Nodup
  live : ∀ i, i ∈ w.live.getD [] ↔ ∃ x, w.insts i = some x
  liveNe : w.live ≠ some []
  file : w.live.isSome = true → w.file = true
  gone : w.temp = true → w.live = none → w.file = false
  zero : 0 < w.nextT

theorem put_self (w : World) (i : Nat) (x : Inst) : (w.put i x).insts i = some x := by simp [World.put]

theorem put_ne (w : World) {i j : Nat} (x : Inst) (h : j ≠ i) : (w.put i x).insts j = w.insts j := by
  simp [World.put, h]

/-- Changing an object that stays on its table. -/
theorem Reg.put {w : World} (h : Reg w) {i : Nat} {x y : Inst} (hx : w.insts i = some x)
    (ht : y.table = x.table) : Reg (w.put i y) where
  own k z hk := by
    by_cases hki : k = i
    · subst hki
      rw [put_self] at hk; cases hk
      rw [ht]; exact h.own _ _ hx
    · rw [put_ne _ _ hki] at hk; exact h.own _ _ hk
  back n us hn := by
    obtain ⟨h1, h2⟩ := h.back n us hn
    refine ⟨h1, fun j hj => ?_⟩
    obtain ⟨z, hz, hzt⟩ := h2 j hj
    by_cases hji : j = i
    · subst hji
      rw [hx] at hz; cases hz
      exact ⟨y, put_self _ _ _, ht.trans hzt⟩
    · exact ⟨z, by rw [put_ne _ _ hji]; exact hz, hzt⟩
  tab k z hk := by
    by_cases hki : k = i
    · subst hki
      rw [put_self] at hk; cases hk
      rw [ht]; exact h.tab _ _ hx
    · rw [put_ne _ _ hki] at hk; exact h.tab _ _ hk
  freshT := h.freshT
  freshI k hk := by
    have : k ≠ i := by rintro rfl; have := h.freshI _ hk; rw [hx] at this; cases this
    rw [put_ne _ _ this]; exact h.freshI _ hk
  liveNodup := h.liveNodup
  live k := by
    by_cases hki : k = i
    · subst hki
      rw [put_self]
      exact ⟨fun _ => ⟨_, rfl⟩, fun _ => (h.live k).2 ⟨_, hx⟩⟩
    · rw [put_ne _ _ hki]; exact h.live k
  liveNe := h.liveNe
  file := h.file
  gone := h.gone
  zero := h.zero

/-- Rewriting a table. -/
theorem Reg.putT {w : World} (h : Reg w) (n : Nat) (t : Table) : Reg (w.putT n (some t)) where
  own := h.own
  back := h.back
  tab i x hx := by
    by_cases hn : x.table = n
    · exact ⟨t, by simp [World.putT, hn]⟩
    · obtain ⟨u, hu⟩ := h.tab i x hx
      exact ⟨u, by simp [World.putT, hn, hu]⟩
  freshT := h.freshT
  freshI := h.freshI
  liveNodup := h.liveNodup
  live := h.live
  liveNe := h.liveNe
  file := h.file
  gone := h.gone
  zero := h.zero

/-- An object moves to a new table. -/
theorem Reg.move {w : World} (h : Reg w) {i : Nat} {x y : Inst} {us : List Nat} (hx : w.insts i = some x)
    (hu : w.users x.table = some us) (t : Table) (hy : y.table = w.nextT) :
    Reg { (((w.putT w.nextT (some t)).putU x.table (some (us.erase i))).putU w.nextT (some [i])).put i y with
      nextT := w.nextT + 1 } := by
  have hne : x.table ≠ w.nextT := by
    intro he
    have := h.freshT x.table (by omega)
    rw [hu] at this; cases this
  have hlt : x.table < w.nextT := by
    by_contra hc
    have := h.freshT x.table (by omega)
    rw [hu] at this; cases this
  obtain ⟨hnd, hback⟩ := h.back _ _ hu
  constructor
  · intro k z hk
    by_cases hki : k = i
    · subst hki
      simp only [World.put, if_true, Option.some.injEq] at hk
      subst hk
      exact ⟨[k], by simp [World.put, World.putU, hy], by simp⟩
    · have hk' : w.insts k = some z := by simpa [World.put, World.putU, World.putT, hki] using hk
      obtain ⟨vs, hv, hkv⟩ := h.own _ _ hk'
      have hzn : z.table ≠ w.nextT := by
        intro he
        have := h.freshT z.table (by omega)
        rw [hv] at this; cases this
      by_cases hz : z.table = x.table
      · rw [hz, hu] at hv; cases hv
        refine ⟨us.erase i, by simp [World.put, World.putU, hz, hne], ?_⟩
        exact (List.mem_erase_of_ne hki).2 hkv
      · exact ⟨vs, by simp [World.put, World.putU, World.putT, hz, hzn, hv], hkv⟩
  · intro n vs hn
    simp only [World.put, World.putU, World.putT] at hn
    by_cases h1 : n = w.nextT
    · subst h1
      simp only [if_true, Option.some.injEq] at hn
      subst hn
      refine ⟨by simp, fun j hj => ?_⟩
      simp only [List.mem_singleton] at hj
      subst hj
      exact ⟨y, by simp [World.put], hy⟩
    · simp only [h1, if_false] at hn
      by_cases h2 : n = x.table
      · subst h2
        simp only [if_true, Option.some.injEq] at hn
        subst hn
        refine ⟨hnd.erase i, fun j hj => ?_⟩
        have hji : j ≠ i := fun he => by subst he; exact (List.Nodup.not_mem_erase hnd) hj
        obtain ⟨z, hz, hzt⟩ := hback j (List.mem_of_mem_erase hj)
        exact ⟨z, by simpa [World.put, World.putU, World.putT, hji] using hz, hzt⟩
      · simp only [h2, if_false] at hn
        obtain ⟨g1, g2⟩ := h.back n vs hn
        refine ⟨g1, fun j hj => ?_⟩
        obtain ⟨z, hz, hzt⟩ := g2 j hj
        have hji : j ≠ i := by
          rintro rfl
          rw [hx] at hz; cases hz; exact h2 hzt.symm
        exact ⟨z, by simpa [World.put, World.putU, World.putT, hji] using hz, hzt⟩
  · intro k z hk
    by_cases hki : k = i
    · subst hki
      simp only [World.put, if_true, Option.some.injEq] at hk
      subst hk
      exact ⟨t, by simp [World.put, World.putU, World.putT, hy]⟩
    · have hk' : w.insts k = some z := by simpa [World.put, World.putU, World.putT, hki] using hk
      obtain ⟨u, hu'⟩ := h.tab _ _ hk'
      by_cases hz : z.table = w.nextT
      · exact ⟨t, by simp [World.put, World.putU, World.putT, hz]⟩
      · exact ⟨u, by simp [World.put, World.putU, World.putT, hz, hu']⟩
  · intro n hn
    have hn' : w.nextT + 1 ≤ n := hn
    have h1 : n ≠ w.nextT := by omega
    have h2 : n ≠ x.table := by omega
    have := h.freshT n (by omega)
    simpa [World.put, World.putU, World.putT, h1, h2] using this
  · intro k hk
    have hk' : w.nextI ≤ k := hk
    have hki : k ≠ i := by rintro rfl; have := h.freshI _ hk'; rw [hx] at this; cases this
    simpa [World.put, World.putU, World.putT, hki] using h.freshI k hk'
  · exact h.liveNodup
  · intro k
    by_cases hki : k = i
    · subst hki
      refine ⟨fun _ => ⟨y, by simp [World.put]⟩, fun _ => ?_⟩
      exact (h.live k).2 ⟨_, hx⟩
    · have := h.live k
      simpa [World.put, World.putU, World.putT, hki] using this
  · exact h.liveNe
  · exact h.file
  · exact h.gone
  · exact Nat.succ_pos _

/-- A new object on an existing table. -/
theorem Reg.join {w : World} (h : Reg w) (n : Nat) (t : Table) (ht : w.tables n = some t) (hn : n < w.nextT)
    (hfile : w.file = true) (y : Inst) (hy : y.table = n) :
    Reg { ((w.put w.nextI y).putU n (some (w.nextI :: (w.users n).getD []))) with
      live := some (w.nextI :: w.live.getD []), nextI := w.nextI + 1 } := by
  have hfresh : ∀ x, w.insts w.nextI ≠ some x := by
    intro x hx; have := h.freshI w.nextI (le_refl _); rw [hx] at this; cases this
  have hnu : ∀ m us, w.users m = some us → w.nextI ∉ us := by
    intro m us hm hmem
    obtain ⟨z, hz, _⟩ := (h.back m us hm).2 _ hmem
    exact hfresh z hz
  have hnl : w.nextI ∉ w.live.getD [] := by
    intro hmem
    obtain ⟨z, hz⟩ := (h.live _).1 hmem
    exact hfresh z hz
  constructor
  · intro k z hk
    by_cases hki : k = w.nextI
    · subst hki
      simp only [World.putU, World.put, if_true, Option.some.injEq] at hk
      subst hk
      exact ⟨w.nextI :: (w.users n).getD [], by simp only [World.putU, hy, if_true], by simp⟩
    · have hk' : w.insts k = some z := by simpa [World.put, World.putU, hki] using hk
      obtain ⟨vs, hv, hkv⟩ := h.own _ _ hk'
      by_cases hz : z.table = n
      · refine ⟨_, by simp only [World.putU, hz, if_true]; rfl, ?_⟩
        rw [hz] at hv
        simp [hv, hkv]
      · exact ⟨vs, by simp [World.put, World.putU, hz, hv], hkv⟩
  · intro m vs hm
    simp only [World.put, World.putU] at hm
    by_cases h1 : m = n
    · subst h1
      simp only [if_true, Option.some.injEq] at hm
      subst hm
      have hold : (w.users m).getD [] = [] ∨ w.users m = some ((w.users m).getD []) := by
        cases w.users m <;> simp
      have hb : ((w.users m).getD []).Nodup ∧
          ∀ j ∈ (w.users m).getD [], ∃ z, w.insts j = some z ∧ z.table = m := by
        rcases hold with h0 | h0
        · rw [h0]; simp
        · exact h.back m _ h0
      have hni : w.nextI ∉ (w.users m).getD [] := by
        rcases hold with h0 | h0
        · rw [h0]; simp
        · exact hnu m _ h0
      refine ⟨List.nodup_cons.2 ⟨hni, hb.1⟩, fun j hj => ?_⟩
      rcases List.mem_cons.1 hj with rfl | hj
      · exact ⟨y, by simp [World.put, World.putU], hy⟩
      · obtain ⟨z, hz, hzt⟩ := hb.2 j hj
        have hji : j ≠ w.nextI := fun he => by subst he; exact hni hj
        exact ⟨z, by simpa [World.put, World.putU, hji] using hz, hzt⟩
    · simp only [h1, if_false] at hm
      obtain ⟨g1, g2⟩ := h.back m vs hm
      refine ⟨g1, fun j hj => ?_⟩
      obtain ⟨z, hz, hzt⟩ := g2 j hj
      have hji : j ≠ w.nextI := fun he => by subst he; exact hnu m vs hm hj
      exact ⟨z, by simpa [World.put, World.putU, hji] using hz, hzt⟩
  · intro k z hk
    by_cases hki : k = w.nextI
    · subst hki
      simp only [World.putU, World.put, if_true, Option.some.injEq] at hk
      subst hk
      exact ⟨t, by simpa [World.put, World.putU, hy] using ht⟩
    · have hk' : w.insts k = some z := by simpa [World.put, World.putU, hki] using hk
      obtain ⟨u, hu'⟩ := h.tab _ _ hk'
      exact ⟨u, by simpa [World.put, World.putU] using hu'⟩
  · intro m hm
    have hm' : w.nextT ≤ m := hm
    have h1 : m ≠ n := by omega
    simpa [World.put, World.putU, h1] using h.freshT m hm'
  · intro k hk
    have hk' : w.nextI + 1 ≤ k := hk
    have hki : k ≠ w.nextI := by omega
    simpa [World.put, World.putU, hki] using h.freshI k (by omega)
  · simp only [Option.getD_some]
    exact List.nodup_cons.2 ⟨hnl, h.liveNodup⟩
  · intro k
    simp only [Option.getD_some, List.mem_cons]
    by_cases hki : k = w.nextI
    · subst hki
      exact ⟨fun _ => ⟨y, by simp [World.put, World.putU]⟩, fun _ => Or.inl rfl⟩
    · have := h.live k
      simpa [World.put, World.putU, hki] using this
  · simp
  · intro _; exact hfile
  · intro _ hl; simp at hl
  · exact h.zero

theorem Reg.file_of_inst {w : World} (h : Reg w) {i : Nat} {x : Inst} (hx : w.insts i = some x) :
    w.file = true := by
  have := (h.live i).2 ⟨x, hx⟩
  apply h.file
  cases hl : w.live with
  | none => rw [hl] at this; simp at this
  | some l => rfl

theorem Reg.table_lt {w : World} (h : Reg w) {i : Nat} {x : Inst} (hx : w.insts i = some x) :
    x.table < w.nextT := by
  obtain ⟨us, hu, _⟩ := h.own i x hx
  by_contra hc
  have := h.freshT x.table (by omega)
  rw [hu] at this; cases this

/-- Without object `i`. -/
def World.without (w : World) (i : Nat) : World :=
  { w with insts := fun j => if j = i then none else w.insts j }

/-- What `close` does in a consistent world. -/
theorem close_eq {w : World} (h : Reg w) {i : Nat} {x : Inst} (hx : w.insts i = some x) :
    ∃ us, w.users x.table = some us ∧ i ∈ us ∧ ∃ ls, w.live = some ls ∧ i ∈ ls ∧
    w.close i =
      ({ w with
          insts := fun j => if j = i then none else w.insts j
          users := fun m => if m = x.table then (if us.erase i = [] then none else some (us.erase i)) else w.users m
          tables := fun m => if ls.erase i = [] ∧ w.temp = true then none
            else if m = x.table ∧ us.erase i = [] ∧ w.gens = 0 then none else w.tables m
          live := if ls.erase i = [] then none else some (ls.erase i)
          file := if ls.erase i = [] ∧ w.temp = true then false else w.file }, none) := by
  obtain ⟨us, hu, hiu⟩ := h.own i x hx
  have hl := (h.live i).2 ⟨x, hx⟩
  obtain ⟨ls, hls⟩ : ∃ ls, w.live = some ls := by
    cases hl' : w.live with
    | none => rw [hl'] at hl; simp at hl
    | some l => exact ⟨l, rfl⟩
  have hil : i ∈ ls := by rw [hls] at hl; simpa using hl
  refine ⟨us, hu, hiu, ls, hls, hil, ?_⟩
  unfold World.close World.leaveTable
  simp only [hx, hu, hiu, if_true]
  by_cases h1 : us.erase i = []
  · by_cases h2 : w.gens = 0
    · by_cases h3 : ls.erase i = []
      · cases h4 : w.temp <;>
          simp [World.leaveFile, World.putU, World.putT, h1, h2, h3, h4, hls, hil]
      · simp [World.leaveFile, World.putU, World.putT, h1, h2, h3, hls, hil]
    · by_cases h3 : ls.erase i = []
      · cases h4 : w.temp <;>
          simp [World.leaveFile, World.putU, h1, h2, h3, h4, hls, hil]
      · simp [World.leaveFile, World.putU, h1, h2, h3, hls, hil]
  · by_cases h3 : ls.erase i = []
    · cases h4 : w.temp <;>
        simp [World.leaveFile, World.putU, h1, h3, h4, hls, hil]
    · simp [World.leaveFile, World.putU, h1, h3, hls, hil]

theorem erase_nil_only {l : List Nat} {i j : Nat} (h : l.erase i = []) (hj : j ∈ l) : j = i := by
  by_contra hne
  have := (List.mem_erase_of_ne (l := l) hne).2 hj
  rw [h] at this; simp at this

theorem Reg.close {w : World} (h : Reg w) {i : Nat} {x : Inst} (hx : w.insts i = some x) :
    Reg (w.close i).1 ∧ (w.close i).2 = none := by
  obtain ⟨us, hu, hiu, ls, hls, hil, heq⟩ := close_eq h hx
  obtain ⟨hnd, hback⟩ := h.back _ _ hu
  have hlnd : ls.Nodup := by simpa [hls] using h.liveNodup
  have hlive : ∀ k, k ∈ ls ↔ ∃ z, w.insts k = some z := by simpa [hls] using h.live
  have hli' : ∀ k, k ∈ ls.erase i ↔ k ≠ i ∧ ∃ z, w.insts k = some z := by
    intro k
    rw [hlnd.mem_erase_iff, hlive]
  rw [heq]
  refine ⟨?_, rfl⟩
  constructor
  · intro k z hk
    by_cases hki : k = i
    · simp [hki] at hk
    · simp only [hki, if_false] at hk
      obtain ⟨vs, hv, hkv⟩ := h.own _ _ hk
      by_cases hz : z.table = x.table
      · rw [hz, hu] at hv; cases hv
        have hkm : k ∈ us.erase i := (List.mem_erase_of_ne hki).2 hkv
        have : us.erase i ≠ [] := fun he => by rw [he] at hkm; simp at hkm
        exact ⟨us.erase i, by simp [hz, this], hkm⟩
      · exact ⟨vs, by simp [hz, hv], hkv⟩
  · intro n vs hn
    by_cases h2 : n = x.table
    · by_cases h3 : us.erase i = []
      · simp [h2, h3] at hn
      · simp only [h2, if_true, h3, if_false, Option.some.injEq] at hn
        subst hn
        refine ⟨hnd.erase i, fun j hj => ?_⟩
        have hji : j ≠ i := fun he => by subst he; exact (List.Nodup.not_mem_erase hnd) hj
        obtain ⟨z, hz, hzt⟩ := hback j (List.mem_of_mem_erase hj)
        exact ⟨z, by simpa [hji] using hz, hzt.trans h2.symm⟩
    · simp only [h2, if_false] at hn
      obtain ⟨g1, g2⟩ := h.back n vs hn
      refine ⟨g1, fun j hj => ?_⟩
      obtain ⟨z, hz, hzt⟩ := g2 j hj
      have hji : j ≠ i := by
        rintro rfl
        rw [hx] at hz; cases hz; exact h2 hzt.symm
      exact ⟨z, by simpa [hji] using hz, hzt⟩
  · intro k z hk
    by_cases hki : k = i
    · simp [hki] at hk
    · simp only [hki, if_false] at hk
      obtain ⟨u, hu'⟩ := h.tab _ _ hk
      have hne : ls.erase i ≠ [] := by
        intro he
        have := (hli' k).2 ⟨hki, z, hk⟩
        rw [he] at this; simp at this
      have hne2 : ¬ (z.table = x.table ∧ us.erase i = [] ∧ w.gens = 0) := by
        rintro ⟨hz, he, _⟩
        obtain ⟨vs, hv, hkv⟩ := h.own _ _ hk
        rw [hz, hu] at hv; cases hv
        exact hki (erase_nil_only he hkv)
      have h4 : ¬ (ls.erase i = [] ∧ w.temp = true) := fun he => hne he.1
      exact ⟨u, by dsimp only; rw [if_neg h4, if_neg hne2]; exact hu'⟩
  · intro n hn
    have hn' : w.nextT ≤ n := hn
    have hlt := h.table_lt hx
    have : n ≠ x.table := by omega
    simpa [this] using h.freshT n hn'
  · intro k hk
    by_cases hki : k = i
    · simp [hki]
    · simpa [hki] using h.freshI k hk
  · by_cases h3 : ls.erase i = []
    · simp [h3]
    · simpa [h3] using hlnd.erase i
  · intro k
    have e : (if ls.erase i = [] then (none : Option (List Nat)) else some (ls.erase i)).getD [] = ls.erase i := by
      by_cases h3 : ls.erase i = [] <;> simp [h3]
    show k ∈ (if ls.erase i = [] then (none : Option (List Nat)) else some (ls.erase i)).getD [] ↔ _
    rw [e, hli']
    by_cases hki : k = i <;> simp [hki]
  · by_cases h3 : ls.erase i = [] <;> simp [h3]
  · intro hl
    by_cases h3 : ls.erase i = []
    · simp [h3] at hl
    · simpa [h3] using h.file_of_inst hx
  · intro ht hl
    by_cases h3 : ls.erase i = []
    · have ht' : w.temp = true := ht
      simp [h3, ht']
    · simp [h3] at hl
  · exact h.zero

theorem Reg.close' {w : World} (h : Reg w) (i : Nat) : Reg (w.close i).1 := by
  cases hx : w.insts i with
  | none => simpa [World.close, hx] using h
  | some x => exact (h.close hx).1

theorem Reg.shrink {w : World} (h : Reg w) {i : Nat} {x : Inst} (hx : w.insts i = some x) (t : Table) :
    Reg (w.shrink i x t).1 := by
  unfold World.shrink
  split
  · exact h
  · split
    · exact h
    · split
      · exact Reg.put (h.putT _ _) (x := x) hx rfl
      · exact h

theorem Reg.split {w : World} (h : Reg w) {i : Nat} {x : Inst} (hx : w.insts i = some x) (t : Table)
    (us : List Nat) (hu : w.users x.table = some us) : Reg (w.split i x t us).1 := by
  unfold World.split
  split
  · exact h
  · split
    · exact h
    · split
      · exact h.move hx hu _ rfl
      · exact h

theorem Reg.optimize {w : World} (h : Reg w) (i : Nat) (b : Bool) : Reg (w.optimize i b).1 := by
  unfold World.optimize
  split
  · exact h
  · rename_i x hx
    have hp : Reg (w.put i x.reset) := h.put hx rfl
    split
    · exact hp
    · split
      · exact hp
      · split
        · rename_i us t hu ht
          split
          · exact hp.shrink (put_self _ _ _) _
          · exact hp.split (put_self _ _ _) _ _ hu
        · exact hp

theorem Reg.record {w : World} (h : Reg w) (i : Nat) : Reg (w.record i).1 := by
  unfold World.record
  split
  · exact h
  · rename_i x hx
    have hp : Reg (w.put i { x with direct := x.direct + 1 }) := h.put hx rfl
    split
    · exact hp.optimize i true
    · exact hp

theorem Reg.update {w : World} (h : Reg w) (i : Nat) (s : Src) : Reg (w.update i s).1 := by
  unfold World.update
  split
  · exact h
  · rename_i x hx
    split
    · exact h.put hx rfl
    · split
      · exact h.put hx rfl
      · dsimp only
        split
        · refine Reg.optimize ?_ i true
          exact h.put hx rfl
        · exact h.put hx rfl

theorem Reg.copy {w : World} (h : Reg w) (i : Nat) : Reg (w.copy i).1 := by
  unfold World.copy
  split
  · exact h
  · rename_i x hx
    split
    · exact h
    · rename_i t ht
      exact h.join x.table t ht (h.table_lt hx) (h.file_of_inst hx) _ rfl

theorem Reg.onCopy {w : World} (h : Reg w) (i : Nat) (f : World → Nat → World × Option Err)
    (hf : ∀ w j, Reg w → Reg (f w j).1) : Reg (w.onCopy i f).1 := by
  unfold World.onCopy
  have hc := h.copy i
  split
  · rename_i w1 e he; rw [he] at hc; exact hc
  · rename_i w1 he
    rw [he] at hc
    have hr := Reg.record hc i
    split
    · rename_i w2 e he2; rw [he2] at hr; exact Reg.close' hr _
    · rename_i w2 he2
      rw [he2] at hr
      have hff := hf w2 w.nextI hr
      split
      · rename_i w3 e he3; rw [he3] at hff; exact Reg.close' hff _
      · rename_i w3 he3; rw [he3] at hff; exact hff

theorem Reg.inPlaceOrCopy {w : World} (h : Reg w) (i : Nat) (c : Bool) (f : World → Nat → World × Option Err)
    (hf : ∀ w j, Reg w → Reg (f w j).1) : Reg (w.inPlaceOrCopy i c f).1 := by
  unfold World.inPlaceOrCopy
  split
  · exact h.onCopy i f hf
  · have := hf w i h
    split
    · rename_i w1 e he; rw [he] at this; exact this
    · rename_i w1 he; rw [he] at this; exact this

theorem Reg.selectOn {w : World} (h : Reg w) (i : Nat) (q : List Char) : Reg (w.selectOn i q).1 := by
  unfold World.selectOn
  split
  · exact h
  · split
    · exact h
    · exact h.update i _

theorem Reg.dropOn {w : World} (h : Reg w) (i : Nat) (ids : List Nat) (k : Bool) : Reg (w.dropOn i ids k).1 := by
  unfold World.dropOn
  split
  · exact h
  · exact h.update i _

theorem Reg.uniqueOn {w : World} (h : Reg w) (i : Nat) (l : List String) : Reg (w.uniqueOn i l).1 := by
  unfold World.uniqueOn
  split
  · exact h
  · rename_i x hx
    exact Reg.update (h.put (y := { x with columns := withRid l }) hx rfl) i _

theorem Reg.select {w : World} (h : Reg w) (i : Nat) (q : List Char) (c : Bool) : Reg (w.select i q c).1 :=
  h.inPlaceOrCopy i c _ fun _ j hw => hw.selectOn j q

theorem Reg.drop {w : World} (h : Reg w) (i : Nat) (ids : List Nat) (k c : Bool) : Reg (w.drop i ids k c).1 :=
  h.inPlaceOrCopy i c _ fun _ j hw => hw.dropOn j ids k

theorem Reg.unique {w : World} (h : Reg w) (i : Nat) (cs : Option (List String)) (c : Bool) :
    Reg (w.unique i cs c).1 := by
  unfold World.unique
  split
  · exact h
  · split
    · exact h
    · exact h.inPlaceOrCopy i c _ fun _ j hw => hw.uniqueOn j _

theorem Reg.read {w : World} (h : Reg w) (i : Nat) (op : ReadOp) : Reg (w.read i op).1 := by
  unfold World.read
  have := h.record i
  split
  · rename_i w1 e he; rw [he] at this; exact this
  · rename_i w1 he; rw [he] at this; exact this

theorem Reg.assign {w : World} (h : Reg w) (i : Nat) : Reg (w.assign i).1 := by
  unfold World.assign
  have := h.optimize i true
  split
  · rename_i w1 e he; rw [he] at this; exact this
  · rename_i w1 he
    rw [he] at this
    split
    · exact this
    · rename_i x hx
      split
      · exact Reg.put (this.putT _ _) hx rfl
      · exact this.put hx rfl

theorem Reg.removeIds {w : World} (h : Reg w) (i : Nat) : Reg (w.removeIds i).1 := by
  unfold World.removeIds
  split
  · exact h
  · rename_i x hx
    split
    · split
      · exact h.put hx rfl
      · exact h.put hx rfl
    · exact h.put hx rfl

theorem Reg.applySame {w : World} (h : Reg w) (i : Nat) (c : String) (f : Val → Option Lit) (d : DType) :
    Reg (w.applySame i c f d).1 := by
  unfold World.applySame
  have := h.optimize i false
  split
  · rename_i w1 e he; rw [he] at this; exact this
  · rename_i w1 he
    rw [he] at this
    split
    · exact this
    · split
      · exact this
      · split
        · exact this
        · exact this.putT _ _

theorem Reg.applyNew {w : World} (h : Reg w) (i : Nat) (c : String) (f : Val → Option Lit) (d : DType) :
    Reg (w.applyNew i c f d).1 := by
  unfold World.applyNew
  split
  · exact h
  · rename_i x hx
    split
    · rename_i ty t us hty ht hu
      split
      · exact h
      · dsimp only
        split
        · exact h.put hx rfl
        · split
          · exact h.put hx rfl
          · split
            · exact h.move hx hu _ rfl
            · exact h.put hx rfl
    · exact h

theorem Reg.apply {w : World} (h : Reg w) (i : Nat) (c : String) (f : Val → Option Lit) :
    Reg (w.apply i c f).1 := by
  unfold World.apply
  split
  · exact h
  · split
    · split
      · exact h
      · have := h.read i (.values (some [c]))
        split
        · rename_i w1 e he; rw [he] at this; exact this
        · rename_i w1 r0 rest he
          rw [he] at this
          split
          · exact this
          · split
            · split
              · exact Reg.applySame this i c f _
              · exact Reg.applyNew this i c f _
            · exact this
        · rename_i w1 r hne he; rw [he] at this; exact this
    · exact h

theorem Reg.reopen {w : World} (h : Reg w) : Reg (w.reopen).1 := by
  unfold World.reopen
  split
  · rename_i t hf ht
    exact h.join 0 t ht h.zero hf _ rfl
  · exact h

/-- One object on table 0. -/
theorem Reg.single {w : World} {x : Inst} {t : Table} (h1 : ∀ i, w.insts i = if i = 0 then some x else none)
    (h2 : x.table = 0) (h3 : ∀ n, w.users n = if n = 0 then some [0] else none) (h4 : w.tables 0 = some t)
    (h5 : w.live = some [0]) (h6 : w.nextT = 1) (h7 : w.nextI = 1) (h8 : w.file = true) : Reg w where
  own i y hy := by
    rw [h1] at hy
    split at hy
    · rename_i hi
      cases hy
      exact ⟨[0], by rw [h2, h3]; simp, by simp [hi]⟩
    · cases hy
  back n us hn := by
    rw [h3] at hn
    split at hn
    · rename_i h
      cases hn
      refine ⟨by simp, fun j hj => ?_⟩
      simp only [List.mem_singleton] at hj
      exact ⟨x, by rw [h1, hj]; simp, by rw [h2, h]⟩
    · cases hn
  tab i y hy := by
    rw [h1] at hy
    split at hy
    · cases hy; exact ⟨t, by rw [h2]; exact h4⟩
    · cases hy
  freshT n hn := by rw [h3, if_neg (by omega)]
  freshI i hi := by rw [h1, if_neg (by omega)]
  liveNodup := by rw [h5]; simp
  live i := by
    rw [h5, h1]
    by_cases hi : i = 0 <;> simp [hi]
  liveNe := by rw [h5]; simp
  file _ := h8
  gone _ hl := by rw [h5] at hl; cases hl
  zero := by rw [h6]; omega

theorem Reg.ofCsv (cols : List String) (types : String → DType) (rows : List Row) :
    Reg (World.ofCsv cols types rows) :=
  Reg.single (fun _ => rfl) rfl (fun _ => rfl) rfl rfl rfl rfl rfl

theorem Reg.ofFile (t : Table) : Reg (World.ofFile t) :=
  Reg.single (fun _ => rfl) rfl (fun _ => rfl) rfl rfl rfl rfl rfl

end DRec
