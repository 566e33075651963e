import Verif.Spec.MemHeap

/-!
# Heap lemmas
-/

namespace DRec

open Spec

/-- References of an object are valid. -/
structure ObjOk (h : Heap) (o : Obj) : Prop where
  frame : o.frame < h.frames.length
  cols : o.cols < h.lists.length
  umap : o.umap < h.maps.length
  imap : o.imap < h.maps.length

theorem ObjOk.move {h h' : Heap} {o : Obj} (ok : ObjOk h o) (hf : h'.frames = h.frames)
    (hl : h'.lists = h.lists) (hm : h'.maps = h.maps) : ObjOk h' o :=
  ⟨hf ▸ ok.frame, hl ▸ ok.cols, hm ▸ ok.umap, hm ▸ ok.imap⟩

/-- References are valid and no two objects share a column list. -/
structure HeapOk (h : Heap) : Prop where
  objs : ∀ o ∈ h.objs, ObjOk h o
  nodup : (h.objs.map (·.cols)).Nodup

/-- `h'` has all cells of `h` with the same contents, except possibly list cell `a`. -/
structure ExtBut (h h' : Heap) (a : Option Nat) : Prop where
  frames : ∀ k < h.frames.length, h'.frames[k]? = h.frames[k]?
  lists : ∀ k < h.lists.length, some k ≠ a → h'.lists[k]? = h.lists[k]?
  maps : ∀ k < h.maps.length, h'.maps[k]? = h.maps[k]?
  flen : h.frames.length ≤ h'.frames.length
  llen : h.lists.length ≤ h'.lists.length
  mlen : h.maps.length ≤ h'.maps.length

theorem ExtBut.view {h h' : Heap} {a : Option Nat} (e : ExtBut h h' a) {o : Obj} (ho : ObjOk h o)
    (hne : some o.cols ≠ a) : h'.view o = h.view o := by
  unfold Heap.view
  simp only [List.getD_eq_getElem?_getD, e.frames _ ho.frame, e.lists _ ho.cols hne,
    e.maps _ ho.umap, e.maps _ ho.imap]

theorem ExtBut.ok {h h' : Heap} {a : Option Nat} (e : ExtBut h h' a) {o : Obj} (ho : ObjOk h o) :
    ObjOk h' o :=
  ⟨lt_of_lt_of_le ho.frame e.flen, lt_of_lt_of_le ho.cols e.llen, lt_of_lt_of_le ho.umap e.mlen,
    lt_of_lt_of_le ho.imap e.mlen⟩

theorem ExtBut.refl (h : Heap) (a : Option Nat) : ExtBut h h a :=
  ⟨fun _ _ => rfl, fun _ _ _ => rfl, fun _ _ => rfl, le_refl _, le_refl _, le_refl _⟩

theorem ExtBut.trans {h h' h'' : Heap} {a : Option Nat} (e : ExtBut h h' a) (e' : ExtBut h' h'' a) :
    ExtBut h h'' a :=
  ⟨fun k hk => (e'.frames k (lt_of_lt_of_le hk e.flen)).trans (e.frames k hk),
   fun k hk hn => (e'.lists k (lt_of_lt_of_le hk e.llen) hn).trans (e.lists k hk hn),
   fun k hk => (e'.maps k (lt_of_lt_of_le hk e.mlen)).trans (e.maps k hk),
   e.flen.trans e'.flen, e.llen.trans e'.llen, e.mlen.trans e'.mlen⟩

theorem ExtBut.weaken {h h' : Heap} (e : ExtBut h h' none) (a : Option Nat) : ExtBut h h' a :=
  ⟨e.frames, fun k hk _ => e.lists k hk (by simp), e.maps, e.flen, e.llen, e.mlen⟩

theorem ext_newFrame (h : Heap) (f : Frame) : ExtBut h (h.newFrame f).1 none :=
  ⟨fun k hk => by simp [Heap.newFrame, List.getElem?_append_left hk], fun _ _ _ => rfl,
   fun _ _ => rfl, by simp [Heap.newFrame], le_refl _, le_refl _⟩

theorem ext_newList (h : Heap) (l : List String) : ExtBut h (h.newList l).1 none :=
  ⟨fun _ _ => rfl, fun k hk _ => by simp [Heap.newList, List.getElem?_append_left hk],
   fun _ _ => rfl, le_refl _, by simp [Heap.newList], le_refl _⟩

theorem ext_newMap (h : Heap) (l : List Val) : ExtBut h (h.newMap l).1 none :=
  ⟨fun _ _ => rfl, fun _ _ _ => rfl, fun k hk => by simp [Heap.newMap, List.getElem?_append_left hk],
   le_refl _, le_refl _, by simp [Heap.newMap]⟩

theorem ext_writeList (h : Heap) (a : Nat) (l : List String) : ExtBut h (h.writeList a l) (some a) :=
  ⟨fun _ _ => rfl, fun k _ hn => by
    have : a ≠ k := fun e => hn (by rw [e])
    simp [Heap.writeList, this], fun _ _ => rfl, le_refl _, by simp [Heap.writeList],
   le_refl _⟩

theorem ext_cloneAndAssign (h : Heap) (o : Obj) (f : Frame) :
    ExtBut h (h.cloneAndAssign o f).1 none := by
  refine ⟨fun k hk => ?_, fun _ _ _ => rfl, fun _ _ => rfl, ?_, le_refl _, le_refl _⟩
  · simp [Heap.cloneAndAssign, Heap.newFrame, Heap.writeFrame,
      List.getElem?_append_left hk]
  · simp [Heap.cloneAndAssign, Heap.newFrame, Heap.writeFrame]

/-- Distinct positions of the object list have distinct column lists. -/
theorem HeapOk.cols_ne {h : Heap} (w : HeapOk h) {i j : Nat} {oi oj : Obj}
    (hi : h.objs[i]? = some oi) (hj : h.objs[j]? = some oj) (hij : i ≠ j) : oi.cols ≠ oj.cols := by
  intro e
  obtain ⟨hi1, hi2⟩ := List.getElem?_eq_some_iff.1 hi
  obtain ⟨hj1, hj2⟩ := List.getElem?_eq_some_iff.1 hj
  apply hij
  exact (List.getElem_inj (h₀ := by simpa using hi1) (h₁ := by simpa using hj1) w.nodup).1
    (by simp [hi2, hj2, e])

/-- Replacing one object after writes that touch at most its own column list. -/
theorem setObj_spec {h h' : Heap} (w : HeapOk h) {i : Nat} {o o' : Obj}
    (ho : h.objs[i]? = some o) (hobjs : h'.objs = h.objs) (e : ExtBut h h' (some o.cols))
    (ok' : ObjOk h' o') (hc : o'.cols = o.cols ∨ h.lists.length ≤ o'.cols) :
    HeapOk (h'.setObj i o') ∧ (h'.setObj i o').views = h.views.set i (h'.view o') := by
  have hview : ∀ x, (h'.setObj i o').view x = h'.view x := fun x => rfl
  have hother : ∀ j oj, h.objs[j]? = some oj → j ≠ i → h'.view oj = h.view oj := by
    intro j oj hj hji
    refine e.view (w.objs oj (List.mem_of_getElem? hj)) ?_
    intro he
    exact w.cols_ne ho hj (Ne.symm hji) (by simpa using he.symm)
  have hi : i < h.objs.length := (List.getElem?_eq_some_iff.1 ho).1
  constructor
  · constructor
    · intro x hx
      simp only [Heap.setObj, hobjs] at hx
      rcases List.mem_or_eq_of_mem_set hx with hx | rfl
      · exact (ExtBut.ok e (w.objs x hx)).move rfl rfl rfl
      · exact ok'.move rfl rfl rfl
    · simp only [Heap.setObj, hobjs, List.map_set]
      rcases hc with hc | hc
      · rw [hc]
        have : (h.objs.map (·.cols)).set i o.cols = h.objs.map (·.cols) := by
          apply List.ext_getElem?
          intro k
          rw [List.getElem?_set]
          split
          · rename_i hk; subst hk
            have := (List.getElem?_eq_some_iff.1 ho).2
            simp [hi, this]
          · rfl
        rw [this]; exact w.nodup
      · rw [List.nodup_iff_pairwise_ne, List.pairwise_iff_getElem]
        intro a b ha hb hab
        have ha' : a < h.objs.length := by simpa using ha
        have hb' : b < h.objs.length := by simpa using hb
        have hold : ∀ k (hk : k < h.objs.length), (h.objs[k]).cols < h.lists.length :=
          fun k hk => (w.objs _ (List.getElem_mem hk)).cols
        have hdist := (List.pairwise_iff_getElem.1 (List.nodup_iff_pairwise_ne.1 w.nodup)) a b
          (by simpa using ha') (by simpa using hb') hab
        simp only [List.getElem_set, List.getElem_map] at *
        have h1 := hold a ha'
        have h2 := hold b hb'
        split <;> split <;> omega
  · apply List.ext_getElem?
    intro k
    simp only [Heap.views, Heap.setObj, hobjs, List.getElem?_map, List.getElem?_set, List.length_map]
    by_cases hk : i = k
    · subst hk; simp [hi, Heap.view]
    · simp only [hk, if_false]
      cases hj : h.objs[k]? with
      | none => rfl
      | some oj =>
        have := hother k oj hj (fun e => hk e.symm)
        simpa [Heap.view] using this

/-- Adding an object whose column list is new. -/
theorem addObj_spec {h h' : Heap} (w : HeapOk h) {o' : Obj} (hobjs : h'.objs = h.objs)
    (e : ExtBut h h' none) (ok' : ObjOk h' o') (hc : h.lists.length ≤ o'.cols) :
    HeapOk (h'.addObj o') ∧ (h'.addObj o').views = h.views ++ [h'.view o'] := by
  constructor
  · constructor
    · intro x hx
      simp only [Heap.addObj, hobjs, List.mem_append, List.mem_singleton] at hx
      rcases hx with hx | rfl
      · exact (ExtBut.ok e (w.objs x hx)).move rfl rfl rfl
      · exact ok'.move rfl rfl rfl
    · simp only [Heap.addObj, hobjs, List.map_append, List.map_cons, List.map_nil]
      rw [List.nodup_append]
      refine ⟨w.nodup, by simp, ?_⟩
      intro a ha b hb
      simp only [List.mem_singleton] at hb
      obtain ⟨x, hx, rfl⟩ := List.mem_map.1 ha
      have := (w.objs x hx).cols
      omega
  · simp only [Heap.views, Heap.addObj, hobjs, List.map_append, List.map_cons, List.map_nil]
    congr 1
    apply List.map_congr_left
    intro x hx
    exact e.view (w.objs x hx) (by simp)

theorem copyObj_view (h : Heap) (o : Obj) :
    (h.copyObj o).1.view (h.copyObj o).2 = (h.view o).copy := by
  simp [Heap.copyObj, Heap.newList, Heap.view, Mem.copy, List.getD_eq_getElem?_getD]

theorem refilter_view (h : Heap) (o : Obj) (rows : List Row) :
    (h.refilter o rows).1.view (h.refilter o rows).2 = { h.view o with rows := rows } := by
  simp [Heap.refilter, Heap.newFrame, Heap.view]

theorem restructure_view (h : Heap) (o : Obj) (cs : List String) (rows : List Row) :
    (h.restructure o cs rows).1.view (h.restructure o cs rows).2 =
      { h.view o with cols := cs, rows := rows } := by
  simp [Heap.restructure, Heap.newFrame, Heap.newList, Heap.view]

theorem cloneAndAssign_view (h : Heap) (o : Obj) (f : Frame) :
    (h.cloneAndAssign o f).1.view (h.cloneAndAssign o f).2 =
      { h.view o with rows := f.rows, dtype := f.dtype } := by
  simp [Heap.cloneAndAssign, Heap.newFrame, Heap.writeFrame, Heap.view]

/-- What a change step used under a `copy` flag has to satisfy. -/
structure GoodChange (h : Heap) (o : Obj) (r : Heap × Obj) (m : Mem) : Prop where
  objs : r.1.objs = h.objs
  ext : ExtBut h r.1 none
  ok : ObjOk r.1 r.2
  cols : r.2.cols = o.cols ∨ h.lists.length ≤ r.2.cols
  view : r.1.view r.2 = m

theorem refilter_good (h : Heap) (o : Obj) (ho : ObjOk h o) (rows : List Row) :
    GoodChange h o (h.refilter o rows) { h.view o with rows := rows } :=
  ⟨rfl, ext_newFrame h _, ⟨by simp [Heap.refilter, Heap.newFrame],
    ho.cols, ho.umap, ho.imap⟩, Or.inl rfl, refilter_view h o rows⟩

theorem restructure_good (h : Heap) (o : Obj) (ho : ObjOk h o) (cs : List String) (rows : List Row) :
    GoodChange h o (h.restructure o cs rows) { h.view o with cols := cs, rows := rows } :=
  ⟨rfl, (ext_newFrame h _).trans (ext_newList _ _),
    ⟨by simp [Heap.restructure, Heap.newFrame, Heap.newList],
     by simp [Heap.restructure, Heap.newFrame, Heap.newList], ho.umap, ho.imap⟩,
    Or.inr (le_refl _), restructure_view h o cs rows⟩

theorem cloneAndAssign_good (h : Heap) (o : Obj) (ho : ObjOk h o) (f : Frame) :
    GoodChange h o (h.cloneAndAssign o f) { h.view o with rows := f.rows, dtype := f.dtype } :=
  ⟨rfl, ext_cloneAndAssign h o f, ⟨by simp [Heap.cloneAndAssign, Heap.newFrame, Heap.writeFrame],
    ho.cols, ho.umap, ho.imap⟩, Or.inl rfl, cloneAndAssign_view h o f⟩

theorem onCopyOrSelf_spec {h : Heap} (w : HeapOk h) {i : Nat} {o : Obj} (ho : h.objs[i]? = some o)
    (f : Heap → Obj → Heap × Obj) (g : Mem → Mem)
    (hf : ∀ h o, ObjOk h o → GoodChange h o (f h o) (g (h.view o))) (copy : Bool) :
    HeapOk (h.onCopyOrSelf i o copy f) ∧
    (h.onCopyOrSelf i o copy f).views =
      if copy then h.views ++ [g (h.view o).copy] else h.views.set i (g (h.view o)) := by
  have oo := w.objs o (List.mem_of_getElem? ho)
  cases copy
  · simp only [Heap.onCopyOrSelf, Bool.false_eq_true, if_false]
    have G := hf h o oo
    have := setObj_spec w (o' := (f h o).2) ho G.objs (G.ext.weaken _) G.ok G.cols
    rw [G.view] at this
    exact this
  · simp only [Heap.onCopyOrSelf, if_true]
    have e1 : ExtBut h (h.copyObj o).1 none := ext_newList h _
    have o1 : ObjOk (h.copyObj o).1 (h.copyObj o).2 :=
      ⟨oo.frame, by simp [Heap.copyObj, Heap.newList], oo.umap, oo.imap⟩
    have G := hf _ _ o1
    have hc : h.lists.length ≤ (f (h.copyObj o).1 (h.copyObj o).2).2.cols := by
      have hl : (h.copyObj o).2.cols = h.lists.length := rfl
      rcases G.cols with hc | hc
      · omega
      · exact le_trans e1.llen hc
    have := addObj_spec w (o' := (f (h.copyObj o).1 (h.copyObj o).2).2) G.objs (e1.trans G.ext) G.ok hc
    rw [G.view, copyObj_view h o] at this
    exact this

theorem applyQuery_copy (m : Mem) (q : List Char) : m.copy.applyQuery q = m.applyQuery q := by
  have hmask : ∀ c, m.copy.condMask c = m.condMask c := fun c => rfl
  have hread : ∀ c, m.copy.readCond c = m.readCond c := fun c => rfl
  have loop : ∀ segs acc, m.copy.maskLoop segs acc = m.maskLoop segs acc := by
    intro segs
    induction segs with
    | nil => intro acc; rfl
    | cons s segs ih => intro acc; simp only [Mem.maskLoop, hmask, hread, ih]
  simp only [Mem.applyQuery, loop]
  rfl

theorem userVec_fields (m : Mem) (u : Nat) :
    (m.userVec u).1 = { m with cache := (m.userVec u).1.cache, cacheT := (m.userVec u).1.cacheT } := by
  unfold Mem.userVec
  split
  · rfl
  · rfl
  · split
    · split <;> rfl
    · split <;> rfl

theorem itemVec_fields (m : Mem) (u : Nat) :
    (m.itemVec u).1 = { m with cache := (m.itemVec u).1.cache, cacheT := (m.itemVec u).1.cacheT } := by
  unfold Mem.itemVec
  split
  · rfl
  · rfl
  · split
    · split
      · rfl
      · split <;> rfl
    · split <;> rfl

theorem apply_fields (m : Mem) (c : String) (f : Val → Option Val) :
    (m.apply c f).1 = { m with
      rows := (m.apply c f).1.rows
      dtype := (m.apply c f).1.dtype
      cache := (m.apply c f).1.cache
      cacheT := (m.apply c f).1.cacheT } := by
  simp only [Mem.apply]
  repeat' split
  all_goals rfl

theorem assignIds_caches (m : Mem) :
    m.assignIds.1 = { m.assignIds.1 with cache := m.cache, cacheT := m.cacheT } := by
  simp only [Mem.assignIds]
  repeat' split
  all_goals rfl

theorem removeIds_fields (m : Mem) :
    m.removeIds.1 = { m with cols := m.removeIds.1.cols, hasIds := m.removeIds.1.hasIds } := by
  simp only [Mem.removeIds]
  repeat' split
  all_goals rfl

/-- One operation on the heap is one operation on separate values. -/
theorem stepOn_spec {h : Heap} (w : HeapOk h) (op : HOp) (o : Obj)
    (ho : h.objs[op.target]? = some o) :
    HeapOk (h.stepOn o op) ∧ (h.stepOn o op).views = stepValuesOn h.views (h.view o) op := by
  have oo := w.objs o (List.mem_of_getElem? ho)
  cases op with
  | copy i =>
    have e1 : ExtBut h (h.copyObj o).1 none := ext_newList h _
    have o1 : ObjOk (h.copyObj o).1 (h.copyObj o).2 :=
      ⟨oo.frame, by simp [Heap.copyObj, Heap.newList], oo.umap, oo.imap⟩
    have := addObj_spec w (h' := (h.copyObj o).1) (o' := (h.copyObj o).2) rfl e1 o1 (le_refl _)
    rw [copyObj_view h o] at this
    exact this
  | select i q copy =>
    simp only [Heap.stepOn]
    cases hq : (h.view o).applyQuery q with
    | error e =>
      refine ⟨w, ?_⟩
      cases copy <;> simp [stepValuesOn, Mem.select, Mem.selectInPlace, applyQuery_copy, hq,
        Except.map, appendOk, setOk]
    | ok rows =>
      obtain ⟨w', hv'⟩ := onCopyOrSelf_spec w ho (fun h o => h.refilter o rows)
        (fun m => { m with rows := rows }) (fun h o ho => refilter_good h o ho rows) copy
      refine ⟨w', hv'.trans ?_⟩
      cases copy
      · simp [stepValuesOn, Mem.selectInPlace, hq, Except.map, setOk, HOp.target]
      · simp [stepValuesOn, Mem.select, applyQuery_copy, hq, Except.map, appendOk]
  | drop i ids keep copy =>
    obtain ⟨w', hv'⟩ := onCopyOrSelf_spec w ho
      (fun h' o' => h'.refilter o' (dropRows ids keep (h.view o).rows))
      (fun m => { m with rows := dropRows ids keep (h.view o).rows })
      (fun h o ho => refilter_good h o ho _) copy
    refine ⟨w', hv'.trans ?_⟩
    cases copy <;> simp [stepValuesOn, Mem.drop, Mem.dropInPlace, Mem.copy, HOp.target]
  | unique i cs copy =>
    simp only [Heap.stepOn]
    cases hq : handleColumns (h.view o).cols cs with
    | error e =>
      refine ⟨w, ?_⟩
      cases copy <;> simp [stepValuesOn, Mem.unique, Mem.uniqueInPlace, hq,
        Except.map, appendOk, setOk]
    | ok l =>
      obtain ⟨w', hv'⟩ := onCopyOrSelf_spec w ho
        (fun h' o' => h'.restructure o' ((h.view o).uniqueOn l).cols ((h.view o).uniqueOn l).rows)
        (fun m => { m with cols := ((h.view o).uniqueOn l).cols, rows := ((h.view o).uniqueOn l).rows })
        (fun h o ho => restructure_good h o ho _ _) copy
      refine ⟨w', hv'.trans ?_⟩
      cases copy <;> simp [stepValuesOn, Mem.unique, Mem.uniqueInPlace, hq, Except.map, appendOk,
        setOk, Mem.copy, HOp.target, Mem.uniqueOn]
  | apply i c f =>
    simp only [Heap.stepOn]
    have e := apply_fields (h.view o) c f
    generalize hm : ((h.view o).apply c f).1 = m at e
    have G := cloneAndAssign_good h o oo ⟨m.dtype, m.rows⟩
    have := setObj_spec w (o' := { (h.cloneAndAssign o ⟨m.dtype, m.rows⟩).2 with
      cache := m.cache, cacheT := m.cacheT }) ho G.objs
      (G.ext.weaken _) ⟨G.ok.frame, G.ok.cols, G.ok.umap, G.ok.imap⟩ G.cols
    refine ⟨this.1, this.2.trans ?_⟩
    simp only [stepValuesOn]
    congr 1
    have e2 : (h.cloneAndAssign o ⟨m.dtype, m.rows⟩).1.view
        { (h.cloneAndAssign o ⟨m.dtype, m.rows⟩).2 with cache := m.cache, cacheT := m.cacheT } =
        { (h.cloneAndAssign o ⟨m.dtype, m.rows⟩).1.view (h.cloneAndAssign o ⟨m.dtype, m.rows⟩).2 with
          cache := m.cache, cacheT := m.cacheT } := rfl
    rw [e2, G.view, hm]
    exact e.symm
  | assign i =>
    simp only [Heap.stepOn]
    have e := assignIds_caches (h.view o)
    generalize hm : (h.view o).assignIds.1 = m at e
    have G := cloneAndAssign_good h o oo ⟨m.dtype, m.rows⟩
    have hc : (h.cloneAndAssign o ⟨m.dtype, m.rows⟩).2.cols = o.cols := rfl
    generalize h.cloneAndAssign o ⟨m.dtype, m.rows⟩ = r at G hc
    obtain ⟨h1, o1⟩ := r
    obtain ⟨Go, Ge, Gk, Gc, Gv⟩ := G
    simp only at Go Ge Gk Gc Gv hc ⊢
    have e1 : ExtBut h ((((h1.writeList o1.cols m.cols).newMap m.userMap).1.newMap m.itemMap).1)
        (some o.cols) :=
      (((Ge.weaken _).trans (hc ▸ ext_writeList h1 o1.cols m.cols)).trans
        ((ext_newMap _ _).weaken _)).trans ((ext_newMap _ _).weaken _)
    have ok1 : ObjOk ((((h1.writeList o1.cols m.cols).newMap m.userMap).1.newMap m.itemMap).1)
        { o1 with
          umap := ((h1.writeList o1.cols m.cols).newMap m.userMap).2
          imap := (((h1.writeList o1.cols m.cols).newMap m.userMap).1.newMap m.itemMap).2
          hasIds := m.hasIds } := by
      constructor
      · exact Gk.frame
      · simpa [Heap.writeList, Heap.newMap] using Gk.cols
      · simp [Heap.writeList, Heap.newMap]
      · simp [Heap.writeList, Heap.newMap]
    have := setObj_spec w ho (by simpa [Heap.writeList, Heap.newMap] using Go) e1 ok1 (Or.inl hc)
    refine ⟨this.1, this.2.trans ?_⟩
    simp only [stepValuesOn]
    congr 1
    rw [hm, e]
    have hk := Gk.cols
    simp only [Heap.view, Mem.mk.injEq] at Gv ⊢
    simp only [Heap.writeList, Heap.newMap, List.getD_eq_getElem?_getD] at Gv ⊢
    obtain ⟨g1, g2, g3, g4, g5, g6, g7, g8⟩ := Gv
    refine ⟨?_, g2, g3, trivial, ?_, ?_, g7, g8⟩
    · simp [hk]
    · simp
    · simp
  | remove i =>
    simp only [Heap.stepOn]
    have e := removeIds_fields (h.view o)
    generalize hm : (h.view o).removeIds.1 = m at e
    have G := refilter_good h o oo m.rows
    have hc : (h.refilter o m.rows).2.cols = o.cols := rfl
    generalize h.refilter o m.rows = r at G hc
    obtain ⟨h1, o1⟩ := r
    obtain ⟨Go, Ge, Gk, Gc, Gv⟩ := G
    simp only at Go Ge Gk Gc Gv hc ⊢
    have e1 : ExtBut h (h1.writeList o1.cols m.cols) (some o.cols) :=
      (Ge.weaken _).trans (hc ▸ ext_writeList h1 o1.cols m.cols)
    have ok1 : ObjOk (h1.writeList o1.cols m.cols) { o1 with hasIds := m.hasIds } :=
      ⟨Gk.frame, by simpa [Heap.writeList] using Gk.cols, Gk.umap, Gk.imap⟩
    have := setObj_spec w ho (by simpa [Heap.writeList] using Go) e1 ok1 (Or.inl hc)
    refine ⟨this.1, this.2.trans ?_⟩
    simp only [stepValuesOn]
    congr 1
    rw [hm, e]
    have hk := Gk.cols
    simp only [Heap.view, Mem.mk.injEq] at Gv ⊢
    simp only [Heap.writeList, List.getD_eq_getElem?_getD] at Gv ⊢
    obtain ⟨g1, g2, g3, g4, g5, g6, g7, g8⟩ := Gv
    refine ⟨?_, g2, ?_, trivial, g5, g6, g7, g8⟩
    · simp [hk]
    · rw [g3, e]
      simp [Heap.view]
  | userVec i u =>
    simp only [Heap.stepOn]
    have e := userVec_fields (h.view o) u
    generalize hm : ((h.view o).userVec u).1 = m at e
    have := setObj_spec w (h' := h) (o' := { o with cache := m.cache, cacheT := m.cacheT }) ho rfl
      (ExtBut.refl h _) ⟨oo.frame, oo.cols, oo.umap, oo.imap⟩ (Or.inl rfl)
    refine ⟨this.1, this.2.trans ?_⟩
    simp only [stepValuesOn]
    congr 1
    rw [hm]
    exact e.symm
  | itemVec i k =>
    simp only [Heap.stepOn]
    have e := itemVec_fields (h.view o) k
    generalize hm : ((h.view o).itemVec k).1 = m at e
    have := setObj_spec w (h' := h) (o' := { o with cache := m.cache, cacheT := m.cacheT }) ho rfl
      (ExtBut.refl h _) ⟨oo.frame, oo.cols, oo.umap, oo.imap⟩ (Or.inl rfl)
    refine ⟨this.1, this.2.trans ?_⟩
    simp only [stepValuesOn]
    congr 1
    rw [hm]
    exact e.symm

theorem step_spec {h : Heap} (w : HeapOk h) (op : HOp) :
    HeapOk (h.step op) ∧ (h.step op).views = stepValues h.views op := by
  unfold Heap.step stepValues
  have hv : h.views[op.target]? = (h.objs[op.target]?).map h.view := by simp [Heap.views]
  rw [hv]
  cases ho : h.objs[op.target]? with
  | none => exact ⟨w, rfl⟩
  | some o => exact stepOn_spec w op o ho

theorem load_ok (m : Mem) : HeapOk (Heap.load m) ∧ (Heap.load m).views = [m] := by
  refine ⟨⟨?_, by simp [Heap.load]⟩, by simp [Heap.load, Heap.views, Heap.view]⟩
  intro o ho
  simp only [Heap.load, List.mem_singleton] at ho
  subst ho
  exact ⟨by simp [Heap.load], by simp [Heap.load], by simp [Heap.load], by simp [Heap.load]⟩

end DRec
