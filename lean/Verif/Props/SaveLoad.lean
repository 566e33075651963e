import Verif.Lemmas.SaveLoad

/-!
# C131: a recommender that was saved and loaded answers like the one saved

* `C131_round_trip`: for every graph of objects (shared and cyclic references included), the object loaded shows the same data
  along every path of attributes, two paths lead to the same object if and only if they did before, and the copy
  stays as it is whatever is done to the other objects of the process.
* `C131_others`: the objects that the process had are as before, whatever is done to the copy.
* `C131_saves`: an object is saved unless an object that cannot be pickled can be reached from it; then `TypeError` is raised.
* `C131_again`: saving a loaded object writes the same file again.
* `C131_recommenders_partial`: which recommenders can be saved after any program.  The full claim, that every fitted recommender
  can be saved, is false (`C131_refuted`): CDAE and DMF keep generators, recommenders fitted on a database a connection.
* `C131_answers`: nearest neighbour recommenders answer all requests as before.
* `C131_file`, `C131_lost`: what is in the file; a save that fails destroys the model that was saved in the file before.
-/

set_option linter.unusedSectionVars false

namespace DRec.Pick

open _root_.DRec.Pick.Spec _root_.DRec.Spec Conc

section
variable {A B V : Type} [DecidableEq A]

/-- **C131.**  `h`, `a`: the process that saves and the object saved; `h'`: the process that loads; `h2`: the same process at any
time later, while the loaded objects have not been modified. -/
theorem C131_round_trip {n : Nat} {h : Heap A V} {a : A} {s : List (Cell Nat V)} (hd : dump n h a = .ok s) (h' : Heap B V)
    (h2 : Heap (B ⊕ Nat) V) (hnew : ∀ k, h2 (.inr k) = load h' s (.inr k)) :
    (∀ p, seen h2 (.obj (.inr 0)) p = seen h (.obj a) p) ∧
    (∀ p q, follow h2 (.obj (.inr 0)) p = follow h2 (.obj (.inr 0)) q ↔ follow h (.obj a) p = follow h (.obj a) q) ∧
    (∀ p b, follow h2 (.obj (.inr 0)) p = some (.obj b) → ∃ k, b = .inr k) := by
  obtain ⟨m, _, x, rfl⟩ := dump_memo hd
  have hψ : ∀ e ∈ m, h2 ((.inr ∘ (m.map (·.1)).idxOf : A → B ⊕ Nat) e.1) = some (e.2.map (.inr ∘ (m.map (·.1)).idxOf)) :=
    fun e he => (hnew _).trans (load_copy x h' e he)
  have h0 : (.inr ∘ (m.map (·.1)).idxOf : A → B ⊕ Nat) a = .inr 0 := congrArg Sum.inr x.head
  refine ⟨fun p => ?_, fun p q => ?_, fun p b hf => ?_⟩
  · rw [← h0]
    exact seen_copy x hψ p
  · obtain ⟨ep, ip⟩ := follow_copy x hψ p (.obj a) x.root
    obtain ⟨eq, iq⟩ := follow_copy x hψ q (.obj a) x.root
    rw [← h0]
    refine Iff.trans (Eq.to_iff (congrArg₂ Eq ep eq)) ⟨fun hh => ?_, fun hh => by rw [hh]⟩
    cases hp : follow h (.obj a) p with
    | none =>
      cases hq : follow h (.obj a) q with
      | none => rfl
      | some t => rw [hp, hq] at hh; cases hh
    | some t =>
      cases hq : follow h (.obj a) q with
      | none => rw [hp, hq] at hh; cases hh
      | some u =>
        rw [hp, hq] at hh
        have hin1 := ip t hp
        have hin2 := iq u hq
        cases t with
        | glob n1 =>
          cases u with
          | glob n2 =>
            simp only [Option.map_some, Ref.map, Option.some.injEq, Ref.glob.injEq] at hh
            rw [hh]
          | obj b2 => simp [Ref.map] at hh
        | obj b1 =>
          cases u with
          | glob n2 => simp [Ref.map] at hh
          | obj b2 =>
            simp only [Option.map_some, Ref.map, Option.some.injEq, Ref.obj.injEq, Function.comp, Sum.inr.injEq] at hh
            rw [idxOf_inj hin1 hh hin2]
  · obtain ⟨ep, _⟩ := follow_copy x hψ p (.obj a) x.root
    rw [← h0] at hf
    have ep' := ep.symm.trans hf
    cases hp : follow h (.obj a) p with
    | none => rw [hp] at ep'; cases ep'
    | some t =>
      rw [hp] at ep'
      cases t with
      | glob n1 => simp [Ref.map] at ep'
      | obj b1 =>
        simp only [Option.map_some, Ref.map, Option.some.injEq, Ref.obj.injEq, Function.comp] at ep'
        exact ⟨_, ep'.symm⟩

/-- **C131.**  The other objects of the process that loads, at any time later while they have not been modified. -/
theorem C131_others (h' : Heap B V) (s : List (Cell Nat V)) (h2 : Heap (B ⊕ Nat) V)
    (hold : ∀ b, h2 (.inl b) = load h' s (.inl b)) (b : B) (p : List String) :
    seen h2 (.obj (.inl b)) p = seen h' (.obj b) p := by
  have key : ∀ (p : List String) (r : Ref B), follow h2 (r.map .inl) p = (follow h' r p).map (Ref.map .inl) := by
    intro p
    induction p with
    | nil => intro r; cases r <;> rfl
    | cons f p ih =>
      intro r
      cases r with
      | glob n => rfl
      | obj b =>
        have e2 : h2 (.inl b) = (h' b).map (Cell.map .inl) := hold b
        simp only [follow, Ref.map, e2]
        cases hb : h' b with
        | none => rfl
        | some c =>
          simp only [Option.map_some, Option.bind_some]
          rw [show (c.map Sum.inl : Cell (B ⊕ Nat) V).fields = c.fields.map fun p => (p.1, p.2.map .inl) from rfl, lookup_map]
          cases c.fields.lookup f with
          | none => rfl
          | some r' => exact ih r'
  unfold seen
  rw [show (Ref.obj (Sum.inl b) : Ref (B ⊕ Nat)) = Ref.map .inl (.obj b) from rfl, key]
  cases follow h' (.obj b) p with
  | none => rfl
  | some t =>
    cases t with
    | glob n => rfl
    | obj c =>
      have e2 : h2 (.inl c) = (h' c).map (Cell.map .inl) := hold c
      simp only [Option.map_some, Option.bind_some, Ref.map, e2]
      cases h' c with
      | none => rfl
      | some d =>
        simp only [Option.map_some, Cell.map, List.map_map]
        rfl

/-- **C131.**  When an object can be saved. -/
theorem C131_saves {n : Nat} {h : Heap A V} {a : A} (hc : Closed h) (hn : AtMost h n) (ha : (h a).isSome) :
    ((∃ s, dump n h a = .ok s) ↔ ∀ b c, Reach h a b → h b = some c → c.portable = true) ∧
    ((∃ b c, Reach h a b ∧ h b = some c ∧ c.portable = false) → dump n h a = .error .typeError) := by
  rcases dump_cases hc hn ha with ⟨⟨s, hs⟩, hst⟩ | ⟨he, hst⟩
  · refine ⟨⟨fun _ b c hr hb => ?_, fun _ => ⟨s, hs⟩⟩, fun hh => absurd hh hst⟩
    cases hp : c.portable with
    | true => rfl
    | false => exact absurd ⟨b, c, hr, hb, hp⟩ hst
  · refine ⟨⟨fun ⟨s, hs⟩ => (by rw [he] at hs; cases hs), fun hall => ?_⟩, fun _ => he⟩
    obtain ⟨b, c, hr, hb, hp⟩ := hst
    have := hall b c hr hb
    rw [hp] at this
    cases this

/-- **C131.**  A loaded object can be saved and gives the same file. -/
theorem C131_again [DecidableEq B] {n : Nat} {h : Heap A V} {a : A} {s : List (Cell Nat V)} (hd : dump n h a = .ok s)
    (h' : Heap B V) : dump n (load h' s) (.inr 0) = .ok s := by
  obtain ⟨m, hv, x, rfl⟩ := dump_memo hd
  have hψ := load_copy x h'
  have h0 : (.inr ∘ (m.map (·.1)).idxOf : A → B ⊕ Nat) a = .inr 0 := congrArg Sum.inr x.head
  have hinj : ∀ b c, b ∈ m.map (·.1) → c ∈ m.map (·.1) → (.inr ∘ (m.map (·.1)).idxOf : A → B ⊕ Nat) b =
      (.inr ∘ (m.map (·.1)).idxOf : A → B ⊕ Nat) c → b = c := by
    intro b c hb hc he
    exact idxOf_inj hb (Sum.inr.inj he) hc
  obtain ⟨key, -⟩ := visit_copy (h := h) (h2 := load h' (m.map fun e => e.2.map (m.map (·.1)).idxOf))
    (ψ := .inr ∘ (m.map (·.1)).idxOf) (R := fun b => b ∈ m.map (·.1))
    (by
      intro b hb
      obtain ⟨c, hm, hc⟩ := x.mem hb
      rw [hc]
      exact hψ _ hm)
    hinj
    (by
      intro b c hb hc d hdr
      obtain ⟨f, hf⟩ := mem_refs.1 hdr
      exact x.closed hb (.step .refl hc hf))
    (n + 1) [] a x.root (fun e he => absurd he List.not_mem_nil)
  rw [List.map_nil, h0, hv] at key
  unfold dump
  rw [key]
  show Except.ok _ = _
  congr 1
  beta_reduce
  rw [List.map_map, List.map_map]
  refine List.map_congr_left fun e he => ?_
  show (e.2.map _).map _ = _
  rw [Cell.map_map]
  refine cell_map_congr fun b hb => ?_
  have hbm : b ∈ m.map (·.1) := (x.cells e he).2.2 b hb
  have := idxOf_map (ψ := (.inr ∘ (m.map (·.1)).idxOf : A → B ⊕ Nat)) (l := m.map (·.1))
    (fun u hu v hv => hinj u v hu hv) hbm
  rw [List.map_map] at this
  exact this

/-- **C131.**  The file after `save`: with the object if it could be saved, incomplete otherwise, whatever it was before; other
files are as they were. -/
theorem C131_file (n : Nat) (h : Heap A V) (a : A) (path : String) (fs : Files V) (h' : Heap B V) :
    (∀ s, dump n h a = .ok s → (save n h a path fs).2 = .ok () ∧
      loadFile (save n h a path fs).1 path h' = .ok (load h' s)) ∧
    (∀ e, dump n h a = .error e → (save n h a path fs).2 = .error e ∧
      ∃ e', loadFile (save n h a path fs).1 path h' = (.error e' : Except LoadErr (Heap (B ⊕ Nat) V))) ∧
    (∀ p, p ≠ path → (save n h a path fs).1 p = fs p) ∧
    ((∃ g, loadFile fs path h' = .ok g) ↔ ∃ s, fs path = some (some s)) ∧
    (loadFile fs path h' = .error .noFile ↔ fs path = none) := by
  unfold save loadFile
  refine ⟨fun s hs => ?_, fun e he => ?_, fun p hp => ?_, ?_, ?_⟩
  · rw [hs]
    simp
  · rw [he]
    simp
  · cases dump n h a with
    | ok s => simp [hp]
    | error e => simp [hp]
  · rcases fs path with _ | _ | s <;> simp
  · rcases fs path with _ | _ | s <;> simp

end

/-! ## Recommenders -/

/-- **C131 (partial).**  After any program, exactly the recommenders `Savable` describes can be saved; for the others `save` raises
`TypeError`.  The full claim, that every fitted recommender can be saved, does not hold (`C131_refuted`). -/
theorem C131_recommenders_partial (ops : List Op) {r : Nat} {x : ModelSt} (hx : (St.run ops).models[r]? = some x) :
    ((∃ s, dump (St.run ops).size (St.run ops).heap (.model r) = .ok s) ↔ Savable (St.run ops) x) ∧
    (¬ Savable (St.run ops) x → dump (St.run ops).size (St.run ops).heap (.model r) = .error .typeError) := by
  have hs := fitOk_run ops
  obtain ⟨h1, h2⟩ := C131_saves (closed_heap hs) (atMost_heap (St.run ops)) (a := .model r)
    (by simp only [St.heap, hx, Option.map_some, Option.isSome_some])
  refine ⟨h1.trans ⟨fun hall => ?_, fun hsv b c hr hb => part_portable hx hsv (part_reach hx hsv hr) hb⟩,
    fun hn => h2 (stuck_of_not hs hx hn)⟩
  by_contra hn
  obtain ⟨b, c, hr, hb, hp⟩ := stuck_of_not hs hx hn
  rw [hall b c hr hb] at hp
  cases hp

/-- **C131.**  A nearest neighbour recommender that was fitted answers `predict`, `rank` and `recommend` from its settings, its
dataset and its dictionaries, and the recommender loaded from the file gives the same answers to all requests, at any time later,
whatever is done to the other objects, the recommender saved and its dataset included. -/
theorem C131_answers (ops : List Op) {r d : Nat} {x : ModelSt} {y : DsSt} {cfg : KnnCfg}
    (hx : (St.run ops).models[r]? = some x) (hc : x.cls = .knn cfg) (hf : x.fit = some d)
    (hy : (St.run ops).ds[d]? = some y) :
    (∀ q, answer (St.run ops).heap (.obj (.model r)) q = some (memServe cfg y.m x.M q)) ∧
    ∀ s, dump (St.run ops).size (St.run ops).heap (.model r) = .ok s → ∀ {B : Type} (h' : Heap B Data)
      (h2 : Heap (B ⊕ Nat) Data), (∀ k, h2 (.inr k) = load h' s (.inr k)) →
      ∀ q, answer h2 (.obj (.inr 0)) q = some (memServe cfg y.m x.M q) := by
  have h1 : ∀ q, answer (St.run ops).heap (.obj (.model r)) q = some (memServe cfg y.m x.M q) := by
    intro q
    rcases x with ⟨cls, lf, lo, fit, oo, no, M⟩
    dsimp only at hc hf
    subst hc hf
    cases lf <;> simp [answer, dataAt, seen, follow, St.heap, hx, hy, loggers, ownFields, fitFields, List.lookup]
  refine ⟨h1, fun s hs B h' h2 hnew q => ?_⟩
  rw [← h1 q]
  have key := (C131_round_trip hs h' h2 hnew).1
  unfold answer dataAt
  simp only [key]

/-- A dataset with two interactions. -/
def someData : Mem :=
  ⟨["user", "item", "interaction", "rid"], fun _ => .int,
    [⟨0, fun c => if c = "interaction" then .num 5 else .num 1⟩, ⟨1, fun c => if c = "interaction" then .num 3 else .num 2⟩],
    false, [], [], none, none⟩

/-- **C131.**  Only the last fit counts: whatever was done before, and whatever the recommender was fitted on before, a nearest
neighbour recommender can be saved after a fit exactly when that fit was on a dataset in memory and with an optimizer that can be
pickled; it then answers from that dataset, and the similarities of earlier fits that the last one did not replace. -/
theorem C131_refit (ops : List Op) {r d : Nat} {x : ModelSt} {y : DsSt} {cfg : KnnCfg} (hx : (St.run ops).models[r]? = some x)
    (hc : x.cls = .knn cfg) (hy : (St.run ops).ds[d]? = some y) (optOk netOk : Bool) :
    ((∃ s, dump (St.run (ops ++ [.fit r d optOk netOk])).size (St.run (ops ++ [.fit r d optOk netOk])).heap (.model r) = .ok s) ↔
      y.db = false ∧ optOk = true) ∧
    ∀ q, answer (St.run (ops ++ [.fit r d optOk netOk])).heap (.obj (.model r)) q =
      some (memServe cfg y.m.assignIds.1 (fitKnn cfg (ratingsOf y.m.assignIds.1) x.M) q) := by
  have hr : St.run (ops ++ [.fit r d optOk netOk]) = (St.run ops).step (.fit r d optOk netOk) := by
    unfold St.run
    rw [List.foldl_append]
    rfl
  have hst : (St.run ops).step (.fit r d optOk netOk) =
      { ds := (St.run ops).ds.set d ⟨y.db, y.m.assignIds.1⟩
        models := (St.run ops).models.set r
          { x with fit := some d, optOk := optOk, netOk := netOk, M := fitKnn cfg (ratingsOf y.m.assignIds.1) x.M } } := by
    simp only [St.step, hx, hy, ModelSt.learn, hc]
  have hrl : r < (St.run ops).models.length := (List.getElem?_eq_some_iff.1 hx).1
  have hdl : d < (St.run ops).ds.length := (List.getElem?_eq_some_iff.1 hy).1
  have hx' : (St.run (ops ++ [.fit r d optOk netOk])).models[r]? =
      some { x with fit := some d, optOk := optOk, netOk := netOk, M := fitKnn cfg (ratingsOf y.m.assignIds.1) x.M } := by
    rw [hr, hst]
    exact List.getElem?_set_self hrl
  have hy' : (St.run (ops ++ [.fit r d optOk netOk])).ds[d]? = some ⟨y.db, y.m.assignIds.1⟩ := by
    rw [hr, hst]
    exact List.getElem?_set_self hdl
  refine ⟨(C131_recommenders_partial _ hx').1.trans ?_, fun q => (C131_answers _ hx' hc rfl hy').1 q⟩
  simp only [Savable, hc, hy', Option.some.injEq, exists_eq_left']

/-- **C131.**  The loaded recommender writes to the console logger, and to the file logger exactly when the one saved was created
with `log_file`; loggers are found by name, in the process that loads. -/
theorem C131_loggers (ops : List Op) {r : Nat} {x : ModelSt} (hx : (St.run ops).models[r]? = some x) {s : List (Cell Nat Data)}
    (hs : dump (St.run ops).size (St.run ops).heap (.model r) = .ok s) {B : Type} (h' : Heap B Data) (h2 : Heap (B ⊕ Nat) Data)
    (hnew : ∀ k, h2 (.inr k) = load h' s (.inr k)) :
    seen h2 (.obj (.inr 0)) ["_logger"] = some (.inl "CLOGGER") ∧
    seen h2 (.obj (.inr 0)) ["_file_logger"] = if x.logFile then some (.inl "FLOGGER") else none := by
  obtain ⟨h1, -, -⟩ := C131_round_trip hs h' h2 hnew
  rw [h1, h1]
  rcases x with ⟨cls, lf, lo, fit, oo, no, M⟩
  cases lf <;> cases cls <;> cases fit <;>
    simp [seen, follow, St.heap, hx, loggers, ownFields, fitFields, List.lookup]

/-- **C131 refuted** in general: a CDAE or DMF that was fitted (on a dataset in memory, all TensorFlow objects can be pickled)
cannot be saved, although it could before. -/
theorem C131_refuted : ∃ ops : List Op, ∃ x : ModelSt, (St.run ops).models[0]? = some x ∧ x.fit.isSome ∧
    x.lossOk = true ∧ x.optOk = true ∧ x.netOk = true ∧ (∀ y ∈ (St.run ops).ds, y.db = false) ∧
    dump (St.run ops).size (St.run ops).heap (.model 0) = .error .typeError ∧
    ∃ s, dump (St.run ops.dropLast).size (St.run ops.dropLast).heap (.model 0) = .ok s := by
  refine ⟨[.newDs false someData, .newModel .points false true, .fit 0 0 true true],
    ⟨.points, false, true, some 0, true, true, Knn.init⟩, rfl, rfl, rfl, rfl, rfl, ?_, ?_, ?_⟩
  · intro y hy
    have : y = ⟨false, someData.assignIds.1⟩ := by simpa [St.run, St.step] using hy
    rw [this]
  · exact (C131_recommenders_partial _ rfl).2 id
  · exact (C131_recommenders_partial [.newDs false someData, .newModel .points false true] (r := 0) rfl).1.2 rfl

/-- **C131.**  `save` of a recommender that cannot be saved destroys the model in the file: it could be loaded before and cannot
afterwards. -/
theorem C131_lost : ∃ (ops : List Op) (fs : Files Data),
    (∃ h, loadFile fs "model" (St.run ops).heap = .ok h) ∧
    (save (St.run ops).size (St.run ops).heap (.model 0) "model" fs).2 = .error .typeError ∧
    loadFile (save (St.run ops).size (St.run ops).heap (.model 0) "model" fs).1 "model" (St.run ops).heap =
      .error .truncated := by
  obtain ⟨ops, x, hx, hfit, h1, h2, h3, h4, he, s, hs⟩ := C131_refuted
  refine ⟨ops, fun _ => some (some s), ⟨_, rfl⟩, ?_, ?_⟩
  · unfold save
    rw [he]
  · unfold save loadFile
    rw [he]
    simp

/-! ## Examples -/

/-- A graph with a cycle and a shared object. -/
def someGraph : Heap Nat Nat
  | 0 => some ⟨true, 10, [("left", .obj 1), ("right", .obj 2), ("fn", .glob "mean")]⟩
  | 1 => some ⟨true, 11, [("shared", .obj 3), ("parent", .obj 0)]⟩
  | 2 => some ⟨true, 12, [("shared", .obj 3)]⟩
  | 3 => some ⟨true, 13, []⟩
  | 4 => some ⟨false, 14, [("x", .obj 0)]⟩
  | _ => none

example : dump 5 someGraph 0 = .ok [⟨true, 10, [("left", .obj 1), ("right", .obj 3), ("fn", .glob "mean")]⟩,
    ⟨true, 11, [("shared", .obj 2), ("parent", .obj 0)]⟩, ⟨true, 13, []⟩, ⟨true, 12, [("shared", .obj 2)]⟩] := by
  decide +kernel

/-- `C131_round_trip` for the shared object, which is one object in the copy. -/
example : ∃ s, dump 5 someGraph 0 = .ok s ∧
    seen (load someGraph s) (.obj (.inr 0)) ["left", "parent", "right", "shared"] = some (.inr (13, [])) ∧
    follow (load someGraph s) (.obj (.inr 0)) ["left", "shared"] =
      follow (load someGraph s) (.obj (.inr 0)) ["right", "shared"] :=
  ⟨_, rfl, by decide +kernel, by decide +kernel⟩

/-- `C131_saves`: the object 4 cannot be pickled. -/
example : dump 5 someGraph 4 = .error .typeError := by decide +kernel

/-- `C131_again` and `C131_others` with the same graph. -/
example : ∃ s, dump 5 someGraph 0 = .ok s ∧ dump 5 (load someGraph s) (.inr 0) = .ok s ∧
    seen (load someGraph s) (.obj (.inl 2)) ["shared"] = some (.inr (13, [])) :=
  ⟨_, rfl, by decide +kernel, by decide +kernel⟩

/-- `C131_answers`: a nearest neighbour recommender fitted in memory can be saved; and the same one fitted on a database cannot. -/
example (cfg : KnnCfg) :
    (∃ s, dump (St.run [.newDs false someData, .newModel (.knn cfg) true true, .fit 0 0 true true]).size
      (St.run [.newDs false someData, .newModel (.knn cfg) true true, .fit 0 0 true true]).heap (.model 0) = .ok s) ∧
    dump (St.run [.newDs true someData, .newModel (.knn cfg) true true, .fit 0 0 true true]).size
      (St.run [.newDs true someData, .newModel (.knn cfg) true true, .fit 0 0 true true]).heap (.model 0) =
      .error .typeError := by
  refine ⟨(C131_recommenders_partial [.newDs false someData, .newModel (.knn cfg) true true, .fit 0 0 true true]
      (x := ⟨.knn cfg, true, true, some 0, true, true, fitKnn cfg (ratingsOf someData.assignIds.1) Knn.init⟩) rfl).1.2
    ⟨⟨⟨false, someData.assignIds.1⟩, rfl, rfl⟩, rfl⟩,
    (C131_recommenders_partial [.newDs true someData, .newModel (.knn cfg) true true, .fit 0 0 true true]
      (x := ⟨.knn cfg, true, true, some 0, true, true, fitKnn cfg (ratingsOf someData.assignIds.1) Knn.init⟩) rfl).2 ?_⟩
  rintro ⟨⟨y, hy, hdb⟩, _⟩
  have : y = ⟨true, someData.assignIds.1⟩ := (Option.some.inj hy).symm
  rw [this] at hdb
  cases hdb

/-- `C131_refit`: fitted on a database first, with an optimizer that cannot be pickled, then in memory; `C131_loggers` with that
recommender. -/
example (cfg : KnnCfg) : ∃ s, dump (St.run [.newDs true someData, .newDs false someData, .newModel (.knn cfg) true true,
      .fit 0 0 false true, .fit 0 1 true true]).size (St.run [.newDs true someData, .newDs false someData,
      .newModel (.knn cfg) true true, .fit 0 0 false true, .fit 0 1 true true]).heap (.model 0) = .ok s :=
  (C131_refit [.newDs true someData, .newDs false someData, .newModel (.knn cfg) true true, .fit 0 0 false true] (r := 0) (d := 1)
    (y := ⟨false, someData⟩) (cfg := cfg) rfl rfl rfl true true).1.2 ⟨rfl, rfl⟩

end DRec.Pick
