import Verif.Lemmas.Export
import Verif.Props.Demo
/-!
# C43: the sum of two graphs; C75: a graph made from a graph
-/
namespace Verif
variable {C : Type} [Palette C]

section
variable {w : World C} {base : GraphArgs C} {order : List Key → List Key} {f : Val → Val → Except PyErr Val} {g : GRef}

theorem add_left_edges (r : Reachable w.heap) (he : graphEdges w.heap g ≠ .ok []) (other : Operand C) :
    addGraphs base order f g other w = (.error .attributeError, w) := by
  simp [addGraphs, W.bind_apply, W.ask, exportGraph_edges r he]

theorem add_right_edges (r : Reachable w.heap) {g2 : GRef} (he : graphEdges w.heap g2 ≠ .ok []) :
    addGraphs base order f g (.graph g2) w = (.error .attributeError, w) := by
  rcases exportGraph_cases r g with ⟨x, h1⟩ | h1
  · simp [addGraphs, W.bind_apply, W.ask, h1, Operand.export, exportGraph_edges r he]
  · simp [addGraphs, W.bind_apply, W.ask, h1]

/-- **C43**, violated: as soon as one of the two graphs has an edge, `g1 + g2` raises `AttributeError` (edges have no
`raw_label`), whatever the values, the function that adds them and the order in which sets are walked. -/
theorem C43_edges_violated (r : Reachable w.heap) {g2 : GRef}
    (he : graphEdges w.heap g ≠ .ok [] ∨ graphEdges w.heap g2 ≠ .ok []) :
    addGraphs base order f g (.graph g2) w = (.error .attributeError, w) :=
  he.elim (fun h => add_left_edges r h _) (fun h => add_right_edges r h)

/-- Taking the nodes of the sum apart. -/
theorem Draws.node_of {h : Heap} {g : GRef} {d : Draft} (D : Draws h g d) {m : NRef} (hm : m ∈ graphNodes h g) :
    seenNode h m ∈ d.nodes := D.nodes ▸ List.mem_map_of_mem hm

theorem Draws.names_eq {h : Heap} {g : GRef} {d : Draft} (D : Draws h g d) : namesOf h g = d.names := by
  unfold Draft.names
  rw [← D.nodes]
  simp [namesOf, seenNode, Function.comp_def]

theorem Draws.edgeless {h : Heap} (r : Reachable h) {g : GRef} {d : Draft} (D : Draws h g d) (hd : d.edges = []) :
    graphEdges h g = .ok [] := by
  refine (edgeless_iff r g).2 fun n hn => ?_
  obtain ⟨es, -, e2, e3, -⟩ := D.edges
  rw [hd] at e2
  have : es = [] := by simpa using e2
  subst this
  exact (e3 n hn).2.1

omit [Palette C] in
theorem dget_exported {h : Heap} (r : Reachable h) {g : GRef} {n : NRef} (hn : n ∈ graphNodes h g) :
    dget ((graphNodes h g).map (exportNode (C := C) h)) (h.node n).id = some (exportNode (C := C) h n).2 := by
  refine (dget_iff ?_).2 (List.mem_map.2 ⟨n, hn, rfl⟩)
  rw [exported_names]; exact names_nodup r g

omit [Palette C] in
theorem dget_not_exported {h : Heap} {g : GRef} {k : Key} (hk : k ∉ namesOf h g) :
    dget ((graphNodes h g).map (exportNode (C := C) h)) k = none := by
  rw [dget_none, exported_names]; exact hk

theorem exportNode_styled (h : Heap) (n : NRef) :
    decide ((exportNode (C := C) h n).2.args.style ≠ .none) = (h.node n).style.isSome := by
  rw [Bool.eq_iff_iff, decide_eq_true_eq]
  simp only [exportNode, NodeSpec.args]
  cases (h.node n).style <;> simp [NodeStyleArg.plain]

/-- **C43** for a right operand that is any object with `__graph__()`. If the left graph has no edges and the right operand
describes nodes with distinct names and edges with distinct ids between nodes of either operand, then the sum is a new graph
with the options of the left one. Its names are those of both; a node of one operand keeps its value; a node of both has the
value that the function makes. The edges are those of the right operand, in order, with their labels and values. No graph is
touched.
Missing for the full property: a left operand with edges (`C43_edges_violated`), the value of the left node
(`C43_values_violated`), the labels (`C43_labels_violated`) and the settings of the left operand (`C43_operand_violated`). -/
theorem C43_object_partial (r : Reachable w.heap) {d : Display C} (he : graphEdges w.heap g = .ok []) (hd : w.display g = some d)
    (hs : d.edgeStyles = []) {x : Export C} (hxs : x.edgeStyles = []) (T : TidyNodes x.nodes)
    (T' : TidyEdges (namesOf w.heap g ++ x.nodes.map Prod.fst) x.edges) (ho : ∀ l, (order l).Perm l)
    (hf : ∀ q ∈ x.nodes, q.1 ∈ namesOf w.heap g → ∃ v, f q.2.value q.2.value = .ok v) :
    ∃ w' ns, addGraphs base order f g (.object (.ok x)) w = (.ok w.heap.nG, w') ∧ Reachable w'.heap ∧
      Draws w'.heap w.heap.nG { strict := (w.heap.graph g).strict, ordering := (w.heap.graph g).ordering, nodes := ns,
                                edges := x.edges.map EdgeSpec.seen } ∧
      (namesOf w'.heap w.heap.nG).Nodup ∧
      (∀ k, k ∈ namesOf w'.heap w.heap.nG ↔ k ∈ namesOf w.heap g ∨ k ∈ x.nodes.map Prod.fst) ∧
      (∀ v ∈ ns,
        (∀ n ∈ graphNodes w.heap g, (w.heap.node n).id = v.name → v.name ∉ x.nodes.map Prod.fst →
          v.value = (w.heap.node n).value ∧ v.styled = (w.heap.node n).style.isSome) ∧
        (∀ q ∈ x.nodes, q.1 = v.name → v.name ∉ namesOf w.heap g → v = NodeSpec.seen q) ∧
        ∀ q ∈ x.nodes, q.1 = v.name → v.name ∈ namesOf w.heap g → f q.2.value q.2.value = .ok v.value) ∧
      ∀ g', g' < w.heap.nG → Untouched w.heap w'.heap g' := by
  obtain ⟨w', qs, e1, e2, e3, e4, e5, e6, -, -, e8, -⟩ := addGraphs_run r he hd hs (other := .object (.ok x)) rfl hxs T T' ho hf base
  have hnames : namesOf w'.heap w.heap.nG = qs.map Prod.fst := by
    rw [e3.names_eq]; simp [Draft.names, NodeSpec.seen, Function.comp_def]
  refine ⟨w', _, e1, e2, e3, by rw [hnames]; exact e4, fun k => by rw [hnames]; exact e5 k, ?_, e8⟩
  intro v hv
  obtain ⟨⟨k, a⟩, hq, rfl⟩ := List.mem_map.1 hv
  have hm := e6 _ hq
  simp only [NodeSpec.seen]
  refine ⟨?_, ?_, ?_⟩
  · rintro n hn rfl hk
    rw [mergeEntry, dget_exported r hn, dget_none.2 hk] at hm
    cases hm
    exact ⟨rfl, exportNode_styled _ _⟩
  · rintro ⟨k', b⟩ hb rfl hk
    rw [mergeEntry, dget_not_exported hk, (dget_iff T.nodup).2 hb] at hm
    cases hm
    rfl
  · rintro ⟨k', b⟩ hb rfl hk
    obtain ⟨n, hn, hk⟩ := List.mem_map.1 hk
    rw [mergeEntry, ← hk, dget_exported r hn, hk, (dget_iff T.nodup).2 hb] at hm
    simp only [mergeNode, bind, Except.bind] at hm
    cases hv : f b.value b.value with
    | error e => rw [hv] at hm; cases hm
    | ok v => rw [hv] at hm; cases hm; rfl

/-- **C43** for a right operand that describes several edges with the same id, as long as their values can be added. The edges of
the sum are the ones described, each once, in a list in which every edge combines all the entries with its id (`combine`).
Missing for the full property: as in `C43_object_partial`. -/
theorem C43_parallel_partial (r : Reachable w.heap) {d : Display C} (he : graphEdges w.heap g = .ok []) (hd : w.display g = some d)
    (hs : d.edgeStyles = []) {x : Export C} (hxs : x.edgeStyles = []) (T : TidyNodes x.nodes)
    (ends : ∀ q ∈ x.edges, q.1 ∈ namesOf w.heap g ++ x.nodes.map Prod.fst ∧ q.2.1 ∈ namesOf w.heap g ++ x.nodes.map Prod.fst)
    (styles : ∀ q ∈ x.edges, q.2.2.args.style.Valid)
    (sums : ∀ i a rest, entriesFor x.edges i = a :: rest → ∃ b, combine f a rest = .ok b) (ho : ∀ l, (order l).Perm l)
    (hf : ∀ q ∈ x.nodes, q.1 ∈ namesOf w.heap g → ∃ v, f q.2.value q.2.value = .ok v) :
    ∃ w' ns es, addGraphs base order f g (.object (.ok x)) w = (.ok w.heap.nG, w') ∧ Reachable w'.heap ∧
      Draws w'.heap w.heap.nG { strict := (w.heap.graph g).strict, ordering := (w.heap.graph g).ordering, nodes := ns,
                                edges := es.map EdgeSpec.seen } ∧
      (edgeIds es).Nodup ∧ (∀ i, i ∈ edgeIds es ↔ i ∈ edgeIds x.edges) ∧
      ∀ q ∈ es, ∃ a rest, entriesFor x.edges (q.1, q.2.1, q.2.2.raw) = a :: rest ∧ combine f a rest = .ok q.2.2 := by
  obtain ⟨ms, h1, M⟩ := mergeEdges_merged (f := f) (l := x.edges) (pre := []) (done := [])
    ⟨by simp [dkeys], fun _ _ => rfl, fun i a rest h => by simp [entriesFor] at h⟩ (by simpa using sums)
  rw [List.nil_append] at M
  have entry : ∀ p ∈ ms, ∃ a rest, entriesFor x.edges p.1 = a :: rest ∧ combine f a rest = .ok p.2 ∧ p.2.raw = p.1.2.2 := by
    intro p hp
    have hg : dget ms p.1 = some p.2 := (dget_iff M.keys).2 hp
    cases he : entriesFor x.edges p.1 with
    | nil => rw [M.none _ he] at hg; cases hg
    | cons a rest =>
      obtain ⟨b, h2, h3, h4⟩ := M.some _ a rest he
      rw [hg] at h3
      cases h3
      exact ⟨a, rest, rfl, h2, h4⟩
  have inside : ∀ i a, a ∈ entriesFor x.edges i → (i.1, i.2.1, a) ∈ x.edges ∧ a.raw = i.2.2 := by
    intro i a ha
    unfold entriesFor at ha
    obtain ⟨⟨s, t, b⟩, hb, rfl⟩ := List.mem_map.1 ha
    obtain ⟨h2, h3⟩ := List.mem_filter.1 hb
    simp only [decide_eq_true_eq] at h3
    subst h3
    exact ⟨h2, rfl⟩
  have ids : edgeIds (ms.map fun p => (p.1.1, p.1.2.1, p.2)) = dkeys ms := by
    simp only [edgeIds, dkeys, List.map_map]
    refine List.map_congr_left fun p hp => ?_
    obtain ⟨-, -, -, -, h4⟩ := entry p hp
    simp only [Function.comp, h4]
  have hms : (ms.map fun p => (p.1.1, p.1.2.1, p.2)).map (fun q => ((q.1, q.2.1, q.2.2.raw), q.2.2)) = ms := by
    rw [List.map_map]
    refine (List.map_congr_left fun p hp => ?_).trans (List.map_id ms)
    obtain ⟨-, -, -, -, h4⟩ := entry p hp
    simp only [Function.comp, h4, id]
  have tidy : TidyEdges (namesOf w.heap g ++ x.nodes.map Prod.fst) (ms.map fun p => (p.1.1, p.1.2.1, p.2)) := by
    refine ⟨by rw [ids]; exact M.keys, fun q hq => ?_, fun q hq => ?_⟩ <;> obtain ⟨p, hp, rfl⟩ := List.mem_map.1 hq <;>
      obtain ⟨a, rest, h2, h3, -⟩ := entry p hp
    · exact ends (p.1.1, p.1.2.1, a) (inside p.1 a (by rw [h2]; simp)).1
    · have v : ∀ b ∈ a :: rest, b.style.plain.Valid := fun b hb => styles _ (inside p.1 b (by rw [h2]; exact hb)).1
      show p.2.style.plain.Valid
      rcases combine_style h3 with h4 | ⟨b, hb, h4⟩
      · rw [h4]; exact v a (by simp)
      · rw [h4]; exact v b (by simp [hb])
  obtain ⟨w', qs, e1, e2, e3, -⟩ := addGraphs_merge r he hd hs (other := .object (.ok x)) rfl hxs T tidy ho
    (by rw [hms]; exact h1) hf base
  refine ⟨w', _, _, e1, e2, e3, tidy.nodup, fun i => ?_, fun q hq => ?_⟩
  · rw [ids]
    constructor
    · intro hi
      obtain ⟨p, hp, rfl⟩ := List.mem_map.1 hi
      obtain ⟨a, rest, h2, -⟩ := entry p hp
      obtain ⟨h3, h4⟩ := inside p.1 a (by rw [h2]; simp)
      exact List.mem_map.2 ⟨_, h3, by simp [h4]⟩
    · intro hi
      obtain ⟨q, hq, rfl⟩ := List.mem_map.1 hi
      cases hc : entriesFor x.edges (q.1, q.2.1, q.2.2.raw) with
      | nil =>
        have : q.2.2 ∈ entriesFor x.edges (q.1, q.2.1, q.2.2.raw) :=
          List.mem_map.2 ⟨q, List.mem_filter.2 ⟨hq, by simp⟩, rfl⟩
        rw [hc] at this
        cases this
      | cons a rest =>
        obtain ⟨b, -, h3, -⟩ := M.some _ a rest hc
        exact dget_isSome.1 (by rw [h3]; rfl)
  · obtain ⟨p, hp, rfl⟩ := List.mem_map.1 hq
    obtain ⟨a, rest, h2, h3, h4⟩ := entry p hp
    exact ⟨a, rest, by simp only [h4]; exact h2, h3⟩

omit [Palette C] in
/-- **C43**: what the function that adds values does unless another is given. Numbers are added, strings joined; without one of two
values the other one counts, except that a number zero or an empty string on the left is lost if there is none on the right; anything
else cannot be added. -/
theorem C43_default_values :
    (∀ a b, addValues (.int a) (.int b) = .ok (.int (a + b))) ∧ (∀ a b, addValues (.str a) (.str b) = .ok (.str (a ++ b))) ∧
    (∀ v, addValues .none v = .ok v) ∧ (∀ v, v ≠ .int 0 → v ≠ .str "" → addValues v .none = .ok v) ∧
    addValues (.int 0) .none = .ok .none ∧ addValues (.str "") .none = .ok .none ∧
    (∀ u v, u ≠ .none → v ≠ .none → (∀ a b, ¬ (u = .int a ∧ v = .int b)) → (∀ a b, ¬ (u = .str a ∧ v = .str b)) →
      addValues u v = .error .typeError) := by
  refine ⟨fun a b => ?_, fun a b => ?_, fun v => ?_, fun v h1 h2 => ?_, ?_, ?_, ?_⟩
  · simp [addValues]
  · simp [addValues]
  · simp [addValues, Val.truthy]
  · cases v <;> simp_all [addValues, Val.truthy]
  · simp [addValues, Val.truthy]
  · simp [addValues, Val.truthy]
  · intro u v h1 h2 h3 h4
    cases u <;> cases v <;> simp_all [addValues]

/-- **C75**: what `__graph__` returns for a graph without edges: its options, label, link and settings as they are, and an entry for
every node with its name, its value and its style. -/
theorem C75_export_partial (r : Reachable w.heap) {d : Display C} (he : graphEdges w.heap g = .ok []) (hd : w.display g = some d) :
    ∃ x, exportGraph w g = .ok x ∧ x.strict = (w.heap.graph g).strict ∧ x.ordering = (w.heap.graph g).ordering ∧ x.scheme = d.scheme ∧
      x.label = d.label ∧ x.labelUrl = d.labelUrl ∧ x.nodeStyles = d.nodeStyles ∧ x.edgeStyles = d.edgeStyles ∧ x.globalNode = d.globalNode ∧
      x.globalEdge = d.globalEdge ∧ x.nodeColours = d.nodeColours ∧ x.edges = [] ∧
      x.nodes.map (fun q => (q.1, q.2.value, q.2.style.plain)) = (graphNodes w.heap g).map fun n =>
        ((w.heap.node n).id, (w.heap.node n).value, match (w.heap.node n).style with
          | none => StyleArg.none
          | some s => .obj s) := by
  refine ⟨_, exportGraph_edgeless r he hd, rfl, rfl, rfl, rfl, rfl, rfl, rfl, rfl, rfl, rfl, rfl, ?_⟩
  simp only [exportWith, List.map_map]
  refine List.map_congr_left fun n _ => ?_
  simp only [Function.comp, exportNode]
  cases (w.heap.node n).style <;> rfl

/-- **C43** for two graphs without edges. The sum is a new graph without edges and with the options of the left one, whose
names are those of both graphs, each once. A node of one graph keeps its value and whether it has a style. A node of both has
the value that the function makes of *twice the right one*, hence of both if they are the same. The nodes and edges of every
graph are as they were.
Missing for the full property: see `C43_object_partial`. -/
theorem C43_union_partial (r : Reachable w.heap) {g2 : GRef} {d1 d2 : Display C} (he1 : graphEdges w.heap g = .ok [])
    (he2 : graphEdges w.heap g2 = .ok []) (hd1 : w.display g = some d1) (hd2 : w.display g2 = some d2)
    (hs1 : d1.edgeStyles = []) (hs2 : d2.edgeStyles = []) (ho : ∀ l, (order l).Perm l)
    (hf : ∀ n ∈ graphNodes w.heap g2, (w.heap.node n).id ∈ namesOf w.heap g → ∃ v, f (w.heap.node n).value (w.heap.node n).value = .ok v) :
    ∃ w', addGraphs base order f g (.graph g2) w = (.ok w.heap.nG, w') ∧ Reachable w'.heap ∧
      graphEdges w'.heap w.heap.nG = .ok [] ∧
      (w'.heap.graph w.heap.nG).strict = (w.heap.graph g).strict ∧ (w'.heap.graph w.heap.nG).ordering = (w.heap.graph g).ordering ∧
      (namesOf w'.heap w.heap.nG).Nodup ∧
      (∀ k, k ∈ namesOf w'.heap w.heap.nG ↔ k ∈ namesOf w.heap g ∨ k ∈ namesOf w.heap g2) ∧
      (∀ m ∈ graphNodes w'.heap w.heap.nG,
        (∀ n ∈ graphNodes w.heap g, (w.heap.node n).id = (w'.heap.node m).id → (w'.heap.node m).id ∉ namesOf w.heap g2 →
          (w'.heap.node m).value = (w.heap.node n).value ∧ (w'.heap.node m).style.isSome = (w.heap.node n).style.isSome) ∧
        (∀ n ∈ graphNodes w.heap g2, (w.heap.node n).id = (w'.heap.node m).id → (w'.heap.node m).id ∉ namesOf w.heap g →
          (w'.heap.node m).value = (w.heap.node n).value ∧ (w'.heap.node m).style.isSome = (w.heap.node n).style.isSome) ∧
        ∀ n1 ∈ graphNodes w.heap g, ∀ n2 ∈ graphNodes w.heap g2, (w.heap.node n1).id = (w'.heap.node m).id →
          (w.heap.node n2).id = (w'.heap.node m).id →
          f (w.heap.node n2).value (w.heap.node n2).value = .ok (w'.heap.node m).value ∧
          (w'.heap.node m).style.isSome = ((w.heap.node n1).style.isSome || (w.heap.node n2).style.isSome)) ∧
      ∀ g', g' < w.heap.nG → Untouched w.heap w'.heap g' := by
  have hx := exportGraph_edgeless r he2 hd2
  obtain ⟨w', qs, e1, e2, e3, e4, e5, e6, -, -, e8, -⟩ := addGraphs_run (order := order) (f := f) r he1 hd1 hs1 (other := .graph g2) hx hs2
    (tidy_export r g2) ⟨by simp [exportWith, edgeIds], by simp [exportWith], by simp [exportWith]⟩ ho
    (by
      intro q hq
      obtain ⟨n, hn, rfl⟩ := List.mem_map.1 hq
      exact hf n hn) base
  have hnames : namesOf w'.heap w.heap.nG = qs.map Prod.fst := by
    rw [e3.names_eq]; simp [Draft.names, NodeSpec.seen, Function.comp_def]
  refine ⟨w', e1, e2, e3.edgeless e2 rfl, e3.strict, e3.ordering, by rw [hnames]; exact e4, ?_, ?_, e8⟩
  · intro k
    rw [hnames, e5 k]
    simp only [exportWith, exported_names]
  · intro m hm
    obtain ⟨⟨k, a⟩, hq, hs⟩ := List.mem_map.1 (e3.node_of hm)
    have hm := e6 _ hq
    have s1 : k = (w'.heap.node m).id := congrArg NodeD.name hs
    have s2 : a.value = (w'.heap.node m).value := congrArg NodeD.value hs
    have s3 : decide (a.args.style ≠ .none) = (w'.heap.node m).style.isSome := congrArg NodeD.styled hs
    rw [← s1, ← s2, ← s3]
    simp only [exportWith] at hm
    refine ⟨?_, ?_, ?_⟩
    · rintro n hn rfl hk
      rw [mergeEntry, dget_exported r hn, dget_not_exported hk] at hm
      cases hm
      exact ⟨rfl, exportNode_styled _ _⟩
    · rintro n hn rfl hk
      rw [mergeEntry, dget_exported r hn, dget_not_exported hk] at hm
      cases hm
      exact ⟨rfl, exportNode_styled _ _⟩
    · rintro n1 h1 n2 h2 rfl hk
      rw [mergeEntry, dget_exported r h1, ← hk, dget_exported r h2] at hm
      simp only [mergeNode, bind, Except.bind] at hm
      cases hv : f (exportNode (C := C) w.heap n2).2.value (exportNode (C := C) w.heap n2).2.value with
      | error e => rw [hv] at hm; cases hm
      | ok v =>
        rw [hv] at hm
        cases hm
        refine ⟨hv, ?_⟩
        rw [← exportNode_styled (C := C) w.heap n1, ← exportNode_styled (C := C) w.heap n2]
        rw [Bool.eq_iff_iff, Bool.or_eq_true, decide_eq_true_eq, decide_eq_true_eq, decide_eq_true_eq]
        simp only [NodeSpec.args, exportNode]
        cases (w.heap.node n1).style <;> cases (w.heap.node n2).style <;>
          simp [NodeStyleArg.orElse, NodeStyleArg.plain]

/-- **C43**, violated: the value of a node of both graphs is not the sum of its values, unless they are the same: it is twice
the right one. -/
theorem C43_values_violated (r : Reachable w.heap) {g2 : GRef} {d1 d2 : Display C} (he1 : graphEdges w.heap g = .ok [])
    (he2 : graphEdges w.heap g2 = .ok []) (hd1 : w.display g = some d1) (hd2 : w.display g2 = some d2)
    (hs1 : d1.edgeStyles = []) (hs2 : d2.edgeStyles = []) (ho : ∀ l, (order l).Perm l)
    (hi : ∀ n ∈ graphNodes w.heap g2, ∃ i, (w.heap.node n).value = .int i)
    {n1 n2 : NRef} (h1 : n1 ∈ graphNodes w.heap g) (h2 : n2 ∈ graphNodes w.heap g2) (hid : (w.heap.node n1).id = (w.heap.node n2).id)
    {i j : Int} (_ : (w.heap.node n1).value = .int i) (hv2 : (w.heap.node n2).value = .int j) (hne : i ≠ j) :
    ∃ w', addGraphs base order addValues g (.graph g2) w = (.ok w.heap.nG, w') ∧
      ∃ m ∈ graphNodes w'.heap w.heap.nG, (w'.heap.node m).id = (w.heap.node n1).id ∧
        (w'.heap.node m).value = .int (j + j) ∧ (w'.heap.node m).value ≠ .int (i + j) := by
  obtain ⟨w', e1, -, -, -, -, -, e7, e8, -⟩ := C43_union_partial (base := base) (order := order) (f := addValues) r he1 he2 hd1 hd2 hs1 hs2 ho (by
    intro n hn _
    obtain ⟨i, hi⟩ := hi n hn
    exact ⟨.int (i + i), by rw [hi]; simp [addValues]⟩)
  obtain ⟨m, hm, hmid⟩ := List.mem_map.1 ((e7 (w.heap.node n1).id).2 (.inl (List.mem_map.2 ⟨n1, h1, rfl⟩)))
  obtain ⟨h3, -⟩ := (e8 m hm).2.2 n1 h1 n2 h2 hmid.symm (hid.symm.trans hmid.symm)
  rw [hv2] at h3
  have h4 : (w'.heap.node m).value = .int (j + j) := by
    have : addValues (.int j) (.int j) = .ok (.int (j + j)) := by simp [addValues]
    rw [this] at h3
    exact (Except.ok.inj h3).symm
  refine ⟨w', e1, m, hm, hmid, h4, ?_⟩
  rw [h4]
  intro h5
  have : j + j = i + j := Val.int.inj h5
  omega

/-- **C43**, violated: no label survives. Every node of the sum of two graphs without edges is labelled with a bound method,
not with a string or `None`. -/
theorem C43_labels_violated (r : Reachable w.heap) {g2 : GRef} {d1 d2 : Display C} (he1 : graphEdges w.heap g = .ok [])
    (he2 : graphEdges w.heap g2 = .ok []) (hd1 : w.display g = some d1) (hd2 : w.display g2 = some d2)
    (hs1 : d1.edgeStyles = []) (hs2 : d2.edgeStyles = []) (ho : ∀ l, (order l).Perm l)
    (hf : ∀ n ∈ graphNodes w.heap g2, (w.heap.node n).id ∈ namesOf w.heap g → ∃ v, f (w.heap.node n).value (w.heap.node n).value = .ok v) :
    ∃ w', addGraphs base order f g (.graph g2) w = (.ok w.heap.nG, w') ∧
      ∀ m ∈ graphNodes w'.heap w.heap.nG, ∃ u, (w'.heap.node m).label =
        .obj u ("<bound method GraphObj.display_label_or_value of Node:" ++ (w'.heap.node m).id.toStr ++ ">") := by
  have hx := exportGraph_edgeless r he2 hd2
  obtain ⟨w', qs, e1, e2, e3, e4, e5, e6, -⟩ := addGraphs_run (order := order) (f := f) r he1 hd1 hs1 (other := .graph g2) hx hs2
    (tidy_export r g2) ⟨by simp [exportWith, edgeIds], by simp [exportWith], by simp [exportWith]⟩ ho
    (by
      intro q hq
      obtain ⟨n, hn, rfl⟩ := List.mem_map.1 hq
      exact hf n hn) base
  refine ⟨w', e1, fun m hm => ?_⟩
  obtain ⟨⟨k, a⟩, hq, hs⟩ := List.mem_map.1 (e3.node_of hm)
  have hm := e6 _ hq
  have s1 : k = (w'.heap.node m).id := congrArg NodeD.name hs
  have s2 : a.label = (w'.heap.node m).label := congrArg NodeD.label hs
  rw [← s1, ← s2]
  have key : ∀ (g : GRef) (b : NodeSpec C), dget ((graphNodes w.heap g).map (exportNode w.heap)) k = some b →
      ∃ u, b.label = .obj u ("<bound method GraphObj.display_label_or_value of Node:" ++ k.toStr ++ ">") := by
    intro g b hb
    have := (dget_iff (by rw [exported_names]; exact names_nodup r g)).1 hb
    obtain ⟨n, hn, hb⟩ := List.mem_map.1 this
    cases hb
    exact ⟨n, rfl⟩
  simp only [exportWith, mergeEntry] at hm
  split at hm
  · next b1 b2 h1 h2 =>
    obtain ⟨u, hu⟩ := key g b1 h1
    simp only [mergeNode, bind, Except.bind] at hm
    cases hv : f b2.value b2.value with
    | error e => rw [hv] at hm; cases hm
    | ok v =>
      rw [hv] at hm
      cases hm
      exact ⟨u, by simp [Val.orElse, hu, Val.truthy]⟩
  · next h1 _ => cases hm; exact key g _ h1
  · next h1 => cases hm; exact key g2 _ h1
  · cases hm

/-- **C43**, violated: adding changes the left operand. It gets the styles for single nodes of the right one. -/
theorem C43_operand_violated (r : Reachable w.heap) (hg : g < w.heap.nG) {g2 : GRef} {d1 d2 : Display C} (he1 : graphEdges w.heap g = .ok [])
    (he2 : graphEdges w.heap g2 = .ok []) (hd1 : w.display g = some d1) (hd2 : w.display g2 = some d2)
    (hs1 : d1.edgeStyles = []) (hs2 : d2.edgeStyles = []) (ho : ∀ l, (order l).Perm l)
    (hf : ∀ n ∈ graphNodes w.heap g2, (w.heap.node n).id ∈ namesOf w.heap g → ∃ v, f (w.heap.node n).value (w.heap.node n).value = .ok v)
    {k : Key} (hk : k ∈ dkeys d2.nodeStyles) (hk' : k ∉ dkeys d1.nodeStyles) :
    ∃ w' d', addGraphs base order f g (.graph g2) w = (.ok w.heap.nG, w') ∧ w'.display g = some d' ∧ k ∈ dkeys d'.nodeStyles ∧ w'.display g ≠ w.display g := by
  have hx := exportGraph_edgeless r he2 hd2
  obtain ⟨w', qs, e1, -, -, -, -, -, -, e7, -⟩ := addGraphs_run (order := order) (f := f) r he1 hd1 hs1 (other := .graph g2) hx hs2
    (tidy_export r g2) ⟨by simp [exportWith, edgeIds], by simp [exportWith], by simp [exportWith]⟩ ho
    (by
      intro q hq
      obtain ⟨n, hn, rfl⟩ := List.mem_map.1 hq
      exact hf n hn) base
  have : ∀ (l d : Dict Key (List (NodeItem C))), k ∈ dkeys l ∨ k ∈ dkeys d → k ∈ dkeys (dupdate d l) := by
    intro l
    induction l with
    | nil => intro d h; simpa [dkeys, dupdate] using h
    | cons p l ih =>
      intro d h
      refine ih (dset d p.1 p.2) ?_
      have hset : ∀ k', k' ∈ dkeys d ∨ k' = p.1 → k' ∈ dkeys (dset d p.1 p.2) := by
        intro k' h'
        show k' ∈ (dset d p.1 p.2).map Prod.fst
        rw [← dget_isSome, dget_dset]
        split
        · rfl
        · next hne =>
          rcases h' with h' | h'
          · exact dget_isSome.2 h'
          · exact absurd h' (by intro e; exact hne (by simp [e]))
      rcases h with h | h
      · rcases List.mem_cons.1 h with h | h
        · exact .inr (hset k (.inr h))
        · exact .inl h
      · exact .inr (hset k (.inl h))
  have h1 := this d2.nodeStyles d1.nodeStyles (.inl hk)
  refine ⟨w', _, e1, e7 hg, h1, ?_⟩
  rw [e7 hg, hd1]
  intro h2
  injection h2 with h2
  exact hk' (congrArg (fun d => dkeys d.nodeStyles) h2 ▸ h1)

end

/-! ## C75 -/

section
variable {w : World C}

/-- **C75**, violated: a graph with an edge can be appended to no graph: `TypeError`. -/
theorem C75_edges_violated (r : Reachable w.heap) (g : GRef) {other : GRef} (he : graphEdges w.heap other ≠ .ok []) :
    appendGraph g other w = (.error .typeError, w) := by
  simp [appendGraph, exportGraph_edges r he]

/-- **C75**, violated: nor can a graph made with `label=None`. -/
theorem C75_label_violated (r : Reachable w.heap) (g : GRef) {other : GRef} {d : Display C} (hd : w.display other = some d) (hl : d.label = none) :
    (appendGraph g other w).1 = .error .typeError := by
  by_cases he : graphEdges w.heap other = .ok []
  · simp only [appendGraph, exportGraph_edgeless r he hd, appendDictW, W.bind_apply]
    simp [Export.dict, exportWith, hl, W.lift, graphSetOptions, M.modGraph, appendLabel, W.raise]
  · rw [C75_edges_violated r g he]

/-- A graph without edges that is left alone has none. -/
theorem Untouched.edgeless {h h' : Heap} {g : GRef} (U : Untouched h h' g) (r : Reachable h) (r' : Reachable h')
    (he : graphEdges h g = .ok []) : graphEdges h' g = .ok [] := by
  refine (edgeless_iff r' g).2 fun n hn => ?_
  rw [U.graphNodes] at hn
  have h1 := (edgeless_iff r g).1 he n hn
  obtain ⟨A, H⟩ := r.hist
  obtain ⟨k, hk⟩ := (mem_graphNodes H.rep).1 hn
  rw [H.rep.outwardEdges hk] at h1
  have h2 : (A.graph g).out k = [] := by simpa using h1
  have h3 : (h.node n).outE = [] := by rw [H.rep.outE g k n hk]; exact h2
  unfold outwardEdges
  rw [U.nodes n hn, h3]
  rfl

/-- Making a graph from a graph without edges. -/
theorem graphOfGraph_run (r : Reachable w.heap) {other : GRef} (ho : other < w.heap.nG) {d : Display C} (hd : w.display other = some d)
    {s : String} (hl : d.label = some s) (hs : d.edgeStyles = []) (he : graphEdges w.heap other = .ok []) (a : GraphArgs C) :
    ∃ w', graphOfGraph a other w = (.ok w.heap.nG, w') ∧ Reachable w'.heap ∧
      Draws w'.heap w.heap.nG { strict := (w.heap.graph other).strict, ordering := (w.heap.graph other).ordering,
                                nodes := ((graphNodes w.heap other).map (exportNode (C := C) w.heap)).map NodeSpec.seen } ∧
      w'.display = upd w.display w.heap.nG (some ((startDisplay { a with scheme := some (a.scheme.getD d.scheme) } none).after
        (exportWith (w.heap.graph other) d ((graphNodes w.heap other).map (exportNode w.heap)) []).dict)) ∧
      ∀ g', g' < w.heap.nG → Untouched w.heap w'.heap g' := by
  obtain ⟨w', e1, e2, e3, e4, e5⟩ := constructThen_draws r { a with scheme := some (a.scheme.getD d.scheme) }
    (D := (exportWith (w.heap.graph other) d ((graphNodes w.heap other).map (exportNode w.heap)) []).dict)
    (nodes := (graphNodes w.heap other).map (exportNode w.heap)) (edges := []) rfl rfl
    (by simp [Export.dict, exportWith, hl]) (by simp [Export.dict, exportWith, hs]) rfl (tidy_export r other)
    ⟨by simp [edgeIds], by simp, by simp⟩
  refine ⟨w', ?_, e2, e3, e4, e5⟩
  have hne : other ≠ w.heap.nG := Nat.ne_of_lt ho
  have hx : exportGraph (constructW { a with scheme := some (a.scheme.getD d.scheme) } none w).2 other =
      .ok (exportWith (w.heap.graph other) d ((graphNodes w.heap other).map (exportNode w.heap)) []) := by
    have U := startHeap_others (a := { a with scheme := some (a.scheme.getD d.scheme) }) (D := none) r ho
    have hd' : (constructW { a with scheme := some (a.scheme.getD d.scheme) } none w).2.display other = some d := by
      rw [constructW_run]; exact (upd_ne _ _ hne).trans hd
    have he' : graphEdges (constructW { a with scheme := some (a.scheme.getD d.scheme) } none w).2.heap other = .ok [] := by
      rw [constructW_run]
      exact U.edgeless r (startHeap_reachable r) he
    rw [exportGraph_edgeless (startHeap_reachable r) he' hd']
    rw [constructW_run]
    show Except.ok (exportWith ((startHeap _ none w.heap).graph other) d
      ((graphNodes (startHeap _ none w.heap) other).map (exportNode (startHeap _ none w.heap))) []) = _
    rw [U.graph, U.graphNodes]
    rfl
  have hg : appendGraph w.heap.nG other (constructW { a with scheme := some (a.scheme.getD d.scheme) } none w).2 = (.ok (), w') := by
    simp only [appendGraph, hx]
    exact e1
  have hk : ∀ sc, sc = a.scheme.getD d.scheme →
      (constructW { a with scheme := some sc } none >>= fun g => appendGraph g other >>= fun _ => pure g) w = (.ok w.heap.nG, w') := by
    rintro sc rfl
    rw [W.bind_apply, constructW_run]
    rw [constructW_run] at hg
    simp only [W.bind_apply, hg]
    rfl
  unfold graphOfGraph
  cases hsch : a.scheme with
  | some sc => exact hk sc (by rw [hsch]; rfl)
  | none =>
    show (W.display other >>= fun d => (pure d.scheme >>= fun sc =>
      (constructW { a with scheme := some sc } none >>= fun g => appendGraph g other >>= fun _ => pure g))) w = _
    rw [W.bind_apply]
    simp only [W.display, hd]
    exact hk d.scheme (by rw [hsch]; rfl)

omit [Palette C] in
theorem lastFor_nodup {K V : Type} [DecidableEq K] {l : List (K × V)} (h : (l.map (·.1)).Nodup) (k : K) : lastFor l k = dget l k := by
  induction l with
  | nil => rfl
  | cons p l ih =>
    obtain ⟨a, b⟩ := p
    obtain ⟨h1, h2⟩ := List.nodup_cons.1 h
    rw [lastFor_cons, ih h2]
    by_cases hk : a = k
    · subst hk; simp [dget, dget_none.2 h1]
    · simp [dget, hk]

/-- **C75**, for graphs without edges that have a label. `Graph(obj=g)` is a new graph without edges, with the options of `g`,
the names and the values of its nodes in order, its colour scheme unless another one is given, and its settings for single nodes
and for all nodes and edges. No graph changes, nor its settings.
Missing for the full property: graphs with edges and graphs without a label (`C75_edges_violated`, `C75_label_violated`), the
labels of the nodes (`C75_labels_violated`); the label gets a line break in front. -/
theorem C75_graph_partial (r : Reachable w.heap) {other : GRef} (ho : other < w.heap.nG) {d : Display C} (hd : w.display other = some d)
    {s : String} (hl : d.label = some s) (hs : d.edgeStyles = []) (hD : d.Dicts) (he : graphEdges w.heap other = .ok [])
    (a : GraphArgs C) :
    ∃ w' d', graphOfGraph a other w = (.ok w.heap.nG, w') ∧ Reachable w'.heap ∧ graphEdges w'.heap w.heap.nG = .ok [] ∧
      (w'.heap.graph w.heap.nG).strict = (w.heap.graph other).strict ∧
      (w'.heap.graph w.heap.nG).ordering = (w.heap.graph other).ordering ∧
      namesOf w'.heap w.heap.nG = namesOf w.heap other ∧
      (graphNodes w'.heap w.heap.nG).map (fun n => ((w'.heap.node n).value, (w'.heap.node n).style.isSome)) =
        (graphNodes w.heap other).map (fun n => ((w.heap.node n).value, (w.heap.node n).style.isSome)) ∧
      w'.display w.heap.nG = some d' ∧ d'.label = some ("\n" ++ s) ∧ d'.labelUrl = d.labelUrl ∧
      d'.scheme = a.scheme.getD d.scheme ∧ d'.globalNode = d.globalNode ∧ d'.globalEdge = d.globalEdge ∧
      (∀ k, dget d'.nodeStyles k = dget d.nodeStyles k) ∧ (∀ k, dget d'.nodeColours k = dget d.nodeColours k) ∧
      ∀ g', g' < w.heap.nG → Untouched w.heap w'.heap g' ∧ w'.display g' = w.display g' := by
  obtain ⟨w', e1, e2, e3, e4, e5⟩ := graphOfGraph_run r ho hd hl hs he a
  refine ⟨w', _, e1, e2, e3.edgeless e2 rfl, e3.strict, e3.ordering, ?_, ?_, by rw [e4, upd_same], ?_, ?_, ?_, ?_, ?_, ?_, ?_, ?_⟩
  · rw [e3.names_eq]
    simp [Draft.names, NodeSpec.seen, exportNode, namesOf, Function.comp_def]
  · have := congrArg (List.map fun v : NodeD => (v.value, v.styled)) e3.nodes
    simp only [List.map_map] at this
    refine (List.map_congr_left fun n _ => rfl).trans (this.trans (List.map_congr_left fun n _ => ?_))
    simp only [Function.comp, NodeSpec.seen, exportNode_styled]
    rfl
  · rw [after_eq]; simp [Display.told, Display.labelled, Export.dict, exportWith, hl]
  · rw [after_eq]; simp [Display.told, Display.labelled, Export.dict, exportWith, hl]
  · rw [after_eq]; simp [Display.told, Display.labelled, Export.dict, exportWith, hl, startDisplay]
  · rw [after_eq]; simp [Display.told, Display.labelled, Export.dict, exportWith, hl]
  · rw [after_eq]; simp [Display.told, Display.labelled, Export.dict, exportWith, hl]
  · intro k
    rw [after_eq]
    show dget (d.nodeStyles.foldl (fun d p => dset d p.1 p.2) []) k = _
    rw [dget_updates, lastFor_nodup hD.nodeStyles.1]
    simp [dget]
  · intro k
    rw [after_eq]
    show dget (d.nodeColours.foldl (fun d p => dset d p.1 p.2) []) k = _
    rw [dget_updates, lastFor_nodup hD.nodeColours]
    simp [dget]
  · intro g' hg
    exact ⟨e5 g' hg, by rw [e4, upd_ne _ _ (Nat.ne_of_lt hg)]⟩

/-- **C75**, violated: the nodes of the new graph are labelled with bound methods. -/
theorem C75_labels_violated (r : Reachable w.heap) {other : GRef} (ho : other < w.heap.nG) {d : Display C} (hd : w.display other = some d)
    {s : String} (hl : d.label = some s) (hs : d.edgeStyles = []) (he : graphEdges w.heap other = .ok []) (a : GraphArgs C) :
    ∃ w', graphOfGraph a other w = (.ok w.heap.nG, w') ∧
      ∀ m ∈ graphNodes w'.heap w.heap.nG, ∃ u, (w'.heap.node m).label =
        .obj u ("<bound method GraphObj.display_label_or_value of Node:" ++ (w'.heap.node m).id.toStr ++ ">") := by
  obtain ⟨w', e1, -, e3, -⟩ := graphOfGraph_run r ho hd hl hs he a
  refine ⟨w', e1, fun m hm => ?_⟩
  obtain ⟨q, hq, hs⟩ := List.mem_map.1 (e3.node_of hm)
  obtain ⟨n, -, rfl⟩ := List.mem_map.1 hq
  refine ⟨n, (congrArg NodeD.label hs).symm.trans ?_⟩
  rw [← (show (w.heap.node n).id = (w'.heap.node m).id from congrArg NodeD.name hs)]
  rfl

end
/-! ## Examples -/

/-- Two graphs without edges, with a node "a" each. -/
def pairHeap : Heap :=
  runOps [.newGraph true true false, .addNode 0 (.str "a") { value := .int 1, label := .str "A" } .warn, .add 0 "b",
    .newGraph false false false, .addNode 1 (.str "c") { value := .int 5 } .warn,
    .addNode 1 (.str "a") { value := .int 2, label := .str "B" } .warn] Heap.init

theorem pairHeap_reachable : Reachable pairHeap := by
  refine Reachable.runOps .init _ ?_
  refine ⟨trivial, ?_⟩
  simp only [AllOk, Op.Ok, Op.add]
  decide

/-- The second graph has a style for a single node, and a label. -/
def pairDisplay (g : GRef) : Display Rat :=
  { scheme := [0, 1], label := some "pair", nodeStyles := if g = 1 then [(.str "c", [.colour 1])] else [] }

def pairWorld : World Rat :=
  { heap := pairHeap, ns := fun _ => defaultNode 0, es := fun _ => defaultEdge 0 0, display := fun g => some (pairDisplay g) }

/-- They meet the hypotheses of **C43** and of its violations, with the default function and sets walked backwards. -/
example : Reachable pairWorld.heap ∧ (0 : GRef) < pairWorld.heap.nG ∧ graphEdges pairWorld.heap 0 = .ok [] ∧ graphEdges pairWorld.heap 1 = .ok [] ∧
    pairWorld.display 0 = some (pairDisplay 0) ∧ pairWorld.display 1 = some (pairDisplay 1) ∧
    (pairDisplay 0).edgeStyles = [] ∧ (pairDisplay 1).edgeStyles = [] ∧ (∀ l : List Key, l.reverse.Perm l) ∧
    (∀ n ∈ graphNodes pairWorld.heap 1, ∃ i, (pairWorld.heap.node n).value = .int i) ∧
    (0 : NRef) ∈ graphNodes pairWorld.heap 0 ∧ (3 : NRef) ∈ graphNodes pairWorld.heap 1 ∧
    (pairWorld.heap.node 0).id = (pairWorld.heap.node 3).id ∧
    (pairWorld.heap.node 0).value = .int 1 ∧ (pairWorld.heap.node 3).value = .int 2 ∧
    .str "c" ∈ dkeys (pairDisplay 1).nodeStyles ∧ .str "c" ∉ dkeys (pairDisplay 0).nodeStyles := by
  refine ⟨pairHeap_reachable, by decide +kernel, by decide +kernel, by decide +kernel, rfl, rfl, rfl, rfl, List.reverse_perm, ?_,
    by decide +kernel, by decide +kernel, by decide +kernel, by decide +kernel, by decide +kernel, by decide +kernel, by decide +kernel⟩
  intro n hn
  have : n ∈ [2, 3] := by
    have h : graphNodes pairWorld.heap 1 = [2, 3] := by decide +kernel
    rw [h] at hn; exact hn
  rcases List.mem_cons.1 this with rfl | h
  · exact ⟨5, by decide +kernel⟩
  · obtain rfl := List.mem_singleton.1 h; exact ⟨2, by decide +kernel⟩

/-- The sum has the nodes of both. -/
example : (addGraphs { scheme := none, display := plainDisplay } List.reverse addValues 0 (.graph 1) pairWorld).1 = .ok 2 ∧
    namesOf (addGraphs { scheme := none, display := plainDisplay } List.reverse addValues 0 (.graph 1) pairWorld).2.heap 2 =
      [.str "c", .str "b", .str "a"] := ⟨by decide +kernel, by decide +kernel⟩

/-- An object with an edge between a node of its own and one of the left graph. -/
def linkExport : Export Rat :=
  { strict := false, ordering := true, scheme := [], label := none, labelUrl := none, nodeStyles := [], edgeStyles := [],
    globalNode := none, globalEdge := none, nodeColours := [],
    nodes := [(.str "x", { value := .int 3, label := .str "X" }), (.str "a", { value := .int 4 })],
    edges := [(.str "x", .str "b", { id := some (.int 7), value := .int 8, label := .str "E" }), (.str "a", .str "x", {})] }

/-- It meets the hypotheses of `C43_object_partial`. -/
example : linkExport.edgeStyles = [] ∧ TidyNodes linkExport.nodes ∧
    TidyEdges (namesOf pairWorld.heap 0 ++ linkExport.nodes.map Prod.fst) linkExport.edges ∧
    ∀ q ∈ linkExport.nodes, q.1 ∈ namesOf pairWorld.heap 0 → ∃ v, addValues q.2.value q.2.value = .ok v := by
  refine ⟨rfl, ⟨by decide, ?_, ?_⟩, ⟨by decide, ?_, ?_⟩, ?_⟩
  · simp [linkExport]
  · simp [linkExport, NodeSpec.args, NodeStyleArg.plain, StyleArg.Valid]
  · have : namesOf pairWorld.heap 0 = [.str "a", .str "b"] := by decide +kernel
    rw [this]; simp [linkExport]
  · simp [linkExport, EdgeSpec.args, EdgeStyleArg.plain, StyleArg.Valid]
  · simp [linkExport, addValues]

/-- A graph that meets the hypotheses of `C75_export_partial`. -/
example : graphEdges pairWorld.heap 0 = .ok [] ∧ (pairWorld.display 0).isSome ∧ (graphNodes pairWorld.heap 0).length = 2 := by
  exact ⟨by decide +kernel, by decide +kernel, by decide +kernel⟩

/-- An object with three entries for one edge, without a value, with a label, and with a value and a style. -/
def tripleExport : Export Rat :=
  { linkExport with
    edges := [(.str "a", .str "x", { value := .int 1 }), (.str "x", .str "b", {}), (.str "a", .str "x", { label := .str "L" }),
      (.str "a", .str "x", { value := .int 8, label := .str "M", style := .dict [.colour 1] })] }

/-- It meets the hypotheses of `C43_parallel_partial`, and the combined edge has the sum of the values. -/
example : (∀ q ∈ tripleExport.edges, q.1 ∈ namesOf pairWorld.heap 0 ++ tripleExport.nodes.map Prod.fst ∧
      q.2.1 ∈ namesOf pairWorld.heap 0 ++ tripleExport.nodes.map Prod.fst) ∧
    (∀ q ∈ tripleExport.edges, q.2.2.args.style.Valid) ∧
    (∀ i a rest, entriesFor tripleExport.edges i = a :: rest → ∃ b, combine addValues a rest = .ok b) ∧
    ((addGraphs { scheme := none, display := plainDisplay } List.reverse addValues 0 (.object (.ok tripleExport)) pairWorld).2.heap.edge 0).value =
      .int 9 := by
  have hn : namesOf pairWorld.heap 0 = [.str "a", .str "b"] := by decide +kernel
  refine ⟨?_, ?_, ?_, by decide +kernel⟩
  · rw [hn]; simp [tripleExport, linkExport]
  · simp [tripleExport, EdgeSpec.args, EdgeStyleArg.plain, StyleArg.Valid, EdgeStyle.ofItems, EdgeItemStyle.arg, Except.isOk, Except.toBool, bind, Except.bind, pure, Except.pure]
  · intro i a rest h
    by_cases h1 : i = (.str "a", .str "x", .none)
    · subst h1
      simp [entriesFor, tripleExport, EdgeSpec.raw] at h
      obtain ⟨rfl, rfl⟩ := h
      simp [combine, addValues, Val.truthy]
    · by_cases h2 : i = (.str "x", .str "b", .none)
      · subst h2
        simp [entriesFor, tripleExport, EdgeSpec.raw] at h
        obtain ⟨rfl, rfl⟩ := h
        exact ⟨_, rfl⟩
      · exfalso
        have : entriesFor tripleExport.edges i = [] := by
          simp only [entriesFor, List.map_eq_nil_iff, List.filter_eq_nil_iff, decide_eq_true_eq]
          intro q hq e
          subst e
          simp only [tripleExport, List.mem_cons, List.not_mem_nil, or_false] at hq
          rcases hq with rfl | rfl | rfl | rfl
          · exact h1 rfl
          · exact h2 rfl
          · exact h1 rfl
          · exact h1 rfl
        rw [this] at h
        cases h

/-- The hypothesis of `C43_edges_violated` and `C75_edges_violated` is met. -/
example : Reachable (gaudyWorld openDiamond).heap ∧ graphEdges (gaudyWorld openDiamond).heap 0 ≠ .ok [] :=
  ⟨openDiamond_reachable, by decide +kernel⟩

/-- The second graph meets the hypotheses of `C75_graph_partial` and `C75_labels_violated`. -/
example : Reachable pairWorld.heap ∧ (1 : GRef) < pairWorld.heap.nG ∧ pairWorld.display 1 = some (pairDisplay 1) ∧
    (pairDisplay 1).label = some "pair" ∧ (pairDisplay 1).edgeStyles = [] ∧ (pairDisplay 1).Dicts ∧
    graphEdges pairWorld.heap 1 = .ok [] := by
  refine ⟨pairHeap_reachable, by decide +kernel, rfl, rfl, rfl, ?_, by decide +kernel⟩
  constructor <;> simp [pairDisplay, NodeDict, NodeItem.attr]

/-- A graph made with `label=None`, as in `C75_label_violated`. -/
def unlabelled : World Rat := { pairWorld with display := fun _ => some { scheme := [], label := none } }

example : Reachable unlabelled.heap ∧ ∃ d, unlabelled.display 1 = some d ∧ d.label = none := ⟨pairHeap_reachable, _, rfl, rfl⟩

end Verif
