import Verif.Lemmas.Neighbours
import Verif.Lemmas.Later
import Verif.Model.Traverse
import Verif.Props.Demo
/-!
# C57 - C60: per-node queries, parameters, graph options, labels
-/
namespace Verif
open M

/-- How often an edge touches a node: once for starting there, once for ending there. -/
def touches (h : Heap) (x : NRef) (e : ERef) : Nat :=
  (if edgeStart h e = .ok x then 1 else 0) + (if edgeEnd h e = .ok x then 1 else 0)

/-- **C57.** `get_edges(x)` lists the outward edges of `x` and then its inward edges: every edge of the graph as often as it
touches `x` (a self-loop twice), and nothing else. -/
theorem C57_get_edges {h : Heap} (r : Reachable h) {g : GRef} {a : NodeArg} {x : NRef} (ha : getNode h g a = .ok x) :
    ∃ os is, outwardEdges h x = .ok os ∧ inwardEdges h x = .ok is ∧ getEdges h g a = .ok (os ++ is) ∧
      (∀ e ∈ os ++ is, LiveEdge h g e) ∧ ∀ e, LiveEdge h g e → (os ++ is).count e = touches h x e := by
  obtain ⟨A, H⟩ := r.hist
  have R := H.rep
  obtain ⟨k, -, hk⟩ := R.getNode_ok.1 ha
  refine ⟨_, _, R.outwardEdges hk, R.inwardEdges hk, ?_, ?_, ?_⟩
  · simp [getEdges, getOutwardEdges, getInwardEdges, ha, R.outwardEdges hk, R.inwardEdges hk, bind, Except.bind, pure, Except.pure]
  · intro e he
    rcases List.mem_append.1 he with he | he
    · obtain ⟨i, hi, -⟩ := Rep.mem_out_handles.1 he
      exact (liveEdge_iff R).2 ⟨i, hi⟩
    · obtain ⟨i, hi, -⟩ := Rep.mem_inn_handles.1 he
      exact (liveEdge_iff R).2 ⟨i, hi⟩
  · intro e he
    obtain ⟨i, hi⟩ := (liveEdge_iff R).1 he
    obtain ⟨e1, e2⟩ := edge_ends R hk hi
    rw [List.count_append, touches]
    congr 1
    · rw [(R.out_nodup g k).count]
      have : e ∈ ((A.graph g).out k).map Prod.snd ↔ edgeStart h e = .ok x := by
        rw [Rep.mem_out_handles, e1]
        constructor
        · rintro ⟨j, hj, rfl⟩; rw [(R.handle_unique hj hi).2]
        · intro hik; exact ⟨i, hi, hik⟩
      simp only [this]
    · rw [(R.inn_nodup g k).count]
      have : e ∈ ((A.graph g).inn k).map Prod.snd ↔ edgeEnd h e = .ok x := by
        rw [Rep.mem_inn_handles, e2]
        constructor
        · rintro ⟨j, hj, rfl⟩; rw [(R.handle_unique hj hi).2]
        · intro hik; exact ⟨i, hi, hik⟩
      simp only [this]

/-- **C57.** `get_children(x)` is the list of the ends of the outward edges, in order and with repetitions; `num_children` is
its length and `has_children` says whether `x` has an outgoing edge. -/
theorem C57_children {h : Heap} (r : Reachable h) {g : GRef} {a : NodeArg} {x : NRef} (ha : getNode h g a = .ok x) :
    ∃ os cs b, outwardEdges h x = .ok os ∧ getChildren h g a = .ok cs ∧
      os.map (edgeEnd h) = cs.map Except.ok ∧ numChildren h g a = .ok os.length ∧ hasChildren h g a = .ok b ∧
      (b = true ↔ ∃ y, Arrow h g x y) := by
  obtain ⟨A, H⟩ := r.hist
  have R := H.rep
  obtain ⟨k, -, hk⟩ := R.getNode_ok.1 ha
  have hlen : (kids h x).length = (((A.graph g).out k).map Prod.snd).length := by
    rw [R.kids_length hk]; simp [SGraph.out]
  refine ⟨_, _, decide ((kids h x).length > 0), R.outwardEdges hk, R.getChildren ha, ?_, ?_, ?_, ?_⟩
  · unfold kids
    rw [R.outE g k x hk, List.map_map, List.map_map]
    refine List.map_congr_left ?_
    rintro ⟨i, e⟩ hi
    obtain ⟨n', m, -, h2, -⟩ := R.live_edge (List.mem_filter.1 hi).1
    simp [edgeEnd, h2]
  · simp [numChildren, R.getChildren ha, bind, Except.bind, pure, Except.pure, hlen]
  · simp [hasChildren, numChildren, R.getChildren ha, bind, Except.bind, pure, Except.pure]
  · rw [decide_eq_true_eq, gt_iff_lt, List.length_pos_iff_exists_mem]
    simp only [R.mem_kids hk]

/-- **C57.** The same for `get_parents`, `num_parents`, `has_parents`. -/
theorem C57_parents {h : Heap} (r : Reachable h) {g : GRef} {a : NodeArg} {x : NRef} (ha : getNode h g a = .ok x) :
    ∃ is ps b, inwardEdges h x = .ok is ∧ getParents h g a = .ok ps ∧
      is.map (edgeStart h) = ps.map Except.ok ∧ numParents h g a = .ok is.length ∧ hasParents h g a = .ok b ∧
      (b = true ↔ ∃ y, Arrow h g y x) := by
  obtain ⟨A, H⟩ := r.hist
  have R := H.rep
  obtain ⟨k, -, hk⟩ := R.getNode_ok.1 ha
  have hlen : (pars h x).length = (((A.graph g).inn k).map Prod.snd).length := by
    rw [R.pars_length hk]; simp [SGraph.inn]
  refine ⟨_, _, decide ((pars h x).length > 0), R.inwardEdges hk, R.getParents ha, ?_, ?_, ?_, ?_⟩
  · unfold pars
    rw [R.inE g k x hk, List.map_map, List.map_map]
    refine List.map_congr_left ?_
    rintro ⟨i, e⟩ hi
    obtain ⟨n', m, h1, -⟩ := R.live_edge (List.mem_filter.1 hi).1
    simp [edgeStart, h1]
  · simp [numParents, R.getParents ha, bind, Except.bind, pure, Except.pure, hlen]
  · simp [hasParents, numParents, R.getParents ha, bind, Except.bind, pure, Except.pure]
  · rw [decide_eq_true_eq, gt_iff_lt, List.length_pos_iff_exists_mem]
    simp only [R.mem_pars hk]

/-- **C57.** On a node that knows its graph, `node.children`, `node.parents` and the truth of `node.has_children()` and
`node.has_parents()` are the graph's answers. -/
theorem C57_node {h : Heap} (r : Reachable h) {g : GRef} {x : NRef} (hx : x ∈ graphNodes h g) (hg : (h.node x).graph = some g) :
    nodeChildren h x = getChildren h g (.node x) ∧ nodeParents h x = getParents h g (.node x) ∧
    nodeHasChildren h x = hasChildren h g (.node x) ∧ nodeHasParents h x = hasParents h g (.node x) := by
  have h1 : nodeParents h x = getParents h g (.node x) := by simp [nodeParents, nodeGraph, hg, bind, Except.bind]
  refine ⟨by simp [nodeChildren, nodeGraph, hg, bind, Except.bind], h1, by simp [nodeHasChildren, nodeGraph, hg, bind, Except.bind], ?_⟩
  simp only [nodeHasParents, h1, hasParents, numParents, getParents_eq r (getNode_self r hx), bind, Except.bind, pure, Except.pure]
  cases pars h x <;> simp

/-- **C57.** A query about a node that is not there raises the error of `get_node`. -/
theorem C57_unknown {h : Heap} {g : GRef} {a : NodeArg} {x : PyErr} (ha : getNode h g a = .error x) :
    getEdges h g a = .error x ∧ getChildren h g a = .error x ∧ getParents h g a = .error x ∧
    numChildren h g a = .error x ∧ numParents h g a = .error x ∧ hasChildren h g a = .error x ∧ hasParents h g a = .error x := by
  simp [getEdges, getChildren, getParents, numChildren, numParents, hasChildren, hasParents, getOutwardEdges, getInwardEdges, ha,
    bind, Except.bind]

/-- **C57.** `get_node_name` gives back the name of a node of the graph, refuses every other name, and gives the name of a node
object, of whatever graph. -/
theorem C57_name {h : Heap} (r : Reachable h) (g : GRef) :
    (∀ k n, dget (h.graph g).nodes k = some n → getNodeName h g (.key k) = .ok k ∧ getNodeName h g (.node n) = .ok k) ∧
    (∀ k, dget (h.graph g).nodes k = none → getNodeName h g (.key k) = .error .keyError) ∧
    (∀ n, getNodeName h g (.node n) = .ok (h.node n).id) ∧
    getNodeName h g .other = .error .typeError := by
  obtain ⟨A, H⟩ := r.hist
  have R := H.rep
  refine ⟨fun k n hk => ?_, fun k hk => by simp [getNodeName, hk], fun _ => rfl, rfl⟩
  have hn := mem_of_dget hk
  rw [R.nodes] at hn
  simp [getNodeName, hk, (R.nodeOk g k n hn).2.1]

/-- `a` has two parallel edges to `b` and one from `c`; `d` has a self-loop. -/
example : getEdges demo 0 (.key (.str "a")) = .ok [0, 3, 2] ∧ getEdges demo 0 (.key (.str "d")) = .ok [4, 4] ∧
    numChildren demo 0 (.key (.str "a")) = .ok 2 ∧ hasParents demo 1 (.key (.str "a")) = .ok false := by decide +kernel

/-! ## C58: parameters -/

/-- **C58.** After `node[k] = v`, `node[k]` is `v`; every other parameter of the node, everything else about it, and every
other object is as before. -/
theorem C58_node (h : Heap) (n : NRef) (k : String) (v : Val) :
    ∃ h', nodeSetParam n k v h = (.ok (), h') ∧ nodeGet h' n k = .ok v ∧
      (∀ k', k' ≠ k → nodeGet h' n k' = nodeGet h n k') ∧
      h'.node n = { h.node n with params := (h'.node n).params } ∧
      (∀ m, m ≠ n → h'.node m = h.node m) ∧ h'.edge = h.edge ∧ h'.graph = h.graph := by
  refine ⟨_, rfl, ?_, ?_, ?_, ?_, rfl, rfl⟩
  · simp [nodeGet, dget_dset]
  · intro k' hk; simp [nodeGet, dget_dset, Ne.symm hk]
  · simp
  · intro m hm; simp [upd_ne _ _ hm]

/-- **C58** for edges. -/
theorem C58_edge (h : Heap) (e : ERef) (k : String) (v : Val) :
    ∃ h', edgeSetParam e k v h = (.ok (), h') ∧ edgeGet h' e k = .ok v ∧
      (∀ k', k' ≠ k → edgeGet h' e k' = edgeGet h e k') ∧
      h'.edge e = { h.edge e with params := (h'.edge e).params } ∧
      (∀ f, f ≠ e → h'.edge f = h.edge f) ∧ h'.node = h.node ∧ h'.graph = h.graph := by
  refine ⟨_, rfl, ?_, ?_, ?_, ?_, rfl, rfl⟩
  · simp [edgeGet, dget_dset]
  · intro k' hk; simp [edgeGet, dget_dset, Ne.symm hk]
  · simp
  · intro m hm; simp [upd_ne _ _ hm]

/-- **C58.** The extra keyword arguments of `add_node` for a new name, and of `connect` for a new edge, are the parameters of
the new object; a parameter that was never given raises `KeyError`. -/
theorem C58_initial {h : Heap} (r : Reachable h) {g : GRef} (hg : g < h.nG) {x : String} (hx : Key.str x ∉ dkeys (h.graph g).nodes)
    (a : NodeArgs) (p : IfExists) {n : NRef} {h' : Heap} (hr : addNode g (.str x) a p h = (.ok n, h')) (k : String) :
    nodeGet h' n k = match dget a.kwargs k with
      | some v => .ok v
      | none => .error .keyError := by
  obtain ⟨A, H⟩ := r.hist
  have R := H.rep
  have hk : Key.str x ∉ (A.graph g).names := by rw [SGraph.names, ← R.nodes g]; exact hx
  obtain ⟨h1, hr1, hR⟩ := R.addNode_new hg hk a p
  rw [hr] at hr1
  cases hsr : styleResult none h.nStyle a.style with
  | none => rw [hsr] at hr1; simp at hr1
  | some sr =>
    rw [hsr] at hr1 hR
    simp only [Option.elim, Prod.mk.injEq, Except.ok.injEq] at hr1
    obtain ⟨rfl, rfl⟩ := hr1
    simp only [nodeGet, hR.2.1, upd_same]
    cases dget a.kwargs k <;> rfl

/-- **C58** for a new edge. -/
theorem C58_initial_edge {h : Heap} (r : Reachable h) {g : GRef} {s t : NodeArg} {n m : NRef} (hs : getNode h g s = .ok n)
    (ht : getNode h g t = .ok m) (a : EdgeArgs) (p : IfExists)
    (hnew : ∀ e, LiveEdge h g e → edgeId h e ≠ .ok ((h.node n).id, (h.node m).id, a.raw))
    {e : ERef} {h' : Heap} (hr : connect g s t a p h = (.ok e, h')) (k : String) :
    edgeGet h' e k = match dget a.kwargs k with
      | some v => .ok v
      | none => .error .keyError := by
  obtain ⟨A, H⟩ := r.hist
  have R := H.rep
  obtain ⟨x, -, hx⟩ := R.getNode_ok.1 hs
  obtain ⟨y, -, hy⟩ := R.getNode_ok.1 ht
  have hids : (x, y, a.raw) ∉ (A.graph g).ids := by
    intro hc
    obtain ⟨e, he⟩ := Rep.mem_ids.1 hc
    refine hnew e ((liveEdge_iff R).2 ⟨_, he⟩) ?_
    rw [(R.nodeOk g x n hx).2.1, (R.nodeOk g y m hy).2.1]
    exact R.edgeId_eq he
  rw [R.connect_new hs ht hx hy a p hids] at hr
  cases hsr : styleResult none h.nStyle a.style with
  | none => rw [hsr] at hr; simp at hr
  | some sr =>
    rw [hsr] at hr
    simp only [Prod.mk.injEq, Except.ok.injEq] at hr
    obtain ⟨rfl, rfl⟩ := hr
    simp only [edgeGet, newEdgeHeap, upd_same]
    cases dget a.kwargs k <;> rfl

example : ((nodeSetParam 0 "w" (.int 1) >>= fun _ => nodeSetParam 0 "w" (.int 2) >>= fun _ => nodeSetParam 0 "c" (.int 3) >>= fun _ =>
    ask (fun h => nodeGet h 0 "w")) demo).1 = .ok (.int 2) := by decide +kernel

/-! ## C59: options of a graph -/

/-- **C59.** `Graph(strict=s, ordering=o, style_overwrite_allowed=w)` is a new, empty graph with these options, whatever
existed before, and no later call changes them, except that `append` sets `strict` and `ordering` when the dictionary
mentions them. -/
theorem C59_options (h : Heap) (s o w : Bool) :
    ∃ h', graphInit s o w h = (.ok h.nG, h') ∧ graphNodes h' h.nG = [] ∧
      (∀ g, g ≠ h.nG → h'.graph g = h.graph g) ∧ h'.node = h.node ∧ h'.edge = h.edge ∧
      ∀ ops, ((runOps ops h').graph h.nG).overwrite = some w ∧
        ((∀ s' o', Op.setOptions h.nG s' o' ∉ ops) →
          ((runOps ops h').graph h.nG).strict = s ∧ ((runOps ops h').graph h.nG).ordering = o) := by
  refine ⟨_, rfl, by simp [graphNodes, dvals], fun g hg => by simp [upd_ne _ _ hg], rfl, rfl, ?_⟩
  intro ops
  have := (Later.runOps ops ({ h with graph := upd h.graph h.nG { strict := s, ordering := o, overwrite := some w }, nG := h.nG + 1 } : Heap)).graph
    h.nG (Nat.lt_succ_self _)
  simp only [upd_same] at this
  refine ⟨this.2.1, fun hno => this.2.2 ?_⟩
  rintro ⟨op, hop, hu⟩
  cases op with
  | setOptions g' s' o' => simp only [Grows.setsOptions] at hu; subst hu; exact hno _ _ hop
  | _ => exact hu

example : (demo.graph 0).strict = false ∧ (demo.graph 1).ordering = true ∧
    ((runOps [.newGraph true false true, .add 2 "a"] demo).graph 2).strict = true := by decide +kernel

/-! ## C60: labels -/

/-- `Escaped s t`: `t` is `s` with a backslash before every double quote. -/
inductive Escaped : List Char → List Char → Prop
  | nil : Escaped [] []
  | quote {s t} : Escaped s t → Escaped ('"' :: s) ('\\' :: '"' :: t)
  | other {c s t} : c ≠ '"' → Escaped s t → Escaped (c :: s) (c :: t)

theorem escapeQuotes_spec (s : String) : Escaped s.toList (escapeQuotes s).toList := by
  unfold escapeQuotes
  rw [String.toList_ofList]
  generalize s.toList = l
  induction l with
  | nil => exact .nil
  | cons c l ih =>
    rw [List.flatMap_cons]
    by_cases hc : c = '"'
    · subst hc; simpa using Escaped.quote ih
    · simpa [hc] using Escaped.other hc ih

/-- **C60.** `node.label` is the last label given, or the name if none (or an empty one) was given, with quotes escaped. -/
theorem C60_label (h : Heap) (n : NRef) :
    ((h.node n).label = .none ∨ (h.node n).label = .str "" ∨ (h.node n).label = .int 0 →
      Escaped (h.node n).id.toStr.toList (nodeLabel h n).toList) ∧
    (∀ s, (h.node n).label = .str s → s ≠ "" → Escaped s.toList (nodeLabel h n).toList) ∧
    (∀ i, (h.node n).label = .int i → i ≠ 0 → Escaped (toString i).toList (nodeLabel h n).toList) ∧
    (∀ u t, (h.node n).label = .obj u t → Escaped t.toList (nodeLabel h n).toList) := by
  refine ⟨?_, ?_, ?_, ?_⟩
  · intro hl
    have : (h.node n).label.truthy = false := by rcases hl with hl | hl | hl <;> rw [hl] <;> rfl
    simp only [nodeLabel, this, Bool.false_eq_true, if_false]
    exact escapeQuotes_spec _
  · intro s hl hs
    have : (h.node n).label.truthy = true := by rw [hl]; simp [Val.truthy, hs]
    simp only [nodeLabel, this, if_true]
    rw [hl]
    exact escapeQuotes_spec _
  · intro i hl hi
    have : (h.node n).label.truthy = true := by rw [hl]; simp [Val.truthy, hi]
    simp only [nodeLabel, this, if_true]
    rw [hl]
    exact escapeQuotes_spec _
  · intro u t hl
    have : (h.node n).label.truthy = true := by rw [hl]; rfl
    simp only [nodeLabel, this, if_true]
    rw [hl]
    exact escapeQuotes_spec _

/-- **C60.** Setting a label changes the label of this node and nothing else. -/
theorem C60_set (h : Heap) (n : NRef) (v : Val) :
    ∃ h', nodeSetLabel n v h = (.ok (), h') ∧ h'.node n = { h.node n with label := v } ∧ (∀ m, m ≠ n → h'.node m = h.node m) ∧
      h'.edge = h.edge ∧ h'.graph = h.graph := by
  refine ⟨_, rfl, by simp, fun m hm => by simp [upd_ne _ _ hm], rfl, rfl⟩

example : nodeLabel demo 0 = "a" ∧ nodeLabel ((nodeSetLabel 0 (.str "x\"y")) demo).2 0 = "x\\\"y" := by decide +kernel

end Verif
