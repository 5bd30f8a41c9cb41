import Verif.Props.Similar
/-!
# C31-C33: copies
-/
namespace Verif
open M

/-- `g'` in heap `h'` is `g` in heap `h` with the node objects replaced by `φ` and the edge objects by `ψ`: the same nodes in
order with the same attributes, the same outward and inward edges in order with the same attributes and ends. -/
structure CopyOf (h h' : Heap) (g g' : GRef) (φ : NRef → NRef) (ψ : ERef → ERef) : Prop where
  names : dkeys (h'.graph g').nodes = dkeys (h.graph g).nodes
  nodes : graphNodes h' g' = (graphNodes h g).map φ
  flags : (h'.graph g').strict = (h.graph g).strict ∧ (h'.graph g').ordering = (h.graph g).ordering ∧
    (h'.graph g').counter = (h.graph g).counter
  node : ∀ n ∈ graphNodes h g, (h'.node (φ n)).graph = some g' ∧ (h'.node (φ n)).id = (h.node n).id ∧
    (h'.node (φ n)).index = (h.node n).index ∧ (h'.node (φ n)).value = (h.node n).value ∧
    (h'.node (φ n)).label = (h.node n).label ∧ (h'.node (φ n)).tooltip = (h.node n).tooltip ∧
    (h'.node (φ n)).params = (h.node n).params ∧ (h'.node (φ n)).frozen = (h.node n).frozen
  edges : ∀ n ∈ graphNodes h g, ∃ os is, outwardEdges h n = .ok os ∧ outwardEdges h' (φ n) = .ok (os.map ψ) ∧
    inwardEdges h n = .ok is ∧ inwardEdges h' (φ n) = .ok (is.map ψ)
  edge : ∀ e, LiveEdge h g e → ∃ s t i, edgeStart h e = .ok s ∧ edgeEnd h e = .ok t ∧ edgeId h e = .ok i ∧
    edgeStart h' (ψ e) = .ok (φ s) ∧ edgeEnd h' (ψ e) = .ok (φ t) ∧ edgeId h' (ψ e) = .ok i ∧
    (h'.edge (ψ e)).graph = some g' ∧ (h'.edge (ψ e)).value = (h.edge e).value ∧ (h'.edge (ψ e)).label = (h.edge e).label ∧
    (h'.edge (ψ e)).tooltip = (h.edge e).tooltip ∧ (h'.edge (ψ e)).params = (h.edge e).params ∧
    (h'.edge (ψ e)).frozen = (h.edge e).frozen ∧ ((h'.edge (ψ e)).style = none ↔ (h.edge e).style = none)
  inj : (∀ n ∈ graphNodes h g, ∀ k ∈ graphNodes h g, φ n = φ k → n = k) ∧
    (∀ e f, LiveEdge h g e → LiveEdge h g f → ψ e = ψ f → e = f)

/-- What a copy of an unstyled graph does, with everything the proofs below need. -/
theorem copy_run {h : Heap} {A : Spec} (H : Hist h A) {g : GRef} (hg : g < h.nG)
    (hst : ∀ n ∈ graphNodes h g, (h.node n).style = none) :
    ∃ m h', graphCopy g h = (.ok (h.nG, m), h') ∧ CopyPost h h' A g m ∧ Hist h' (A.copy g h.nG m) := by
  obtain ⟨m, h', hr, P⟩ := run_graphCopy H.rep hg hst
  refine ⟨m, h', hr, P, ?_⟩
  have := Hist.step (.copy g) H hg
  simp only [Op.step, bind_apply, hr, pure_apply] at this
  exact this

/-- **C31**: copying a graph without node styles succeeds; the result is a new graph that is the same as the original up to the
identity of its objects. -/
theorem C31_copy {h : Heap} (r : Reachable h) {g : GRef} (hg : g < h.nG) (hst : ∀ n ∈ graphNodes h g, (h.node n).style = none) :
    ∃ g' m h', graphCopy g h = (.ok (g', m), h') ∧ Reachable h' ∧ g' ≠ g ∧ g' < h'.nG ∧ CopyOf h h' g g' m.node m.edge := by
  obtain ⟨A, H⟩ := r.hist
  obtain ⟨m, h', hr, P, H'⟩ := copy_run H hg hst
  have R := H.rep
  have R' := H'.rep
  have hnode : ∀ {k n}, (k, n) ∈ (A.graph g).nodes → (k, m.node n) ∈ ((A.copy g h.nG m).graph h.nG).nodes := by
    intro k n hn
    rw [Spec.copy_graph_same]
    exact List.mem_map.2 ⟨_, hn, rfl⟩
  have hedge : ∀ {i e}, (i, e) ∈ (A.graph g).edges → (i, m.edge e) ∈ ((A.copy g h.nG m).graph h.nG).edges := by
    intro k n hn
    rw [Spec.copy_graph_same]
    exact List.mem_map.2 ⟨_, hn, rfl⟩
  refine ⟨h.nG, m, h', hr, H'.reachable, Nat.ne_of_gt hg, by rw [P.nG]; exact Nat.lt_succ_self _, ?_⟩
  constructor
  · rw [P.graphNew]; simp [dkeys]
  · unfold graphNodes; rw [P.graphNew]; simp [dvals]
  · rw [P.graphNew]; exact ⟨rfl, rfl, rfl⟩
  · intro n hn
    obtain ⟨k, hk⟩ := (mem_graphNodes R).1 hn
    rw [(P.node_of hk).2.2]
    exact ⟨rfl, rfl, rfl, rfl, rfl, rfl, rfl, rfl⟩
  · intro n hn
    obtain ⟨k, hk⟩ := (mem_graphNodes R).1 hn
    refine ⟨_, _, R.outwardEdges hk, ?_, R.inwardEdges hk, ?_⟩
    · rw [R'.outwardEdges (hnode hk), Spec.copy_graph_same]
      simp only [SGraph.out, List.filter_map, List.map_map]
      rfl
    · rw [R'.inwardEdges (hnode hk), Spec.copy_graph_same]
      simp only [SGraph.inn, List.filter_map, List.map_map]
      rfl
  · intro e he
    obtain ⟨i, hi⟩ := (liveEdge_iff R).1 he
    obtain ⟨_, _, st, h3, h4⟩ := P.edge_of hi
    obtain ⟨s, t, q1, q2, q3, _⟩ := R.live_edge hi
    refine ⟨s, t, i, by simp [edgeStart, q1], by simp [edgeEnd, q2], q3, ?_, ?_, R'.edgeId_eq (hedge hi), ?_⟩
    · simp [edgeStart, h3, q1]
    · simp [edgeEnd, h3, q2]
    · rw [h3]; exact ⟨rfl, rfl, rfl, rfl, rfl, rfl, h4⟩
  · constructor
    · intro n hn k hk e
      obtain ⟨a, ha⟩ := (mem_graphNodes R).1 hn
      obtain ⟨b, hb⟩ := (mem_graphNodes R).1 hk
      exact P.node_inj ha hb e
    · intro e f he hf heq
      exact P.edgeInj e f ((P.edgeKeys e).2 ((liveEdge_iff R).1 he)) ((P.edgeKeys f).2 ((liveEdge_iff R).1 hf)) heq

/-- **C31**: the copy of a graph without any styles is similar to the original, and the original to it. -/
theorem C31_similar {h : Heap} (r : Reachable h) {g : GRef} (hg : g < h.nG) (hst : ∀ n ∈ graphNodes h g, (h.node n).style = none)
    (hes : ∀ e, LiveEdge h g e → (h.edge e).style = none) {g' : GRef} {m : Memo} {h' : Heap}
    (hc : graphCopy g h = (.ok (g', m), h')) : graphSimilar h' g' g = .ok true ∧ graphSimilar h' g g' = .ok true := by
  obtain ⟨A, H⟩ := r.hist
  obtain ⟨m', h'', hr, P, H'⟩ := copy_run H hg hst
  rw [hc] at hr
  cases hr
  have R := H.rep
  suffices hs : graphSimilar h' h.nG g = .ok true from ⟨hs, C42_symmetric H'.reachable hs⟩
  rw [C42_exact H']
  have hne : g ≠ h.nG := Nat.ne_of_lt hg
  constructor
  · intro k
    rw [Spec.copy_graph_same, Spec.copy_graph_ne _ _ _ hne]
    simp [SGraph.names]
  · intro k
    rw [Spec.copy_graph_same, Spec.copy_graph_ne _ _ _ hne]
    simp [SGraph.ids]
  · intro k n n' hn hn'
    rw [Spec.copy_graph_same] at hn
    rw [Spec.copy_graph_ne _ _ _ hne] at hn'
    obtain ⟨⟨k', n''⟩, hp, e⟩ := List.mem_map.1 hn
    cases e
    obtain rfl := val_unique (R.keysNodup g) hp hn'
    rw [(P.node_of hp).2.2, P.nodeOld _ (R.nodeOk g _ _ hp).1]
    exact ⟨rfl, rfl, fun _ => rfl⟩
  · intro i e e' he he'
    rw [Spec.copy_graph_same] at he
    rw [Spec.copy_graph_ne _ _ _ hne] at he'
    obtain ⟨⟨k', n''⟩, hp, e⟩ := List.mem_map.1 he
    cases e
    obtain rfl := val_unique (R.idsNodup g) hp he'
    obtain ⟨_, _, st, h3, h4⟩ := P.edge_of hp
    have hnone := hes _ ((liveEdge_iff R).2 ⟨_, hp⟩)
    rw [h3, P.edgeOld _ (R.edgeOk g _ _ _ _ hp).1]
    exact ⟨rfl, (h4.2 hnone).trans hnone.symm, fun _ => rfl⟩
  · rw [P.graphNew, P.graphOld g hne]
  · rw [P.graphNew, P.graphOld g hne]

/-- Graph 0 of the demo has four nodes, five edges, parallel edges and a self-loop. -/
example : ∃ g' m h', graphCopy 0 demo = (.ok (g', m), h') ∧ Reachable h' ∧ g' ≠ 0 ∧ g' < h'.nG ∧
    CopyOf demo h' 0 g' m.node m.edge := C31_copy demo_reachable (by decide) (by decide +kernel)

example : ((do let r ← graphCopy 0; ask (fun h => graphSimilar h r.1 0) : M Bool) demo).1 = .ok true := by decide +kernel

/-! ## C32 -/

theorem Untouched.refl (h : Heap) (g : GRef) : Untouched h h g := ⟨rfl, fun _ _ => rfl, fun _ _ => rfl⟩

theorem Untouched.graphNodes {h h' : Heap} {g : GRef} (u : Untouched h h' g) : Verif.graphNodes h' g = Verif.graphNodes h g := by
  unfold Verif.graphNodes; rw [u.graph]

theorem Untouched.live {h h' : Heap} {g : GRef} (u : Untouched h h' g) {e : ERef} (he : LiveEdge h g e) (r : Reachable h)
    (r' : Reachable h') : LiveEdge h' g e := by
  obtain ⟨A, H⟩ := r.hist
  obtain ⟨B, H'⟩ := r'.hist
  obtain ⟨i, hi⟩ := (liveEdge_iff H.rep).1 he
  obtain ⟨n, hn, _, ho⟩ := H.rep.edge_out hi
  have hm : n ∈ Verif.graphNodes h g := (mem_graphNodes H.rep).2 ⟨_, hn⟩
  obtain ⟨k, hk⟩ := (mem_graphNodes H'.rep).1 (by rw [u.graphNodes]; exact hm)
  rw [← u.nodes n hm, H'.rep.outE g k n hk] at ho
  exact (liveEdge_iff H'.rep).2 ⟨i, (List.mem_filter.1 ho).1⟩

theorem Untouched.trans {h h' h'' : Heap} {g : GRef} (r : Reachable h) (r' : Reachable h') (u : Untouched h h' g) (v : Untouched h' h'' g) :
    Untouched h h'' g := by
  refine ⟨v.graph.trans u.graph, fun n hn => ?_, fun e he => ?_⟩
  · rw [v.nodes n (by rw [u.graphNodes]; exact hn), u.nodes n hn]
  · rw [v.edges e (u.live he r r'), u.edges e he]

/-- None of the calls is, when its turn comes, a call on graph `g`. -/
def NoneOn (g : GRef) : List Op → Heap → Prop
  | [], _ => True
  | op :: ops, h => ¬ op.on h g ∧ NoneOn g ops (op.step h).2

/-- Whatever is done with other graphs, graph `g` stays exactly as it was. -/
theorem untouched_runOps {g : GRef} : ∀ (ops : List Op) {h : Heap}, Reachable h → g < h.nG → AllOk ops h → NoneOn g ops h →
    Untouched h (runOps ops h) g := by
  intro ops
  induction ops with
  | nil => intro h _ _ _ _; exact .refl h g
  | cons op ops ih =>
    intro h r hg ok no
    have u := C10_isolated r op ok.1 hg no.1
    exact u.trans r (.step op r ok.1) (ih (.step op r ok.1) (Nat.lt_of_lt_of_le hg (Grows.step op h).nG) ok.2 no.2)

/-- **C32**: `copy` leaves every existing graph as it was, whether it succeeds or raises. -/
theorem C32_original {h : Heap} (r : Reachable h) {g : GRef} (hg : g < h.nG) {x : GRef} (hx : x < h.nG) :
    Untouched h (graphCopy g h).2 x := by
  have u := C10_isolated r (.copy g) hg hx (by simp [Op.on])
  simp only [Op.step, bind_apply] at u
  cases hr : graphCopy g h with
  | mk a b =>
    rw [hr] at u
    cases a <;> exact u

/-- **C32**: the copy has no node and no edge object in common with any other graph. -/
theorem C32_disjoint {h : Heap} (r : Reachable h) {g : GRef} (hg : g < h.nG) {g' : GRef} {m : Memo} {h' : Heap}
    (hc : graphCopy g h = (.ok (g', m), h')) {x : GRef} (hx : x ≠ g') :
    (∀ n ∈ graphNodes h' g', n ∉ graphNodes h' x) ∧ (∀ e, LiveEdge h' g' e → ¬ LiveEdge h' x e) := by
  have r' := Reachable.step (.copy g) r hg
  simp only [Op.step, bind_apply, hc, pure_apply] at r'
  obtain ⟨A, H⟩ := r'.hist
  constructor
  · intro n hn hn'
    obtain ⟨a, ha⟩ := (mem_graphNodes H.rep).1 hn
    obtain ⟨b, hb⟩ := (mem_graphNodes H.rep).1 hn'
    exact hx (H.rep.node_unique hb ha).1
  · intro e he he'
    obtain ⟨a, ha⟩ := (liveEdge_iff H.rep).1 he
    obtain ⟨b, hb⟩ := (liveEdge_iff H.rep).1 he'
    exact hx (H.rep.handle_unique hb ha).1

/-- **C32**: after copying, any sequence of calls none of which is a call on the original leaves the original exactly as it was
before the copy, and any sequence of calls none of which is a call on the copy leaves the copy exactly as it was made. -/
theorem C32_independent {h : Heap} (r : Reachable h) {g : GRef} (hg : g < h.nG) {g' : GRef} {m : Memo} {h' : Heap}
    (hc : graphCopy g h = (.ok (g', m), h')) (ops : List Op) (ok : AllOk ops h') :
    (NoneOn g ops h' → Untouched h (runOps ops h') g) ∧ (NoneOn g' ops h' → Untouched h' (runOps ops h') g') := by
  have r' := Reachable.step (.copy g) r hg
  simp only [Op.step, bind_apply, hc, pure_apply] at r'
  have hG := (Grows.step (.copy g) h).nG
  simp only [Op.step, bind_apply, hc, pure_apply] at hG
  have u := C32_original r hg hg
  rw [hc] at u
  constructor
  · intro no
    exact u.trans r r' (untouched_runOps ops r' (Nat.lt_of_lt_of_le hg hG) ok no)
  · intro no
    refine untouched_runOps ops r' ?_ ok no
    by_cases hst : ∀ n ∈ graphNodes h g, (h.node n).style = none
    · obtain ⟨_, _, _, hr, _, _, hlt, _⟩ := C31_copy r hg hst
      rw [hc] at hr
      cases hr
      exact hlt
    · exact absurd hc (by
        have : ((dvals (h.graph g).nodes).any fun n => (h.node n).style.isSome) = true := by
          rw [List.any_eq_true]
          refine Classical.byContradiction fun hn => hst fun n hm => ?_
          cases hs : (h.node n).style with
          | none => rfl
          | some s => exact absurd ⟨n, hm, by rw [hs]; rfl⟩ hn
        simp only [graphCopy, bind_apply, look_apply, this, if_true, raise]
        intro e; simp at e)

/-- Emptying the copy (graph 2, whose nodes are objects 5 to 8) leaves the original alone. -/
def copyDemo : Heap := ((Op.copy 0).step demo).2

theorem copyDemo_reachable : Reachable copyDemo := .step (.copy 0) demo_reachable (by simp only [Op.Ok]; decide)

example : graphNodes copyDemo 2 = [5, 6, 7, 8] ∧ outwardEdges copyDemo 5 = .ok [5, 6] := by decide +kernel

example : Untouched copyDemo (runOps [.nodeValue 5 (.int 3), .removeNode 2 (.key (.str "a")), .link 2 "b" "d"] copyDemo) 0 := by
  refine untouched_runOps _ copyDemo_reachable (by decide +kernel) ?_ ?_
  · simp only [AllOk, Op.Ok, Op.link]; decide +kernel
  · simp only [NoneOn, Op.on, Op.link]; decide +kernel

/-! ## C33 -/

/-- **C33**, the part that holds: without node styles `copy` succeeds. -/
theorem C33_unstyled_partial {h : Heap} (r : Reachable h) {g : GRef} (hg : g < h.nG)
    (hst : ∀ n ∈ graphNodes h g, (h.node n).style = none) : ∃ x, (graphCopy g h).1 = .ok x := by
  obtain ⟨g', m, h', hr, _⟩ := C31_copy r hg hst
  exact ⟨(g', m), by rw [hr]⟩

/-- **C33 as stated is violated**: if any node of the graph has a style, `copy` raises `KeyError`. -/
theorem C33_violated {h : Heap} {g : GRef} {n : NRef} (hn : n ∈ graphNodes h g) (hs : (h.node n).style ≠ none) :
    graphCopy g h = (.error .keyError, h) := by
  have : ((dvals (h.graph g).nodes).any fun n => (h.node n).style.isSome) = true := by
    rw [List.any_eq_true]
    refine ⟨n, hn, ?_⟩
    cases hst : (h.node n).style with
    | none => exact absurd hst hs
    | some s => rfl
  simp only [graphCopy, bind_apply, look_apply, this, if_true, raise]

/-- Such states are reachable: one `add_node(..., style=...)` suffices. -/
theorem C33_violated_reachable : ∃ h, Reachable h ∧ (graphCopy 0 h).1 = .error .keyError := by
  refine ⟨runOps [.newGraph false true false, .addNode 0 (.str "a") { style := .dict true } .warn] Heap.init, ?_, by decide +kernel⟩
  refine Reachable.runOps .init _ ⟨trivial, ?_⟩
  simp only [AllOk, Op.Ok]
  decide

/-- **C33**: a copy has lost its settings. In particular a style in a copy can never be replaced: once a node of the copy has a
style, setting one raises `AttributeError`, also if the original allowed overwriting styles. -/
theorem C33_settings_lost {h : Heap} (r : Reachable h) {g : GRef} (hg : g < h.nG) {g' : GRef} {m : Memo} {h' : Heap}
    (hc : graphCopy g h = (.ok (g', m), h')) (hst : ∀ n ∈ graphNodes h g, (h.node n).style = none) :
    (h'.graph g').overwrite = none ∧
    ∀ n ∈ graphNodes h' g', ∀ ops, AllOk ops h' → ((runOps ops h').node n).graph = some g' →
      ((runOps ops h').node n).style ≠ none → ∀ s, (nodeSetStyle n s (runOps ops h')).1 = .error .attributeError := by
  obtain ⟨A, H⟩ := r.hist
  obtain ⟨m', h'', hr, P, H'⟩ := copy_run H hg hst
  rw [hc] at hr
  cases hr
  have ho : (h'.graph h.nG).overwrite = none := by rw [P.graphNew]
  refine ⟨ho, ?_⟩
  intro n _ ops ok hgr hsty s
  have hover : ((runOps ops h').graph h.nG).overwrite = none := by
    rw [((Later.runOps ops h').graph h.nG (by rw [P.nG]; exact Nat.lt_succ_self _)).2.1, ho]
  simp only [nodeSetStyle, bind_apply, look_apply, checkOverwrite, hgr]
  cases hx : ((runOps ops h').node n).style with
  | none => exact absurd hx hsty
  | some x => simp only [bind_apply, look_apply, hover, raise]

end Verif
