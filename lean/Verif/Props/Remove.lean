import Verif.Props.Connect
/-!
# C06, C07: `remove_node`, `disconnect`, `remove_self`
-/
namespace Verif
open M

theorem mem_graphNodes {h : Heap} {A : Spec} (R : Rep h A) {g : GRef} {n : NRef} :
    n ∈ graphNodes h g ↔ ∃ k, (k, n) ∈ (A.graph g).nodes := by
  unfold graphNodes dvals
  rw [R.nodes]
  simp

theorem edge_ends {h : Heap} {A : Spec} (R : Rep h A) {g : GRef} {k : Key} {n : NRef} {i : EdgeId} {e : ERef}
    (hn : (k, n) ∈ (A.graph g).nodes) (he : (i, e) ∈ (A.graph g).edges) :
    (edgeStart h e = .ok n ↔ i.1 = k) ∧ (edgeEnd h e = .ok n ↔ i.2.1 = k) := by
  obtain ⟨n', m', h1, h2, h3, -, -, h6, h7⟩ := R.live_edge he
  simp only [edgeStart, edgeEnd, h1, h2, Except.ok.injEq]
  refine ⟨⟨?_, ?_⟩, ⟨?_, ?_⟩⟩
  · rintro rfl; exact (R.node_unique h6 hn).2
  · rintro rfl; exact val_unique (R.keysNodup g) h6 hn
  · rintro rfl; exact (R.node_unique h7 hn).2
  · rintro rfl; exact val_unique (R.keysNodup g) h7 hn

/-- Filtering handles is filtering entries. -/
theorem filter_handles {l : List (EdgeId × ERef)} {p : EdgeId × ERef → Bool} {q : ERef → Bool}
    (hpq : ∀ x ∈ l, p x = q x.2) : (l.filter p).map Prod.snd = (l.map Prod.snd).filter q := by
  rw [List.filter_map]
  congr 1
  exact List.filter_congr (by intro x hx; simpa using hpq x hx)

/-- **C06.** `remove_node` on a node `n` of graph `g` succeeds. Afterwards the graph has the same nodes in the same
order without `n`; every other node of the graph has the same outward and inward edges in the same order without those
that start or end at `n`; those edges report no start, end or graph; nothing else changes. -/
theorem C06_remove_node {h : Heap} (r : Reachable h) {g : GRef} {a : NodeArg} {n : NRef} (hn : getNode h g a = .ok n) :
    ∃ h', removeNode g a h = (.ok (), h') ∧
      graphNodes h' g = (graphNodes h g).filter (fun m => decide (m ≠ n)) ∧
      dkeys (h'.graph g).nodes = (dkeys (h.graph g).nodes).filter (fun k => decide (k ≠ (h.node n).id)) ∧
      (∀ m ∈ graphNodes h g, m ≠ n → ∃ os is,
        outwardEdges h m = .ok os ∧ outwardEdges h' m = .ok (os.filter (fun e => decide (edgeEnd h e ≠ .ok n))) ∧
        inwardEdges h m = .ok is ∧ inwardEdges h' m = .ok (is.filter (fun e => decide (edgeStart h e ≠ .ok n)))) ∧
      (∃ os is, outwardEdges h n = .ok os ∧ inwardEdges h n = .ok is ∧
        (∀ e, e ∈ os ∨ e ∈ is →
          h'.edge e = { h.edge e with start := none, stop := none, graph := none }) ∧
        (∀ e, e ∉ os → e ∉ is → h'.edge e = h.edge e)) ∧
      (h'.node n = { h.node n with graph := none, outE := [], inE := [] }) ∧
      (∀ m, m ≠ n → ∃ o i, h'.node m = { h.node m with outE := o, inE := i }) ∧
      (∀ m, m ∉ graphNodes h g → h'.node m = h.node m) ∧
      (∀ g', g' ≠ g → h'.graph g' = h.graph g') ∧
      (h'.graph g = { h.graph g with nodes := (h'.graph g).nodes }) := by
  obtain ⟨A, H⟩ := r.hist
  have R := H.rep
  obtain ⟨k, hk, hkn⟩ := R.getNode_ok.1 hn
  obtain ⟨h1, K, hrun, R'⟩ := R.removeNode_live hn hkn
  refine ⟨_, hrun, ?_, ?_, ?_, ?_, ?_, ?_, ?_, ?_, ?_⟩
  · simp only [graphNodes, dvals, upd_same, ddel, K.graph, R.nodes]
    rw [List.filter_map]
    congr 1
    refine List.filter_congr ?_
    rintro ⟨k', n'⟩ hk'
    simp only [Function.comp, decide_eq_decide]
    refine not_congr ⟨?_, ?_⟩
    · rintro rfl; exact val_unique (R.keysNodup g) hk' hkn
    · rintro rfl; exact (R.node_unique hk' hkn).2
  · simp only [dkeys, upd_same, ddel, K.graph, R.nodes, (R.nodeOk g k n hkn).2.1]
    rw [List.filter_map]
    rfl
  · intro m hm hmn
    obtain ⟨k', hk'⟩ := (mem_graphNodes R).1 hm
    have hkk : k' ≠ k := by rintro rfl; exact hmn (val_unique (R.keysNodup g) hk' hkn)
    have hm' : (k', m) ∈ ((A.unregister g k).graph g).nodes := by
      simp only [Spec.unregister, upd_same, SGraph.delNode, List.mem_filter, decide_eq_true_eq]
      exact ⟨hk', hkk⟩
    refine ⟨_, _, R.outwardEdges hk', ?_, R.inwardEdges hk', ?_⟩
    · rw [R'.outwardEdges hm']
      congr 1
      simp only [Spec.unregister, upd_same, SGraph.delNode, SGraph.out, List.filter_filter]
      rw [← filter_handles (p := fun p => decide (p.1.2.1 ≠ k)), List.filter_filter]
      · congr 1
        refine List.filter_congr ?_
        rintro ⟨⟨s, t, i⟩, e⟩ _
        by_cases hs : s = k'
        · subst hs; simp [hkk]
        · simp [hs]
      · rintro ⟨i, e⟩ he
        have := (edge_ends R hkn (List.mem_filter.1 he).1).2
        simp only [decide_eq_decide]
        exact not_congr this.symm
    · rw [R'.inwardEdges hm']
      congr 1
      simp only [Spec.unregister, upd_same, SGraph.delNode, SGraph.inn, List.filter_filter]
      rw [← filter_handles (p := fun p => decide (p.1.1 ≠ k)), List.filter_filter]
      · congr 1
        refine List.filter_congr ?_
        rintro ⟨⟨s, t, i⟩, e⟩ _
        by_cases hs : t = k'
        · subst hs; simp [hkk]
        · simp [hs]
      · rintro ⟨i, e⟩ he
        have := (edge_ends R hkn (List.mem_filter.1 he).1).1
        simp only [decide_eq_decide]
        exact not_congr this.symm
  · refine ⟨_, _, R.outwardEdges hkn, R.inwardEdges hkn, ?_, ?_⟩
    · intro e he
      refine K.gone e ?_
      simp only [List.mem_append, List.mem_filter, decide_eq_true_eq]
      by_cases hc : e ∈ ((A.graph g).out k).map Prod.snd
      · exact .inl hc
      · exact .inr ⟨he.resolve_left hc, hc⟩
    · intro e h2 h3
      refine K.edge e ?_
      simp only [List.mem_append, List.mem_filter, not_or]
      exact ⟨h2, fun hc => h3 hc.1⟩
  · obtain ⟨o, i, ho⟩ := K.node n
    have hst := R'.stale n (by
      intro g' k' hc
      by_cases hg : g' = g
      · subst hg
        simp only [Spec.unregister, upd_same, SGraph.delNode, List.mem_filter, decide_eq_true_eq] at hc
        exact hc.2 (R.node_unique hc.1 hkn).2
      · simp only [Spec.unregister, upd_ne _ _ hg] at hc
        exact hg (R.node_unique hc hkn).1)
    simp only [upd_same, ho] at hst ⊢
    rw [hst.1, hst.2]
  · intro m hm
    obtain ⟨o, i, ho⟩ := K.node m
    exact ⟨o, i, by simp [upd_ne _ _ hm, ho]⟩
  · intro m hm
    have hmn : m ≠ n := by rintro rfl; exact hm ((mem_graphNodes R).2 ⟨k, hkn⟩)
    obtain ⟨o, i, ho⟩ := K.node m
    by_cases hx : ∃ g' k', (k', m) ∈ (A.graph g').nodes
    · obtain ⟨g', k', hk'⟩ := hx
      have hg : g' ≠ g := by rintro rfl; exact hm ((mem_graphNodes R).2 ⟨k', hk'⟩)
      have hm' : (k', m) ∈ ((A.unregister g k).graph g').nodes := by simpa [Spec.unregister, upd_ne _ _ hg]
      have e1 := R'.outE _ _ _ hm'
      have e2 := R'.inE _ _ _ hm'
      have f1 := R.outE _ _ _ hk'
      have f2 := R.inE _ _ _ hk'
      simp only [upd_ne _ _ hmn, ho, Spec.unregister, upd_ne _ _ hg] at e1 e2 ⊢
      rw [e1, e2, ← f1, ← f2]
    · have hno : ∀ g' k', (k', m) ∉ (A.graph g').nodes := fun g' k' hc => hx ⟨g', k', hc⟩
      have f := R.stale m hno
      have e := R'.stale m (by
        intro g' k' hc
        by_cases hg : g' = g
        · subst hg
          simp only [Spec.unregister, upd_same, SGraph.delNode, List.mem_filter] at hc
          exact hno _ _ hc.1
        · simp only [Spec.unregister, upd_ne _ _ hg] at hc
          exact hno _ _ hc)
      simp only [upd_ne _ _ hmn, ho] at e ⊢
      rw [e.1, e.2]
      cases hnm : h.node m
      simp only [hnm] at f
      rw [f.1, f.2]
  · intro g' hg
    simp [upd_ne _ _ hg, K.graph]
  · simp [K.graph]

/-- `remove_node("a")` in the demo graph removes two parallel edges and one inward edge. -/
example : getNode demo 0 (.key (.str "a")) = .ok 0 ∧ graphNodes (removeNode 0 (.key (.str "a")) demo).2 0 = [1, 2, 3] ∧
    inwardEdges (removeNode 0 (.key (.str "a")) demo).2 1 = .ok [] := by decide +kernel

/-- An edge that is listed at some registered node, i.e. an edge of some graph. -/
def LiveEdge (h : Heap) (g : GRef) (e : ERef) : Prop :=
  ∃ n ∈ graphNodes h g, ∃ os, outwardEdges h n = .ok os ∧ e ∈ os

theorem liveEdge_iff {h : Heap} {A : Spec} (R : Rep h A) {g : GRef} {e : ERef} :
    LiveEdge h g e ↔ ∃ i, (i, e) ∈ (A.graph g).edges := by
  constructor
  · rintro ⟨n, hn, os, ho, he⟩
    obtain ⟨k, hk⟩ := (mem_graphNodes R).1 hn
    rw [R.outwardEdges hk] at ho
    cases ho
    obtain ⟨i, hi, -⟩ := Rep.mem_out_handles.1 he
    exact ⟨i, hi⟩
  · rintro ⟨i, hi⟩
    obtain ⟨n, m, h1, h2, h3, -, -, h6, h7⟩ := R.live_edge hi
    exact ⟨n, (mem_graphNodes R).2 ⟨_, h6⟩, _, R.outwardEdges h6, Rep.mem_out_handles.2 ⟨i, hi, rfl⟩⟩

/-- What deleting one edge `e` means, apart from what becomes of the edge object itself. -/
structure EdgeDeleted (h h' : Heap) (e : ERef) : Prop where
  graphs : h'.graph = h.graph
  others : ∀ f, f ≠ e → h'.edge f = h.edge f
  attrs : ∀ n, ∃ o i, h'.node n = { h.node n with outE := o, inE := i }
  out : ∀ g, ∀ n ∈ graphNodes h g, ∃ os, outwardEdges h n = .ok os ∧ outwardEdges h' n = .ok (os.filter (fun f => decide (f ≠ e)))
  inn : ∀ g, ∀ n ∈ graphNodes h g, ∃ is, inwardEdges h n = .ok is ∧ inwardEdges h' n = .ok (is.filter (fun f => decide (f ≠ e)))

theorem edgeDeleted_of {h h' : Heap} {A : Spec} (R : Rep h A) {g : GRef} {i : EdgeId} {e : ERef}
    (he : (i, e) ∈ (A.graph g).edges) (R' : Rep h' (A.on g (fun G => G.delEdge e)))
    (hg : h'.graph = h.graph) (ho : ∀ f, f ≠ e → h'.edge f = h.edge f)
    (ha : ∀ n, ∃ o i, h'.node n = { h.node n with outE := o, inE := i }) : EdgeDeleted h h' e := by
  have hgr : ∀ g', ((A.on g (fun G => G.delEdge e)).graph g').nodes = (A.graph g').nodes ∧
      ((A.on g (fun G => G.delEdge e)).graph g').edges = (A.graph g').edges.filter (fun p => decide (p.2 ≠ e)) := by
    intro g'
    by_cases hgg : g' = g
    · subst hgg; simp [SGraph.delEdge]
    · rw [Spec.on_ne _ _ hgg]
      refine ⟨rfl, ?_⟩
      rw [List.filter_eq_self.2]
      rintro ⟨j, f⟩ hf
      simp only [decide_eq_true_eq]
      rintro rfl
      exact hgg (R.handle_unique hf he).1
  refine ⟨hg, ho, ha, ?_, ?_⟩
  · intro g' n hn
    obtain ⟨k, hk⟩ := (mem_graphNodes R).1 hn
    refine ⟨_, R.outwardEdges hk, ?_⟩
    rw [R'.outwardEdges (by rw [(hgr g').1]; exact hk)]
    simp only [SGraph.out, (hgr g').2]
    rw [← filter_handles (p := fun p => decide (p.2 ≠ e)) (by simp), List.filter_filter, List.filter_filter]
    congr 2
    refine List.filter_congr ?_
    intro x _
    simp [Bool.and_comm]
  · intro g' n hn
    obtain ⟨k, hk⟩ := (mem_graphNodes R).1 hn
    refine ⟨_, R.inwardEdges hk, ?_⟩
    rw [R'.inwardEdges (by rw [(hgr g').1]; exact hk)]
    simp only [SGraph.inn, (hgr g').2]
    rw [← filter_handles (p := fun p => decide (p.2 ≠ e)) (by simp), List.filter_filter, List.filter_filter]
    congr 2
    refine List.filter_congr ?_
    intro x _
    simp [Bool.and_comm]

/-- **C07.** `disconnect(edge)` on an edge of a graph succeeds and removes exactly that edge; the edge object no longer
belongs to a graph. -/
theorem C07_disconnect {h : Heap} (r : Reachable h) {g : GRef} {e : ERef} (he : LiveEdge h g e) :
    ∃ h', disconnect e h = (.ok (), h') ∧ EdgeDeleted h h' e ∧ (h'.edge e).graph = none := by
  obtain ⟨A, H⟩ := r.hist
  have R := H.rep
  obtain ⟨i, hi⟩ := (liveEdge_iff R).1 he
  obtain ⟨n, m, h1, h2, hrun, R'⟩ := R.disconnect_live hi
  refine ⟨_, hrun, edgeDeleted_of R hi R' rfl ?_ ?_, ?_⟩
  · intro f hf; simp [disconnectHeap, upd_ne _ _ hf]
  · intro x; exact ⟨_, _, rfl⟩
  · simp [disconnectHeap]

/-- **C07.** The same for `edge.remove_self()`; here the edge object also loses its ends. -/
theorem C07_remove_self {h : Heap} (r : Reachable h) {g : GRef} {e : ERef} (he : LiveEdge h g e) :
    ∃ h', edgeRemoveSelf e h = (.ok (), h') ∧ EdgeDeleted h h' e ∧
      h'.edge e = { h.edge e with start := none, stop := none, graph := none } := by
  obtain ⟨A, H⟩ := r.hist
  have R := H.rep
  obtain ⟨i, hi⟩ := (liveEdge_iff R).1 he
  obtain ⟨n, m, h1, h2, hrun, R'⟩ := R.removeSelf_live hi
  refine ⟨_, hrun, edgeDeleted_of R hi R' rfl ?_ ?_, ?_⟩
  · intro f hf; simp [removeSelfHeap, upd_ne _ _ hf]
  · intro x; exact ⟨_, _, rfl⟩
  · simp [removeSelfHeap]

/-- **C07.** On an edge object that is in no graph (never created, or removed in whatever way), both calls raise and
change nothing. -/
theorem C07_dead {h : Heap} (r : Reachable h) {e : ERef} (he : ∀ g, ¬ LiveEdge h g e) :
    (∃ err, disconnect e h = (.error err, h)) ∧ (∃ err, edgeRemoveSelf e h = (.error err, h)) := by
  obtain ⟨A, H⟩ := r.hist
  have R := H.rep
  have : ∀ g, e ∉ (A.graph g).handles := by
    intro g hc
    exact he g ((liveEdge_iff R).2 (Rep.mem_handles.1 hc))
  exact ⟨R.disconnect_dead this, R.removeSelf_dead this⟩

/-- **C07.** In particular a second `disconnect` or `remove_self` raises and changes nothing. -/
theorem C07_twice {h h' : Heap} (r : Reachable h) {g : GRef} {e : ERef} (he : LiveEdge h g e)
    (hrun : disconnect e h = (.ok (), h') ∨ edgeRemoveSelf e h = (.ok (), h')) :
    (∃ err, disconnect e h' = (.error err, h')) ∧ (∃ err, edgeRemoveSelf e h' = (.error err, h')) := by
  have hD : EdgeDeleted h h' e ∧ Reachable h' := by
    rcases hrun with hrun | hrun
    · obtain ⟨h'', hr, D, -⟩ := C07_disconnect r he
      rw [hr] at hrun; cases hrun
      have := Reachable.step (.disconnect e) r trivial
      simp only [Op.step, bind_apply, hr] at this
      exact ⟨D, this⟩
    · obtain ⟨h'', hr, D, -⟩ := C07_remove_self r he
      rw [hr] at hrun; cases hrun
      have := Reachable.step (.removeSelf e) r trivial
      simp only [Op.step, bind_apply, hr] at this
      exact ⟨D, this⟩
  refine C07_dead hD.2 ?_
  rintro g' ⟨n, hn, os, ho, hos⟩
  have hn' : n ∈ graphNodes h g' := by simpa [graphNodes, hD.1.graphs] using hn
  obtain ⟨os', h1, h2⟩ := hD.1.out g' n hn'
  rw [h2] at ho
  cases ho
  simp at hos

example : LiveEdge demo 0 4 := ⟨3, by decide, [4], by decide, by decide⟩
example : (disconnect 4 demo).1 = .ok () ∧ (disconnect 4 (disconnect 4 demo).2).1 = .error .keyError ∧
    (edgeRemoveSelf 4 (edgeRemoveSelf 4 demo).2).1 = .error (.valueError "Either start or end Node is missing!") := by
  decide +kernel

end Verif
