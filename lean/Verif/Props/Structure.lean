import Verif.Props.Demo
/-!
# C01, C02: the bookkeeping of nodes and edges
-/
namespace Verif
open M

/-- **C02.** After any history of legal calls (failing ones included) that drives the abstract multigraph of
`Spec/MultiGraph.lean` to `A`, the nodes of every graph are the abstract nodes in order, the outward (inward) edges
of every node are the abstract edges that start (end) there, in order, and every edge reports its id. -/
theorem C02_refines {h : Heap} {A : Spec} (H : Hist h A) (g : GRef) :
    dkeys (h.graph g).nodes = (A.graph g).names ∧
    graphNodes h g = (A.graph g).nodes.map Prod.snd ∧
    (∀ k n, (k, n) ∈ (A.graph g).nodes →
      (h.node n).id = k ∧
      outwardEdges h n = .ok (((A.graph g).edges.filter (fun p => decide (p.1.1 = k))).map Prod.snd) ∧
      inwardEdges h n = .ok (((A.graph g).edges.filter (fun p => decide (p.1.2.1 = k))).map Prod.snd)) ∧
    (∀ i e, (i, e) ∈ (A.graph g).edges → edgeId h e = .ok i) := by
  have R := H.rep
  refine ⟨by rw [dkeys, R.nodes]; rfl, by rw [graphNodes, R.nodes]; rfl, ?_, fun i e hi => R.edgeId_eq hi⟩
  intro k n hn
  exact ⟨(R.nodeOk g k n hn).2.1, R.outwardEdges hn, R.inwardEdges hn⟩

/-- Every reachable heap is the end of a history with an abstract state, so `C02_refines` applies to all of them. -/
theorem C02_total {h : Heap} (r : Reachable h) : ∃ A, Hist h A := r.hist

/-- The abstract names and edge ids are pairwise different in every history. -/
theorem C02_nodup {h : Heap} {A : Spec} (H : Hist h A) (g : GRef) :
    (A.graph g).names.Nodup ∧ (A.graph g).ids.Nodup ∧
    (∀ s t i e, ((s, t, i), e) ∈ (A.graph g).edges → s ∈ (A.graph g).names ∧ t ∈ (A.graph g).names) := by
  have R := H.rep
  refine ⟨R.keysNodup g, R.idsNodup g, ?_⟩
  intro s t i e he
  obtain ⟨_, _, _, _, n, m, hn, hm, _⟩ := R.edgeOk g s t i e he
  exact ⟨List.mem_map.2 ⟨_, hn, rfl⟩, List.mem_map.2 ⟨_, hm, rfl⟩⟩

example : ∃ A, Hist demo A := C02_total demo_reachable

/-- **C01**, outward half: the outward edges of a registered node `n` are pairwise different; each starts at `n`,
ends at a node `m` registered in the same graph and belongs to that graph, is an inward edge of `m`, and is stored on
both sides under its own id. -/
theorem C01_outward {h : Heap} (r : Reachable h) {g : GRef} {n : NRef} (hn : n ∈ graphNodes h g) :
    ∃ os, outwardEdges h n = .ok os ∧ os.Nodup ∧ ∀ e ∈ os, ∃ m i is,
      edgeStart h e = .ok n ∧ edgeEnd h e = .ok m ∧ m ∈ graphNodes h g ∧ (h.edge e).graph = some g ∧
      inwardEdges h m = .ok is ∧ e ∈ is ∧
      edgeId h e = .ok i ∧ dget (h.node n).outE i = some e ∧ dget (h.node m).inE i = some e := by
  obtain ⟨A, H⟩ := r.hist
  have R := H.rep
  unfold graphNodes dvals at hn
  rw [R.nodes] at hn
  obtain ⟨⟨k, n⟩, hkn, rfl⟩ := List.mem_map.1 hn
  refine ⟨_, R.outwardEdges hkn, R.out_nodup g k, ?_⟩
  intro e he
  obtain ⟨i, hi, hik⟩ := Rep.mem_out_handles.1 he
  obtain ⟨n', m, h1, h2, h3, h4, h5, h6, h7⟩ := R.live_edge hi
  rw [hik] at h6
  obtain rfl := val_unique (R.keysNodup g) hkn h6
  refine ⟨m, i, _, by simp [edgeStart, h1], by simp [edgeEnd, h2], ?_, R.edge_graph hi, R.inwardEdges h7,
    Rep.mem_inn_handles.2 ⟨i, hi, rfl⟩, h3, h4, h5⟩
  unfold graphNodes dvals; rw [R.nodes]; exact List.mem_map.2 ⟨_, h7, rfl⟩

/-- **C01**, inward half. -/
theorem C01_inward {h : Heap} (r : Reachable h) {g : GRef} {m : NRef} (hm : m ∈ graphNodes h g) :
    ∃ is, inwardEdges h m = .ok is ∧ is.Nodup ∧ ∀ e ∈ is, ∃ n i os,
      edgeStart h e = .ok n ∧ edgeEnd h e = .ok m ∧ n ∈ graphNodes h g ∧ (h.edge e).graph = some g ∧
      outwardEdges h n = .ok os ∧ e ∈ os ∧
      edgeId h e = .ok i ∧ dget (h.node n).outE i = some e ∧ dget (h.node m).inE i = some e := by
  obtain ⟨A, H⟩ := r.hist
  have R := H.rep
  unfold graphNodes dvals at hm
  rw [R.nodes] at hm
  obtain ⟨⟨k, m⟩, hkm, rfl⟩ := List.mem_map.1 hm
  refine ⟨_, R.inwardEdges hkm, R.inn_nodup g k, ?_⟩
  intro e he
  obtain ⟨i, hi, hik⟩ := Rep.mem_inn_handles.1 he
  obtain ⟨n, m', h1, h2, h3, h4, h5, h6, h7⟩ := R.live_edge hi
  rw [hik] at h7
  obtain rfl := val_unique (R.keysNodup g) hkm h7
  refine ⟨n, i, _, by simp [edgeStart, h1], by simp [edgeEnd, h2], ?_, R.edge_graph hi, R.outwardEdges h6,
    Rep.mem_out_handles.2 ⟨i, hi, rfl⟩, h3, h4, h5⟩
  unfold graphNodes dvals; rw [R.nodes]; exact List.mem_map.2 ⟨_, h6, rfl⟩

/-- **C01**, registration: names and node objects are pairwise different, a node is stored under its own name, and no
node object is registered in two graphs. A node that is registered nowhere has no edges. -/
theorem C01_registered {h : Heap} (r : Reachable h) (g : GRef) :
    (dkeys (h.graph g).nodes).Nodup ∧ (graphNodes h g).Nodup ∧
    (∀ k n, (k, n) ∈ (h.graph g).nodes → (h.node n).id = k) ∧
    (∀ g' n, n ∈ graphNodes h g → n ∈ graphNodes h g' → g = g') ∧
    (∀ n, (∀ g', n ∉ graphNodes h g') → outwardEdges h n = .ok [] ∧ inwardEdges h n = .ok []) := by
  obtain ⟨A, H⟩ := r.hist
  have R := H.rep
  have hmem : ∀ g n, n ∈ graphNodes h g ↔ ∃ k, (k, n) ∈ (A.graph g).nodes := by
    intro g n
    unfold graphNodes dvals
    rw [R.nodes]
    simp
  refine ⟨?_, ?_, ?_, ?_, ?_⟩
  · rw [dkeys, R.nodes]; exact R.keysNodup g
  · unfold graphNodes dvals
    rw [R.nodes]
    have hk := R.keysNodup g
    have key : ∀ p ∈ (A.graph g).nodes, ∀ q ∈ (A.graph g).nodes, p.2 = q.2 → p.1 = q.1 := by
      rintro ⟨i, e⟩ hp ⟨j, f⟩ hq hef
      simp only at hef
      subst hef
      exact (R.node_unique hp hq).2
    generalize (A.graph g).nodes = l at hk key
    induction l with
    | nil => simp
    | cons p l ih =>
      simp only [List.map_cons, List.nodup_cons, List.mem_map, not_exists, not_and] at hk ⊢
      refine ⟨?_, ih hk.2 (fun p hp q hq => key p (by simp [hp]) q (by simp [hq]))⟩
      intro q hq hqp
      exact hk.1 q hq (key q (by simp [hq]) p (by simp) hqp)
  · intro k n hn
    rw [R.nodes] at hn
    exact (R.nodeOk g k n hn).2.1
  · intro g' n h1 h2
    obtain ⟨k, hk⟩ := (hmem _ _).1 h1
    obtain ⟨k', hk'⟩ := (hmem _ _).1 h2
    exact R.nodeUniq _ _ _ _ _ hk hk'
  · intro n hn
    have := R.stale n (fun g' k hk => hn g' ((hmem _ _).2 ⟨k, hk⟩))
    unfold outwardEdges inwardEdges
    rw [this.1, this.2]
    exact ⟨rfl, rfl⟩

example : ∃ os, outwardEdges demo 0 = .ok os ∧ os.Nodup ∧ ∀ e ∈ os, ∃ m i is,
      edgeStart demo e = .ok 0 ∧ edgeEnd demo e = .ok m ∧ m ∈ graphNodes demo 0 ∧ (demo.edge e).graph = some 0 ∧
      inwardEdges demo m = .ok is ∧ e ∈ is ∧
      edgeId demo e = .ok i ∧ dget (demo.node 0).outE i = some e ∧ dget (demo.node m).inE i = some e :=
  C01_outward demo_reachable (by decide)

end Verif
