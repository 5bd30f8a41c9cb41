import Verif.Props.Print
/-!
# C132: what an object is never changes, and an edge has one life
-/
namespace Verif
open M

theorem life_append (pre post : List Op) (h : Heap) :
    runOps (pre ++ post) h = runOps post (runOps pre h) ∧ (AllOk (pre ++ post) h ↔ AllOk pre h ∧ AllOk post (runOps pre h)) := by
  induction pre generalizing h with
  | nil => simp [runOps, AllOk]
  | cons op pre ih =>
    obtain ⟨h1, h2⟩ := ih (op.step h).2
    exact ⟨h1, by simp only [List.cons_append, AllOk, runOps]; rw [h2, and_assoc]⟩

/-- **C132** for nodes: whatever is called, a node keeps its name, its index and its tooltip, and two nodes compare as they did
before. A node that has no graph, never has one again; a node that has one, has always had this one. -/
theorem C132_node {h : Heap} {n m : NRef} (hn : n < h.nN) (hm : m < h.nN) (ops : List Op) :
    ((runOps ops h).node n).id = (h.node n).id ∧ ((runOps ops h).node n).index = (h.node n).index ∧
    ((runOps ops h).node n).tooltip = (h.node n).tooltip ∧
    nodeEq (runOps ops h) n m = nodeEq h n m ∧ nodeNe (runOps ops h) n m = nodeNe h n m ∧
    nodeLt (runOps ops h) n m = nodeLt h n m ∧ nodeLe (runOps ops h) n m = nodeLe h n m ∧
    nodeGt (runOps ops h) n m = nodeGt h n m ∧ nodeGe (runOps ops h) n m = nodeGe h n m ∧
    ((h.node n).graph = none → ((runOps ops h).node n).graph = none) ∧
    ∀ g, ((runOps ops h).node n).graph = some g → (h.node n).graph = some g := by
  have a := (Later.runOps ops h).node n hn
  have b := (Later.runOps ops h).node m hm
  refine ⟨a.id, a.index, a.tooltip, ?_, ?_, ?_, ?_, ?_, ?_, fun c => ?_, fun g c => ?_⟩
  iterate 6 simp only [nodeEq, nodeNe, nodeLt, nodeLe, nodeGt, nodeGe, a.id, a.index, b.id, b.index]
  · rcases a.graph with d | d
    · rw [d, c]
    · exact d
  · rcases a.graph with d | d
    · rw [← d, c]
    · rw [d] at c; cases c

/-- **C132**: an edge object that is in no graph never is in a graph again, whatever is called. -/
theorem C132_edge_gone {h : Heap} (r : Reachable h) {e : ERef} (hlt : e < h.nE) (he : ∀ g, ¬ LiveEdge h g e) {ops : List Op}
    (ok : AllOk ops h) : ∀ g, ¬ LiveEdge (runOps ops h) g e := by
  intro g' hl
  obtain ⟨A, H⟩ := r.hist
  have R := H.rep
  obtain ⟨A', H'⟩ := (r.runOps ops ok).hist
  have R' := H'.rep
  obtain ⟨⟨x, y, i⟩, hi⟩ := (liveEdge_iff R').1 hl
  obtain ⟨-, hc, -, hraw, n, m, -, -, h3, h4⟩ := R'.edgeOk g' x y i e hi
  have L := (Later.runOps ops h).edge e hlt
  have a : (h.edge e).start = some n := by
    rcases L.ends.1 with d | d
    · rw [← d, h3]
    · rw [d] at h3; cases h3
  have b : (h.edge e).stop = some m := by
    rcases L.ends.2 with d | d
    · rw [← d, h4]
    · rw [d] at h4; cases h4
  have c : (h.edge e).raw ≠ .cleared := by
    rcases L.raw with d | d
    · rw [← d, hraw]; exact hc
    · rw [d] at hraw; exact absurd hraw.symm hc
  obtain ⟨g, hg⟩ := R.live e n m a b c
  exact he g ((liveEdge_iff R).2 ⟨_, hg⟩)

/-- **C132** for edges: an edge that is in a graph at two times has been in this one graph all the time between them, and has the
same ends, the same id and the same tooltip. -/
theorem C132_edge {h : Heap} (r : Reachable h) {g g' : GRef} {e : ERef} (he : LiveEdge h g e) {ops : List Op}
    (ok : AllOk ops h) (he' : LiveEdge (runOps ops h) g' e) :
    g' = g ∧ edgeStart (runOps ops h) e = edgeStart h e ∧ edgeEnd (runOps ops h) e = edgeEnd h e ∧
    edgeId (runOps ops h) e = edgeId h e ∧ ((runOps ops h).edge e).tooltip = (h.edge e).tooltip ∧
    ∀ pre post, ops = pre ++ post → LiveEdge (runOps pre h) g e := by
  have main : ∀ {ops : List Op} {g' : GRef}, AllOk ops h → LiveEdge (runOps ops h) g' e →
      g' = g ∧ edgeStart (runOps ops h) e = edgeStart h e ∧ edgeEnd (runOps ops h) e = edgeEnd h e ∧
      edgeId (runOps ops h) e = edgeId h e ∧ ((runOps ops h).edge e).tooltip = (h.edge e).tooltip := by
    intro ops g' ok he'
    obtain ⟨A, H⟩ := r.hist
    have R := H.rep
    obtain ⟨⟨x, y, i⟩, hi⟩ := (liveEdge_iff R).1 he
    obtain ⟨hlt, -, hg, hr, n, m, h1, h2, h3, h4⟩ := R.edgeOk g x y i e hi
    obtain ⟨A', H'⟩ := (r.runOps ops ok).hist
    have R' := H'.rep
    obtain ⟨⟨x', y', i'⟩, hi'⟩ := (liveEdge_iff R').1 he'
    obtain ⟨-, hc', hg', hr', n', m', -, -, h3', h4'⟩ := R'.edgeOk g' x' y' i' e hi'
    have L := Later.runOps ops h
    have Le := L.edge e hlt
    have a : ((runOps ops h).edge e).start = (h.edge e).start := by
      rcases Le.ends.1 with d | d
      · exact d
      · rw [d] at h3'; cases h3'
    have b : ((runOps ops h).edge e).stop = (h.edge e).stop := by
      rcases Le.ends.2 with d | d
      · exact d
      · rw [d] at h4'; cases h4'
    have c : ((runOps ops h).edge e).raw = (h.edge e).raw := by
      rcases Le.raw with d | d
      · exact d
      · rw [d] at hr'; exact absurd hr'.symm hc'
    refine ⟨?_, by simp only [edgeStart, a], by simp only [edgeEnd, b], ?_, Le.tooltip⟩
    · rcases Le.graph with d | d
      · rw [d, hg] at hg'; cases hg'; rfl
      · rw [d] at hg'; cases hg'
    · simp only [edgeId, a, b, c, h3, h4, (L.node n (R.nodeOk g x n h1).1).id, (L.node m (R.nodeOk g y m h2).1).id]
  obtain ⟨c1, c2, c3, c4, c5⟩ := main ok he'
  refine ⟨c1, c2, c3, c4, c5, ?_⟩
  rintro pre post rfl
  obtain ⟨e1, e2⟩ := life_append pre post h
  obtain ⟨ok1, ok2⟩ := e2.1 ok
  have : ∃ g2, LiveEdge (runOps pre h) g2 e := by
    refine Classical.byContradiction fun hc => ?_
    have lt : e < (runOps pre h).nE := by
      obtain ⟨A, H⟩ := r.hist
      obtain ⟨⟨x, y, i⟩, hi⟩ := (liveEdge_iff H.rep).1 he
      exact Nat.lt_of_lt_of_le (H.rep.edgeOk g x y i e hi).1 (Later.runOps pre h).nE
    refine C132_edge_gone (r.runOps pre ok1) lt (fun g2 c => hc ⟨g2, c⟩) ok2 g' ?_
    rw [← e1]; exact he'
  obtain ⟨g2, hl⟩ := this
  obtain ⟨rfl, -⟩ := main ok1 hl
  exact hl

/-- Edge 1 of `demo` is in graph 0 before and after two removals; edge 0 has left it with the second one and is not back after
the same nodes have been connected again, although the new edge has the old one's id. -/
example :
    let h1 := runOps [.removeNode 0 (.key (.str "d")), .disconnect 0] demo
    let h2 := runOps [.connect 0 (.key (.str "a")) (.key (.str "b")) {} .warn] h1
    outwardEdges demo 1 = .ok [1] ∧ outwardEdges h1 1 = .ok [1] ∧ outwardEdges demo 0 = .ok [0, 3] ∧ outwardEdges h1 0 = .ok [3] ∧
      outwardEdges h2 0 = .ok [3, 5] ∧ edgeId h2 5 = edgeId demo 0 := by decide +kernel

end Verif
