import Verif.Lemmas.SimilarStuck
import Verif.Props.Isolation
/-!
# C42: `is_similar_to`
-/
namespace Verif
open M

/-- **C42**: `g.is_similar_to(g')` is `True` exactly when the graphs are alike in the sense of `Spec/Alike.lean`. -/
theorem C42_exact {h : Heap} {A : Spec} (H : Hist h A) (g g' : GRef) : graphSimilar h g g' = .ok true ↔ Alike h A g g' :=
  graphSimilar_true H.rep g g'

/-- **C42**: every graph is similar to itself. -/
theorem C42_reflexive {h : Heap} (r : Reachable h) (g : GRef) : graphSimilar h g g = .ok true := by
  obtain ⟨A, H⟩ := r.hist
  rw [C42_exact H]
  refine ⟨fun _ => .rfl, fun _ => .rfl, ?_, ?_, rfl, rfl⟩
  · intro k n n' hn hn'
    obtain rfl := val_unique (H.rep.keysNodup g) hn hn'
    exact ⟨rfl, rfl, fun _ => rfl⟩
  · intro i e e' he he'
    obtain rfl := val_unique (H.rep.idsNodup g) he he'
    exact ⟨rfl, rfl, fun _ => rfl⟩

/-- **C42**: similarity is symmetric. -/
theorem C42_symmetric {h : Heap} (r : Reachable h) {g g' : GRef} (hs : graphSimilar h g g' = .ok true) :
    graphSimilar h g' g = .ok true := by
  obtain ⟨A, H⟩ := r.hist
  rw [C42_exact H] at hs ⊢
  exact hs.symm

/-- **C42**, what holds instead of "never raises": the only exception is `KeyError`, and it needs a name or an edge id of the
left graph that the right graph does not have. -/
theorem C42_raises_partial {h : Heap} {A : Spec} (H : Hist h A) {g g' : GRef} {x : PyErr} (hx : graphSimilar h g g' = .error x) :
    x = .keyError ∧ ((∃ k ∈ (A.graph g).names, k ∉ (A.graph g').names) ∨ ∃ i ∈ (A.graph g).ids, i ∉ (A.graph g').ids) :=
  graphSimilar_error H.rep hx

/-- Two graphs with one node each, `a` and `b`. -/
def namesDemo : Heap := runOps [.newGraph false true false, .newGraph false true false, .add 0 "a", .add 1 "b"] Heap.init

/-- **C42 as stated is violated**: comparing two graphs with as many nodes but different names raises `KeyError`. -/
theorem C42_violated : ∃ h g g', Reachable h ∧ g < h.nG ∧ g' < h.nG ∧ graphSimilar h g g' = .error .keyError := by
  refine ⟨namesDemo, 0, 1, ?_, by decide, by decide, by decide +kernel⟩
  refine Reachable.runOps .init _ ⟨trivial, trivial, ?_⟩
  simp only [AllOk, Op.Ok, Op.add]
  decide

/-- **C42**, when comparing goes wrong, exactly: the graphs have as many nodes, and going through the nodes of the left one the first
that does not fit (`NodeFits`) is one that the right graph has no node for, or no edge for (`NodeMissing`). -/
theorem C42_raises_exact {h : Heap} {A : Spec} (H : Hist h A) (g g' : GRef) (x : PyErr) : graphSimilar h g g' = .error x ↔
    x = .keyError ∧ (A.graph g).nodes.length = (A.graph g').nodes.length ∧
      FirstMissing (NodeFits h A g g') (NodeMissing h A g g') (A.graph g).nodes :=
  graphSimilar_raises H.rep

/-- **C42 is violated** for every two graphs with as many nodes, at least one, and no name in common. -/
theorem C42_names_violated {h : Heap} (r : Reachable h) {g g' : GRef} (hlen : (graphNodes h g).length = (graphNodes h g').length)
    (hne : graphNodes h g ≠ []) (hno : ∀ n ∈ graphNodes h g, ∀ m ∈ graphNodes h g', (h.node n).id ≠ (h.node m).id) :
    graphSimilar h g g' = .error .keyError := by
  obtain ⟨A, H⟩ := r.hist
  have R := H.rep
  rw [C42_raises_exact H]
  simp only [graphNodes, dvals, R.nodes, List.length_map] at hlen hne hno
  refine ⟨rfl, hlen, ?_⟩
  cases hd : (A.graph g).nodes with
  | nil => simp [hd] at hne
  | cons p d =>
    refine ⟨[], p, d, rfl, by simp, .inl fun hk => ?_⟩
    obtain ⟨⟨k, m⟩, hm, e⟩ := List.mem_map.1 hk
    have hp : (p.1, p.2) ∈ (A.graph g).nodes := by rw [hd]; simp
    refine hno p.2 (List.mem_map.2 ⟨_, hp, rfl⟩) m (List.mem_map.2 ⟨_, hm, rfl⟩) ?_
    rw [(R.nodeOk g p.1 p.2 hp).2.1, (R.nodeOk g' k m hm).2.1]
    exact e.symm

/-- Two graphs that are similar although built in different orders. -/
def orderDemo : Heap := runOps [.newGraph false true false, .newGraph false true false, .add 0 "a", .add 0 "b", .link 0 "a" "b",
  .link 0 "b" "b", .add 1 "b", .link 1 "b" "b", .add 1 "a", .link 1 "a" "b"] Heap.init

example : graphSimilar orderDemo 0 1 = .ok true ∧ dkeys (orderDemo.graph 0).nodes ≠ dkeys (orderDemo.graph 1).nodes := by
  decide +kernel

/-- One value differs: not similar. -/
example : graphSimilar (runOps [.nodeValue 1 (.int 5)] orderDemo) 0 1 = .ok false := by decide +kernel

/-- As many nodes and edges, under the same names, but different edges. -/
def edgesDemo : Heap := runOps [.newGraph false true false, .newGraph false true false, .add 0 "a", .add 0 "b", .link 0 "a" "a",
  .link 0 "b" "b", .add 1 "b", .add 1 "a", .link 1 "b" "a", .link 1 "a" "b"] Heap.init

/-- Comparing them raises, unless a node that is looked at earlier has another value. -/
example : graphSimilar edgesDemo 0 1 = .error .keyError ∧
    graphSimilar (runOps [.nodeValue 0 (.int 5)] edgesDemo) 0 1 = .ok false ∧
    graphSimilar (runOps [.nodeValue 1 (.int 5)] edgesDemo) 0 1 = .error .keyError := by
  decide +kernel

end Verif
