import Verif.Model.Query
/-!
# The shape of a graph

What is left of a graph when only the names of its nodes are seen, and which name leads to which.
-/
namespace Verif

/-- Some edge of `g` leads from the node named `s` to the node named `t`. -/
def Joined (h : Heap) (g : GRef) (s t : Key) : Prop :=
  ∃ x ∈ graphNodes h g, ∃ os, outwardEdges h x = .ok os ∧ ∃ e ∈ os, ∃ n m, edgeStart h e = .ok n ∧ edgeEnd h e = .ok m ∧
    (h.node n).id = s ∧ (h.node m).id = t

/-- Graph `g` (in state `h`) and graph `g'` (in state `h'`) have nodes of the same names, and edges from and to the same names.
The order of the nodes and edges, the number of edges between two nodes, and everything written on them, may differ. -/
structure OneShape (h : Heap) (g : GRef) (h' : Heap) (g' : GRef) : Prop where
  names : ∀ k, (∃ n ∈ graphNodes h g, (h.node n).id = k) ↔ ∃ n ∈ graphNodes h' g', (h'.node n).id = k
  joined : ∀ s t, Joined h g s t ↔ Joined h' g' s t

end Verif
