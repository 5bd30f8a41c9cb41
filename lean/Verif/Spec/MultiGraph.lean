import Verif.Model.Heap
/-!
# The abstract multigraph

What a user thinks a graph is: a list of named nodes and a list of edges with ids `(start, end, id)`, both in
order of creation. Nodes and edges carry a handle (the identity of the Python object).
-/
namespace Verif

/-- An abstract graph. -/
structure SGraph where
  nodes : List (Key × NRef) := []
  edges : List (EdgeId × ERef) := []

namespace SGraph

/-- The names of the nodes, in order. -/
def names (G : SGraph) : List Key := G.nodes.map Prod.fst

/-- The edge ids, in order. -/
def ids (G : SGraph) : List EdgeId := G.edges.map Prod.fst

/-- Append a node if its name is new. -/
def addNode (G : SGraph) (k : Key) (n : NRef) : SGraph :=
  if k ∈ G.names then G else { G with nodes := G.nodes ++ [(k, n)] }

/-- Append an edge if its id is new. -/
def addEdge (G : SGraph) (i : EdgeId) (e : ERef) : SGraph :=
  if i ∈ G.ids then G else { G with edges := G.edges ++ [(i, e)] }

/-- Delete the edge with the given handle. -/
def delEdge (G : SGraph) (e : ERef) : SGraph :=
  { G with edges := G.edges.filter (fun p => decide (p.2 ≠ e)) }

/-- Delete a node together with the edges that start or end at it. -/
def delNode (G : SGraph) (k : Key) : SGraph :=
  { nodes := G.nodes.filter (fun p => decide (p.1 ≠ k)),
    edges := G.edges.filter (fun p => decide (p.1.1 ≠ k ∧ p.1.2.1 ≠ k)) }

/-- The edges leaving the node named `k`, in order. -/
def out (G : SGraph) (k : Key) : List (EdgeId × ERef) := G.edges.filter (fun p => decide (p.1.1 = k))

/-- The edges entering the node named `k`, in order. -/
def inn (G : SGraph) (k : Key) : List (EdgeId × ERef) := G.edges.filter (fun p => decide (p.1.2.1 = k))

end SGraph

/-- The abstract state: all graphs, the (immutable) name of every node object, and the graph each node object
believes it belongs to (`node.graph`). -/
structure Spec where
  graph : GRef → SGraph
  name : NRef → Key
  home : NRef → Option GRef

/-- Change one graph. -/
def Spec.on (A : Spec) (g : GRef) (f : SGraph → SGraph) : Spec :=
  { A with graph := upd A.graph g (f (A.graph g)) }

/-- Register the node object `n` under the name `k` in graph `g`, unless the name is taken. -/
def Spec.register (A : Spec) (g : GRef) (k : Key) (n : NRef) (home : Option GRef) : Spec :=
  if k ∈ (A.graph g).names then A
  else { graph := upd A.graph g ((A.graph g).addNode k n), name := upd A.name n k, home := upd A.home n home }

/-- Remove the node named `k` from graph `g`; the node object loses its graph. -/
def Spec.unregister (A : Spec) (g : GRef) (k : Key) : Spec :=
  { graph := upd A.graph g ((A.graph g).delNode k), name := A.name,
    home := fun n => if (k, n) ∈ (A.graph g).nodes then none else A.home n }

/-- No graphs yet. -/
def Spec.init : Spec := { graph := fun _ => {}, name := fun _ => .str "", home := fun _ => none }

end Verif
