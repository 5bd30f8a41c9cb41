import Verif.Model.Mutate
/-!
# Public entry points that are not needed to use a graph: the setter of `raw_id` and the class `Edge`
-/
namespace Verif
open M

/-- `node.raw_id = x`, `_GraphObj.py:71-73`. -/
def nodeSetRawId (n : NRef) (x : Key) : M Unit := modNode n (fun o => { o with id := x })

/-- `edge.raw_id = r`, `_GraphObj.py:71-73`. -/
def edgeSetRawId (e : ERef) (r : RawId) : M Unit := modEdge e (fun o => { o with raw := r })

/-- `Edge(graph=g, start=s, end=t, id=..., ...)`, `Edge.py:8-36`, called by the user. -/
def newEdgeObj (g : GRef) (s t : NRef) (a : EdgeArgs) : M ERef :=
  edgeInit g s t a.raw a.value a.label a.tooltip a.style a.kwargs

end Verif
