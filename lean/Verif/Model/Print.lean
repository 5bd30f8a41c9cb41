import Verif.Model.Query
/-!
# Printing nodes and edges
-/
namespace Verif

/-- `Node.__str__`, `Node.py:239-241`. -/
def nodeStr (h : Heap) (n : NRef) : String := "Node:" ++ (h.node n).id.toStr

/-- `Node.__repr__`, `Node.py:243-245`. -/
def nodeRepr (h : Heap) (n : NRef) : String := nodeStr h n

/-- `Edge.__str__`, `Edge.py:128-130`. -/
def edgeStr (h : Heap) (e : ERef) : Except PyErr String := do
  let s ← edgeStart h e
  let t ← edgeEnd h e
  return "Edge:" ++ nodeStr h s ++ "-" ++ nodeStr h t

/-- `Edge.__repr__`, `Edge.py:132-134`. -/
def edgeRepr (h : Heap) (e : ERef) : Except PyErr String := edgeStr h e

end Verif
