import Verif.Model.History
/-!
# Edges looked up by id, counts, and the methods that write one end of an edge
-/
namespace Verif
open M

/-- `Node.outward_edge_ids`, `Node.py:161-163`. -/
def outwardEdgeIds (h : Heap) (n : NRef) : List EdgeId := dkeys (h.node n).outE

/-- `Node.inward_edge_ids`, `Node.py:166-168`. -/
def inwardEdgeIds (h : Heap) (n : NRef) : List EdgeId := dkeys (h.node n).inE

/-- `Node.get_outward_edge`, `Node.py:170-180`. -/
def getOutwardEdge (h : Heap) (n : NRef) (i : EdgeId) : Except PyErr ERef :=
  match dget (h.node n).outE i with
  | some e => .ok e
  | none => .error .keyError

/-- `Node.get_inward_edge`, `Node.py:182-192`. -/
def getInwardEdge (h : Heap) (n : NRef) (i : EdgeId) : Except PyErr ERef :=
  match dget (h.node n).inE i with
  | some e => .ok e
  | none => .error .keyError

/-- `Node.num_outward_edges`, `Node.py:464-467`. -/
def numOutwardEdges (h : Heap) (n : NRef) : Nat := (h.node n).outE.length

/-- `BasicGraph.num_siblings`, `_BasicGraph.py:615-620`. -/
def numSiblings (h : Heap) (g : GRef) (a : NodeArg) : Except PyErr Nat := do
  let l ← getSiblings h g a
  return l.length

/-- `BasicGraph.has_siblings`, `_BasicGraph.py:622-627`. -/
def hasSiblings (h : Heap) (g : GRef) (a : NodeArg) : Except PyErr Bool := do
  let n ← numSiblings h g a
  return decide (n > 0)

/-- `BasicGraph.num_spouses`, `_BasicGraph.py:643-648`. -/
def numSpouses (h : Heap) (g : GRef) (a : NodeArg) : Except PyErr Nat := do
  let l ← getSpouses h g a
  return l.length

/-- `BasicGraph.has_spouses`, `_BasicGraph.py:650-655`. -/
def hasSpouses (h : Heap) (g : GRef) (a : NodeArg) : Except PyErr Bool := do
  let n ← numSpouses h g a
  return decide (n > 0)

/-- `Node.append_outward_edge` as a call of its own, `Node.py:194-201`. -/
def appendOutwardEdge (n : NRef) (e : ERef) : M Unit := do
  let i ← ask (fun h => edgeId h e)
  modNode n (fun o => { o with outE := dset o.outE i e })

/-- `Node.append_inward_edge` as a call of its own, `Node.py:203-210`. -/
def appendInwardEdge (n : NRef) (e : ERef) : M Unit := do
  let i ← ask (fun h => edgeId h e)
  modNode n (fun o => { o with inE := dset o.inE i e })

end Verif
