import Verif.Model.Query
/-!
# Which nodes and edges have styles: `has_style`, `node_styles`, `edge_styles`
-/
namespace Verif

/-- `GraphObj.has_style()` of a node, `_GraphObj.py:154-155`. -/
def nodeHasStyle (h : Heap) (n : NRef) : Bool := (h.node n).style.isSome

/-- `GraphObj.has_style()` of an edge, `_GraphObj.py:154-155`. -/
def edgeHasStyle (h : Heap) (e : ERef) : Bool := (h.edge e).style.isSome

/-- `GraphWithoutDisplay.node_styles`, `_GraphWithoutDisplay.py:206-214`. A value `None` would be a style that is missing. -/
def nodeStyles (h : Heap) (g : GRef) : Dict Key (Option SRef) :=
  (h.graph g).nodes.foldl (fun d p =>
    if nodeHasStyle h p.2 then dset d p.1 (h.node p.2).style else d) []

/-- `GraphWithoutDisplay.edge_styles`, `_GraphWithoutDisplay.py:216-224`. -/
def edgeStyles (h : Heap) (g : GRef) : Except PyErr (Dict EdgeId (Option SRef)) :=
  (graphNodes h g).foldlM (fun d n => do
    let es ← outwardEdges h n
    es.foldlM (fun d e =>
      if edgeHasStyle h e then do
        let i ← edgeId h e
        return dset d i (h.edge e).style
      else .ok d) d) []

end Verif
