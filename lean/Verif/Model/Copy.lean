import Verif.Model.Mutate
/-!
# `copy`: `deepcopy` through `__getstate__` / `__setstate__`

`deepcopy` keeps a memo of the objects it has copied. Simplification: values, labels, tooltips, names and parameters are
copied to themselves (true of strings, numbers and `None`; an arbitrary object is taken to equal its copy).
-/
namespace Verif
open M

/-- The memo of `deepcopy`: what every original has been copied to. Python's `deepcopy`, used at `_BasicGraph.py:62`. -/
structure Memo where
  nodes : Dict NRef NRef := []
  edges : Dict ERef ERef := []
  styles : Dict SRef SRef := []
  deriving DecidableEq, Repr

/-- The copy of a node, by the memo. Python's `deepcopy`, used at `_BasicGraph.py:62`. -/
def Memo.node (m : Memo) (n : NRef) : NRef := (dget m.nodes n).getD 0

/-- The copy of an edge, by the memo. Python's `deepcopy`, used at `_BasicGraph.py:62`. -/
def Memo.edge (m : Memo) (e : ERef) : ERef := (dget m.edges e).getD 0

/-- `deepcopy` of an edge's `_style` (`EdgeStyle.py:113-133` keeps what `__init__` sets). -/
def copyStyle (m : Memo) : Option SRef → M (Option SRef × Memo)
  | none => pure (none, m)
  | some s =>
    match dget m.styles s with
    | some s' => pure (some s', m)
    | none => do
      let s' ← newStyle
      return (some s', { m with styles := dset m.styles s s' })

/-- `deepcopy` of an edge: `Edge.__getstate__`, `__setstate__` (`Edge.py:93-108`, `_GraphObj.py:25-45`) keep everything but
the graph, the start and the end. -/
def copyEdge (m : Memo) (e : ERef) : M (ERef × Memo) :=
  match dget m.edges e with
  | some e' => pure (e', m)
  | none => do
    let o ← look (fun h => h.edge e)
    let r ← copyStyle m o.style
    let e' ← newEdge { o with graph := none, start := none, stop := none, style := r.1 }
    return (e', { r.2 with edges := dset r.2.edges e e' })

/-- `deepcopy` of `_outward_edges_dict` or `_inward_edges_dict`: the keys are tuples of names.
It is part of the state, `Node.py:87-104`. -/
def copyEdgeDict (m : Memo) : Dict EdgeId ERef → M (Dict EdgeId ERef × Memo)
  | [] => pure ([], m)
  | p :: d => do
    let r ← copyEdge m p.2
    let r' ← copyEdgeDict r.2 d
    return ((p.1, r.1) :: r'.1, r'.2)

/-- `deepcopy` of a node without style: `Node.__getstate__`, `__setstate__` (`Node.py:87-105`, `_GraphObj.py:25-45`). -/
def copyNode (m : Memo) (n : NRef) : M (NRef × Memo) :=
  match dget m.nodes n with
  | some n' => pure (n', m)
  | none => do
    let o ← look (fun h => h.node n)
    let out ← copyEdgeDict m o.outE
    let inn ← copyEdgeDict out.2 o.inE
    let n' ← newNode { o with graph := none, outE := out.1, inE := inn.1, outHaveStart := false, inHaveEnd := false }
    return (n', { inn.2 with nodes := dset inn.2.nodes n n' })

/-- `deepcopy` of `_nodes_dict`. It is part of the state, `_BasicGraph.py:37-53`. -/
def copyNodeDict (m : Memo) : Dict Key NRef → M (Dict Key NRef × Memo)
  | [] => pure ([], m)
  | p :: d => do
    let r ← copyNode m p.2
    let r' ← copyNodeDict r.2 d
    return ((p.1, r.1) :: r'.1, r'.2)

/-- `for outward_edge in ...: outward_edge._start = self; outward_edge._graph = self.graph`, `Node.py:135-137`. -/
def setStarts (n : NRef) (g : Option GRef) : List ERef → M Unit
  | [] => pure ()
  | e :: es => do
    modEdge e (fun o => { o with start := some n, graph := g })
    setStarts n g es

/-- `for inward_edge in ...: inward_edge._end = self; inward_edge._graph = self.graph`, `Node.py:140-142`. -/
def setEnds (n : NRef) (g : Option GRef) : List ERef → M Unit
  | [] => pure ()
  | e :: es => do
    modEdge e (fun o => { o with stop := some n, graph := g })
    setEnds n g es

/-- `Node.update_edges`, `Node.py:132-143`. -/
def updateEdges (n : NRef) : M Unit := do
  let o ← look (fun h => h.node n)
  onlyIf (o.outHaveStart = false) (setStarts n o.graph (dvals o.outE))
  modNode n (fun o => { o with outHaveStart := true })
  onlyIf (o.inHaveEnd = false) (setEnds n o.graph (dvals o.inE))
  modNode n (fun o => { o with inHaveEnd := true })

/-- `for node in self.nodes: node._graph = self`, `_BasicGraph.py:52-53`. -/
def setGraphs (g : GRef) : List NRef → M Unit
  | [] => pure ()
  | n :: ns => do
    modNode n (fun o => { o with graph := some g })
    setGraphs g ns

/-- The loop of `GraphWithoutDisplay.update_nodes`, `_GraphWithoutDisplay.py:123-125`. -/
def updateNodesLoop (g : GRef) : List NRef → M Unit
  | [] => pure ()
  | n :: ns => do
    modNode n (fun o => { o with graph := some g })
    updateEdges n
    updateNodesLoop g ns

/-- `GraphWithoutDisplay.update_nodes`, `_GraphWithoutDisplay.py:120-126`. -/
def updateNodes (g : GRef) : M Unit := do
  let o ← look (fun h => h.graph g)
  onlyIf (o.nodesHaveGraph = false) (updateNodesLoop g (dvals o.nodes))
  modGraph g (fun o => { o with nodesHaveGraph := true })

/-- `BasicGraph.copy`, `_BasicGraph.py:56-62`: `deepcopy(self)` with `__getstate__` (`_BasicGraph.py:34-44`,
`_GraphWithoutDisplay.py:117`) and `__setstate__` (`_BasicGraph.py:47-53`, `_GraphWithoutDisplay.py:134-140`). Of the graph only
the nodes, `strict`, `ordering` and the counter survive. `NodeStyle.__getstate__` leaves out `_opacity`, which
`NodeStyle.__setstate__` reads (`NodeStyle.py:164-185`), so a styled node raises `KeyError`. Simplification: that is checked
first; what was copied before the exception is unreachable. Returns the memo as well. -/
def graphCopy (g : GRef) : M (GRef × Memo) := do
  let o ← look (fun h => h.graph g)
  let styled ← look (fun h => (dvals o.nodes).any (fun n => (h.node n).style.isSome))
  if styled then raise .keyError
  else do
    let r ← copyNodeDict {} o.nodes
    let g' ← newGraph { nodes := r.1, strict := o.strict, ordering := o.ordering, nodesHaveGraph := false,
                        counter := o.counter, overwrite := none }
    setGraphs g' (dvals r.1)
    modGraph g' (fun o => { o with nodesHaveGraph := false })
    updateNodes g'
    return (g', r.2)

end Verif
