import Verif.Model.Query
import Verif.Model.Mutate
/-!
# What a graph looks like

A `Draft` lists the nodes and the edges of one graph, in the order of their creation, with the attributes a user can read.
It knows nothing of objects. `Draws h g d`: graph `g` on heap `h` looks like `d`.
-/
namespace Verif

/-- The value after `if value is not None: ... = value`. -/
def given (v old : Val) : Val := if v = .none then old else v

/-- A node. `label` is the label that was given (`None` if none was). -/
structure NodeD where
  name : Key
  label : Val := .none
  value : Val := .none
  tooltip : Val := .none
  params : Dict String Val := []
  styled : Bool := false
  deriving DecidableEq

/-- An edge: `id` is the triple of the two names and the extra id. -/
structure EdgeD where
  id : EdgeId
  label : Val := .none
  value : Val := .none
  tooltip : Val := .none
  params : Dict String Val := []
  styled : Bool := false
  deriving DecidableEq

structure Draft where
  strict : Bool := false
  ordering : Bool := true
  nodes : List NodeD := []
  edges : List EdgeD := []
  deriving DecidableEq

namespace Draft

def names (d : Draft) : List Key := d.nodes.map NodeD.name

def ids (d : Draft) : List EdgeId := d.edges.map EdgeD.id

/-- `add_node(name=x, ...)`: a new name is appended; a name that is there gets the label and the value that are given. -/
def addNode (d : Draft) (x : String) (a : NodeArgs) : Draft :=
  if Key.str x ∈ d.names then
    { d with nodes := d.nodes.map fun v =>
        if v.name = .str x then { v with label := given a.label v.label, value := given a.value v.value } else v }
  else
    { d with nodes := d.nodes ++ [{ name := .str x, label := a.label, value := a.value, tooltip := a.tooltip,
                                    params := a.kwargs, styled := decide (a.style ≠ .none) }] }

/-- `connect(start=s, end=t, ...)`: a new id is appended; an id that is there gets the label and the value that are given. -/
def connect (d : Draft) (s t : Key) (a : EdgeArgs) : Draft :=
  if (s, t, a.raw) ∈ d.ids then
    { d with edges := d.edges.map fun v =>
        if v.id = (s, t, a.raw) then { v with label := given a.label v.label, value := given a.value v.value } else v }
  else
    { d with edges := d.edges ++ [{ id := (s, t, a.raw), label := a.label, value := a.value, tooltip := a.tooltip,
                                    params := a.kwargs, styled := decide (a.style ≠ .none) }] }

end Draft

/-- What is seen of the node object `n`. -/
def seenNode (h : Heap) (n : NRef) : NodeD :=
  { name := (h.node n).id, label := (h.node n).label, value := (h.node n).value, tooltip := (h.node n).tooltip,
    params := (h.node n).params, styled := (h.node n).style.isSome }

/-- What is seen of the edge object `e`; reading its id may raise. -/
def seenEdge (h : Heap) (e : ERef) : Except PyErr EdgeD := do
  let i ← edgeId h e
  .ok { id := i, label := (h.edge e).label, value := (h.edge e).value, tooltip := (h.edge e).tooltip,
        params := (h.edge e).params, styled := (h.edge e).style.isSome }

/-- Graph `g` looks like `d`: the options; the nodes in order; a list `es` of distinct edges that looks like the edges of
`d`; every node belongs to `g`, and the edges leaving and entering it are those of `es`, in that order; every edge belongs
to `g` and joins nodes of `g`. -/
structure Draws (h : Heap) (g : GRef) (d : Draft) : Prop where
  strict : (h.graph g).strict = d.strict
  ordering : (h.graph g).ordering = d.ordering
  nodes : (graphNodes h g).map (seenNode h) = d.nodes
  edges : ∃ es : List ERef, es.Nodup ∧ es.map (seenEdge h) = d.edges.map .ok ∧
    (∀ n ∈ graphNodes h g, (h.node n).graph = some g ∧
      outwardEdges h n = .ok (es.filter fun e => decide (edgeStart h e = .ok n)) ∧
      inwardEdges h n = .ok (es.filter fun e => decide (edgeEnd h e = .ok n))) ∧
    ∀ e ∈ es, (h.edge e).graph = some g ∧ (∃ n ∈ graphNodes h g, edgeStart h e = .ok n) ∧
      ∃ m ∈ graphNodes h g, edgeEnd h e = .ok m

end Verif
