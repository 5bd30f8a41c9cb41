import Verif.Spec.Draft
import Verif.Model.History
/-!
# A graph as a ledger

A `Ledger` is what can be seen of one graph, written down: its options, its nodes in order, its edges in order, and everything
that is written on them. There are no objects in it. A `Deed` is a call that refers to nodes by their names and to edges by
their ids; `Ledger.run` says what it does to a ledger and what exception it raises, if any. `Reads h g L`: graph `g` on heap
`h` looks like `L`.
-/
namespace Verif

/-- What is written on a node or on an edge. Of the style only whether there is one. -/
structure Notes where
  value : Val := .none
  label : Val := .none
  tooltip : Val := .none
  params : Dict String Val := []
  frozen : Bool := false
  styled : Bool := false
  deriving DecidableEq

/-- A node. `homeless`: `node.graph` is `None` although the node is in the graph (a node that was removed and added back). -/
structure NodeL where
  name : Key
  notes : Notes := {}
  homeless : Bool := false
  deriving DecidableEq

/-- An edge: `id` is the triple of the two names and the extra id. -/
structure EdgeL where
  id : EdgeId
  notes : Notes := {}
  deriving DecidableEq

/-- `overwrite`: whether styles may be overwritten; `none` if the graph does not know (copies). -/
structure Ledger where
  strict : Bool := false
  ordering : Bool := true
  overwrite : Option Bool := some false
  nodes : List NodeL := []
  edges : List EdgeL := []
  deriving DecidableEq

/-- A call that refers to nodes by name and to edges by id. -/
inductive Deed where
  | addNode (x : Key) (a : NodeArgs) (p : IfExists)
  | connect (s t : Key) (a : EdgeArgs) (p : IfExists)
  | removeNode (k : Key)
  | disconnect (i : EdgeId)
  | removeSelf (i : EdgeId)
  | nodeValue (k : Key) (v : Val)
  | nodeLabel (k : Key) (v : Val)
  | nodeStyle (k : Key) (s : StyleArg)
  | nodeFreeze (k : Key) (b : Bool)
  | nodeParam (k : Key) (x : String) (v : Val)
  | edgeValue (i : EdgeId) (v : Val)
  | edgeLabel (i : EdgeId) (v : Val)
  | edgeStyle (i : EdgeId) (s : StyleArg)
  | edgeFreeze (i : EdgeId) (b : Bool)
  | edgeParam (i : EdgeId) (x : String) (v : Val)

/-! ## What the program does -/

/-- The edge with id `i`: `[e for e in g.get_node(i[0]).outward_edges if e.id == i][0]`; `KeyError` if there is none. -/
def findEdge (h : Heap) (g : GRef) (i : EdgeId) : Except PyErr ERef := do
  let n ← getNode h g (.key i.1)
  let es ← outwardEdges h n
  match es.find? (fun e => decide (edgeId h e = .ok i)) with
  | some e => .ok e
  | none => .error .keyError

/-- Do `f` with the node named `k`. -/
def withNode (g : GRef) (k : Key) (f : NRef → M Unit) : M Unit := do
  let n ← M.ask (fun h => getNode h g (.key k))
  f n

/-- Do `f` with the edge whose id is `i`. -/
def withEdge (g : GRef) (i : EdgeId) (f : ERef → M Unit) : M Unit := do
  let e ← M.ask (fun h => findEdge h g i)
  f e

/-- The calls on graph `g`. -/
def Deed.run (g : GRef) : Deed → M Unit
  | .addNode x a p => do let _ ← Verif.addNode g x a p
  | .connect s t a p => do let _ ← Verif.connect g (.key s) (.key t) a p
  | .removeNode k => Verif.removeNode g (.key k)
  | .disconnect i => withEdge g i Verif.disconnect
  | .removeSelf i => withEdge g i edgeRemoveSelf
  | .nodeValue k v => withNode g k (nodeSetValue · v)
  | .nodeLabel k v => withNode g k (nodeSetLabel · v)
  | .nodeStyle k s => withNode g k (nodeSetStyle · s)
  | .nodeFreeze k b => withNode g k (Verif.nodeFreeze · b)
  | .nodeParam k x v => withNode g k (nodeSetParam · x v)
  | .edgeValue i v => withEdge g i (edgeSetValue · v)
  | .edgeLabel i v => withEdge g i (edgeSetLabel · v)
  | .edgeStyle i s => withEdge g i (edgeSetStyle · s)
  | .edgeFreeze i b => withEdge g i (Verif.edgeFreeze · b)
  | .edgeParam i x v => withEdge g i (edgeSetParam · x v)

/-! ## What it does to the ledger -/

/-- The new value and the exception, if there was one: an exception may leave something changed. -/
abbrev After1 (α : Type) := Except PyErr Unit × α

namespace Notes

/-- A style that is given is taken; `None` is no style; anything else is a `TypeError`. -/
def takeStyle (n : Notes) : StyleArg → After1 Notes
  | .none => (.ok (), n)
  | .obj _ => (.ok (), { n with styled := true })
  | .dict true => (.ok (), { n with styled := true })
  | .dict false => (.error .typeError, n)
  | .bad => (.error .typeError, n)

/-- `x.style = s`. `may`: what `x.graph` says about overwriting styles, if `x` has a graph and the graph says anything. -/
def setStyle (n : Notes) (may : Option Bool) (s : StyleArg) : After1 Notes :=
  if n.styled then
    match may with
    | none => (.error .attributeError, n)
    | some false => (.error .runtimeError, n)
    | some true => n.takeStyle s
  else n.takeStyle s

/-- `x.value = v`. -/
def setValue (n : Notes) (v : Val) : After1 Notes :=
  if n.frozen then (.error .runtimeError, n) else (.ok (), { n with value := v })

/-- Adding what is there already: what is given is written down; the style first, then the label, then the value. -/
def update (n : Notes) (may : Option Bool) (label value : Val) (s : StyleArg) : After1 Notes :=
  let r := if s = .none then (.ok (), n) else n.setStyle may s
  match r.1 with
  | .error e => (.error e, r.2)
  | .ok _ =>
    let n := { r.2 with label := given label r.2.label }
    if value = .none then (.ok (), n) else n.setValue value

end Notes

namespace Ledger

def names (L : Ledger) : List Key := L.nodes.map NodeL.name

def ids (L : Ledger) : List EdgeId := L.edges.map EdgeL.id

/-- Rewrite what is written on the node named `k`; `KeyError` if there is none. -/
def onNode (L : Ledger) (k : Key) (f : Option Bool → Notes → After1 Notes) : After1 Ledger :=
  match L.nodes.find? (fun v => decide (v.name = k)) with
  | none => (.error .keyError, L)
  | some v =>
    let r := f (if v.homeless then none else L.overwrite) v.notes
    (r.1, { L with nodes := L.nodes.map fun u => if u.name = k then { u with notes := r.2 } else u })

/-- Rewrite what is written on the edge `i`; `KeyError` if there is none. -/
def onEdge (L : Ledger) (i : EdgeId) (f : Option Bool → Notes → After1 Notes) : After1 Ledger :=
  match L.edges.find? (fun v => decide (v.id = i)) with
  | none => (.error .keyError, L)
  | some v =>
    let r := f L.overwrite v.notes
    (r.1, { L with edges := L.edges.map fun u => if u.id = i then { u with notes := r.2 } else u })

/-- Delete edge `i`; `KeyError` if there is none. -/
def cutEdge (L : Ledger) (i : EdgeId) : After1 Ledger :=
  if i ∈ L.ids then (.ok (), { L with edges := L.edges.filter fun v => decide (v.id ≠ i) }) else (.error .keyError, L)

/-- Whether an argument is a valid style. -/
def fits : StyleArg → Bool
  | .dict false => false
  | .bad => false
  | _ => true

/-- What a deed does to a ledger. -/
def run (L : Ledger) : Deed → After1 Ledger
  | .addNode (.int _) _ _ => (.error .unboundLocalError, L)
  | .addNode (.str x) a p =>
    if Key.str x ∈ L.names then
      if p = .error then (.error .keyError, L) else L.onNode (.str x) (fun may n => n.update may a.label a.value a.style)
    else if fits a.style then
      (.ok (), { L with nodes := L.nodes ++ [{ name := .str x, notes := {
        value := a.value, label := a.label, tooltip := a.tooltip, params := a.kwargs, styled := decide (a.style ≠ .none) } }] })
    else (.error .typeError, L)
  | .connect s t a p =>
    if s ∉ L.names ∨ t ∉ L.names then (.error .keyError, L)
    else if (s, t, a.raw) ∈ L.ids then
      if p = .error then (.error (.valueError "already exists"), L)
      else L.onEdge (s, t, a.raw) (fun may n => n.update may a.label a.value a.style)
    else if fits a.style then
      (.ok (), { L with edges := L.edges ++ [{ id := (s, t, a.raw), notes := {
        value := a.value, label := a.label, tooltip := a.tooltip, params := a.kwargs, styled := decide (a.style ≠ .none) } }] })
    else (.error .typeError, L)
  | .removeNode k =>
    if k ∈ L.names then
      (.ok (), { L with nodes := L.nodes.filter fun v => decide (v.name ≠ k),
                        edges := L.edges.filter fun v => decide (v.id.1 ≠ k ∧ v.id.2.1 ≠ k) })
    else (.error .keyError, L)
  | .disconnect i => L.cutEdge i
  | .removeSelf i => L.cutEdge i
  | .nodeValue k v => L.onNode k fun _ n => n.setValue v
  | .nodeLabel k v => L.onNode k fun _ n => (.ok (), { n with label := v })
  | .nodeStyle k s => L.onNode k fun may n => n.setStyle may s
  | .nodeFreeze k b => L.onNode k fun _ n => (.ok (), { n with frozen := b })
  | .nodeParam k x v => L.onNode k fun _ n => (.ok (), { n with params := dset n.params x v })
  | .edgeValue i v => L.onEdge i fun _ n => n.setValue v
  | .edgeLabel i v => L.onEdge i fun _ n => (.ok (), { n with label := v })
  | .edgeStyle i s => L.onEdge i fun may n => n.setStyle may s
  | .edgeFreeze i b => L.onEdge i fun _ n => (.ok (), { n with frozen := b })
  | .edgeParam i x v => L.onEdge i fun _ n => (.ok (), { n with params := dset n.params x v })

end Ledger

/-- One deed after the other, whatever they raise; and what they raise. -/
def Ledger.runAll : List Deed → Ledger → List (Except PyErr Unit) × Ledger
  | [], L => ([], L)
  | d :: ds, L => ((L.run d).1 :: (runAll ds (L.run d).2).1, (runAll ds (L.run d).2).2)

/-- The deed gives no style. -/
def Deed.Plain : Deed → Prop
  | .addNode _ a _ => a.style = .none
  | .connect _ _ a _ => a.style = .none
  | .nodeStyle _ _ => False
  | .edgeStyle _ _ => False
  | _ => True

/-- The ledger of a copy: whether styles may be overwritten is forgotten, and every node knows its graph. -/
def Ledger.copy (L : Ledger) : Ledger :=
  { L with overwrite := none, nodes := L.nodes.map fun v => { v with homeless := false } }

/-! ## What is seen of a graph -/

def nodeNotes (h : Heap) (n : NRef) : Notes :=
  { value := (h.node n).value, label := (h.node n).label, tooltip := (h.node n).tooltip, params := (h.node n).params,
    frozen := (h.node n).frozen, styled := (h.node n).style.isSome }

def edgeNotes (h : Heap) (e : ERef) : Notes :=
  { value := (h.edge e).value, label := (h.edge e).label, tooltip := (h.edge e).tooltip, params := (h.edge e).params,
    frozen := (h.edge e).frozen, styled := (h.edge e).style.isSome }

/-- The entry of node `n`. -/
def nodeEntry (h : Heap) (n : NRef) : NodeL :=
  { name := (h.node n).id, notes := nodeNotes h n, homeless := (h.node n).graph.isNone }

/-- The entry of edge `e`; reading its id may raise. -/
def edgeEntry (h : Heap) (e : ERef) : Except PyErr EdgeL := do
  let i ← edgeId h e
  .ok { id := i, notes := edgeNotes h e }

/-- Graph `g` looks like `L`: the options; the nodes in order; a list `es` of distinct edges that looks like the edges of `L`; the edges
leaving and entering a node of `g` are those of `es`, in that order; every edge of `es` joins nodes of `g`. -/
structure Reads (h : Heap) (g : GRef) (L : Ledger) : Prop where
  strict : (h.graph g).strict = L.strict
  ordering : (h.graph g).ordering = L.ordering
  overwrite : (h.graph g).overwrite = L.overwrite
  nodes : (graphNodes h g).map (nodeEntry h) = L.nodes
  edges : ∃ es : List ERef, es.Nodup ∧ es.map (edgeEntry h) = L.edges.map .ok ∧
    (∀ n ∈ graphNodes h g, outwardEdges h n = .ok (es.filter fun e => decide (edgeStart h e = .ok n)) ∧
      inwardEdges h n = .ok (es.filter fun e => decide (edgeEnd h e = .ok n))) ∧
    ∀ e ∈ es, (∃ n ∈ graphNodes h g, edgeStart h e = .ok n) ∧ ∃ m ∈ graphNodes h g, edgeEnd h e = .ok m

/-! ## A program that does other things, too -/

/-- A step of a program: a deed on the graph in question, or any other call. -/
inductive Move where
  | deed (d : Deed)
  | other (op : Op)

/-- The deeds among the moves. -/
def deedsOf : List Move → List Deed
  | [] => []
  | .deed d :: ms => d :: deedsOf ms
  | .other _ :: ms => deedsOf ms

/-- Run the moves; what the deeds on graph `g` raise, and the heap at the end. -/
def runMoves (g : GRef) : List Move → Heap → List (Except PyErr Unit) × Heap
  | [], h => ([], h)
  | .deed d :: ms, h => ((d.run g h).1 :: (runMoves g ms (d.run g h).2).1, (runMoves g ms (d.run g h).2).2)
  | .other op :: ms, h => runMoves g ms (op.step h).2

end Verif
