import Verif.Model.Builders
import Verif.Model.Graphviz
/-!
# `append`, `Graph(obj=...)`, `__graph__` and `+` with everything a dictionary says about the display

`Builders.lean` has the part of `append` that concerns the nodes and the edges. Here are the same functions with the
contents of styles and the display attributes of the graph.
-/
namespace Verif
variable {C : Type}

/-- The `style` argument of `add_node`: `None`, a style object, a dictionary, or anything else. `Node.py:70-80`. -/
inductive NodeStyleArg (C : Type) where
  | none
  | obj (s : SRef)
  | dict (l : List (NodeItem C))
  | bad

/-- The `style` argument of `connect`. `Edge.py:65-75`. -/
inductive EdgeStyleArg (C : Type) where
  | none
  | obj (s : SRef)
  | dict (l : List (EdgeItemStyle C))
  | bad

/-- The keyword arguments of `add_node` in a dictionary, `if_node_exists` included.
`_GraphWithoutDisplay.py:459-464`, `_BasicGraph.py:263`. -/
structure NodeSpec (C : Type) where
  label : Val := .none
  value : Val := .none
  style : NodeStyleArg C := .none
  tooltip : Val := .none
  kwargs : Dict String Val := []
  policy : IfExists := .warn

/-- The keyword arguments of `connect` in a dictionary. `_GraphWithoutDisplay.py:466-482`, `_BasicGraph.py:669`. -/
structure EdgeSpec (C : Type) where
  id : Option Key := none
  label : Val := .none
  value : Val := .none
  style : EdgeStyleArg C := .none
  tooltip : Val := .none
  kwargs : Dict String Val := []
  policy : IfExists := .warn

/-- `dictionary['nodes']`. `_GraphWithoutDisplay.py:459-464`. -/
inductive NodesEntry (C : Type) where
  | dict (l : List (Key × NodeSpec C))
  | list (l : List Key)

/-- An element of `dictionary['edges']`. `_GraphWithoutDisplay.py:466-482`. -/
inductive EdgeEntry (C : Type) where
  | two (s t : Key)
  | three (s t : Key) (a : EdgeSpec C)
  | few
  | many

/-- An item of `dictionary['edge_styles']` or `dictionary['edge_colours']`: the key is a pair of names, or something else.
Simplification: the value is given as the colour that `Colour(obj=value)` makes of it later (`EdgeStyle.py:89`). -/
inductive EdgeSetting (C : Type) where
  | pair (s t : Key) (c : C)
  | other

/-- The dictionary given to `append` or `Graph(obj=...)`; `none` for a key that is missing (for the four dictionaries of
settings an empty dictionary means the same). `scheme`, `stylist` and `overwrite` are only looked at by the constructor.
`_GraphWithoutDisplay.py:432-500`. -/
structure GraphDict (C : Type) where
  strict : Option Bool := none
  ordering : Option Bool := none
  label : Option Val := none
  tooltip : Option (Option String) := none
  labelUrl : Option (Option String) := none
  globalNode : Option (Option (List (NodeItem C))) := none
  graphNode : Option (Option (List (NodeItem C))) := none
  globalEdge : Option (Option (List (EdgeItemStyle C))) := none
  graphEdge : Option (Option (List (EdgeItemStyle C))) := none
  direction : Option String := none
  nodes : Option (NodesEntry C) := none
  edges : Option (List (EdgeEntry C)) := none
  nodeStyles : Dict Key (List (NodeItem C)) := []
  edgeStyles : List (EdgeSetting C) := []
  nodeColours : Dict Key C := []
  edgeColours : List (EdgeSetting C) := []
  scheme : Option (List C) := none
  stylist : Option Stylist := none
  overwrite : Option Bool := none

section
variable [Palette C]

/-- What the setter of `Node.style` sees (`Node.py:73-80`). -/
def NodeStyleArg.plain : NodeStyleArg C → StyleArg
  | .none => .none
  | .obj s => .obj s
  | .dict l => .dict (NodeStyle.ofItems l).isOk
  | .bad => .bad

/-- The same for the setter of `Edge.style`, `Edge.py:65-75`. -/
def EdgeStyleArg.plain : EdgeStyleArg C → StyleArg
  | .none => .none
  | .obj s => .obj s
  | .dict l => .dict (EdgeStyle.ofItems l).isOk
  | .bad => .bad

/-- The arguments of `add_node` without the contents of the style, `_GraphWithoutDisplay.py:462`. -/
def NodeSpec.args (a : NodeSpec C) : NodeArgs :=
  { label := a.label, value := a.value, style := a.style.plain, tooltip := a.tooltip, kwargs := a.kwargs }

/-- The arguments of `connect` without the contents of the style, `_GraphWithoutDisplay.py:466-482`. -/
def EdgeSpec.args (a : EdgeSpec C) : EdgeArgs :=
  { id := a.id, label := a.label, value := a.value, style := a.style.plain, tooltip := a.tooltip, kwargs := a.kwargs }

/-- `NodeStyle(**style)`, `Node.py:74`: the contents of the next style object. No call can read them before that object has
been made. -/
def nextNodeStyle : NodeStyleArg C → W C Unit
  | .dict l => do
    let s ← W.look (fun w => w.heap.nStyle)
    match NodeStyle.ofItems l with
    | .ok st => W.setNs s st
    | .error _ => pure ()
  | _ => pure ()

/-- `EdgeStyle(**style)`, `Edge.py:69`. -/
def nextEdgeStyleObj : EdgeStyleArg C → W C Unit
  | .dict l => do
    let s ← W.look (fun w => w.heap.nStyle)
    match EdgeStyle.ofItems l with
    | .ok st => W.setEs s st
    | .error _ => pure ()
  | _ => pure ()

/-- `add_node(name=x, **a)`, `_BasicGraph.py:263-321`, with the contents of the style. -/
def addNodeW (g : GRef) (x : Key) (a : NodeSpec C) : W C NRef := do
  nextNodeStyle a.style
  W.lift (addNode g x a.args a.policy)

/-- `connect(start=s, end=t, **a)`, `_BasicGraph.py:669-721`, with the contents of the style. -/
def connectW (g : GRef) (s t : Key) (a : EdgeSpec C) : W C ERef := do
  nextEdgeStyleObj a.style
  W.lift (connect g (.key s) (.key t) a.args a.policy)

omit [Palette C] in
/-- `self._attribute = value`. Simplification: on a graph without display attributes (a copy) this has no effect; in
Python it creates that one attribute. Used for `_GraphWithoutDisplay.py:432-457`. -/
def modDisplay (g : GRef) (f : Display C → Display C) : W C Unit := fun w =>
  (.ok (), { w with display := upd w.display g ((w.display g).map f) })

omit [Palette C] in
/-- `self._some_dictionary[key] = value`: `AttributeError` if the graph has no display attributes.
Used for `_GraphWithoutDisplay.py:484-500`. -/
def setInDisplay (g : GRef) (f : Display C → Display C) : W C Unit := do
  let _ ← W.display g
  modDisplay g f

omit [Palette C] in
/-- `'\n' + dictionary['label']`, `_GraphWithoutDisplay.py:437-438`. -/
def appendLabel (g : GRef) : Option Val → W C Unit
  | none => pure ()
  | some (.str s) => modDisplay g (fun d => { d with label := some ("\n" ++ s) })
  | some _ => W.raise .typeError

omit [Palette C] in
/-- `_GraphWithoutDisplay.py:440-457`. -/
def Display.told (d : Display C) (D : GraphDict C) : Display C :=
  { d with
    tooltip := D.tooltip.getD d.tooltip
    labelUrl := D.labelUrl.getD d.labelUrl
    globalNode := (D.globalNode <|> D.graphNode).getD d.globalNode
    globalEdge := (D.globalEdge <|> D.graphEdge).getD d.globalEdge
    direction := D.direction.getD d.direction }

/-- `_GraphWithoutDisplay.py:460-461`. -/
def appendNodeDictW (g : GRef) : List (Key × NodeSpec C) → W C Unit
  | [] => pure ()
  | (x, a) :: l => do
    let _ ← addNodeW g x a
    appendNodeDictW g l

/-- `_GraphWithoutDisplay.py:459-464`. -/
def appendNodesW (g : GRef) : Option (NodesEntry C) → W C Unit
  | none => W.raise .keyError
  | some (.dict l) => appendNodeDictW g l
  | some (.list l) => appendNodeDictW g (l.map fun x => (x, {}))

/-- `_GraphWithoutDisplay.py:466-482`. The result is `edges_dict`. -/
def appendEdgeListW (g : GRef) : List (EdgeEntry C) → Dict (Key × Key) EdgeId → W C (Dict (Key × Key) EdgeId)
  | [], known => pure known
  | .two s t :: l, known => do
    let e ← connectW g s t {}
    let i ← W.ask (fun w => edgeId w.heap e)
    appendEdgeListW g l (dset known (s, t) i)
  | .three s t a :: l, known => do
    let e ← connectW g s t a
    let i ← W.ask (fun w => edgeId w.heap e)
    appendEdgeListW g l (dset known (s, t) i)
  | .few :: _, _ => W.raise (.valueError "Too few objects in an edge definition!")
  | .many :: _, _ => W.raise (.valueError "Too many objects in an edge definition!")

/-- `dictionary['edges']`, `_GraphWithoutDisplay.py:467`. -/
def appendEdgesW (g : GRef) : Option (List (EdgeEntry C)) → W C (Dict (Key × Key) EdgeId)
  | none => W.raise .keyError
  | some l => appendEdgeListW g l []

omit [Palette C] in
/-- `self._node_style_overwrites[name] = node_style`, `_GraphWithoutDisplay.py:484-486`. -/
def appendNodeStyles (g : GRef) (p : Key × List (NodeItem C)) : W C Unit :=
  setInDisplay g (fun d => { d with nodeStyles := dset d.nodeStyles p.1 p.2 })

omit [Palette C] in
/-- `self._node_colour_overwrites[name] = colour`, `_GraphWithoutDisplay.py:493-495`. -/
def appendNodeColours (g : GRef) (p : Key × C) : W C Unit :=
  setInDisplay g (fun d => { d with nodeColours := dset d.nodeColours p.1 p.2 })

omit [Palette C] in
/-- `edge_id = edges_dict[...]; self._edge_colour_overwrites[edge_id] = ...`, for `edge_styles`
(`_GraphWithoutDisplay.py:488-491`) as well as for `edge_colours` (`_GraphWithoutDisplay.py:497-500`). -/
def appendEdgeSetting (g : GRef) (known : Dict (Key × Key) EdgeId) : EdgeSetting C → W C Unit
  | .pair s t c =>
    match dget known (s, t) with
    | none => W.raise .keyError
    | some i => setInDisplay g (fun d => { d with edgeColours := dset d.edgeColours i c })
  | .other => W.raise .keyError

/-- `append` of a dictionary, `_GraphWithoutDisplay.py:431-502`. -/
def appendDictW (g : GRef) (D : GraphDict C) : W C Unit := do
  W.lift (graphSetOptions g D.strict D.ordering)
  appendLabel g D.label
  modDisplay g (·.told D)
  appendNodesW g D.nodes
  let known ← appendEdgesW g D.edges
  forEach (appendNodeStyles g) D.nodeStyles
  forEach (appendEdgeSetting g known) D.edgeStyles
  forEach (appendNodeColours g) D.nodeColours
  forEach (appendEdgeSetting g known) D.edgeColours

/-! ## `Graph(obj=...)` -/

/-- The arguments of `Graph(...)`, `_GraphWithoutDisplay.py:19-29`. `display` has the ones that are stored as they are; its
`scheme` and `stylist` are not used. `scheme` and `stylist` are `none` for `None`. -/
structure GraphArgs (C : Type) where
  strict : Bool := false
  ordering : Bool := true
  overwrite : Bool := false
  scheme : Option (List C)
  stylist : Option Stylist := some .pensieve
  display : Display C

omit [Palette C] in
/-- `Graph(...)` up to the call of `append`, `_GraphWithoutDisplay.py:57-106`. `D` is what `obj` says if it is a dictionary or
an object, other than a graph, with `__graph__()`. Simplification: a scheme of `None` is an empty one, and a stylist of
`None` is one that does nothing (`_GraphWithoutDisplay.py:245-248`). -/
def constructW (a : GraphArgs C) (D : Option (GraphDict C)) : W C GRef := fun w =>
  let overwrite := (D.bind (·.overwrite)).getD a.overwrite
  let scheme := (a.scheme <|> D.bind (·.scheme)).getD []
  let stylist := match D with
    | none => a.stylist.getD .other
    | some D => (a.stylist <|> D.stylist).getD .pensieve
  let d : Display C := { a.display with
    scheme := scheme, stylist := stylist, nodeStyles := [], edgeStyles := [], nodeColours := [], edgeColours := [] }
  match graphInit a.strict a.ordering overwrite w.heap with
  | (.ok g, h) => (.ok g, { w with heap := h, display := upd w.display g (some d) })
  | (.error e, h) => (.error e, { w with heap := h })

/-- `Graph(obj=D, ...)` for a dictionary, or an object other than a graph whose `__graph__()` makes one,
`_GraphWithoutDisplay.py:57-109`. The empty dictionary counts as no object: `D` has at least one key. -/
def graphOfDict (a : GraphArgs C) (D : GraphDict C) : W C GRef := do
  let g ← constructW a (some D)
  appendDictW g D
  return g

/-! ## `__graph__` -/

/-- The dictionary that `__graph__` makes, `_GraphWithoutDisplay.py:547-560`. -/
structure Export (C : Type) where
  strict : Bool
  ordering : Bool
  scheme : List C
  label : Option String
  labelUrl : Option String
  nodeStyles : Dict Key (List (NodeItem C))
  edgeStyles : Dict EdgeId (List (EdgeItemStyle C))
  globalNode : Option (List (NodeItem C))
  globalEdge : Option (List (EdgeItemStyle C))
  nodeColours : Dict Key C
  nodes : List (Key × NodeSpec C)
  edges : List (Key × Key × EdgeSpec C)

omit [Palette C] in
/-- `node.display_label_or_value` without parentheses, `_GraphWithoutDisplay.py:530`: a bound method. Its `str()` is
`<bound method GraphObj.display_label_or_value of Node:...>` (`Node.py:239-245`). -/
def boundMethod (h : Heap) (n : NRef) : Val :=
  .obj n ("<bound method GraphObj.display_label_or_value of Node:" ++ (h.node n).id.toStr ++ ">")

omit [Palette C] in
/-- `{'label': ..., 'value': ..., 'style': ...}`, `_GraphWithoutDisplay.py:529-533`. -/
def exportNode (h : Heap) (n : NRef) : Key × NodeSpec C :=
  ((h.node n).id,
   { label := boundMethod h n, value := (h.node n).value,
     style := match (h.node n).style with
       | none => .none
       | some s => .obj s })

omit [Palette C] in
/-- `[edge.start.id, edge.end.id, {'id': ..., 'label': edge.raw_label, ...}]`, `_GraphWithoutDisplay.py:536-545`: an edge has
no attribute `raw_label`. -/
def exportEdge (h : Heap) (e : ERef) : Except PyErr (Key × Key × EdgeSpec C) := do
  let _ ← edgeStart h e
  let _ ← edgeEnd h e
  .error .attributeError

omit [Palette C] in
/-- The two loops of `__graph__`, `_GraphWithoutDisplay.py:526-545`. -/
def exportNodes (h : Heap) : List NRef → Except PyErr (List (Key × NodeSpec C) × List (Key × Key × EdgeSpec C))
  | [] => .ok ([], [])
  | n :: ns => do
    let es ← outwardEdges h n
    let xs ← mapE (exportEdge h) es
    let r ← exportNodes h ns
    .ok (exportNode h n :: r.1, xs ++ r.2)

omit [Palette C] in
/-- The dictionary at the end of `__graph__`, `_GraphWithoutDisplay.py:547-560`. -/
def exportWith (o : GraphObj) (d : Display C) (nodes : List (Key × NodeSpec C)) (edges : List (Key × Key × EdgeSpec C)) :
    Export C :=
  { strict := o.strict, ordering := o.ordering, scheme := d.scheme, label := d.label, labelUrl := d.labelUrl,
    nodeStyles := d.nodeStyles, edgeStyles := d.edgeStyles, globalNode := d.globalNode, globalEdge := d.globalEdge,
    nodeColours := d.nodeColours, nodes := nodes, edges := edges }

omit [Palette C] in
/-- `GraphWithoutDisplay.__graph__`, `_GraphWithoutDisplay.py:519-560`. -/
def exportGraph (w : World C) (g : GRef) : Except PyErr (Export C) := do
  let r ← exportNodes w.heap (graphNodes w.heap g)
  match w.display g with
  | none => .error .attributeError
  | some d => .ok (exportWith (w.heap.graph g) d r.1 r.2)

omit [Palette C] in
/-- The same as a dictionary to append. The keys of `edge_styles` are ids of edges, hence no pairs of names.
`_GraphWithoutDisplay.py:519-560`. -/
def Export.dict (x : Export C) : GraphDict C :=
  { strict := some x.strict, ordering := some x.ordering, scheme := some x.scheme,
    label := some (match x.label with
      | none => .none
      | some s => .str s),
    labelUrl := some x.labelUrl, nodeStyles := x.nodeStyles, edgeStyles := x.edgeStyles.map fun _ => .other,
    globalNode := some x.globalNode, globalEdge := some x.globalEdge, nodeColours := x.nodeColours,
    nodes := some (.dict x.nodes), edges := some (x.edges.map fun q => .three q.1 q.2.1 q.2.2) }

/-- `g.append(obj=other)` for another graph, `_GraphWithoutDisplay.py:422-428`: if `__graph__` raises `AttributeError`, the
graph itself is taken for the dictionary, which it is not. -/
def appendGraph (g other : GRef) : W C Unit := fun w =>
  match exportGraph w other with
  | .ok x => appendDictW g x.dict w
  | .error .attributeError => (.error .typeError, w)
  | .error e => (.error e, w)

/-- `Graph(obj=other)` for another graph, `_GraphWithoutDisplay.py:82-109`. A graph is no dictionary: its colour scheme is
used if none is given, and nothing else is looked at before `append`. -/
def graphOfGraph (a : GraphArgs C) (other : GRef) : W C GRef := do
  let scheme ← match a.scheme with
    | some s => pure s
    | none => do
      let d ← W.display other
      pure d.scheme
  let g ← constructW { a with scheme := some scheme } none
  appendGraph g other
  return g

/-! ## `+` -/

omit [Palette C] in
/-- The default `add_values_function`, `_GraphWithoutDisplay.py:636-640`. Simplification: of the values in the model only two
numbers or two strings can be added. -/
def addValues (x y : Val) : Except PyErr Val :=
  if x = .none ∨ y = .none then .ok (if x.truthy then x else y)
  else match x, y with
    | .int a, .int b => .ok (.int (a + b))
    | .str a, .str b => .ok (.str (a ++ b))
    | _, _ => .error .typeError

omit [Palette C] in
/-- `x or y` for values. Used at `_GraphWithoutDisplay.py:653` and `676`. -/
def Val.orElse (x y : Val) : Val := if x.truthy then x else y

omit [Palette C] in
/-- `x or y` for styles: style objects are truthy, dictionaries unless they are empty. Simplification: anything else is.
Used at `_GraphWithoutDisplay.py:653` and `676`. -/
def NodeStyleArg.orElse : NodeStyleArg C → NodeStyleArg C → NodeStyleArg C
  | .none, y => y
  | .dict [], y => y
  | x, _ => x

omit [Palette C] in
/-- `x or y` for the styles of edges; see `NodeStyleArg.orElse`. Used at `_GraphWithoutDisplay.py:676`. -/
def EdgeStyleArg.orElse : EdgeStyleArg C → EdgeStyleArg C → EdgeStyleArg C
  | .none, y => y
  | .dict [], y => y
  | x, _ => x

omit [Palette C] in
/-- The entry of a node that both graphs have, `_GraphWithoutDisplay.py:644-658`. The value is made from `node2` alone. -/
def mergeNode (f : Val → Val → Except PyErr Val) (n1 n2 : NodeSpec C) : Except PyErr (NodeSpec C) := do
  let v ← f n2.value n2.value
  .ok { label := n1.label.orElse n2.label, value := v, style := n1.style.orElse n2.style }

omit [Palette C] in
/-- The entry of the node `k`, `_GraphWithoutDisplay.py:644-662`. -/
def mergeEntry (f : Val → Val → Except PyErr Val) (d1 d2 : List (Key × NodeSpec C)) (k : Key) :
    Except PyErr (Key × NodeSpec C) :=
  match dget d1 k, dget d2 k with
  | some n1, some n2 => do
    let n ← mergeNode f n1 n2
    .ok (k, n)
  | some n1, none => .ok (k, n1)
  | none, some n2 => .ok (k, n2)
  | none, none => .error .keyError

omit [Palette C] in
/-- The loop over `set(...).union(...)`, `_GraphWithoutDisplay.py:642-662`. `order` is the order in which Python goes through
the set. -/
def mergeNodes (order : List Key → List Key) (f : Val → Val → Except PyErr Val) (d1 d2 : List (Key × NodeSpec C)) :
    Except PyErr (List (Key × NodeSpec C)) :=
  mapE (mergeEntry f d1 d2) (order (dkeys d1 ++ (dkeys d2).filter fun k => decide (k ∉ dkeys d1)))

omit [Palette C] in
/-- The entry of an edge that is there already, `_GraphWithoutDisplay.py:669-678`. -/
def mergeEdge (f : Val → Val → Except PyErr Val) (e1 e2 : EdgeSpec C) : Except PyErr (EdgeSpec C) := do
  let v ← f e1.value e2.value
  .ok { e1 with label := e1.label.orElse e2.label, value := v, style := e1.style.orElse e2.style }

omit [Palette C] in
/-- The `id` of an entry as part of an edge id. `_GraphWithoutDisplay.py:667`, `Edge.py:121-126`. -/
def EdgeSpec.raw (a : EdgeSpec C) : RawId :=
  match a.id with
  | none => .none
  | some k => .key k

omit [Palette C] in
/-- The loop over the edges, `_GraphWithoutDisplay.py:664-681`. -/
def mergeEdges (f : Val → Val → Except PyErr Val) : List (Key × Key × EdgeSpec C) → Dict EdgeId (EdgeSpec C) →
    Except PyErr (Dict EdgeId (EdgeSpec C))
  | [], done => .ok done
  | (s, t, a) :: l, done =>
    match dget done (s, t, a.raw) with
    | some a1 => do
      let b ← mergeEdge f a1 a
      mergeEdges f l (dset done (s, t, a.raw) b)
    | none => mergeEdges f l (dset done (s, t, a.raw) a)

omit [Palette C] in
/-- `d.update(d')`. Used at `_GraphWithoutDisplay.py:629-633`. -/
def dupdate {K V : Type} [DecidableEq K] (d d' : Dict K V) : Dict K V := d'.foldl (fun d p => dset d p.1 p.2) d

/-- The right operand of `+`: a graph, or another object with `__graph__()`. Simplification: that method makes a dictionary of
the same form, with all the keys, and the entries of nodes and edges have only the keys that `Graph.__graph__` gives them.
`_GraphWithoutDisplay.py:627`. -/
inductive Operand (C : Type) where
  | graph (g : GRef)
  | object (x : Except PyErr (Export C))

omit [Palette C] in
/-- `other.__graph__()`, `_GraphWithoutDisplay.py:627`. -/
def Operand.export (o : Operand C) (w : World C) : Except PyErr (Export C) :=
  match o with
  | .graph g => exportGraph w g
  | .object x => x

/-- `GraphWithoutDisplay.add`, `_GraphWithoutDisplay.py:614-693`; `g1 + g2` is `add` with the default `f`. `base` stands for the
defaults of `Graph()`. `d1['node_styles']` and `d1['edge_styles']` are the dictionaries of `self`, so that `update` changes
`self`. -/
def addGraphs (base : GraphArgs C) (order : List Key → List Key) (f : Val → Val → Except PyErr Val) (g : GRef)
    (other : Operand C) : W C GRef := do
  let d1 ← W.ask (fun w => exportGraph w g)
  let d2 ← W.ask other.export
  modDisplay g (fun d => { d with nodeStyles := dupdate d.nodeStyles d2.nodeStyles })
  modDisplay g (fun d => { d with edgeStyles := dupdate d.edgeStyles d2.edgeStyles })
  let nodes ← W.ask (fun _ => mergeNodes order f d1.nodes d2.nodes)
  let edges ← W.ask (fun _ => mergeEdges f (d1.edges ++ d2.edges) [])
  graphOfDict base
    { strict := some d1.strict, ordering := some d1.ordering, nodeStyles := dupdate d1.nodeStyles d2.nodeStyles,
      edgeStyles := (dupdate d1.edgeStyles d2.edgeStyles).map fun _ => .other,
      nodes := some (.dict nodes), edges := some (edges.map fun p => .three p.1.1 p.1.2.1 p.2) }

end
end Verif
