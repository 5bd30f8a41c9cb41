import Verif.Model.Query
/-!
# Mutating methods of `Node`, `Edge`, `BasicGraph` / `GraphWithoutDisplay`
-/
namespace Verif
open M

/-- The `style` argument: `None`, a style object, a dict (with valid keywords or not), or anything else.
`Node.py:70-80`, `Edge.py:65-75`. -/
inductive StyleArg where
  | none
  | obj (s : SRef)
  | dict (valid : Bool)
  | bad
  deriving DecidableEq, Repr

/-- `if_node_exists` / `if_edge_exists`; any other string behaves like `'error'`. `_BasicGraph.py:280-285`, `694-699`. -/
inductive IfExists where
  | ignore
  | warn
  | error
  deriving DecidableEq, Repr

/-- `if policy == 'ignore': pass; elif policy == 'warn': warnings.warn(...); else: raise err`
(`_BasicGraph.py:280-285`, `694-699`). -/
def IfExists.check (p : IfExists) (err : PyErr) : M Unit :=
  match p with
  | .ignore => pure ()
  | .warn => M.warn
  | .error => raise err

/-- `if c: x`. Python's `if`, for example `Node.py:134-143`. -/
def onlyIf (c : Prop) [Decidable c] (x : M Unit) : M Unit := if c then x else pure ()

/-- The second half of the style setters (`Node.py:73-80`, `Edge.py:68-75`): what `_style` becomes.
`NodeStyle(**style)` / `EdgeStyle(**style)` make a new object, or raise `TypeError` for an unknown keyword. -/
def resolveStyle (old : Option SRef) : StyleArg → M (Option SRef)
  | .dict true => do
    let s ← newStyle
    return some s
  | .dict false => raise .typeError
  | .obj s => pure (some s)
  | .none => pure old
  | .bad => raise .typeError

/-- `self._style is not None and not self.graph._style_overwrite_allowed` → `RuntimeError`
(`Node.py:70-71`, `Edge.py:65-66`). -/
def checkOverwrite (style : Option SRef) (graph : Option GRef) : M Unit :=
  match style with
  | none => pure ()
  | some _ =>
    match graph with
    | none => raise .attributeError
    | some g => do
      let o ← look (fun h => (h.graph g).overwrite)
      match o with
      | none => raise .attributeError
      | some false => raise .runtimeError
      | some true => pure ()

/-- `Node.style = style`, `Node.py:70-80`. -/
def nodeSetStyle (n : NRef) (s : StyleArg) : M Unit := do
  let o ← look (fun h => h.node n)
  checkOverwrite o.style o.graph
  let st ← resolveStyle o.style s
  modNode n (fun o => { o with style := st })

/-- `Edge.style = style`, `Edge.py:65-75`. -/
def edgeSetStyle (e : ERef) (s : StyleArg) : M Unit := do
  let o ← look (fun h => h.edge e)
  checkOverwrite o.style o.graph
  let st ← resolveStyle o.style s
  modEdge e (fun o => { o with style := st })

/-- `GraphObj.value = v` on a node, `_GraphObj.py:94-96`. -/
def nodeSetValue (n : NRef) (v : Val) : M Unit := do
  let o ← look (fun h => h.node n)
  if o.frozen then raise .runtimeError else modNode n (fun o => { o with value := v })

/-- `GraphObj.value = v` on an edge, `_GraphObj.py:94-96`. -/
def edgeSetValue (e : ERef) (v : Val) : M Unit := do
  let o ← look (fun h => h.edge e)
  if o.frozen then raise .runtimeError else modEdge e (fun o => { o with value := v })

/-- `Node.label = v`, `Node.py:232`. -/
def nodeSetLabel (n : NRef) (v : Val) : M Unit := modNode n (fun o => { o with label := v })

/-- `GraphObj.label = v` on an edge, `_GraphObj.py:104`. -/
def edgeSetLabel (e : ERef) (v : Val) : M Unit := modEdge e (fun o => { o with label := v })

/-- `Node.__init__`, `Node.py:32-42`, with `GraphObj.__init__`, `_GraphObj.py:13-23`. The style is resolved
before the node registers itself, so a bad style leaves the graph alone. -/
def nodeInit (g : GRef) (name : Key) (value label tooltip : Val) (style : StyleArg) (index : Nat)
    (kwargs : Dict String Val) : M NRef := do
  let st ← resolveStyle none style
  let n ← newNode { graph := some g, id := name, value := value, label := label, tooltip := tooltip,
                    params := kwargs, style := st, index := index }
  modGraph g (fun o => { o with nodes := dset o.nodes name n })
  return n

/-- `BasicGraph.generate_node_index`, `_BasicGraph.py:259-261`. -/
def generateNodeIndex (g : GRef) : M Nat := do
  let i ← look (fun h => (h.graph g).counter)
  modGraph g (fun o => { o with counter := o.counter + 1 })
  return i

/-- `if style is not None: node.style = style; if label ...; if value ...`, `_BasicGraph.py:288-293`. -/
def nodeUpdate (n : NRef) (label value : Val) (style : StyleArg) : M Unit := do
  onlyIf (style ≠ .none) (nodeSetStyle n style)
  onlyIf (label ≠ .none) (nodeSetLabel n label)
  onlyIf (value ≠ .none) (nodeSetValue n value)

/-- The `name`, `label`, `value`, `style`, `tooltip`, `**kwargs` of `add_node`. `_BasicGraph.py:263`. -/
structure NodeArgs where
  label : Val := .none
  value : Val := .none
  style : StyleArg := .none
  tooltip : Val := .none
  kwargs : Dict String Val := []

/-- `BasicGraph.add_node` with a name, `_BasicGraph.py:278-302` and `320-321`
(via `GraphWithoutDisplay.add_node`, `_GraphWithoutDisplay.py:159-172`). A non-`str` name reaches
`raise TypeError(f'... {type(node)} ...')` with `node` unassigned, i.e. `UnboundLocalError`. -/
def addNode (g : GRef) (name : Key) (a : NodeArgs) (p : IfExists) : M NRef :=
  match name with
  | .int _ => raise .unboundLocalError
  | .str _ => do
    let d ← look (fun h => (h.graph g).nodes)
    match dget d name with
    | some _ => do
      p.check .keyError
      let n ← ask (fun h => getNode h g (.key name))
      nodeUpdate n a.label a.value a.style
      return n
    | none => do
      let i ← generateNodeIndex g
      let n ← nodeInit g name a.value a.label a.tooltip a.style i a.kwargs
      modGraph g (fun o => { o with nodes := dset o.nodes name n })
      return n

/-- `BasicGraph.add_node` with a `Node`, `_BasicGraph.py:303-319`. Returns `None` (here `none`) when the node
is already registered; note that `node._graph` is not set. -/
def addNodeObj (g : GRef) (n : NRef) : M (Option NRef) := do
  let o ← look (fun h => h.node n)
  let d ← look (fun h => (h.graph g).nodes)
  match dget d o.id with
  | some m =>
    if o.graph = some g ∧ m = n then pure none
    else raise (.valueError "already in a graph")
  | none =>
    if o.graph ≠ none then raise (.valueError "already in a graph")
    else do
      modGraph g (fun o' => { o' with nodes := dset o'.nodes o.id n })
      return some n

/-- `Node.remove_outward_edge`, `Node.py:214`. -/
def removeOutwardEdge (n : NRef) (i : EdgeId) : M Unit := do
  let o ← look (fun h => h.node n)
  match dget o.outE i with
  | none => raise .keyError
  | some _ => modNode n (fun o => { o with outE := ddel o.outE i })

/-- `Node.remove_inward_edge`, `Node.py:218`. -/
def removeInwardEdge (n : NRef) (i : EdgeId) : M Unit := do
  let o ← look (fun h => h.node n)
  match dget o.inE i with
  | none => raise .keyError
  | some _ => modNode n (fun o => { o with inE := ddel o.inE i })

/-- `Edge.remove_self`, `Edge.py:192-198`. -/
def edgeRemoveSelf (e : ERef) : M Unit := do
  let o ← look (fun h => h.edge e)
  if o.start = none ∨ o.stop = none then raise (.valueError "Either start or end Node is missing!")
  else do
    let s ← ask (fun h => edgeStart h e)
    let i ← ask (fun h => edgeId h e)
    removeOutwardEdge s i
    let t ← ask (fun h => edgeEnd h e)
    let i ← ask (fun h => edgeId h e)
    removeInwardEdge t i
    modEdge e (fun o => { o with start := none, stop := none, graph := none })

/-- `BasicGraph.disconnect`, `_BasicGraph.py:731-734`. The edge keeps its `_start` and `_end`. -/
def disconnect (e : ERef) : M Unit := do
  let s ← ask (fun h => edgeStart h e)
  let i ← ask (fun h => edgeId h e)
  removeOutwardEdge s i
  let t ← ask (fun h => edgeEnd h e)
  let i ← ask (fun h => edgeId h e)
  removeInwardEdge t i
  modEdge e (fun o => { o with raw := .cleared, graph := none })

/-- `for edge in l: edge.remove_self()`. `Node.py:461-462`. -/
def removeAll : List ERef → M Unit
  | [] => pure ()
  | e :: es => do
    edgeRemoveSelf e
    removeAll es

/-- `Node.remove_edges`, `Node.py:461-462`: `self.edges` is a list computed before the loop. -/
def removeEdges (n : NRef) : M Unit := do
  let es ← ask (fun h => nodeEdges h n)
  removeAll es

/-- `BasicGraph.remove_node`, `_BasicGraph.py:330-333`. -/
def removeNode (g : GRef) (a : NodeArg) : M Unit := do
  let n ← ask (fun h => getNode h g a)
  removeEdges n
  modNode n (fun o => { o with graph := none })
  let o ← look (fun h => h.node n)
  let d ← look (fun h => (h.graph g).nodes)
  match dget d o.id with
  | none => raise .keyError
  | some _ => modGraph g (fun o' => { o' with nodes := ddel o'.nodes o.id })

/-- `Edge.__init__`, `Edge.py:28-36`, with `Node.append_outward_edge`, `append_inward_edge`, `Node.py:201, 210`. -/
def edgeInit (g : GRef) (s t : NRef) (raw : RawId) (value label tooltip : Val) (style : StyleArg)
    (kwargs : Dict String Val) : M ERef := do
  let st ← resolveStyle none style
  let e ← newEdge { graph := some g, start := some s, stop := some t, raw := raw, value := value,
                    label := label, tooltip := tooltip, params := kwargs, style := st }
  let i ← ask (fun h => edgeId h e)
  modNode s (fun o => { o with outE := dset o.outE i e })
  let i ← ask (fun h => edgeId h e)
  modNode t (fun o => { o with inE := dset o.inE i e })
  return e

/-- `if style is not None: edge.style = style; ...`, `_BasicGraph.py:702-707`. -/
def edgeUpdate (e : ERef) (label value : Val) (style : StyleArg) : M Unit := do
  onlyIf (style ≠ .none) (edgeSetStyle e style)
  onlyIf (label ≠ .none) (edgeSetLabel e label)
  onlyIf (value ≠ .none) (edgeSetValue e value)

/-- The optional id, label, ... of `connect`. `_BasicGraph.py:669`. -/
structure EdgeArgs where
  id : Option Key := none
  label : Val := .none
  value : Val := .none
  style : StyleArg := .none
  tooltip : Val := .none
  kwargs : Dict String Val := []

/-- The `id` argument as a raw id. `Edge.py:121-126`. -/
def EdgeArgs.raw (a : EdgeArgs) : RawId :=
  match a.id with
  | none => .none
  | some k => .key k

/-- `edge_id in start.outward_edges` in the error branches, `_BasicGraph.py:709`: a tuple is compared with the
edges of a list, which raises `TypeError` unless the list is empty (`_GraphObj.py:126-127`). -/
def tupleInEdges (l : List ERef) : Except PyErr Bool :=
  if l = [] then .ok false else .error .typeError

/-- `BasicGraph.connect`, `_BasicGraph.py:686-721` (via `GraphWithoutDisplay.connect`, `_GraphWithoutDisplay.py:142-156`). -/
def connect (g : GRef) (start stop : NodeArg) (a : EdgeArgs) (p : IfExists) : M ERef := do
  let s ← ask (fun h => getNode h g start)
  let t ← ask (fun h => getNode h g stop)
  let so ← look (fun h => h.node s)
  let to ← look (fun h => h.node t)
  let i : EdgeId := (so.id, to.id, a.raw)
  if dget so.outE i = none ∧ dget to.inE i = none then
    edgeInit g s t a.raw a.value a.label a.tooltip a.style a.kwargs
  else if dget so.outE i ≠ none ∧ dget to.inE i ≠ none then do
    p.check (.valueError "already exists")
    match dget so.outE i with
    | none => raise .keyError
    | some e => do
      edgeUpdate e a.label a.value a.style
      return e
  else do
    let os ← ask (fun h => outwardEdges h s)
    let b ← ask (fun _ => tupleInEdges os)
    if b then do
      let is ← ask (fun h => inwardEdges h t)
      let _ ← ask (fun _ => tupleInEdges is)
      raise (.valueError "This is very weird! (outward)")
    else raise (.valueError "This is very weird! (inward)")

/-- `Node.connect_to`, `Node.py:343`. -/
def connectTo (self : NRef) (node : NodeArg) (a : EdgeArgs) (p : IfExists) : M ERef := do
  let g ← ask (fun h => nodeGraph h self)
  connect g (.node self) node a p

/-- `Node.connect_from`, `Node.py:356`. -/
def connectFrom (self : NRef) (node : NodeArg) (a : EdgeArgs) (p : IfExists) : M ERef := do
  let g ← ask (fun h => nodeGraph h self)
  connect g node (.node self) a p

/-- `Graph(...)` without an object, `_GraphWithoutDisplay.py:57-106`, `_BasicGraph.py:25-31`. -/
def graphInit (strict ordering overwrite : Bool) : M GRef :=
  newGraph { strict := strict, ordering := ordering, overwrite := some overwrite }

/-- The first assignments of `append`, `_GraphWithoutDisplay.py:431-435`: the options that the dictionary mentions. -/
def graphSetOptions (g : GRef) (strict ordering : Option Bool) : M Unit :=
  modGraph g (fun o => { o with strict := strict.getD o.strict, ordering := ordering.getD o.ordering })

/-- `GraphObj.freeze` / `unfreeze` on a node, `_GraphObj.py:82-86`. -/
def nodeFreeze (n : NRef) (b : Bool) : M Unit := modNode n (fun o => { o with frozen := b })

/-- `GraphObj.freeze` / `unfreeze` on an edge, `_GraphObj.py:82-86`. -/
def edgeFreeze (e : ERef) (b : Bool) : M Unit := modEdge e (fun o => { o with frozen := b })

/-- `GraphObj.set` (`node[key] = value`), `_GraphObj.py:50-51, 56-57`. -/
def nodeSetParam (n : NRef) (k : String) (v : Val) : M Unit := modNode n (fun o => { o with params := dset o.params k v })

/-- `GraphObj.set` (`edge[key] = value`), `_GraphObj.py:50-51, 56-57`. -/
def edgeSetParam (e : ERef) (k : String) (v : Val) : M Unit := modEdge e (fun o => { o with params := dset o.params k v })

end Verif
