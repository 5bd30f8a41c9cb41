import Verif.Model.Heap
/-!
# Read-only methods of `Node`, `Edge` and `BasicGraph`

Every function is `Heap → Except PyErr α`: it cannot change the heap, it may raise.
-/
namespace Verif

/-- The argument of `get_node` and of everything that calls it: a name (`str`/`int`), a `Node`, or something else.
`_BasicGraph.py:226-231`. -/
inductive NodeArg where
  | key (k : Key)
  | node (n : NRef)
  | other
  deriving DecidableEq, Repr

/-- `BasicGraph.get_node`, `_BasicGraph.py:226-231`. A `Node` is looked up by its id, whatever graph it belongs to. -/
def getNode (h : Heap) (g : GRef) : NodeArg → Except PyErr NRef
  | .key k =>
    match dget (h.graph g).nodes k with
    | some n => .ok n
    | none => .error .keyError
  | .node n =>
    match dget (h.graph g).nodes (h.node n).id with
    | some n => .ok n
    | none => .error .keyError
  | .other => .error .typeError

/-- `BasicGraph.get_node_name`, `_BasicGraph.py:246-251`. -/
def getNodeName (h : Heap) (g : GRef) : NodeArg → Except PyErr Key
  | .key k =>
    match dget (h.graph g).nodes k with
    | some n => .ok (h.node n).id
    | none => .error .keyError
  | .node n => .ok (h.node n).id
  | .other => .error .typeError

/-- `BasicGraph.nodes`, `_BasicGraph.py:211`. -/
def graphNodes (h : Heap) (g : GRef) : List NRef := dvals (h.graph g).nodes

/-- `Edge.start`, `Edge.py:171-173`. -/
def edgeStart (h : Heap) (e : ERef) : Except PyErr NRef :=
  match (h.edge e).start with
  | none => .error (.valueError "Edge does not have a start!")
  | some n => .ok n

/-- `Edge.end`, `Edge.py:186-188`. -/
def edgeEnd (h : Heap) (e : ERef) : Except PyErr NRef :=
  match (h.edge e).stop with
  | none => .error (.valueError "Edge does not have an end!")
  | some n => .ok n

/-- `Edge.id`, `Edge.py:121-126`. -/
def edgeId (h : Heap) (e : ERef) : Except PyErr EdgeId :=
  match (h.edge e).start with
  | none => .error (.valueError "This Edge does not have a start!")
  | some s =>
    match (h.edge e).stop with
    | none => .error (.valueError "This Edge does not have an end!")
    | some t => .ok ((h.node s).id, (h.node t).id, (h.edge e).raw)

/-- `GraphObj.__eq__` on two edges, `_GraphObj.py:126-130` (both are `Edge`, so the class test passes;
graphs have no `__eq__`, so `!=` on them is identity). -/
def edgeEq (h : Heap) (a b : ERef) : Except PyErr Bool :=
  if (h.edge a).graph ≠ (h.edge b).graph then .error (.valueError "different graphs")
  else do
    let i ← edgeId h a
    let j ← edgeId h b
    return decide (i = j)

/-- `GraphObj.__ne__` on two edges, `_GraphObj.py:137-141`: compares the raw ids only. -/
def edgeNe (h : Heap) (a b : ERef) : Except PyErr Bool :=
  if (h.edge a).graph ≠ (h.edge b).graph then .error (.valueError "different graphs")
  else .ok (decide ((h.edge a).raw ≠ (h.edge b).raw))

/-- `Node.__eq__`, `Node.py:265-267` (both are `Node`). -/
def nodeEq (h : Heap) (a b : NRef) : Bool :=
  decide ((h.node a).index = (h.node b).index ∧ (h.node a).id = (h.node b).id)

/-- `Node.__ne__`, `Node.py:271-273`. -/
def nodeNe (h : Heap) (a b : NRef) : Bool :=
  decide (((h.node a).index, (h.node a).id) ≠ ((h.node b).index, (h.node b).id))

/-- `a < b` for two names: a `str` and an `int` do not compare. Used at `Node.py:249`. -/
def keyLt : Key → Key → Except PyErr Bool
  | .str a, .str b => .ok (decide (a < b))
  | .int a, .int b => .ok (decide (a < b))
  | _, _ => .error .typeError

/-- `(i, x) < (j, y)`: Python compares the first components that differ. Used at `Node.py:249`. -/
def pairLt (i : Nat) (x : Key) (j : Nat) (y : Key) : Except PyErr Bool :=
  if i ≠ j then .ok (decide (i < j)) else if x ≠ y then keyLt x y else .ok false

/-- `(i, x) <= (j, y)`. Used at `Node.py:257`. -/
def pairLe (i : Nat) (x : Key) (j : Nat) (y : Key) : Except PyErr Bool :=
  if i ≠ j then .ok (decide (i < j)) else if x ≠ y then keyLt x y else .ok true

/-- `Node.__lt__`, `Node.py:247-249`. -/
def nodeLt (h : Heap) (a b : NRef) : Except PyErr Bool :=
  pairLt (h.node a).index (h.node a).id (h.node b).index (h.node b).id

/-- `Node.__gt__`, `Node.py:251-253` (for `str`, `int` and tuples `x > y` is `y < x`). -/
def nodeGt (h : Heap) (a b : NRef) : Except PyErr Bool :=
  pairLt (h.node b).index (h.node b).id (h.node a).index (h.node a).id

/-- `Node.__le__`, `Node.py:255-257`. -/
def nodeLe (h : Heap) (a b : NRef) : Except PyErr Bool :=
  pairLe (h.node a).index (h.node a).id (h.node b).index (h.node b).id

/-- `Node.__ge__`, `Node.py:259-261`. -/
def nodeGe (h : Heap) (a b : NRef) : Except PyErr Bool :=
  pairLe (h.node b).index (h.node b).id (h.node a).index (h.node a).id

/-- `Node.__hash__`, `Node.py:45-46`; `hash` on names is arbitrary. -/
def nodeHash (hash : Key → Int) (h : Heap) (n : NRef) : Int := hash (h.node n).id

/-- `GraphObj.__hash__` on an edge, `_GraphObj.py:75-76`; the digest of (graph, id) is an arbitrary function. -/
def edgeHash (hash : Option GRef × EdgeId → Int) (h : Heap) (e : ERef) : Except PyErr Int := do
  let i ← edgeId h e
  return hash ((h.edge e).graph, i)

/-- `x in l` for a node and a list of nodes: identity first, then `==`.
Used at `_BasicGraph.py:451`, `453`, `518`, `522`, `525`. -/
def memNode (h : Heap) (x : NRef) (l : List NRef) : Bool :=
  l.any (fun y => decide (y = x) || nodeEq h y x)

/-- `e in l` for an edge and a list of edges: identity first, then `==`, which may raise. Used at `_BasicGraph.py:355`. -/
def memEdge (h : Heap) (e : ERef) : List ERef → Except PyErr Bool
  | [] => .ok false
  | x :: xs =>
    if x = e then .ok true
    else do
      let b ← edgeEq h x e
      if b then return true else memEdge h e xs

/-- The loop `for edge in l: if edge not in result: result.append(edge)`,
`Node.py:432-436`, `441-445`, `450-457`. -/
def dedupEdges (h : Heap) : List ERef → List ERef → Except PyErr (List ERef)
  | [], result => .ok result
  | e :: es, result => do
    let b ← memEdge h e result
    if b then dedupEdges h es result else dedupEdges h es (result ++ [e])

/-- `Node.outward_edges`, `Node.py:430-436`. -/
def outwardEdges (h : Heap) (n : NRef) : Except PyErr (List ERef) :=
  dedupEdges h (dvals (h.node n).outE) []

/-- `Node.inward_edges`, `Node.py:439-445`. -/
def inwardEdges (h : Heap) (n : NRef) : Except PyErr (List ERef) :=
  dedupEdges h (dvals (h.node n).inE) []

/-- `Node.edges`, `Node.py:448-457`. -/
def nodeEdges (h : Heap) (n : NRef) : Except PyErr (List ERef) := do
  let r ← dedupEdges h (dvals (h.node n).outE) []
  dedupEdges h (dvals (h.node n).inE) r

/-- `BasicGraph.get_outward_edges`, `_BasicGraph.py:369-370`. -/
def getOutwardEdges (h : Heap) (g : GRef) (a : NodeArg) : Except PyErr (List ERef) := do
  let n ← getNode h g a
  outwardEdges h n

/-- `BasicGraph.get_inward_edges`, `_BasicGraph.py:382-383`. -/
def getInwardEdges (h : Heap) (g : GRef) (a : NodeArg) : Except PyErr (List ERef) := do
  let n ← getNode h g a
  inwardEdges h n

/-- `BasicGraph.get_edges`, `_BasicGraph.py:395`. -/
def getEdges (h : Heap) (g : GRef) (a : NodeArg) : Except PyErr (List ERef) := do
  let o ← getOutwardEdges h g a
  let i ← getInwardEdges h g a
  return o ++ i

/-- `BasicGraph.get_parents`, `_BasicGraph.py:407`. -/
def getParents (h : Heap) (g : GRef) (a : NodeArg) : Except PyErr (List NRef) := do
  let es ← getInwardEdges h g a
  es.mapM (edgeStart h)

/-- `BasicGraph.get_children`, `_BasicGraph.py:467`. -/
def getChildren (h : Heap) (g : GRef) (a : NodeArg) : Except PyErr (List NRef) := do
  let es ← getOutwardEdges h g a
  es.mapM (edgeEnd h)

/-- `BasicGraph.num_parents`, `_BasicGraph.py:419`. -/
def numParents (h : Heap) (g : GRef) (a : NodeArg) : Except PyErr Nat := do
  return (← getParents h g a).length

/-- `BasicGraph.has_parents`, `_BasicGraph.py:431`. -/
def hasParents (h : Heap) (g : GRef) (a : NodeArg) : Except PyErr Bool := do
  return decide ((← numParents h g a) > 0)

/-- `BasicGraph.num_children`, `_BasicGraph.py:479`. -/
def numChildren (h : Heap) (g : GRef) (a : NodeArg) : Except PyErr Nat := do
  return (← getChildren h g a).length

/-- `BasicGraph.has_children`, `_BasicGraph.py:491`. -/
def hasChildren (h : Heap) (g : GRef) (a : NodeArg) : Except PyErr Bool := do
  return decide ((← numChildren h g a) > 0)

/-- `self.graph.<method>(...)` on a node: `AttributeError` when `graph` is `None`. `Node.py:343-422`, `471`, `475`. -/
def nodeGraph (h : Heap) (n : NRef) : Except PyErr GRef :=
  match (h.node n).graph with
  | none => .error .attributeError
  | some g => .ok g

/-- `Node.parents`, `Node.py:361`. -/
def nodeParents (h : Heap) (n : NRef) : Except PyErr (List NRef) := do
  let g ← nodeGraph h n
  getParents h g (.node n)

/-- `Node.children`, `Node.py:408`. -/
def nodeChildren (h : Heap) (n : NRef) : Except PyErr (List NRef) := do
  let g ← nodeGraph h n
  getChildren h g (.node n)

/-- `bool(Node.has_parents())`, `Node.py:385` (it returns the list itself). -/
def nodeHasParents (h : Heap) (n : NRef) : Except PyErr Bool := do
  let ps ← nodeParents h n
  return decide (ps ≠ [])

/-- `Node.has_children`, `Node.py:412`. -/
def nodeHasChildren (h : Heap) (n : NRef) : Except PyErr Bool := do
  let g ← nodeGraph h n
  hasChildren h g (.node n)

/-- A list comprehension `[x for x in l if p(x)]` whose test may raise. For example `_BasicGraph.py:559`. -/
def filterE {α : Type} (p : α → Except PyErr Bool) : List α → Except PyErr (List α)
  | [] => .ok []
  | x :: xs => do
    let b ← p x
    let r ← filterE p xs
    return if b then x :: r else r

/-- `BasicGraph.absolute_roots`, `_BasicGraph.py:440`. -/
def absoluteRoots (h : Heap) (g : GRef) : Except PyErr (List NRef) :=
  filterE (fun n => do return !(← nodeHasParents h n)) (graphNodes h g)

/-- `BasicGraph.leaves`, `_BasicGraph.py:500`. -/
def leaves (h : Heap) (g : GRef) : Except PyErr (List NRef) :=
  filterE (fun n => do return !(← nodeHasChildren h n)) (graphNodes h g)

/-- `BasicGraph.edges`, `_BasicGraph.py:352-357`. -/
def graphEdges (h : Heap) (g : GRef) : Except PyErr (List ERef) :=
  (graphNodes h g).foldlM (fun result n => do
    let es ← nodeEdges h n
    dedupEdges h es result) []

/-- `BasicGraph.edges_dict`, `_BasicGraph.py:343`. -/
def edgesDict (h : Heap) (g : GRef) : Except PyErr (Dict EdgeId ERef) :=
  (graphNodes h g).foldlM (fun d n => do
    let es ← outwardEdges h n
    es.foldlM (fun d e => do
      let i ← edgeId h e
      return dset d i e) d) []

/-- The double loop of `get_siblings`, `_BasicGraph.py:608-613`: `up` lists the parents, `down` their children. -/
def collectOthers (h : Heap) (node : NRef) (down : NRef → Except PyErr (List NRef)) :
    List NRef → List NRef → Except PyErr (List NRef)
  | [], acc => .ok acc
  | p :: ps, acc => do
    let cs ← down p
    collectOthers h node down ps
      (cs.foldl (fun acc c => if !memNode h c acc && nodeNe h c node then acc ++ [c] else acc) acc)

/-- `BasicGraph.get_siblings`, `_BasicGraph.py:606-613`. -/
def getSiblings (h : Heap) (g : GRef) (a : NodeArg) : Except PyErr (List NRef) := do
  let node ← getNode h g a
  let parents ← getParents h g (.node node)
  collectOthers h node (fun p => getChildren h g (.node p)) parents []

/-- `BasicGraph.get_spouses`, `_BasicGraph.py:634-641`. -/
def getSpouses (h : Heap) (g : GRef) (a : NodeArg) : Except PyErr (List NRef) := do
  let node ← getNode h g a
  let children ← getChildren h g (.node node)
  collectOthers h node (fun c => getParents h g (.node c)) children []

/-- The double loop of `Node.siblings`, `Node.py:366-371`: a dictionary keyed by id. -/
def collectById (h : Heap) (self : NRef) (down : NRef → Except PyErr (List NRef)) :
    List NRef → Dict Key NRef → Except PyErr (Dict Key NRef)
  | [], acc => .ok acc
  | p :: ps, acc => do
    let cs ← down p
    collectById h self down ps
      (cs.foldl (fun acc c =>
        if (dget acc (h.node c).id).isNone && nodeNe h c self then dset acc (h.node c).id c else acc) acc)

/-- `Node.siblings`, `Node.py:366-371`. -/
def nodeSiblings (h : Heap) (n : NRef) : Except PyErr (List NRef) := do
  let ps ← nodeParents h n
  let d ← collectById h n (nodeChildren h) ps []
  return dvals d

/-- `Node.co_parents`, `Node.py:376-381`. -/
def nodeCoParents (h : Heap) (n : NRef) : Except PyErr (List NRef) := do
  let cs ← nodeChildren h n
  let d ← collectById h n (nodeParents h) cs []
  return dvals d

/-- `GraphObj.get` (`node[key]`), `_GraphObj.py:47-48, 53-54`. -/
def nodeGet (h : Heap) (n : NRef) (k : String) : Except PyErr Val :=
  match dget (h.node n).params k with
  | some v => .ok v
  | none => .error .keyError

/-- `GraphObj.get` (`edge[key]`), `_GraphObj.py:47-48, 53-54`. -/
def edgeGet (h : Heap) (e : ERef) (k : String) : Except PyErr Val :=
  match dget (h.edge e).params k with
  | some v => .ok v
  | none => .error .keyError

/-- `BasicGraph.__contains__` with a name, `_BasicGraph.py:193`. -/
def containsKey (h : Heap) (g : GRef) (k : Key) : Bool := (dget (h.graph g).nodes k).isSome

/-- `BasicGraph.__contains__` with a `Node`, `_BasicGraph.py:193`: a dict probe compares the node only with
keys of equal hash; such a comparison ends in `Node.__eq__(node, key)`, which raises `TypeError`
(`Node.py:265-266`). `hash(node) = hash(node.id)` (`Node.py:46`); `hash` is arbitrary. -/
def containsNode (hash : Key → Int) (h : Heap) (g : GRef) (n : NRef) : Except PyErr Bool :=
  if (dkeys (h.graph g).nodes).any (fun k => decide (hash k = hash (h.node n).id)) then .error .typeError
  else .ok false

end Verif
