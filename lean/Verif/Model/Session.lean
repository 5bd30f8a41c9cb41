import Verif.Model.Dictionary
import Verif.Model.CopyWorld
import Verif.Model.History
/-!
# Sessions: histories of calls with everything that concerns the display

`Op` has the calls on nodes, edges and graphs; the calls here also say what is in the styles and make, style and draw graphs.
-/
namespace Verif
variable {C : Type}

/-- `connect`, `connect_to` and `connect_from` with a style given as an object or a dictionary: `_BasicGraph.py:669-721`,
`Node.py:343, 356`. `x` is the call with the style as its setter sees it. -/
def withEdgeStyle [Palette C] {α : Type} (s : EdgeStyleArg C) (x : StyleArg → M α) : W C α := do
  nextEdgeStyleObj s
  W.lift (x s.plain)

/-- `add_node` and the setter of `Node.style` with a style: `_BasicGraph.py:263-321`, `Node.py:70-80`. -/
def withNodeStyle [Palette C] {α : Type} (s : NodeStyleArg C) (x : StyleArg → M α) : W C α := do
  nextNodeStyle s
  W.lift (x s.plain)

/-- One call with its arguments.
The lines of each call are at the definition that `Call.step` uses; the public methods of `_GraphWithoutDisplay.py:20-740`,
`_BasicGraph.py:56-740`, `Node.py:70-470` and `Edge.py:65-200`. -/
inductive Call (C : Type) where
  /-- A call that makes no style, no graph and no copy. -/
  | plain (op : Op)
  | addNode (g : GRef) (x : Key) (a : NodeSpec C)
  | connect (g : GRef) (s t : NodeArg) (a : EdgeSpec C)
  | connectTo (n : NRef) (t : NodeArg) (a : EdgeSpec C)
  | connectFrom (n : NRef) (s : NodeArg) (a : EdgeSpec C)
  | nodeStyle (n : NRef) (s : NodeStyleArg C)
  | edgeStyle (e : ERef) (s : EdgeStyleArg C)
  /-- `Graph(...)`. -/
  | newGraph (a : GraphArgs C)
  /-- `Graph(obj=D, ...)`. -/
  | ofDict (a : GraphArgs C) (D : GraphDict C)
  /-- `Graph(obj=other, ...)`. -/
  | ofGraph (a : GraphArgs C) (other : GRef)
  | append (g : GRef) (D : GraphDict C)
  | appendGraph (g other : GRef)
  | add (base : GraphArgs C) (order : List Key → List Key) (f : Val → Val → Except PyErr Val) (g : GRef) (other : Operand C)
  | stylize (lim : Nat) (shuffle : List NRef → List NRef) (g : GRef)
  | render (lim : Nat) (shuffle : List NRef → List NRef) (g : GRef) (a : DrawArgs)
  | copy (g : GRef)
  | filter (lim : Nat) (g : GRef) (nodes : List NodeArg) (direction filterType : String)

/-- What happens to the world, whatever the call returns.
The lines of each call are at the definition that `Call.step` uses; the public methods of `_GraphWithoutDisplay.py:20-740`,
`_BasicGraph.py:56-740`, `Node.py:70-470` and `Edge.py:65-200`. -/
def Call.step [Palette C] [DecidableEq C] : Call C → World C → World C
  | .plain op, w => { w with heap := (op.step w.heap).2 }
  | .addNode g x a, w => (addNodeW g x a w).2
  | .connect g s t a, w => (withEdgeStyle a.style (fun st => Verif.connect g s t { a.args with style := st } a.policy) w).2
  | .connectTo n t a, w => (withEdgeStyle a.style (fun st => Verif.connectTo n t { a.args with style := st } a.policy) w).2
  | .connectFrom n s a, w => (withEdgeStyle a.style (fun st => Verif.connectFrom n s { a.args with style := st } a.policy) w).2
  | .nodeStyle n s, w => (withNodeStyle s (nodeSetStyle n) w).2
  | .edgeStyle e s, w => (withEdgeStyle s (edgeSetStyle e) w).2
  | .newGraph a, w => (constructW a none w).2
  | .ofDict a D, w => (graphOfDict a D w).2
  | .ofGraph a o, w => (graphOfGraph a o w).2
  | .append g D, w => (appendDictW g D w).2
  | .appendGraph g o, w => (Verif.appendGraph g o w).2
  | .add base order f g o, w => (addGraphs base order f g o w).2
  | .stylize lim shuffle g, w => (Verif.stylize lim shuffle g w).2
  | .render lim shuffle g a, w => (Verif.render lim shuffle g a w).2
  | .copy g, w => (copyWorld g w).2
  | .filter lim g nodes d t, w => (filterWorld lim g nodes d t w).2

/-- The style argument of a call of `Op`. `Node.py:70-80`, `Edge.py:65-75`. -/
def Op.style : Op → StyleArg
  | .addNode _ _ a _ => a.style
  | .connect _ _ _ a _ => a.style
  | .connectTo _ _ a _ => a.style
  | .connectFrom _ _ a _ => a.style
  | .nodeStyle _ s => s
  | .edgeStyle _ s => s
  | _ => .none

/-- Neither a graph is made or copied, nor a style.
The others are `_BasicGraph.py:25-31`, `62`, `Node.py:70-80` and `Edge.py:65-75`. -/
def Op.Plain : Op → Prop
  | .newGraph _ _ _ => False
  | .copy _ => False
  | .setOptions _ _ _ => False
  | op => op.style ≠ .dict true

/-- The arguments for nodes in a dictionary. `_GraphWithoutDisplay.py:459-464`. -/
def NodesEntry.specs : NodesEntry C → List (NodeSpec C)
  | .dict l => l.map Prod.snd
  | .list _ => []

/-- The arguments for an edge in a dictionary. `_GraphWithoutDisplay.py:466-482`. -/
def EdgeEntry.spec : EdgeEntry C → EdgeSpec C
  | .three _ _ a => a
  | _ => {}

/-- The style arguments in a dictionary. `_GraphWithoutDisplay.py:459-482`. -/
def GraphDict.styles [Palette C] (D : GraphDict C) : List StyleArg :=
  (match D.nodes with
    | none => []
    | some N => N.specs.map (·.style.plain)) ++
  (match D.edges with
    | none => []
    | some l => l.map (·.spec.style.plain))

/-- The style arguments that a call mentions itself. Arguments only; the calls are those of `_GraphWithoutDisplay.py:20-740`. -/
def Call.styles [Palette C] : Call C → List StyleArg
  | .plain op => [op.style]
  | .addNode _ _ a => [a.style.plain]
  | .connect _ _ _ a => [a.style.plain]
  | .connectTo _ _ a => [a.style.plain]
  | .connectFrom _ _ a => [a.style.plain]
  | .nodeStyle _ s => [s.plain]
  | .edgeStyle _ s => [s.plain]
  | .ofDict _ D => D.styles
  | .append _ D => D.styles
  | .add _ _ _ _ (.object (.ok x)) => x.dict.styles
  | _ => []

/-- The graphs that a call mentions, other than through nodes and edges.
Arguments only; the calls are those of `_GraphWithoutDisplay.py:20-740`. -/
def Call.graphs : Call C → List GRef
  | .addNode g _ _ => [g]
  | .connect g _ _ _ => [g]
  | .ofGraph _ o => [o]
  | .append g _ => [g]
  | .appendGraph g o => [g, o]
  | .add _ _ _ g (.graph o) => [g, o]
  | .add _ _ _ g (.object _) => [g]
  | .stylize _ _ g => [g]
  | .render _ _ g _ => [g]
  | .copy g => [g]
  | .filter _ g _ _ _ => [g]
  | _ => []

/-- The graphs whose nodes hand their styles on: through `__graph__`. `_GraphWithoutDisplay.py:423-429`, `519-560`. -/
def Call.sources : Call C → List GRef
  | .ofGraph _ o => [o]
  | .appendGraph _ o => [o]
  | .add _ _ _ g (.graph o) => [g, o]
  | .add _ _ _ g (.object _) => [g]
  | _ => []

/-- The order of a shuffled list is all that is new. `stylize_randomly.py:22`. -/
def Call.Shuffles : Call C → Prop
  | .stylize _ shuffle _ => ∀ l, (shuffle l).Perm l
  | .render _ shuffle _ _ => ∀ l, (shuffle l).Perm l
  | _ => True

/-- The call only mentions graphs and style objects that exist.
A specification of programs that use the library, not code of it (no `.py:` lines). -/
structure Call.Ok [Palette C] (w : World C) (c : Call C) : Prop where
  plain : ∀ op, c = .plain op → op.Plain ∧ op.Ok w.heap
  graphs : ∀ g ∈ c.graphs, g < w.heap.nG
  styles : ∀ s, .obj s ∈ c.styles → s < w.heap.nStyle
  shuffles : c.Shuffles

/-- The call passes no style object, neither itself nor through `__graph__`.
A specification of programs that use the library, not code of it (no `.py:` lines). -/
structure Call.Private [Palette C] (w : World C) (c : Call C) : Prop where
  styles : ∀ s, .obj s ∉ c.styles
  sources : ∀ g ∈ c.sources, ∀ n ∈ graphNodes w.heap g, (w.heap.node n).style = none

/-- The call is `g.add_node(node)` with a node object: `_BasicGraph.py:263-321`. -/
def Op.Readds (g : GRef) : Op → Prop
  | .addNodeObj g' _ => g' = g
  | _ => False

/-- The call is not `add_node(node)` with a node object. `_BasicGraph.py:303-319`. -/
def Call.NoReadd (c : Call C) : Prop := ∀ op, c = .plain op → ∀ g, ¬ op.Readds g

/-- Before the first call. What is in style objects that do not exist yet does not matter.
No line of the library has run (`__init__.py:1-7`). -/
def World.init [Palette C] : World C :=
  { heap := .init, ns := fun _ => .make { colour := none }, es := fun _ => .make { colour := none }, display := fun _ => none }

/-- `w` is a world the program can be in: some history of calls, failing ones included, leads to it.
A specification of programs that use the library, not code of it (no `.py:` lines). -/
inductive Session [Palette C] [DecidableEq C] : World C → Prop
  | init : Session World.init
  | step {w : World C} (c : Call C) : Session w → c.Ok w → Session (c.step w)

/-- The same for histories in which no style object is passed on.
A specification of programs that use the library, not code of it (no `.py:` lines). -/
inductive PrivateSession [Palette C] [DecidableEq C] : World C → Prop
  | init : PrivateSession World.init
  | step {w : World C} (c : Call C) : PrivateSession w → c.Ok w → c.Private w → PrivateSession (c.step w)

/-- The same for histories in which no node object is given to `add_node`.
A specification of programs that use the library, not code of it (no `.py:` lines). -/
inductive OwnedSession [Palette C] [DecidableEq C] : World C → Prop
  | init : OwnedSession World.init
  | step {w : World C} (c : Call C) : OwnedSession w → c.Ok w → c.NoReadd → OwnedSession (c.step w)

/-- The same for histories in which neither a style object is passed on nor a node object given to `add_node`.
A specification of programs that use the library, not code of it (no `.py:` lines). -/
inductive TidySession [Palette C] [DecidableEq C] : World C → Prop
  | init : TidySession World.init
  | step {w : World C} (c : Call C) : TidySession w → c.Ok w → c.Private w → c.NoReadd → TidySession (c.step w)

end Verif
