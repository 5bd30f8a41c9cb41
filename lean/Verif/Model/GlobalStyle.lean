import Verif.Model.Graphviz
/-!
# Style objects given as the style of the whole graph

The documentation of `Graph(node_style=..., edge_style=...)` asks for a `NodeStyle` and an `EdgeStyle`
(`_GraphWithoutDisplay.py:36-37`). `Stylize.lean` has dictionaries only; here the argument may also be such an object. The other
settings are in `Display`, whose `globalNode` and `globalEdge` are not used.
-/
namespace Verif
variable {C : Type}

/-- The argument `node_style`: `None`, a dictionary or a `NodeStyle`. `_GraphWithoutDisplay.py:20-28`, `61-77`. -/
inductive GlobalNode (C : Type) where
  | absent
  | dict (l : List (NodeItem C))
  | object (s : SRef)

/-- The argument `edge_style`: `None`, a dictionary or an `EdgeStyle`. `_GraphWithoutDisplay.py:20-28`, `61-77`. -/
inductive GlobalEdge (C : Type) where
  | absent
  | dict (l : List (EdgeItemStyle C))
  | object (s : SRef)

variable [Palette C]

/-- `_GraphWithoutDisplay.py:228-239`: `'shape' in style` raises `TypeError` for an object that is no container. -/
def givenNodeAssign (g : GRef) : GlobalNode C → W C Unit
  | .absent => pure ()
  | .dict l => globalNodeAssign g (some l)
  | .object _ => W.raise .typeError

/-- `_GraphWithoutDisplay.py:241-243`: all edges get the same object. -/
def givenEdgeAssign (g : GRef) : GlobalEdge C → W C Unit
  | .absent => pure ()
  | .dict l => globalEdgeAssign g (some l)
  | .object s => do
    let edges ← W.ask (fun w => graphEdges w.heap g)
    forEach (fun e => W.lift (edgeSetStyle e (.obj s))) edges

/-- `_GraphWithoutDisplay.py:272-283`. -/
def givenNodeComplement (g : GRef) : GlobalNode C → W C Unit
  | .absent => pure ()
  | .dict l => globalNodeComplement g (some l)
  | .object _ => W.raise .typeError

/-- `_GraphWithoutDisplay.py:285-287`: neither `None` has a `complement` nor an `EdgeStyle` has `items` (`EdgeStyle.py:41`). -/
def givenEdgeComplement (g : GRef) : GlobalEdge C → W C Unit
  | .absent => pure ()
  | .dict l => globalEdgeComplement g (some l)
  | .object _ => do
    let edges ← W.ask (fun w => graphEdges w.heap g)
    forEach (fun _ => W.raise .attributeError) edges

/-- `GraphWithoutDisplay.stylize`, `_GraphWithoutDisplay.py:226-287`, for a graph made with these arguments. -/
def stylizeGiven [DecidableEq C] (lim : Nat) (shuffle : List NRef → List NRef) (g : GRef) (gn : GlobalNode C) (ge : GlobalEdge C) :
    W C Unit := do
  let d ← W.display g
  givenNodeAssign g gn
  givenEdgeAssign g ge
  runStylist lim shuffle g d.stylist
  forEach (nodeStyleOverwrite g) d.nodeStyles
  forEach (edgeStyleOverwrite g) d.edgeStyles
  forEach (nodeColourOverwrite g) d.nodeColours
  forEach (edgeColourOverwrite g) d.edgeColours
  givenNodeComplement g gn
  givenEdgeComplement g ge

/-- `GraphWithoutDisplay.render` without a path, `_GraphWithoutDisplay.py:719-724`, for such a graph. -/
def renderGiven [DecidableEq C] (lim : Nat) (shuffle : List NRef → List NRef) (g : GRef) (gn : GlobalNode C) (ge : GlobalEdge C)
    (a : DrawArgs) : W C String := do
  let d ← W.display g
  stylizeGiven lim shuffle g gn ge
  W.ask (fun w => graphvizStr w g { a with direction := some (directionOr d a.direction), height := none, width := none })

end Verif
