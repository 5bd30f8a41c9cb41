import Verif.Model.World
import Verif.Model.Colour
import Verif.Model.Traverse
/-!
# `styling/stylize_with_pensieve.py`, `stylize_randomly.py`, `inherit_style.py`, ... and `GraphWithoutDisplay.stylize`

Simplification: the stylists are called with their defaults, as `stylize` calls them (`_GraphWithoutDisplay.py:245-248`).
As in `Traverse.lean`, `lim` is the number of stack frames available to a recursive function.
-/
namespace Verif
open Palette

/-- `pale_ratio`, `divergence_ratio`, `edge_darkness_ratio`, `stylize_with_pensieve.py:11`, `stylize_randomly.py:12`. -/
def paleRatio : Rat := 1 / 20
/-- `divergence_ratio`, `stylize_with_pensieve.py:11`, `stylize_randomly.py:12`. -/
def divergenceRatio : Rat := 1 / 20
/-- `edge_darkness_ratio`, `stylize_with_pensieve.py:11`, `stylize_randomly.py:12`. -/
def edgeDarknessRatio : Rat := 1 / 10

/-- `is_root_or_parents_are_in_loop`, `is_root_or_parents_are_in_loop.py:6-7`. -/
def isRootOrParentsInLoop (lim : Nat) (h : Heap) (n : NRef) : Except PyErr Bool := do
  let parents ← nodeParents h n
  let outside ← filterE (fun p => do return !(← nodeIsInLoop lim h p)) parents
  return decide (outside.length = 0)

section
variable {C : Type} [Palette C]

/-- `style.copy()`, `reset_colours()`, `colour = ...`, `inherit_style.py:47-49, 63-65`. -/
def NodeStyle.recolour (s : NodeStyle C) (c : C) : NodeStyle C := s.copy.resetColours.setColour c

/-- `node.style.copy()`, `inherit_style.py:25`. -/
def ownStyle (w : World C) (n : NRef) : Except PyErr (NodeStyle C) :=
  match (w.heap.node n).style with
  | none => .error .attributeError
  | some s => .ok (w.ns s).copy

/-- The colour for a node with one parent, `inherit_style.py:39-46`. Colours are immutable in the model: the assignment to
`colour.saturation` is to a new colour. -/
def siblingColour (c : C) (divergence : Rat) (rank numSiblings : Nat) : Except PyErr C :=
  if numSiblings = 0 then .ok (scaleSaturation c (3 / 4))
  else do
    let x ← getDivergingNumber rank numSiblings false
    .ok (scaleSaturation (increaseHue c (divergence * x)) (3 / 4))

/-- The list comprehension over the parents, `inherit_style.py:52-56`. -/
def parentStyles (apart : NRef → Except PyErr Bool) (style : NRef → Except PyErr (NodeStyle C)) :
    List NRef → Except PyErr (List (NodeStyle C))
  | [] => .ok []
  | p :: ps => do
    if ← apart p then do
      let s ← style p
      let ss ← parentStyles apart style ps
      .ok (s :: ss)
    else parentStyles apart style ps

/-- The style made from those of several parents, `inherit_style.py:57-65`. -/
def mixStyles (pale : Rat) : List (NodeStyle C) → Except PyErr (NodeStyle C)
  | [] => .error .indexError
  | s :: ss => .ok (s.recolour (Palette.pale (mix ((s :: ss).map (·.colour))) pale))

/-- `inherit_style(node, pale_ratio, divergence_ratio, main_style=None)`, `inherit_style.py:18-66`. -/
def inheritStyle (lim : Nat) (w : World C) (pale : Rat) : Nat → NRef → Rat → Except PyErr (NodeStyle C)
  | 0, _, _ => .error .recursionError
  | fuel + 1, n, divergence => do
    if ← isRootOrParentsInLoop lim w.heap n then ownStyle w n
    else do
      match ← nodeParents w.heap n with
      | [parent] => do
        let children ← nodeChildren w.heap parent
        let rank ← getChildRank w.heap n parent
        let s ← inheritStyle lim w pale fuel parent divergence
        let c ← siblingColour s.colour divergence rank children.length
        .ok (s.recolour c)
      | parents => do
        let ss ← parentStyles (fun p => do return !(← nodeIsInLoopWith lim w.heap n p))
          (fun p => inheritStyle lim w pale fuel p 0) parents
        mixStyles pale ss

/-- `node.style = style` for a style object made for this node, `Node.py:70-80`: a new object and the assignment in one. -/
def assignNode (n : NRef) (st : NodeStyle C) : W C Unit := do
  let s ← W.look (fun w => w.heap.nStyle)
  W.lift (nodeSetStyle n (.dict true))
  W.setNs s st

/-- `edge.style = style` for a style object made for this edge, `Edge.py:65-75`. -/
def assignEdge (e : ERef) (st : EdgeStyle C) : W C Unit := do
  let s ← W.look (fun w => w.heap.nStyle)
  W.lift (edgeSetStyle e (.dict true))
  W.setEs s st

/-- `edge_style._arrow_size *= edge.value`, `stylize_edges_based_on_nodes.py:16-17`. Simplification: only `int` can be
multiplied with a `float`. -/
def EdgeStyle.scaleArrow (s : EdgeStyle C) : Val → Except PyErr (EdgeStyle C)
  | .none => .ok s
  | .int i => .ok { s with arrowSize := s.arrowSize * i }
  | _ => .error .typeError

/-- `edge.start.style.colour`, `stylize_edges_based_on_nodes.py:7`. -/
def startColour (w : World C) (e : ERef) : Except PyErr C := do
  let n ← edgeStart w.heap e
  match (w.heap.node n).style with
  | none => .error .attributeError
  | some s => .ok (w.ns s).colour

/-- The variable `edge_style`, `stylize_edges_based_on_nodes.py:9-14`: it is carried from edge to edge. No
style is passed in, so the one that is copied was made here, and `copy` finds all its attributes. -/
def nextEdgeStyle (last : Option (EdgeStyle C)) (c : C) : EdgeStyle C :=
  match last with
  | none => .make { colour := some c }
  | some s => s.copied.resetColours.setColour c

/-- `stylize_edges_based_on_nodes`, `stylize_edges_based_on_nodes.py:4-19`. -/
def edgePass (ratio : Rat) : List ERef → Option (EdgeStyle C) → W C Unit
  | [], _ => pure ()
  | e :: es, last => do
    match ← W.look (fun w => (w.heap.edge e).style) with
    | some _ => edgePass ratio es last
    | none => do
      let c ← W.ask (fun w => startColour w e)
      let st ← W.ask (fun w => (nextEdgeStyle last (darken c ratio)).scaleArrow (w.heap.edge e).value)
      assignEdge e st
      edgePass ratio es (some st)

variable [DecidableEq C]

/-- "roots or semi-roots", `stylize_with_pensieve.py:20-30`. -/
def rootPass (lim : Nat) : List NRef → Dict C Nat → W C Unit
  | [], _ => pure ()
  | n :: ns, used => do
    match ← W.look (fun w => (w.heap.node n).style) with
    | some _ => rootPass lim ns used
    | none => do
      if ← W.ask (fun w => isRootOrParentsInLoop lim w.heap n) then do
        let r ← W.ask (fun _ => getLeastUsedColour used)
        assignNode n (.make { colour := some r.1 })
        rootPass lim ns r.2
      else rootPass lim ns used

omit [DecidableEq C] in
/-- "branch nodes", `stylize_with_pensieve.py:33-38`. -/
def branchPass (lim : Nat) : List NRef → W C Unit
  | [] => pure ()
  | n :: ns => do
    if ← W.ask (fun w => isRootOrParentsInLoop lim w.heap n) then branchPass lim ns
    else do
      if ← W.ask (fun w => nodeIsInLoop lim w.heap n) then branchPass lim ns
      else do
        match ← W.look (fun w => (w.heap.node n).style) with
        | some _ => branchPass lim ns
        | none => do
          let st ← W.ask (fun w => inheritStyle lim w paleRatio lim n divergenceRatio)
          assignNode n st
          branchPass lim ns

/-- `stylize_with_pensieve(graph)`, `stylize_with_pensieve.py:10-41`. -/
def stylizeWithPensieve (lim : Nat) (g : GRef) : W C Unit := do
  let d ← W.display g
  let nodes ← W.look (fun w => graphNodes w.heap g)
  rootPass lim nodes (coloursUnused d.scheme)
  branchPass lim nodes
  let edges ← W.ask (fun w => graphEdges w.heap g)
  edgePass edgeDarknessRatio edges none

/-- "all nodes", `stylize_randomly.py:24-32`. -/
def randomPass : List NRef → Dict C Nat → W C Unit
  | [], _ => pure ()
  | n :: ns, used => do
    let r ← W.ask (fun _ => getLeastUsedColour used)
    assignNode n (.make { colour := some r.1 })
    randomPass ns r.2

/-- `stylize_randomly(graph)`, `stylize_randomly.py:11-35`. `shuffle` is what `random.Random(42).shuffle` makes of a list. -/
def stylizeRandomly (shuffle : List NRef → List NRef) (g : GRef) : W C Unit := do
  let d ← W.display g
  let nodes ← W.look (fun w => graphNodes w.heap g)
  randomPass (shuffle nodes) (coloursUnused d.scheme)
  let edges ← W.ask (fun w => graphEdges w.heap g)
  edgePass edgeDarknessRatio edges none

/-! ## `GraphWithoutDisplay.stylize` -/

omit [DecidableEq C]

/-- One keyword argument. `NodeStyle.py:14-16`. -/
def NodeItem.arg (a : NodeStyleArgs C) : NodeItem C → Except PyErr (NodeStyleArgs C)
  | .colour c => .ok { a with colour := some c }
  | .fill c => .ok { a with fill := c }
  | .border c => .ok { a with border := c }
  | .text c => .ok { a with text := c }
  | .opacity q => .ok { a with opacity := q }
  | .font s => .ok { a with font := s }
  | .textSize q => .ok { a with textSize := q }
  | .shape s => .ok { a with shape := s }
  | .shapeStyle s => .ok { a with shapeStyle := s }
  | .lighter b => .ok { a with lighter := b }
  | .other => .error .typeError

/-- `NodeStyle(**style)`, `Node.py:74`. -/
def NodeStyle.ofItems (l : List (NodeItem C)) : Except PyErr (NodeStyle C) := do
  let a ← l.foldlM NodeItem.arg { colour := some Palette.default }
  .ok (.make a)

/-- One keyword argument. `EdgeStyle.py:15-18`. -/
def EdgeItemStyle.arg (a : EdgeStyleArgs C) : EdgeItemStyle C → Except PyErr (EdgeStyleArgs C)
  | .colour c => .ok { a with colour := some c }
  | .text c => .ok { a with text := c }
  | .opacity q => .ok { a with opacity := q }
  | .font s => .ok { a with font := s }
  | .textSize q => .ok { a with textSize := q }
  | .arrowSize q => .ok { a with arrowSize := q }
  | .labelStyle s => .ok { a with labelStyle := s }
  | .lineWidth q => .ok { a with lineWidth := q }
  | .other => .error .typeError

/-- `EdgeStyle(**style)`, `Edge.py:69`. -/
def EdgeStyle.ofItems (l : List (EdgeItemStyle C)) : Except PyErr (EdgeStyle C) := do
  let a ← l.foldlM EdgeItemStyle.arg { colour := some Palette.default }
  .ok (.make a)

/-- One step of `NodeStyle.complement`, `NodeStyle.py:46-50`: the colours have setters, the other keys name private
attributes, and an unknown key becomes an attribute that nobody reads. -/
def NodeStyle.set (s : NodeStyle C) : NodeItem C → NodeStyle C
  | .colour c => s.setColour c
  | .fill c => s.setFill c
  | .border c => s.setBorder c
  | .text c => s.setText c
  | .opacity q => { s with opacity := q }
  | .font f => { s with font := f }
  | .textSize q => { s with textSize := q }
  | .shape f => { s with shape := f }
  | .shapeStyle f => { s with shapeStyle := f }
  | .lighter b => { s with lighter := b }
  | .other => s

/-- `NodeStyle.complement`, `NodeStyle.py:42-52`. -/
def NodeStyle.complement (s : NodeStyle C) (l : List (NodeItem C)) : NodeStyle C := l.foldl NodeStyle.set s

omit [Palette C] in
/-- One step of `EdgeStyle.complement`, `EdgeStyle.py:41-45`. -/
def EdgeStyle.set (s : EdgeStyle C) : EdgeItemStyle C → EdgeStyle C
  | .colour c => s.setColour c
  | .text c => s.setText c
  | .opacity q => { s with opacity := q }
  | .font f => { s with font := f }
  | .textSize q => { s with textSize := q }
  | .arrowSize q => { s with arrowSize := q }
  | .labelStyle f => { s with labelStyle := f }
  | .lineWidth q => { s with lineWidth := q }
  | .other => s

omit [Palette C] in
/-- `EdgeStyle.complement`, `EdgeStyle.py:37-47`. -/
def EdgeStyle.complement (s : EdgeStyle C) (l : List (EdgeItemStyle C)) : EdgeStyle C := l.foldl EdgeStyle.set s

omit [Palette C] in
/-- `'shape' in d` and `d['shape']`. `_GraphWithoutDisplay.py:228-236`, `272-280`. -/
def shapeOf : List (NodeItem C) → Option (Option String)
  | [] => none
  | .shape s :: _ => some s
  | _ :: l => shapeOf l

omit [Palette C] in
/-- `d['shape'] = 'circle'` on a copy. `_GraphWithoutDisplay.py:228-236`, `272-280`. -/
def withCircle (l : List (NodeItem C)) : List (NodeItem C) :=
  l.map (fun i => match i with
    | .shape _ => .shape (some "circle")
    | i => i)

omit [Palette C] in
/-- `smart_global_node_style_overwrite`, `_GraphWithoutDisplay.py:229-236` and `273-280`. `max` of nothing raises
`ValueError`; `None` has no `lower`. -/
def smartStyle (h : Heap) (g : GRef) (l : List (NodeItem C)) : Except PyErr (List (NodeItem C)) :=
  match shapeOf l with
  | none => .ok l
  | some none => .error .attributeError
  | some (some s) =>
    if "auto".toList.isPrefixOf s.toLower.toList then
      if graphNodes h g = [] then .error (.valueError "max() arg is an empty sequence")
      else if (graphNodes h g).all (fun n => decide ((h.node n).id.toStr.length < 3)) then .ok (withCircle l)
      else .ok l
    else .ok l

/-- `for node in self.nodes: node.style = d`, `_GraphWithoutDisplay.py:238-239`: the setter checks first, then makes the
style object (`Node.py:70-74`). -/
def assignNodes (l : List (NodeItem C)) : List NRef → W C Unit
  | [] => pure ()
  | n :: ns => do
    W.lift (do let o ← M.look (fun h => h.node n); checkOverwrite o.style o.graph)
    let st ← W.ask (fun _ => NodeStyle.ofItems l)
    assignNode n st
    assignNodes l ns

/-- `for edge in self.edges: edge.style = d`, `_GraphWithoutDisplay.py:242-243`. -/
def assignEdges (l : List (EdgeItemStyle C)) : List ERef → W C Unit
  | [] => pure ()
  | e :: es => do
    W.lift (do let o ← M.look (fun h => h.edge e); checkOverwrite o.style o.graph)
    let st ← W.ask (fun _ => EdgeStyle.ofItems l)
    assignEdge e st
    assignEdges l es

/-- `node.style.complement(d)`: `None` has no such method. `_GraphWithoutDisplay.py:251`, `283`. -/
def complementNode (l : List (NodeItem C)) (n : NRef) : W C Unit := do
  match ← W.look (fun w => (w.heap.node n).style) with
  | none => W.raise .attributeError
  | some s => do
    let st ← W.look (fun w => w.ns s)
    W.setNs s (st.complement l)

omit [Palette C] in
/-- `edge.style.complement(d)`. `_GraphWithoutDisplay.py:287`. -/
def complementEdge (l : List (EdgeItemStyle C)) (e : ERef) : W C Unit := do
  match ← W.look (fun w => (w.heap.edge e).style) with
  | none => W.raise .attributeError
  | some s => do
    let st ← W.look (fun w => w.es s)
    W.setEs s (st.complement l)

/-- `for x in l: f(x)`. Python's `for`, for example `_GraphWithoutDisplay.py:256-270`. -/
def forEach {α : Type} (f : α → W C Unit) : List α → W C Unit
  | [] => pure ()
  | x :: xs => do
    f x
    forEach f xs

/-- `_GraphWithoutDisplay.py:228-239`. -/
def globalNodeAssign (g : GRef) : Option (List (NodeItem C)) → W C Unit
  | none => pure ()
  | some l => do
    let l ← W.ask (fun w => smartStyle w.heap g l)
    let nodes ← W.look (fun w => graphNodes w.heap g)
    assignNodes l nodes

/-- `_GraphWithoutDisplay.py:241-243`. -/
def globalEdgeAssign (g : GRef) : Option (List (EdgeItemStyle C)) → W C Unit
  | none => pure ()
  | some l => do
    let edges ← W.ask (fun w => graphEdges w.heap g)
    assignEdges l edges

/-- `self.nodes_dict[name].style.complement(style)`, `_GraphWithoutDisplay.py:251`. -/
def nodeStyleOverwrite (g : GRef) (p : Key × List (NodeItem C)) : W C Unit := do
  let n ← W.ask (fun w => getNode w.heap g (.key p.1))
  complementNode p.2 n

omit [Palette C] in
/-- `self.edges_dict[edge_id]`, `_GraphWithoutDisplay.py:254, 264`. -/
def edgeById (h : Heap) (g : GRef) (i : EdgeId) : Except PyErr ERef := do
  let d ← edgesDict h g
  match dget d i with
  | none => .error .keyError
  | some e => .ok e

/-- `self.edges_dict[edge_id].style = style`, `_GraphWithoutDisplay.py:254`. -/
def edgeStyleOverwrite (g : GRef) (p : EdgeId × List (EdgeItemStyle C)) : W C Unit := do
  let e ← W.ask (fun w => edgeById w.heap g p.1)
  assignEdges p.2 [e]

/-- `_GraphWithoutDisplay.py:257-261`. -/
def nodeColourOverwrite (g : GRef) (p : Key × C) : W C Unit := do
  let n ← W.ask (fun w => getNode w.heap g (.key p.1))
  match ← W.look (fun w => (w.heap.node n).style) with
  | none => W.raise .attributeError
  | some s => do
    let st ← W.look (fun w => w.ns s)
    assignNode n (st.recolour p.2)

/-- `_GraphWithoutDisplay.py:264-270`. -/
def edgeColourOverwrite (g : GRef) (p : EdgeId × C) : W C Unit := do
  let e ← W.ask (fun w => edgeById w.heap g p.1)
  match ← W.look (fun w => (w.heap.edge e).style) with
  | none => W.raise .attributeError
  | some s => do
    let st ← W.ask (fun w => (w.es s).copy)
    assignEdge e (st.resetColours.setColour p.2)

/-- `_GraphWithoutDisplay.py:272-283`. -/
def globalNodeComplement (g : GRef) : Option (List (NodeItem C)) → W C Unit
  | none => pure ()
  | some l => do
    let l ← W.ask (fun w => smartStyle w.heap g l)
    let nodes ← W.look (fun w => graphNodes w.heap g)
    forEach (complementNode l) nodes

omit [Palette C] in
/-- `_GraphWithoutDisplay.py:285-287`. -/
def globalEdgeComplement (g : GRef) : Option (List (EdgeItemStyle C)) → W C Unit
  | none => pure ()
  | some l => do
    let edges ← W.ask (fun w => graphEdges w.heap g)
    forEach (complementEdge l) edges

/-- `_GraphWithoutDisplay.py:245-248`. -/
def runStylist [DecidableEq C] (lim : Nat) (shuffle : List NRef → List NRef) (g : GRef) : Stylist → W C Unit
  | .pensieve => stylizeWithPensieve lim g
  | .random => stylizeRandomly shuffle g
  | .other => pure ()

/-- `GraphWithoutDisplay.stylize`, `_GraphWithoutDisplay.py:226-287`. The dictionaries of overwrites are not changed while
it runs. Simplification: global styles are dictionaries or `None`. -/
def stylize [DecidableEq C] (lim : Nat) (shuffle : List NRef → List NRef) (g : GRef) : W C Unit := do
  let d ← W.display g
  globalNodeAssign g d.globalNode
  globalEdgeAssign g d.globalEdge
  runStylist lim shuffle g d.stylist
  forEach (nodeStyleOverwrite g) d.nodeStyles
  forEach (edgeStyleOverwrite g) d.edgeStyles
  forEach (nodeColourOverwrite g) d.nodeColours
  forEach (edgeColourOverwrite g) d.edgeColours
  globalNodeComplement g d.globalNode
  globalEdgeComplement g d.globalEdge

end
end Verif
