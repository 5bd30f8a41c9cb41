import Verif.Model.Stylize
/-!
# The stylists as functions of their own: `stylize_with_pensieve(graph, node_style=..., ...)` and `stylize_randomly(graph, ...)`

`abstract.styling` exports both functions (`styling/__init__.py:1-2`); `stylize` calls them with their defaults (`Stylize.lean`).
Here they have their arguments. `C91_defaults` says that the functions of `Stylize.lean` are these with the defaults.
-/
namespace Verif
open Palette

/-- The arguments of a stylist after the graph, `stylize_with_pensieve.py:11`, `stylize_randomly.py:12`. The styles are style
objects. -/
structure Brush where
  node : Option SRef := none
  edge : Option SRef := none
  pale : Rat := 1 / 20
  divergence : Rat := 1 / 20
  darkness : Rat := 1 / 10

section
variable {C : Type} [Palette C]

/-- `NodeStyle(colour=colour)`, or `node_style.copy()`, `reset_colours()`, `colour = ...`: `stylize_with_pensieve.py:24-29`,
`stylize_randomly.py:27-32`. -/
def freshStyle (w : World C) (main : Option SRef) (c : C) : NodeStyle C :=
  match main with
  | none => .make { colour := some c }
  | some s => (w.ns s).recolour c

/-- What `inherit_style` returns for a node that inherits from nobody, `inherit_style.py:24-27`. -/
def rootStyle (w : World C) (main : Option SRef) (n : NRef) : Except PyErr (NodeStyle C) :=
  match main with
  | none => ownStyle w n
  | some s => .ok (w.ns s).copy

/-- The style made from those of several parents, `inherit_style.py:57-65`. With a main style the first of the parents' styles is
not asked for; `Colour.mix` is then given whatever colours there are. -/
def mixStylesWith (w : World C) (main : Option SRef) (pale : Rat) (ss : List (NodeStyle C)) : Except PyErr (NodeStyle C) :=
  match main with
  | none => mixStyles pale ss
  | some s => .ok ((w.ns s).recolour (Palette.pale (mix (ss.map (·.colour))) pale))

/-- `inherit_style(node, pale_ratio, divergence_ratio, main_style)`, `inherit_style.py:18-66`. With a main style the parent of a node
with one parent is not asked for its style (line 38). -/
def inheritStyleWith (lim : Nat) (w : World C) (main : Option SRef) (pale : Rat) : Nat → NRef → Rat → Except PyErr (NodeStyle C)
  | 0, _, _ => .error .recursionError
  | fuel + 1, n, divergence => do
    if ← isRootOrParentsInLoop lim w.heap n then rootStyle w main n
    else do
      match ← nodeParents w.heap n with
      | [parent] => do
        let children ← nodeChildren w.heap parent
        let rank ← getChildRank w.heap n parent
        let s ← match main with
          | none => inheritStyleWith lim w main pale fuel parent divergence
          | some s => .ok (w.ns s)
        let c ← siblingColour s.colour divergence rank children.length
        .ok (s.recolour c)
      | parents => do
        let ss ← parentStyles (fun p => do return !(← nodeIsInLoopWith lim w.heap n p))
          (fun p => inheritStyleWith lim w main pale fuel p 0) parents
        mixStylesWith w main pale ss

/-- The variable `edge_style`, `stylize_edges_based_on_nodes.py:9-14`: the style given, or that of the edge before. `copy` fails for
a style without `_text_colour_based_on_main_colour` (`EdgeStyle.copy`). -/
def nextEdgeStyleWith (last : Option (EdgeStyle C)) (c : C) : Except PyErr (EdgeStyle C) :=
  match last with
  | none => .ok (.make { colour := some c })
  | some s => do
    let s ← s.copy
    .ok (s.resetColours.setColour c)

/-- `stylize_edges_based_on_nodes(graph, edge_style, edge_darkness_ratio)`, `stylize_edges_based_on_nodes.py:4-19`. -/
def edgePassWith (ratio : Rat) : List ERef → Option (EdgeStyle C) → W C Unit
  | [], _ => pure ()
  | e :: es, last => do
    match ← W.look (fun w => (w.heap.edge e).style) with
    | some _ => edgePassWith ratio es last
    | none => do
      let c ← W.ask (fun w => startColour w e)
      let st ← W.ask (fun _ => nextEdgeStyleWith last (darken c ratio))
      let st ← W.ask (fun w => st.scaleArrow (w.heap.edge e).value)
      assignEdge e st
      edgePassWith ratio es (some st)

/-- "branch nodes", `stylize_with_pensieve.py:33-38`. -/
def branchPassWith (lim : Nat) (b : Brush) : List NRef → W C Unit
  | [] => pure ()
  | n :: ns => do
    if ← W.ask (fun w => isRootOrParentsInLoop lim w.heap n) then branchPassWith lim b ns
    else do
      if ← W.ask (fun w => nodeIsInLoop lim w.heap n) then branchPassWith lim b ns
      else do
        match ← W.look (fun w => (w.heap.node n).style) with
        | some _ => branchPassWith lim b ns
        | none => do
          let st ← W.ask (fun w => inheritStyleWith lim w b.node b.pale lim n b.divergence)
          assignNode n st
          branchPassWith lim b ns

variable [DecidableEq C]

/-- "roots or semi-roots", `stylize_with_pensieve.py:20-30`. -/
def rootPassWith (lim : Nat) (main : Option SRef) : List NRef → Dict C Nat → W C Unit
  | [], _ => pure ()
  | n :: ns, used => do
    match ← W.look (fun w => (w.heap.node n).style) with
    | some _ => rootPassWith lim main ns used
    | none => do
      if ← W.ask (fun w => isRootOrParentsInLoop lim w.heap n) then do
        let r ← W.ask (fun _ => getLeastUsedColour used)
        let st ← W.look (fun w => freshStyle w main r.1)
        assignNode n st
        rootPassWith lim main ns r.2
      else rootPassWith lim main ns used

/-- `stylize_with_pensieve(graph, ...)`, `stylize_with_pensieve.py:10-41`. -/
def pensieveWith (lim : Nat) (b : Brush) (g : GRef) : W C Unit := do
  let d ← W.display g
  let nodes ← W.look (fun w => graphNodes w.heap g)
  rootPassWith lim b.node nodes (coloursUnused d.scheme)
  branchPassWith lim b nodes
  let edges ← W.ask (fun w => graphEdges w.heap g)
  let first ← W.look (fun w => b.edge.map w.es)
  edgePassWith b.darkness edges first

/-- "all nodes", `stylize_randomly.py:24-33`. -/
def randomPassWith (main : Option SRef) : List NRef → Dict C Nat → W C Unit
  | [], _ => pure ()
  | n :: ns, used => do
    let r ← W.ask (fun _ => getLeastUsedColour used)
    let st ← W.look (fun w => freshStyle w main r.1)
    assignNode n st
    randomPassWith main ns r.2

/-- `stylize_randomly(graph, ...)`, `stylize_randomly.py:11-36`. `shuffle` is what `random.Random(seed).shuffle` makes of a list. -/
def randomlyWith (shuffle : List NRef → List NRef) (b : Brush) (g : GRef) : W C Unit := do
  let d ← W.display g
  let nodes ← W.look (fun w => graphNodes w.heap g)
  randomPassWith b.node (shuffle nodes) (coloursUnused d.scheme)
  let edges ← W.ask (fun w => graphEdges w.heap g)
  let first ← W.look (fun w => b.edge.map w.es)
  edgePassWith b.darkness edges first

end
end Verif
