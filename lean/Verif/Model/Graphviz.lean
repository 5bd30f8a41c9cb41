import Verif.Model.Stylize
/-!
# The Graphviz source: `Node.get_graphviz_str`, `Edge.get_graphviz_str`, `GraphWithoutDisplay.get_graphviz_str`
-/
namespace Verif
open Palette

/-- `[f(x) for x in l]` for an `f` that may raise. Used for `_GraphWithoutDisplay.py:400-405`. -/
def mapE {α β : Type} (f : α → Except PyErr β) : List α → Except PyErr (List β)
  | [] => .ok []
  | x :: xs => do
    let y ← f x
    let ys ← mapE f xs
    .ok (y :: ys)

/-- `f'"{s}"'`. Used in `_GraphWithoutDisplay.py:289-380`. -/
def inQuotes (s : String) : String := "\"" ++ s ++ "\""

section
variable {C : Type}

/-- `self.graph._node_label_converter` and the like, `Node.py:237`, `Edge.py:41`: neither `None` nor a graph without
display attributes has such an attribute. -/
def displayOf (w : World C) : Option GRef → Except PyErr (Display C)
  | none => .error .attributeError
  | some g =>
    match w.display g with
    | none => .error .attributeError
    | some d => .ok d

/-- `Node.display_label`, `_GraphObj.py:106-110` with `Node.py:220-237`: the converter gets the label with its quotes
escaped. -/
def nodeDisplayLabel (w : World C) (n : NRef) : Except PyErr String := do
  let d ← displayOf w (w.heap.node n).graph
  match d.nodeConverter with
  | none => .ok (nodeLabel w.heap n)
  | some f => .ok (f (nodeLabel w.heap n))

/-- `Edge.display_label_or_value`, `_GraphObj.py:112-119` with `Edge.py:39-41`. -/
def edgeDisplayLabelOrValue (w : World C) (e : ERef) : Except PyErr Val :=
  match (w.heap.edge e).label with
  | .none => .ok (w.heap.edge e).value
  | v => do
    let d ← displayOf w (w.heap.edge e).graph
    match d.edgeConverter with
    | none => .ok v
    | some f => .ok (f v)

/-- `[f'key="{v}"']` unless `v` is `None`, `Node.py:322-324`, `Edge.py:146-149`. -/
def optPart (key : String) : Val → List String
  | .none => []
  | v => [key ++ "=" ++ inQuotes v.toStr]

variable [Palette C]

/-- `style.get_graphviz_str()` unless the style is `None`, `Node.py:326-328`. -/
def nodeStylePart (w : World C) (n : NRef) : List String :=
  match (w.heap.node n).style with
  | none => []
  | some s => [attrString (w.ns s).attributes]

/-- `Edge.py:150-151`. -/
def edgeStylePart (w : World C) (e : ERef) : List String :=
  match (w.heap.edge e).style with
  | none => []
  | some s => [attrString (w.es s).attributes]

/-- `Node.get_graphviz_str`, `Node.py:313-330`. -/
def nodeGraphvizStr (w : World C) (n : NRef) : Except PyErr String := do
  let label ← nodeDisplayLabel w n
  let parts := ["label=" ++ inQuotes label] ++ optPart "tooltip" (w.heap.node n).tooltip ++ nodeStylePart w n
  .ok (inQuotes (w.heap.node n).id.toStr ++ " [" ++ String.intercalate " " parts ++ "]")

/-- `Edge.get_graphviz_str`, `Edge.py:136-158`. -/
def edgeGraphvizStr (w : World C) (e : ERef) : Except PyErr String := do
  let labelOrValue ← edgeDisplayLabelOrValue w e
  let parts := optPart "label" labelOrValue ++ optPart "tooltip" (w.heap.edge e).tooltip ++ edgeStylePart w e
  let second := if parts.length > 0 then "[" ++ String.intercalate " " parts ++ "]" else ""
  let s ← edgeStart w.heap e
  let t ← edgeEnd w.heap e
  .ok (inQuotes (w.heap.node s).id.toStr ++ " -> " ++ inQuotes (w.heap.node t).id.toStr ++ second)

/-- The arguments of `get_graphviz_str` with their defaults, `_GraphWithoutDisplay.py:382-386` (`dpi` is not used). -/
structure DrawArgs where
  direction : Option String := none
  height : Option Rat := none
  width : Option Rat := none
  pad : Option Rat := some (1 / 10)

omit [Palette C] in
/-- `direction or self._direction`, `_GraphWithoutDisplay.py:307, 402`. -/
def directionOr (d : Display C) : Option String → String
  | none => d.direction
  | some s => if s = "" then d.direction else s

/-- `self._label_location[0]`. `_GraphWithoutDisplay.py:323`, `331`. -/
def firstChar : Option String → Except PyErr Char
  | none => .error .typeError
  | some s =>
    match s.toList with
    | [] => .error .indexError
    | c :: _ => .ok c

omit [Palette C] in
/-- The table for a label with a background colour, `_GraphWithoutDisplay.py:323`. -/
def labelTable (bg label : String) : String :=
  "<table border=\"0\" cellborder=\"0\"><tr><td bgcolor=\"" ++ bg ++ "\" title=\"" ++ label ++ "\">" ++ label ++
    " </td></tr></table>"

omit [Palette C] in
/-- `attributes['label']`, `_GraphWithoutDisplay.py:319-329`. -/
def labelAttribute (d : Display C) (label : String) : Except PyErr String :=
  if label.toList.head? = some '<' ∧ label.toList.getLast? = some '>' then .ok label
  else
    match d.labelBackground with
    | none => .ok (inQuotes label)
    | some bg => do
      let c ← firstChar d.labelLocation
      if c = 't' then .ok ("<" ++ labelTable bg label ++ "\n>")
      else .ok ("<\n" ++ labelTable bg label ++ ">")

omit [Palette C] in
/-- `if x is not None: attributes[key] = value`. `_GraphWithoutDisplay.py:317-343`. -/
def optSet (a : Dict String String) (key : String) : Option String → Dict String String
  | none => a
  | some v => dset a key v

/-- The attributes that come with a label, `_GraphWithoutDisplay.py:318-341`. -/
def labelAttributes (d : Display C) : Except PyErr (Dict String String) :=
  match d.label with
  | none => .ok []
  | some label => do
    let l ← labelAttribute d label
    let a : Dict String String := [("label", l)]
    let a ← (match d.labelLocation with
      | none => .ok a
      | some s => do
        let c ← firstChar (some s)
        .ok (dset a "labelloc" (inQuotes (String.ofList [c]))))
    let a := optSet a "fontsize" (d.fontSize.map (showNum C))
    let a := optSet a "fontname" (d.font.map inQuotes)
    let a := optSet a "fontcolor" (d.labelColour.map inQuotes)
    match d.labelUrl with
    | none => .ok a
    | some u => .ok (dset (dset a "href" (inQuotes u)) "target" (inQuotes "_blank"))

omit [Palette C] in
/-- The value of a keyword argument as it is written, `_GraphWithoutDisplay.py:348-352`. -/
def KwVal.written : KwVal → String
  | .int i => toString i
  | .other s => inQuotes s

/-- The dictionary `attributes`, `_GraphWithoutDisplay.py:317-352`. -/
def headerAttributes (d : Display C) : Except PyErr (Dict String String) := do
  let a ← labelAttributes d
  let a := optSet a "tooltip" (d.tooltip.map inQuotes)
  .ok (d.kwargs.foldl (fun a p => dset a p.1 p.2.written) a)

/-- `_GraphWithoutDisplay.py:354-355`. -/
def attributesLine (a : Dict String String) : String :=
  if a.length > 0 then
    "\t graph [" ++ String.intercalate ", " (a.map fun p => p.1 ++ " = " ++ p.2) ++ " ];\n"
  else ""

/-- The size, `_GraphWithoutDisplay.py:365-373`. -/
def sizeLines (C : Type) [Palette C] (height width : Option Rat) : String :=
  match height, width with
  | some h, some w => "\tsize=\"" ++ showNum C w ++ "," ++ showNum C h ++ "!\";\n" ++ "\tratio=\"fill\";\n"
  | some h, none => "\tsize=\"" ++ showNum C h ++ "!\";\n" ++ "\tratio=\"fill\";\n"
  | none, some w => "\tsize=\"" ++ showNum C w ++ "!\";\n" ++ "\tratio=\"fill\";\n"
  | none, none => ""

/-- `GraphWithoutDisplay.get_graphviz_header`, `_GraphWithoutDisplay.py:289-381`. Simplification: `upper` works letter by
letter. -/
def graphvizHeader (w : World C) (g : GRef) (a : DrawArgs) : Except PyErr String := do
  let d ← displayOf w (some g)
  let direction := directionOr d a.direction
  let first := if (w.heap.graph g).strict then "strict digraph G {\n" else "digraph G{\n"
  let attributes ← headerAttributes d
  let second := attributesLine attributes ++ ("\tbgcolor=\"" ++ d.background ++ "\";\n") ++
    (match a.pad with
      | none => ""
      | some p => "\tpad=\"" ++ showNum C p ++ "\";\n") ++
    (if (w.heap.graph g).ordering then "" else "\tordering=out;\n") ++
    sizeLines C a.height a.width
  let direction := direction.toUpper
  let third := if direction = "TB" then "" else "\trankdir=\"" ++ direction ++ "\""
  .ok (first ++ second ++ third)

/-- `GraphWithoutDisplay.get_graphviz_str`, `_GraphWithoutDisplay.py:382-407`. -/
def graphvizStr (w : World C) (g : GRef) (a : DrawArgs) : Except PyErr String := do
  let ns ← mapE (nodeGraphvizStr w) (graphNodes w.heap g)
  let nodes := "\t{\n\t\t" ++ String.intercalate "\n\t\t" ns ++ "\n\t}\n"
  let edges ← graphEdges w.heap g
  let es ← mapE (edgeGraphvizStr w) edges
  let edges := "\t" ++ String.intercalate "\n\t" es ++ "\n"
  let header ← graphvizHeader w g a
  .ok (header ++ nodes ++ edges ++ "}")

/-- `GraphWithoutDisplay.render` without a path, `_GraphWithoutDisplay.py:695-735`: what the Graphviz source is made of. The
conversion of the source into a picture is not modelled. -/
def render [DecidableEq C] (lim : Nat) (shuffle : List NRef → List NRef) (g : GRef) (a : DrawArgs) : W C String := do
  let d ← W.display g
  stylize lim shuffle g
  W.ask (fun w => graphvizStr w g { a with direction := some (directionOr d a.direction), height := none, width := none })

end
end Verif
